import Verif.Nsp.NoErr

/-! Properties C32-C36: what a connection receives, reassembles, delivers end to end, releases on
acknowledgment and keeps outstanding. -/
namespace Verif.Nsp

variable {inp : Inp}

/-! ## C32 -/

/-- C32 (any packets whatever): the items a subchannel passes up carry the numbers 1, 2, 3, ...
modulo 4096, one each, in this order. -/
theorem delivered_numbers {c0 c : Conn} {es : List Ev} (h : Run c0 es c) (h0 : Start c0) (ch : Chan)
    (i : Nat) (m : Msg) (hm : (ups ch c.log)[i]? = some m) :
    ∃ k, m.body.seq = some (ch, k) ∧ k % 4096 = (i + 1) % 4096 :=
  (h.rcv h0).num ch i m hm

/-- An arriving number lies within 2047 of the last one passed up. -/
def TimelyEv (c : Conn) (e : Ev) : Prop :=
  ∀ m ch k, e = .recv m → m.body.seq = some (ch, k) →
    (ups ch c.log).length ≤ k + 2047 ∧ k ≤ (ups ch c.log).length + 2047

/-- The number that arrives with an event while the connection runs or is being confirmed. -/
def arrived (c : Conn) (e : Ev) : List (Chan × Nat) :=
  match e with
  | .recv m => if c.state = .run ∨ c.state = .cc then m.body.seq.toList else []
  | _ => []

/-- Runs in which numbers arrive within 2047 of the last one passed up; `K` collects them. -/
inductive RunT (c0 : Conn) : List Ev → List (Chan × Nat) → Conn → Prop
  | nil : RunT c0 [] [] c0
  | snoc {es : List Ev} {K : List (Chan × Nat)} {c : Conn} {e : Ev} : RunT c0 es K c → Enabled c e →
      ((step c e).2 = none ∨ e.isCall = true) → TimelyEv c e →
      RunT c0 (es ++ [e]) (K ++ arrived c e) (step c e).1

theorem RunT.run {c0 c : Conn} {es : List Ev} {K : List (Chan × Nat)} (h : RunT c0 es K c) :
    Run c0 es c := by
  induction h with
  | nil => exact .nil
  | snoc _ he hr _ ih => exact .snoc ih he hr

theorem TimelyEv.input {c : Conn} {e : Ev} (h : TimelyEv c e) (hr : Rcv c) :
    ∀ m n, e.inp c = some (m, n) → e = .recv m ∧ ∀ ch k, m.body.seq = some (ch, k) →
      n ≤ k + 2047 ∧ k ≤ n + 2047 := by
  intro m n hi
  cases e with
  | recv m' =>
    cases hi
    refine ⟨rfl, fun ch k hk => ?_⟩
    have := h m ch k rfl hk
    rw [← hr.ack ch] at this
    unfold ackAt
    rw [hk]
    exact this
  | _ => cases hi

theorem step_lbl {T : Msg → Prop} {c : Conn} {e : Ev} (hb : Base c) (he : Enabled c e) (hr : Rcv c)
    (hl : Lbl T c) (ht : TimelyEv c e) (hT : ∀ m, e = .recv m → T m) :
    Rcv (step c e).1 ∧ Lbl T (step c e).1 := by
  have hin := ht.input hr
  refine Mis.inv (P := fun c => Rcv c ∧ Lbl T c) (fun c1 c2 hm hp => ⟨hm.rcv hp.1, hm.rx.lbl hp.1 hp.2 ?_⟩)
    (step_base hb he).2 ⟨hr, hl⟩
  intro m n hi ch k hk
  exact ⟨hT m (hin m n hi).1, (hin m n hi).2 ch k hk⟩

theorem RunT.lbl {c0 c : Conn} {es : List Ev} {K : List (Chan × Nat)} (h : RunT c0 es K c)
    (h0 : Start c0) : Lbl (fun m => Ev.recv m ∈ es) c := by
  induction h with
  | nil => exact start_lbl h0
  | @snoc es K c e h1 he hr ht ih =>
    refine (step_lbl (h1.run.base (start_base h0)) he (h1.run.rcv h0)
      (ih.mono fun m hm => List.mem_append_left _ hm) ht ?_).2
    intro m hm
    rw [hm]; exact List.mem_append_right _ (List.mem_cons_self ..)

/-- C32: whatever order, duplication or loss the network applies, the items passed up by a
subchannel are exactly number 1, number 2, number 3, ..., each once and each really received,
provided arriving numbers lie within 2047 of the last one passed up. -/
theorem delivered_in_order {c0 c : Conn} {es : List Ev} {K : List (Chan × Nat)} (h : RunT c0 es K c)
    (h0 : Start c0) (ch : Chan) (i : Nat) (m : Msg) (hm : (ups ch c.log)[i]? = some m) :
    m.body.seq = some (ch, i + 1) ∧ Ev.recv m ∈ es :=
  (h.lbl h0).seq ch i m hm

theorem RunT.cov {c0 c : Conn} {es : List Ev} {K : List (Chan × Nat)} (h : RunT c0 es K c)
    (h0 : Start c0) : c.state.rank ≤ 4 → Cov (· ∈ K) c := by
  induction h with
  | nil => intro _ ch k hk; cases hk
  | @snoc es K c e h1 he hr ht ih =>
    have hb := h1.run.base (start_base h0)
    have hrcv := h1.run.rcv h0
    have hl := h1.lbl h0
    have hin := ht.input hrcv
    have hmis := (step_base hb he).2
    have key : Rcv (step c e).1 ∧ Lbl (fun m => Ev.recv m ∈ es ++ [e]) (step c e).1 ∧
        ((step c e).1.state.rank ≤ 4 → Cov (· ∈ K) (step c e).1) := by
      refine Mis.inv (P := fun c => Rcv c ∧ Lbl (fun m => Ev.recv m ∈ es ++ [e]) c ∧
        (c.state.rank ≤ 4 → Cov (· ∈ K) c)) (fun c1 c2 hm hp => ⟨hm.rcv hp.1, ?_, fun h4 => ?_⟩)
        hmis ⟨hrcv, hl.mono fun m hm => List.mem_append_left _ hm, ih⟩
      · refine hm.rx.lbl hp.1 hp.2.1 fun m n hi ch k hk => ⟨?_, (hin m n hi).2 ch k hk⟩
        rw [(hin m n hi).1]; exact List.mem_append_right _ (List.mem_cons_self ..)
      · exact hm.cov hp.2.1 (fun m n hi ch k hk => (hin m n hi).2 ch k hk) h4
          (hp.2.2 (Nat.le_trans hm.rank h4))
    intro h4 ch k hk
    rcases List.mem_append.1 hk with hk | hk
    · exact key.2.2 h4 ch k hk
    · cases e with
      | recv m =>
        unfold arrived at hk
        dsimp only at hk
        split_ifs at hk with hs
        · have hsq : m.body.seq = some (ch, k) := by simpa using hk
          have htt := ht m ch k rfl hsq
          rw [← hrcv.ack ch] at htt
          rcases hr with hr | hr
          · cases h' : recv c m with
            | ok c' =>
              have e1 : (step c (.recv m)).1 = c' := by
                show (step.fin c (recv c m)).1 = c'; rw [h']; rfl
              rw [e1]
              exact recv_cov hs hsq htt h'
            | error e =>
              have : (step c (.recv m)).2 = some e := by
                show (step.fin c (recv c m)).2 = _; rw [h']; rfl
              rw [this] at hr; cases hr
          · cases hr
        · cases hk
      | _ => cases hk

/-- C32, completeness: once the packets numbered 1 to `n` have all arrived (in any order) while the
connection runs, at least `n` items have been passed up. -/
theorem delivered_complete {c0 c : Conn} {es : List Ev} {K : List (Chan × Nat)} (h : RunT c0 es K c)
    (h0 : Start c0) (hs : c.state = .run) (ch : Chan) (n : Nat)
    (hn : ∀ j, 1 ≤ j → j ≤ n → (ch, j) ∈ K) : n ≤ (ups ch c.log).length := by
  have hr := h.run.rcv h0
  have hb := h.run.base (start_base h0)
  have hc := h.cov h0 (by rw [hs]; decide)
  rw [← hr.ack ch]
  rcases Nat.lt_or_ge (c.sub ch).acknum n with hlt | hge
  · exfalso
    rcases hc ch ((c.sub ch).acknum + 1) (hn _ (by omega) (by omega)) with h1 | ⟨x, hx, hxs⟩
    · omega
    · obtain ⟨k, hk, hw⟩ := hr.ooo ch x hx
      rw [hxs] at hk; cases hk
      have := hb.rest ch
      unfold oooFind at this
      rw [hw] at this
      have : (c.sub ch).ooo.find? (fun y => y.1 == x.1) = none := by
        cases h' : (c.sub ch).ooo.find? (fun y => y.1 == x.1) with
        | none => rfl
        | some y => rw [h'] at this; cases this
      rw [List.find?_eq_none] at this
      exact this x hx (by simp)
  · exact hge

/-- An accepted incoming connection (the state is `cc`), used in the examples. -/
def exIn : Conn := newIn ⟨7, 5, 4⟩ 7 5 0 2 563 [9]

/-- A data segment from the other end. -/
def exSeg (k : Nat) (bom eom : Bool) (p : Bytes) : Msg :=
  { dst := 7, src := 5, body := .dataSeg k false bom eom p }

/-- Segment 2 arrives before segment 1, and 1 arrives twice: both are passed up, in order. -/
example : ∃ c es K, RunT exIn es K c ∧ c.state = .run ∧ (.data, 1) ∈ K ∧ (.data, 2) ∈ K ∧
    (ups .data c.log).map (·.body.seq) = [some (.data, 1), some (.data, 2)] := by
  have t : ∀ c k b e p, (ups .data c.log).length ≤ k + 2047 ∧ k ≤ (ups .data c.log).length + 2047 →
      TimelyEv c (.recv (exSeg k b e p)) := by
    intro c k b e p h m ch k' hm hk
    cases hm; cases hk; exact h
  refine ⟨_, _, _, .snoc (.snoc (.snoc (.snoc .nil (e := .accept []) trivial ?_ ?_)
    (e := .recv (exSeg 2 false true [3])) ?_ ?_ (t _ _ _ _ _ ?_))
    (e := .recv (exSeg 1 true false [1, 2])) ?_ ?_ (t _ _ _ _ _ ?_))
    (e := .recv (exSeg 1 true false [1, 2])) ?_ ?_ (t _ _ _ _ _ ?_), ?_⟩
  · decide
  · intro m ch k hm; cases hm
  all_goals first | decide | (unfold Enabled; dsimp only; decide)

/-! ## C33 -/

/-- Passing a list of segments to session control. -/
def feed (c : Conn) (l : List Sg) : Conn := l.foldl (fun c s => toScData c s.1 s.2.1 s.2.2) c

theorem feed_append (c : Conn) (l l' : List Sg) : feed c (l ++ l') = feed (feed c l) l' :=
  List.foldl_append ..

theorem feed_cont (n : Nat) (hn : 0 < n) (k : Nat) : ∀ (d : Bytes) (c : Conn), d.length ≤ k → d ≠ [] →
    c.asm ≠ [] → feed c ((slices n d).map (fun x => (false, x.2.1, x.2.2))) =
      { c with asm := [] }.emit (.scData (c.asm.flatten ++ d)) := by
  induction k with
  | zero => intro d c hk hd; exact absurd (List.length_eq_zero_iff.1 (by omega)) hd
  | succ k ih =>
    intro d c hk hd ha
    rw [slices_cons n hn d hd, List.map_cons, List.map_map]
    have hm : ((fun x : Sg => (false, x.2.1, x.2.2)) ∘ fun x : Sg => (false, x.2.1, x.2.2)) =
        fun x : Sg => (false, x.2.1, x.2.2) := rfl
    rw [hm]
    show feed (toScData c false (decide (d.length ≤ n)) (d.take n)) _ = _
    by_cases hle : d.length ≤ n
    · have e1 : d.drop n = [] := List.drop_eq_nil_of_le hle
      rw [e1, slices_zero, List.take_of_length_le hle]
      unfold toScData
      rw [if_pos ha, decide_eq_true hle]
      simp [feed]
    · have e1 : d.drop n ≠ [] := by
        intro h; have := List.drop_eq_nil_iff.1 h; omega
      have e2 : toScData c false (decide (d.length ≤ n)) (d.take n) =
          { c with asm := c.asm ++ [d.take n] } := by
        unfold toScData
        rw [if_pos ha, decide_eq_false hle]; rfl
      rw [e2, ih (d.drop n) _ (by rw [List.length_drop]; omega) e1 (by simp)]
      show ({ c with asm := [] } : Conn).emit (.scData ((c.asm ++ [d.take n]).flatten ++ d.drop n)) = _
      congr 2
      rw [List.flatten_append, List.flatten_singleton, List.append_assoc, List.take_append_drop]

theorem feed_slices (n : Nat) (hn : 0 < n) (d : Bytes) (hd : d ≠ []) (c : Conn) (ha : c.asm = []) :
    feed c (slices n d) = c.emit (.scData d) := by
  rw [slices_cons n hn d hd]
  show feed (toScData c true (decide (d.length ≤ n)) (d.take n)) _ = _
  by_cases hle : d.length ≤ n
  · have e1 : d.drop n = [] := List.drop_eq_nil_of_le hle
    rw [e1, slices_zero, List.take_of_length_le hle, decide_eq_true hle]
    unfold toScData
    rw [if_neg (by rw [ha]; simp)]
    simp [feed]
  · have e1 : d.drop n ≠ [] := by
      intro h; have := List.drop_eq_nil_iff.1 h; omega
    have e2 : toScData c true (decide (d.length ≤ n)) (d.take n) = { c with asm := [d.take n] } := by
      unfold toScData
      rw [if_neg (by rw [ha]; simp), decide_eq_false hle]
      simp
    rw [e2, feed_cont n hn d.length (d.drop n) _ (by rw [List.length_drop]; omega) e1 (by simp)]
    show ({ c with asm := [] } : Conn).emit (.scData ([d.take n].flatten ++ d.drop n)) = _
    rw [List.flatten_singleton, List.take_append_drop, ← ha]

/-- C33: for any sequence of nonempty messages, each cut at its own segment size (at least 1),
passing the segments up in order gives session control exactly those messages, whatever the
compatibility option says, and leaves nothing half assembled. -/
theorem messages_intact (ms : List (Nat × Bytes)) (hms : ∀ x ∈ ms, 0 < x.1 ∧ x.2 ≠ []) (c : Conn)
    (ha : c.asm = []) :
    (feed c (ms.flatMap fun x => slices x.1 x.2)).log = c.log ++ ms.map (fun x => .scData x.2) ∧
    (feed c (ms.flatMap fun x => slices x.1 x.2)).asm = [] := by
  induction ms generalizing c with
  | nil => exact ⟨by simp [feed], ha⟩
  | cons x ms ih =>
    have hx := hms x (List.mem_cons_self ..)
    rw [List.flatMap_cons, feed_append, feed_slices x.1 hx.1 x.2 hx.2 c ha]
    obtain ⟨h1, h2⟩ := ih (fun y hy => hms y (List.mem_cons_of_mem _ hy)) (c.emit (.scData x.2)) ha
    refine ⟨?_, h2⟩
    rw [h1]
    show c.log ++ [.scData x.2] ++ _ = _
    rw [List.append_assoc]; rfl

theorem slices_flatten (n : Nat) (hn : 0 < n) (k : Nat) : ∀ d : Bytes, d.length ≤ k →
    ((slices n d).map (·.2.2)).flatten = d := by
  induction k with
  | zero =>
    intro d hk
    rw [List.length_eq_zero_iff.1 (Nat.le_zero.1 hk), slices_zero]; rfl
  | succ k ih =>
    intro d hk
    by_cases hd : d = []
    · subst hd; rw [slices_zero]; rfl
    · rw [slices_cons n hn d hd, List.map_cons, List.map_map, List.flatten_cons]
      have hpos : 0 < d.length := List.length_pos_iff.2 hd
      have := ih (d.drop n) (by rw [List.length_drop]; omega)
      show d.take n ++ ((slices n (d.drop n)).map (·.2.2)).flatten = d
      rw [this, List.take_append_drop]

/-- C33: the segments of a message are its consecutive nonempty parts of at most the segment size;
the first and only the first says "beginning of message", the last and only the last "end". -/
theorem segments_of_message (n : Nat) (hn : 0 < n) (d : Bytes) :
    ((slices n d).map (·.2.2)).flatten = d ∧
    ∀ i s, (slices n d)[i]? = some s →
      (s.1 = true ↔ i = 0) ∧ (s.2.1 = true ↔ i + 1 = (slices n d).length) ∧
      0 < s.2.2.length ∧ s.2.2.length ≤ n := by
  refine ⟨slices_flatten n hn d.length d (Nat.le_refl _), fun i s hs => ?_⟩
  unfold slices at hs ⊢
  rw [List.getElem?_map] at hs
  cases hr : (List.range ((d.length + n - 1) / n))[i]? with
  | none => rw [hr] at hs; cases hs
  | some j =>
    rw [hr] at hs
    obtain ⟨hlt, hj⟩ := List.getElem?_eq_some_iff.1 hr
    rw [List.getElem_range] at hj
    subst hj
    cases hs
    rw [List.length_range] at hlt
    rw [List.length_map, List.length_range]
    dsimp only
    have h1 : i * n < d.length := by
      have := (Nat.le_div_iff_mul_le hn).1 hlt
      have e : (i + 1) * n = i * n + n := by rw [Nat.add_mul, Nat.one_mul]
      rw [Nat.succ_eq_add_one, e] at this
      omega
    refine ⟨by simp, ?_, ?_, ?_⟩
    · rw [decide_eq_true_iff]
      constructor
      · intro h
        have h2 : (d.length + n - 1) / n ≤ i + 1 := by
          have : d.length + n - 1 < (i + 1 + 1) * n := by
            have e : (i + 1 + 1) * n = i * n + n + n := by
              rw [Nat.add_mul, Nat.add_mul, Nat.one_mul]
            rw [e]; omega
          exact Nat.le_of_lt_succ ((Nat.div_lt_iff_lt_mul hn).2 this)
        omega
      · intro h
        have h2 : ¬ (i + 1 < (d.length + n - 1) / n) := by omega
        rcases Nat.lt_or_ge n (d.length - i * n) with h3 | h3
        · exfalso
          apply h2
          refine (Nat.le_div_iff_mul_le hn).2 ?_
          have e : (i + 1).succ * n = i * n + n + n := by
            rw [Nat.succ_eq_add_one, Nat.add_mul, Nat.add_mul, Nat.one_mul]
          rw [e]; omega
        · exact h3
    · rw [List.length_take, List.length_drop]; omega
    · rw [List.length_take]; omega

example : (feed { cfg := ⟨7, 5, 4⟩, state := .run, srcaddr := 1, rsts := true }
    ([(2, [1, 2, 3]), (5, [4])].flatMap fun x : Nat × Bytes => slices x.1 x.2)).log =
      [.scData [1, 2, 3], .scData [4]] := by decide

/-- Finding: an empty message produces no segment at all, so `send_data` accepts it and the other
end never hears of it. -/
theorem empty_message_vanishes (n : Nat) : slices n [] = [] := slices_zero n

/-! ## C34 -/

/-- C34: in every reachable state of two connections exchanging packets over a network that loses,
duplicates and reorders them (`LStep.recv`: any packet the other end ever sent, any number of times,
within the life time `Timely`), the messages handed to the application at either end are a prefix of
the nonempty messages accepted from the application at the other end.  The RSTS compatibility option
must not have been switched on. -/
theorem end_to_end {s : Sys} (h : Reach s) (ha : Out.opt true ∉ s.a.log) (hb : Out.opt true ∉ s.b.log) :
    scDatas s.b.log <+: s.sa.filter (· ≠ []) ∧ scDatas s.a.log <+: s.sb.filter (· ≠ []) :=
  ⟨(h.inv).1.prefix hb, (h.inv).2.prefix ha⟩

/-- A two-ended example: the left end has connected, sent two messages, and the right end has
received the second one's packet first. -/
def exOut : Conn := newOut ⟨7, 5, 4⟩ 5 [9]

/-- what the left end sends and receives -/
def exA1 : Conn := (step exOut (.recv ⟨5, 7, none, none, .connConf 0 2 563 []⟩)).1
def exA2 : Conn := (step (step exA1 (.sendData [1, 2, 3])).1 (.sendData [4])).1
def exM1 : Msg := { dst := 7, src := 5, body := .dataSeg 1 true true true [1, 2, 3] }
def exM2 : Msg := { dst := 7, src := 5, body := .dataSeg 2 true true true [4] }
/-- the right end -/
def exB1 : Conn := (step exIn (.accept [])).1
def exB2 : Conn := (step (step exB1 (.recv exM2)).1 (.recv exM1)).1

theorem exSys : Reach ⟨exA2, exB2, [[1, 2, 3], [4]], []⟩ := by
  have h0 : Reach ⟨exOut, exIn, [], []⟩ :=
    .start _ _ (.out ..) (.inc ..) (by decide) (by decide)
  have h1 : Reach ⟨exOut, exB1, [], []⟩ :=
    .step _ _ h0 (.right _ _ (.ev ⟨exIn, exOut, [], []⟩ (.accept []) trivial (fun m h => by cases h) (by decide)))
  have h2 : Reach ⟨exA1, exB1, [], []⟩ := by
    refine .step _ _ h1 (.left _ _ (.recv ⟨exOut, exB1, [], []⟩ _ (by decide) ⟨?_, ?_⟩ (by decide) (by decide)))
    · intro k dly b e p h; cases h
    · intro ch h; cases h
  have h3 : Reach ⟨(step exA1 (.sendData [1, 2, 3])).1, exB1, [[1, 2, 3]], []⟩ :=
    .step _ _ h2 (.left _ _ (.ev ⟨exA1, exB1, [], []⟩ (.sendData [1, 2, 3]) trivial (fun m h => by cases h) (by decide)))
  have h4 : Reach ⟨exA2, exB1, [[1, 2, 3], [4]], []⟩ :=
    .step _ _ h3 (.left _ _ (.ev ⟨(step exA1 (.sendData [1, 2, 3])).1, exB1, [[1, 2, 3]], []⟩ (.sendData [4])
      trivial (fun m h => by cases h) (by decide)))
  have h5 : Reach ⟨exA2, (step exB1 (.recv exM2)).1, [[1, 2, 3], [4]], []⟩ := by
    refine .step _ _ h4 (.right _ _ (.recv ⟨exB1, exA2, [], [[1, 2, 3], [4]]⟩ exM2 (by decide) ⟨?_, ?_⟩ (by decide) (by decide)))
    · intro k dly b e p h; cases h; decide
    · intro ch h; cases h; decide
  refine .step _ _ h5 (.right _ _ (.recv ⟨(step exB1 (.recv exM2)).1, exA2, [], [[1, 2, 3], [4]]⟩ exM1 (by decide) ⟨?_, ?_⟩ (by decide) (by decide)))
  · intro k dly b e p h; cases h; decide
  · intro ch h; cases h; decide

example : scDatas exB2.log = [[1, 2, 3], [4]] := by decide

/-! ## C35 -/

/-- Releasing `n` of the consecutively numbered entries is keeping those with higher numbers. -/
theorem drop_eq_filter {segs : List Sg} : ∀ (dat : List QEnt) (f n : Nat),
    (∀ i x, dat[i]? = some x → IsDat segs (f + i) x) →
    dat.drop n = dat.filter (fun x => decide (f + n ≤ x.segnum)) := by
  intro dat
  induction dat with
  | nil => intro f n _; simp
  | cons x l ih =>
    intro f n h
    have hx := (h 0 x rfl).num
    have hl : ∀ i y, l[i]? = some y → IsDat segs (f + 1 + i) y := by
      intro i y hy
      have := h (i + 1) y (by simpa using hy)
      rw [show f + 1 + i = f + (i + 1) by omega]; exact this
    cases n with
    | zero =>
      rw [List.drop_zero, List.filter_cons_of_pos (by simp; omega)]
      have := ih (f + 1) 0 hl
      rw [List.drop_zero] at this
      congr 1
      rw [List.filter_eq_self.2]
      intro y hy
      obtain ⟨i, hi⟩ := List.mem_iff_getElem?.1 hy
      have := (hl i y hi).num
      simp; omega
    | succ n =>
      rw [List.drop_succ_cons, List.filter_cons_of_neg (by simp; omega), ih (f + 1) n hl]
      congr 1
      funext y
      congr 1
      exact propext (by constructor <;> intro h <;> omega)

/-- C35: an acknowledgment `a` processed on the data subchannel of a running connection whose oldest
pending packet is the segment numbered `f` either denotes a segment `A` between `f` and the highest
segment sent, and then exactly the pending segments up to `A` are released; or it denotes none, and
then nothing changes. -/
theorem ack_exact {c0 c c' : Conn} {es : List Ev} (h : Run c0 es c) (h0 : Start c0)
    (hq : c0.cfg.qmax ≤ 2047) (hs : c.state = .run) {q : QEnt} {rest : List QEnt} {f a : Nat}
    {dly b e : Bool} {p : Bytes} (hp : c.data.pending = q :: rest)
    (hb : q.msg.body = .dataSeg f dly b e p) (he : ack c .data a = .ok c') :
    (∃ A, A % 4096 = a % 4096 ∧ f ≤ A ∧ A ≤ c.data.maxseqsent ∧
      c'.data.pending = c.data.pending.filter (fun x => decide (A < x.segnum)) ∧
      c'.log = c.log ∧ c'.other = c.other) ∨
    (c' = c ∧ ¬ ∃ A, A % 4096 = a % 4096 ∧ f ≤ A ∧ A ≤ c.data.maxseqsent) := by
  obtain ⟨segs, hrs⟩ := h.segs
  obtain ⟨f0, hwf⟩ := hrs.wf h0 hq
  obtain ⟨ctl, dat, hx⟩ := hwf.live (by rw [hs]; rfl)
  have hctl : ctl = [] := by
    cases ctl with
    | nil => rfl
    | cons y ys =>
      have hp' := hx.pend
      rw [hp] at hp'
      cases hp'
      have := (hx.ctlOk q (List.mem_cons_self ..)).2
      rw [hb] at this; cases this
  subst hctl
  have hd : dat = q :: rest := by have := hx.pend; rw [hp] at this; simpa using this.symm
  subst hd
  obtain ⟨dly', s', -, hb'⟩ := (hx.datOk 0 q rfl).body
  rw [hb] at hb'
  have hf : f = f0 := by cases hb'; rfl
  subst hf
  have h3 := hx.hi; have h4 := hx.next; have h5 := hx.win; have h6 := hx.lo
  have h7 := hwf.core.q
  unfold ack at he
  have hp2 : (c.sub .data).pending = q :: rest := hp
  rw [hp2] at he
  dsimp only at he
  have hak : q.msg.body.ackable = some f := by rw [hb]; rfl
  rw [hak] at he
  dsimp only at he
  rw [ackSeg_eq] at he
  by_cases g1 : dist f a = 2048
  · rw [if_pos g1] at he; cases he
  rw [if_neg g1] at he
  by_cases g2 : 0 < dist f a ∧ dist f a ≤ 2047
  · rw [if_pos g2] at he; cases he
    refine Or.inr ⟨rfl, ?_⟩
    rintro ⟨A, k1, k2, k3⟩
    revert g2; unfold dist; omega
  rw [if_neg g2] at he
  by_cases g3 : dist a c.data.maxseqsent = 2048
  · rw [if_pos (show dist a (c.sub .data).maxseqsent = 2048 from g3)] at he; cases he
  rw [if_neg (show ¬ dist a (c.sub .data).maxseqsent = 2048 from g3)] at he
  by_cases g4 : 0 < dist a c.data.maxseqsent ∧ dist a c.data.maxseqsent ≤ 2047
  · rw [if_pos (show 0 < dist a (c.sub .data).maxseqsent ∧ dist a (c.sub .data).maxseqsent ≤ 2047 from g4)] at he
    cases he
    refine Or.inr ⟨rfl, ?_⟩
    rintro ⟨A, k1, k2, k3⟩
    revert g4; unfold dist; omega
  rw [if_neg (show ¬ (0 < dist a (c.sub .data).maxseqsent ∧ dist a (c.sub .data).maxseqsent ≤ 2047) from g4)] at he
  obtain ⟨k1, k2⟩ := dist_sum g2 g1 g4 g3 h6 (by omega)
  have hmod : (dist a f + 1) % 4096 = dist a f + 1 := Nat.mod_eq_of_lt (by omega)
  rw [hmod] at he
  cases hpop : popN (c.sub .data) (dist a f + 1) with
  | error e => rw [hpop] at he; cases he
  | ok s =>
    rw [hpop] at he
    obtain ⟨-, k, hk⟩ := popN_form _ _ _ hpop
    cases he
    refine Or.inl ⟨f + dist a f, by unfold dist; omega, by omega, k1, ?_, rfl, rfl⟩
    rw [hk]
    show c.data.pending.drop (dist a f + 1) = _
    rw [hp, drop_eq_filter (q :: rest) f (dist a f + 1) hx.datOk]
    rfl

/-- C35, end to end: in every reachable state of two connections, a segment accepted from the
application at a live end is either still in its transmit queue or has been passed up at the other
end; nothing is released that was not received. -/
theorem released_was_received {s : Sys} (h : Reach s) (hs : s.a.state.dead = false) (k : Nat)
    (h2 : k < s.a.data.nextseg) :
    (∃ x ∈ s.a.data.pending, x.segnum = k ∧ x.msg.body.isData = true) ∨
      k ≤ (ups .data s.b.log).length := by
  have hi := h.inv.1
  obtain ⟨segs, f, hwf, hf, -, -⟩ := hi.ex
  obtain ⟨ctl, dat, hx⟩ := hwf.live hs
  rw [← hi.rcvB.ack .data]
  rcases Nat.lt_or_ge k f with hk | hk
  · right; show k ≤ s.b.data.acknum; omega
  · left
    have hn := hx.next
    have hlt : k - f < dat.length := by omega
    have hd := hx.datOk (k - f) dat[k - f] (List.getElem?_eq_getElem hlt)
    refine ⟨dat[k - f], by rw [hx.pend]; exact List.mem_append_right _ (List.getElem_mem hlt), ?_, hd.isData⟩
    rw [hd.num]; omega

example : exA2.state.dead = false ∧ exA2.data.nextseg = 3 := by decide

/-- The hypotheses of `ack_exact` are met: two segments pending, the first one acknowledged. -/
example : exA2.state = .run ∧ exA2.data.pending.map (·.segnum) = [1, 2] ∧
    (ack exA2 .data 1).toOption.map (fun c => c.data.pending.map (·.segnum)) = some [2] := by decide


/-- The running connection of the finding below: window 2, segments 1 to 3 queued (3 is held back),
a cross-subchannel acknowledgment of 2, then segment 4. -/
def exAck : Conn :=
  (step (step (step (step (newOut ⟨2, 5, 4⟩ 5 []) (.recv ⟨5, 7, none, none, .connConf 0 2 1 []⟩)).1
    (.sendData [1, 2, 3])).1 (.recv ⟨5, 7, some ⟨2, 2⟩, none, .ackOther⟩)).1 (.sendData [4])).1

/-- Finding: with acknowledgments no correct peer would send, a segment that was never transmitted
can be released: a cross-subchannel acknowledgment frees the window without sending the blocked
segment 3, segment 4 overtakes it, and an acknowledgment of 4 then drops both. -/
theorem bogus_ack_releases_unsent :
    txCount .data 3 exAck.log = 0 ∧
    exAck.data.pending.map (·.segnum) = [3, 4] ∧
    ∃ c', ack exAck .data 4 = .ok c' ∧ c'.data.pending = [] := by
  exact ⟨by decide, by decide, _, rfl, by decide⟩

/-! ## C36 -/

/-- C36: at most `qmax` data segments are outstanding (transmitted and not yet acknowledged) at any
time. -/
theorem window {c0 c : Conn} {es : List Ev} (h : Run c0 es c) (h0 : Start c0) (hq : c0.cfg.qmax ≤ 2047) :
    (c.data.pending.filter (fun x => x.msg.body.isData && decide (0 < x.tries))).length ≤ c.cfg.qmax := by
  obtain ⟨segs, hrs⟩ := h.segs
  obtain ⟨f, hwf⟩ := hrs.wf h0 hq
  have hctl0 : ∀ l : List QEnt, (∀ x ∈ l, IsCtl x) →
      l.filter (fun x => x.msg.body.isData && decide (0 < x.tries)) = [] := by
    intro l hl
    rw [List.filter_eq_nil_iff]
    intro x hx hc
    have h1 := (hl x hx).2
    have h2 : x.msg.body.isData = true := by
      cases h : x.msg.body.isData
      · rw [h] at hc; simp at hc
      · rfl
    rw [isAckHdr_of_isData h2] at h1; cases h1
  by_cases hd : c.state.dead = true
  · rw [hctl0 _ (hwf.dead hd)]; exact Nat.zero_le _
  · obtain ⟨ctl, dat, hx⟩ := hwf.live (by cases h : c.state.dead <;> simp_all)
    rw [hx.pend, List.filter_append, hctl0 _ hx.ctlOk, List.nil_append]
    have hN : dat = dat.take (c.data.maxseqsent + 1 - f) ++ dat.drop (c.data.maxseqsent + 1 - f) :=
      (List.take_append_drop ..).symm
    rw [hN, List.filter_append]
    have hz : (dat.drop (c.data.maxseqsent + 1 - f)).filter
        (fun x => x.msg.body.isData && decide (0 < x.tries)) = [] := by
      rw [List.filter_eq_nil_iff]
      intro x hxm hc
      obtain ⟨i, hi⟩ := List.mem_iff_getElem?.1 hxm
      rw [List.getElem?_drop] at hi
      have hn := (hx.datOk _ x hi).num
      have ht : 0 < x.tries := by
        rcases Nat.eq_zero_or_pos x.tries with h | h
        · rw [h] at hc; simp at hc
        · exact h
      have := hx.tried x (List.mem_of_getElem? hi) ht
      omega
    rw [hz, List.append_nil]
    refine Nat.le_trans (List.length_filter_le ..) ?_
    rw [List.length_take]
    have := hx.win
    omega

/-- C36: every transmission of a data segment (first or repeated), at the moment it happens, is
allowed by the link service messages acted on before: the peer has not turned the flow off; under
segment flow control the segment's number is at most the sum of the credits; under message flow control
its message's number is. `segs` are the segments accepted from the application so far. -/
theorem flow_control {c0 c : Conn} {es : List Ev} {segs : List Sg} (h : RunS c0 es segs c) (h0 : Start c0)
    (hq : c0.cfg.qmax ≤ 2047) {l1 l2 : List Out} {m : Msg} (hl : c.log = l1 ++ .tx m :: l2)
    {k : Nat} {dly b e : Bool} {p : Bytes} (hm : m.body = .dataSeg k dly b e p) :
    (1 ≤ k ∧ segs[k - 1]? = some (b, e, p)) ∧ xonF true l1 = true ∧
    (c.data.flow = 0 ∨ c.data.flow = 1 ∧ (k : Int) ≤ dataCr l1 ∨
      c.data.flow = 2 ∧ (1 + (segs.take (k - 1)).countP (·.2.1) : Nat) ≤ dataCr l1) := by
  obtain ⟨h1, h2, h3⟩ := h.tx h0 hq hl hm
  exact ⟨⟨h1, h2⟩, h3.1, h3.2⟩

/-- Segment flow control with a credit of 1: of two segments only the first goes out. -/
def exFlow : Conn :=
  (step (step (step (newOut ⟨7, 5, 4⟩ 5 []) (.recv ⟨5, 7, none, none, .connConf 1 2 1 []⟩)).1
    (.recv ⟨5, 7, none, none, .linkSvc 1 0 0 1⟩)).1 (.sendData [1, 2])).1

example : txCount .data 1 exFlow.log = 1 ∧ txCount .data 2 exFlow.log = 0 ∧ dataCr exFlow.log = 1 ∧
    exFlow.data.pending.length = 2 := by decide

end Verif.Nsp
