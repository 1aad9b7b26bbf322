import Verif.Nsp.Acks

/-! Two connections and the network between them. -/
namespace Verif.Nsp

variable {inp : Inp}

/-- Invariant of the receiver with respect to the stream `segs` of the other end; `T` tells which
packets the other end has transmitted. -/
structure RB (T : Msg → Prop) (segs : List Sg) (c : Conn) : Prop where
  seq : ∀ (i : Nat) (m : Msg), (ups .data c.log)[i]? = some m → ∃ dly b e p, m.body = .dataSeg (i + 1) dly b e p ∧
    segs[i]? = some (b, e, p)
  ooo : ∀ x ∈ c.data.ooo, ∃ k, T x.2 ∧ x.2.body.seq = some (.data, k) ∧ wire k = x.1 ∧
    c.data.acknum < k ∧ k ≤ c.data.acknum + 2047

/-- What `T` has to satisfy. -/
def TOk (T : Msg → Prop) (segs : List Sg) : Prop :=
  ∀ m, T m → ∀ k dly b e p, m.body = .dataSeg k dly b e p → 1 ≤ k ∧ segs[k - 1]? = some (b, e, p)

theorem seq_data {b : Body} {k : Nat} (h : b.seq = some (.data, k)) :
    ∃ dly bo eo p, b = .dataSeg k dly bo eo p := by
  cases b with
  | dataSeg k' dly bo eo p => cases h; exact ⟨dly, bo, eo, p, rfl⟩
  | _ => cases h

theorem RxCh.rb {T : Msg → Prop} {segs : List Sg} {c c' : Conn} (h : RxCh inp c c') (hr : Rcv c)
    (hT : TOk T segs) (hb : RB T segs c)
    (hin : ∀ m n, inp = some (m, n) → ∀ k, m.body.seq = some (.data, k) →
      T m ∧ n ≤ k + 2047 ∧ k ≤ n + 2047) : RB T segs c' := by
  -- acceptance of the segment with the label next in line
  have up : ∀ (c1 : Conn) (m : Msg), c1.log = c.log → c1.data.acknum = c.data.acknum →
      (∀ x ∈ c1.data.ooo, x ∈ c.data.ooo) → (∀ x ∈ c1.data.ooo, x.1 ≠ wire (c.data.acknum + 1)) →
      T m → m.body.seq = some (.data, c.data.acknum + 1) → RB T segs (deliver (book c1 .data m) m) := by
    intro c1 m h1 h2 h3 h4 h5 h6
    obtain ⟨l, hl, hu⟩ := deliver_log (book c1 .data m) m
    have hsame := sameRecv_deliver (book c1 .data m) m
    have hack : c.data.acknum = (ups .data c.log).length := hr.ack .data
    refine ⟨?_, ?_⟩
    · intro i m' hm'
      rw [hl, ups_append, hu.ups, List.append_nil] at hm'
      have e : (book c1 .data m).log = c.log ++ [.up .data m] := by rw [← h1]; rfl
      rw [e, ups_append] at hm'
      have e2 : ups .data [Out.up .data m] = [m] := rfl
      rw [e2] at hm'
      rcases Nat.lt_or_ge i (ups .data c.log).length with hlt | hge
      · rw [List.getElem?_append_left hlt] at hm'
        exact hb.seq i m' hm'
      · rw [List.getElem?_append_right hge] at hm'
        have hi : i = (ups .data c.log).length := by
          rcases Nat.lt_or_ge (ups .data c.log).length i with hh | hh
          · rw [List.getElem?_eq_none (by simp; omega)] at hm'; cases hm'
          · omega
        subst hi
        rw [Nat.sub_self] at hm'
        cases hm'
        obtain ⟨dly, bo, eo, p, hbody⟩ := seq_data h6
        obtain ⟨-, hseg⟩ := hT m h5 _ _ _ _ _ hbody
        rw [hack] at hbody hseg
        exact ⟨dly, bo, eo, p, hbody, hseg⟩
    · have ho : ∀ x ∈ (deliver (book c1 .data m) m).data.ooo, x ∈ c1.data.ooo := by
        intro x hx
        have := hsame.ooo .data
        rw [show (deliver (book c1 .data m) m).data.ooo = ((deliver (book c1 .data m) m).sub .data).ooo from rfl,
          this] at hx
        exact hx
      have ha : (deliver (book c1 .data m) m).data.acknum = c.data.acknum + 1 := by
        have := hsame.acknum .data
        rw [book_acknum] at this
        rw [← h2]; exact this
      intro x hx
      have hx1 := ho x hx
      obtain ⟨k, g1, g2, g3, g4, g5⟩ := hb.ooo x (h3 x hx1)
      have hne := h4 x hx1
      rw [← g3] at hne
      refine ⟨k, g1, g2, g3, ?_, by omega⟩
      rw [ha]
      rcases Nat.lt_or_ge (c.data.acknum + 1) k with hh | hh
      · exact hh
      · exfalso; apply hne
        have : k = c.data.acknum + 1 := by omega
        rw [this]
  -- the other subchannel
  have upO : ∀ (c1 : Conn) (m : Msg), c1.log = c.log → c1.data.acknum = c.data.acknum →
      c1.data.ooo = c.data.ooo → RB T segs (deliver (book c1 .other m) m) := by
    intro c1 m h1 h2 h3
    obtain ⟨l, hl, hu⟩ := deliver_log (book c1 .other m) m
    have hsame := sameRecv_deliver (book c1 .other m) m
    have hups : ups .data (deliver (book c1 .other m) m).log = ups .data c.log := by
      rw [hl, ups_append, hu.ups, List.append_nil]
      have e : (book c1 .other m).log = c.log ++ [.up .other m] := by rw [← h1]; rfl
      rw [e, ups_append]
      exact List.append_nil _
    refine ⟨by rw [hups]; exact hb.seq, ?_⟩
    have e1 : (deliver (book c1 .other m) m).data.ooo = c.data.ooo := by
      rw [← h3]; exact hsame.ooo .data
    have e2 : (deliver (book c1 .other m) m).data.acknum = c.data.acknum := by
      rw [← h2]; exact hsame.acknum .data
    rw [e1, e2]
    exact hb.ooo
  cases h with
  | same h1 =>
    rename_i h1 h2 h3
    obtain ⟨l, hl, hu⟩ := h3
    refine ⟨?_, ?_⟩
    · rw [hl, ups_append, hu, List.append_nil]; exact hb.seq
    · intro x hx
      have e : c'.data.acknum = c.data.acknum := h1 .data
      rw [e]
      exact hb.ooo x (h2 .data x hx)
  | upNew ch m k hs hi hm hk ho =>
    cases ch with
    | other => exact upO c m rfl rfl rfl
    | data =>
      obtain ⟨g1, g2, g3⟩ := hin m _ hi k hm
      have hk' : k = c.data.acknum + 1 := by
        have e1 : (c.sub .data).acknum = c.data.acknum := rfl
        rw [e1] at hk g2 g3
        unfold wire at hk
        omega
      refine up c m rfl rfl (fun _ h => h) ?_ g1 (by rw [hm, hk'])
      intro x hx he
      unfold oooFind at ho
      rw [Option.map_eq_none_iff, List.find?_eq_none] at ho
      exact ho x hx (by rw [he]; exact beq_self_eq_true _)
  | upOld ch m hs hm =>
    cases ch with
    | other => exact upO _ m rfl rfl rfl
    | data =>
      obtain ⟨k, g1, g2, g3, g4, g5⟩ := hb.ooo _ (oooFind_mem hm)
      have hk' : k = c.data.acknum + 1 := by
        have e1 : (c.sub .data).acknum = c.data.acknum := rfl
        have g3' : wire k = wire (c.data.acknum + 1) := g3
        unfold wire at g3'
        omega
      refine up _ m rfl rfl ?_ ?_ g1 (by rw [show m.body.seq = _ from g2, hk'])
      · intro x hx
        exact (List.mem_filter.1 hx).1
      · intro x hx
        have := (List.mem_filter.1 hx).2
        have h' : x.1 ≠ wire ((c.sub .data).acknum + 1) := by simpa using this
        exact h'
  | oooAdd ch m k hs hi hm h1 h2 =>
    cases ch with
    | other => exact ⟨hb.seq, hb.ooo⟩
    | data =>
      obtain ⟨g1, g2, g3⟩ := hin m _ hi k hm
      refine ⟨hb.seq, ?_⟩
      intro x hx
      have hx' : x ∈ oooErase c.data.ooo (wire k) ++ [(wire k, m)] := hx
      rw [List.mem_append, List.mem_singleton] at hx'
      rcases hx' with hx' | rfl
      · exact hb.ooo x (List.mem_filter.1 hx').1
      · refine ⟨k, g1, hm, rfl, ?_, g3⟩
        have e1 : (c.sub .data).acknum = c.data.acknum := rfl
        rw [e1] at h1 h2 g2 g3
        rw [seqLe_eq] at h1
        split_ifs at h1 with hd
        have h1' := of_decide_eq_false (Except.ok.inj h1)
        show c.data.acknum < k
        rcases Nat.lt_or_ge c.data.acknum k with hlt | hge
        · exact hlt
        · exfalso; apply h1'
          rw [dist_of_le hge (by omega)]; omega

/-- A larger stream and more packets sent do not hurt. -/
theorem RB.mono {T T' : Msg → Prop} {segs segs' : List Sg} {c : Conn} (h : RB T segs c)
    (h1 : ∀ m, T m → T' m) (h2 : segs <+: segs') : RB T' segs' c := by
  obtain ⟨l, rfl⟩ := h2
  refine ⟨?_, ?_⟩
  · intro i m hm
    obtain ⟨dly, b, e, p, g1, g2⟩ := h.seq i m hm
    refine ⟨dly, b, e, p, g1, ?_⟩
    obtain ⟨hi, -⟩ := List.getElem?_eq_some_iff.1 g2
    rw [List.getElem?_append_left hi]; exact g2
  · intro x hx
    obtain ⟨k, g1, g⟩ := h.ooo x hx
    exact ⟨k, h1 _ g1, g⟩

/-- What was passed up is an initial part of the stream. -/
theorem RB.upSegs {T : Msg → Prop} {segs : List Sg} {c : Conn} (h : RB T segs c) :
    upSegs c.log <+: segs := by
  have key : ∀ (l : List Msg) (n : Nat), (∀ i m, l[i]? = some m → ∃ dly b e p,
      m.body = .dataSeg (n + i + 1) dly b e p ∧ segs[n + i]? = some (b, e, p)) →
      l.filterMap Msg.sg <+: segs.drop n := by
    intro l
    induction l with
    | nil => intro n _; exact List.nil_prefix
    | cons m l ih =>
      intro n hl
      obtain ⟨dly, b, e, p, g1, g2⟩ := hl 0 m rfl
      have hsg : m.sg = some (b, e, p) := by unfold Msg.sg; rw [g1]
      rw [List.filterMap_cons_some hsg]
      obtain ⟨hn, hv⟩ := List.getElem?_eq_some_iff.1 g2
      have hd : segs.drop n = (b, e, p) :: segs.drop (n + 1) := by
        have := List.getElem_cons_drop (as := segs) (i := n) hn
        rw [← this]
        congr 1
      rw [hd, List.cons_prefix_cons]
      refine ⟨rfl, ih (n + 1) ?_⟩
      intro i m' hm'
      obtain ⟨dly', b', e', p', q1, q2⟩ := hl (i + 1) m' (by simpa using hm')
      exact ⟨dly', b', e', p', by rw [q1]; congr 1; omega, by rw [← q2]; congr 1; omega⟩
  have := key (ups .data c.log) 0 (by
    intro i m hm
    obtain ⟨dly, b, e, p, g1, g2⟩ := h.seq i m hm
    exact ⟨dly, b, e, p, by rw [g1]; congr 1; omega, by rw [← g2]; congr 1; omega⟩)
  simpa [Nsp.upSegs] using this

/-! ### The system -/

/-- Two ends of a logical link.  Every packet either end has transmitted stays in the network and
may arrive at the other end at any time, any number of times, or never.  `sa`, `sb` are the
messages `send_data` accepted at each end, oldest first. -/
structure Sys where
  a : Conn
  b : Conn
  sa : List Bytes
  sb : List Bytes

/-- The same with the roles exchanged. -/
def Sys.swap (s : Sys) : Sys := ⟨s.b, s.a, s.sb, s.sa⟩

/-- The bound on the life time of packets the 12 bit sequence numbers need: when `m` arrives at
`c`, sent by `d`, `c` has not accepted more than 2047 segments after the one in `m`, and `d` has
accepted fewer than 2047 segments beyond what `m` acknowledges. -/
def Timely (c d : Conn) (m : Msg) : Prop :=
  (∀ k dly b e p, m.body = .dataSeg k dly b e p → c.data.acknum ≤ k + 2047) ∧
  (∀ ch, m.body.chan = some ch → ∀ n ∈ dataAcks ch m, d.data.acknum < n + 2047)

/-- Messages accepted by an event. -/
def accepted (c : Conn) (e : Ev) : List Bytes :=
  match e with
  | .sendData d => if (step c e).2 = none then [d] else []
  | _ => []

/-- A step of the left end. -/
inductive LStep : Sys → Sys → Prop
  | ev (s : Sys) (e : Ev) (he : Enabled s.a e) (hn : ∀ m, e ≠ .recv m)
      (hr : (step s.a e).2 = none ∨ e.isCall = true) :
      LStep s { s with a := (step s.a e).1, sa := s.sa ++ accepted s.a e }
  | recv (s : Sys) (m : Msg) (hm : Out.tx m ∈ s.b.log) (ht : Timely s.a s.b m)
      (he : s.a.state ≠ .closed) (hr : (step s.a (.recv m)).2 = none) :
      LStep s { s with a := (step s.a (.recv m)).1 }

/-- A step of either end. -/
inductive SStep : Sys → Sys → Prop
  | left (s s' : Sys) (h : LStep s s') : SStep s s'
  | right (s s' : Sys) (h : LStep s.swap s'.swap) : SStep s s'

/-- Everything that can happen after both ends were created. -/
inductive Reach : Sys → Prop
  | start (a b : Conn) (ha : Start a) (hb : Start b) (hqa : a.cfg.qmax ≤ 2047)
      (hqb : b.cfg.qmax ≤ 2047) : Reach ⟨a, b, [], []⟩
  | step (s s' : Sys) (h : Reach s) (hs : SStep s s') : Reach s'

/-- Invariant for the stream from the left to the right end. -/
structure Inv1 (s : Sys) : Prop where
  baseA : Base s.a
  baseB : Base s.b
  ackB : AckI s.b
  rcvB : Rcv s.b
  asmB : Asm s.b
  ex : ∃ segs f, WF segs f s.a ∧ f ≤ s.b.data.acknum + 1 ∧
    RB (fun m => Out.tx m ∈ s.a.log) segs s.b ∧ reasm [] segs = ([], s.sa.filter (· ≠ []))

theorem Mi.log_ext {c c' : Conn} (h : Mi inp c c') : ∃ l, c'.log = c.log ++ l := by
  have up : ∀ (c1 : Conn) (ch : Chan) (m : Msg), c1.log = c.log →
      ∃ l, (deliver (book c1 ch m) m).log = c.log ++ l := by
    intro c1 ch m h1
    obtain ⟨l, hl, -⟩ := deliver_log (book c1 ch m) m
    have e : (book c1 ch m).log = c.log ++ [.up ch m] := by rw [← h1]; cases ch <;> rfl
    exact ⟨_, by rw [hl, e, List.append_assoc]⟩
  cases h.rx with
  | same h1 => rename_i h1 h2 h3; obtain ⟨l, hl, -⟩ := h3; exact ⟨l, hl⟩
  | upNew ch m k hs hi hm hk ho => exact up c ch m rfl
  | upOld ch m hs hm => exact up _ ch m (by cases ch <;> rfl)
  | oooAdd ch m k hs hi hm h1 h2 => exact ⟨[], by rw [List.append_nil]; cases ch <;> rfl⟩

theorem Mis.log_ext {c c' : Conn} (h : Mis inp c c') : ∃ l, c'.log = c.log ++ l := by
  induction h with
  | refl => exact ⟨[], by simp⟩
  | tail _ h2 ih =>
    obtain ⟨l, hl⟩ := ih
    obtain ⟨l', hl'⟩ := h2.log_ext
    exact ⟨l ++ l', by rw [hl', hl, List.append_assoc]⟩

theorem Mis.acknum_mono {c c' : Conn} (h : Mis inp c c') (ch : Chan) :
    (c.sub ch).acknum ≤ (c'.sub ch).acknum := by
  induction h with
  | refl => exact Nat.le_refl _
  | tail _ h2 ih => exact Nat.le_trans ih (h2.acknum_mono ch)

theorem WF.tok {segs : List Sg} {f : Nat} {c : Conn} (h : WF segs f c) :
    TOk (fun m => Out.tx m ∈ c.log) segs :=
  fun m hm k dly b e p hb => ⟨(h.core.txok m hm k dly b e p hb).1, (h.core.txok m hm k dly b e p hb).2.2⟩

theorem dataAcks_mem {c : Conn} {ch : Chan} {m : Msg} (h : AckB c ch m) :
    (∀ n ∈ dataAcks ch m, n ≤ c.data.acknum) ∧ (ch = .data → (dataAcks ch m).length ≤ 1) := by
  obtain ⟨h1, h2⟩ := h
  have r1 : ∀ n, m.ack = some n → refs ch n = ch := by
    intro n hn
    obtain ⟨g, -⟩ := h1 n hn
    simp [refs, AckNum.isCross, g]
  have r2 : ∀ n, m.ack2 = some n → refs ch n = ch.cross := by
    intro n hn
    obtain ⟨g, -⟩ := h2 n hn
    simp [refs, AckNum.isCross, g]
  unfold dataAcks
  cases ha : m.ack with
  | none =>
    cases ha2 : m.ack2 with
    | none => exact ⟨by simp, fun _ => by simp⟩
    | some n2 =>
      have e2 := r2 n2 ha2
      have g2 := (h2 n2 ha2).2
      cases ch with
      | data => simp [e2, Chan.cross]
      | other => simp [e2, Chan.cross]; exact g2
  | some n1 =>
    have e1 := r1 n1 ha
    have g1 := (h1 n1 ha).2
    cases ha2 : m.ack2 with
    | none =>
      cases ch with
      | data => simp [e1]; exact g1
      | other => simp [e1]
    | some n2 =>
      have e2 := r2 n2 ha2
      have g2 := (h2 n2 ha2).2
      cases ch with
      | data => simp [e1, e2, Chan.cross]; exact g1
      | other => simp [e1, e2, Chan.cross]; exact g2

theorem reasm_step {c : Conn} {e : Ev} {segs : List Sg} {sa : List Bytes}
    (h : reasm [] segs = ([], sa.filter (· ≠ []))) :
    reasm [] (segs ++ newSegs c e) = ([], (sa ++ accepted c e).filter (· ≠ [])) := by
  have triv : newSegs c e = [] → (accepted c e).filter (· ≠ []) = [] →
      reasm [] (segs ++ newSegs c e) = ([], (sa ++ accepted c e).filter (· ≠ [])) := by
    intro h1 h2
    rw [h1, List.append_nil, List.filter_append, h2, List.append_nil]; exact h
  cases e with
  | sendData d =>
    by_cases hr : (step c (.sendData d)).2 = none
    · have h1 : newSegs c (.sendData d) = slices c.segsize d := if_pos hr
      have h2 : accepted c (.sendData d) = [d] := if_pos hr
      have hsz : 0 < c.segsize := by
        rcases Nat.eq_zero_or_pos c.segsize with h0 | h0
        · exfalso
          dsimp only [step] at hr
          unfold sendData at hr
          by_cases hc : c.state ≠ .run ∨ c.shutdown = true
          · rw [if_pos hc] at hr; cases hr
          · rw [if_neg hc, if_pos h0] at hr; cases hr
        · exact h0
      by_cases hd : d = []
      · subst hd
        exact triv (by rw [h1, slices_zero]) (by rw [h2]; rfl)
      · rw [h1, h2, reasm_append, h]
        dsimp only
        rw [reasm_slices _ hsz d hd, List.filter_append]
        simp [hd]
    · exact triv (if_neg hr) (by
        have : accepted c (.sendData d) = [] := if_neg hr
        rw [this]; rfl)
  | _ => exact triv rfl rfl

/-- The receiving end moves. -/
theorem Inv1.bMoves {a b b' : Conn} {sa sb sb' : List Bytes} (h : Inv1 ⟨a, b, sa, sb⟩) (hm : Mis inp b b')
    (hb : Base b') (hin : ∀ m n, inp = some (m, n) → ∀ k, m.body.seq = some (.data, k) →
      Out.tx m ∈ a.log ∧ n = b.data.acknum ∧ n ≤ k + 2047) : Inv1 ⟨a, b', sa, sb'⟩ := by
  obtain ⟨segs, f, hwf, hf, hrb, hre⟩ := h.ex
  have key : AckI b' ∧ Rcv b' ∧ Asm b' ∧ RB (fun m => Out.tx m ∈ a.log) segs b' := by
    refine hm.inv (P := fun c => AckI c ∧ Rcv c ∧ Asm c ∧ RB (fun m => Out.tx m ∈ a.log) segs c) ?_
      ⟨h.ackB, h.rcvB, h.asmB, hrb⟩
    rintro c c' hmi ⟨p1, p2, p3, p4⟩
    refine ⟨hmi.ackI p1, hmi.rcv p2, (hmi.rch p2).asm p3, hmi.rx.rb p2 hwf.tok p4 ?_⟩
    intro m n hi k hk
    obtain ⟨g1, g2, g3⟩ := hin m n hi k hk
    refine ⟨g1, g3, ?_⟩
    obtain ⟨dly, bo, eo, p, hbody⟩ := seq_data hk
    have h1 := (hwf.core.txok m g1 k dly bo eo p hbody).2.1
    have h2 := hwf.core.win
    have h3 := hwf.core.q
    have hf' : f ≤ b.data.acknum + 1 := hf
    omega
  exact ⟨h.baseA, hb, key.1, key.2.1, key.2.2.1, segs, f, hwf,
    Nat.le_trans hf (Nat.succ_le_succ (hm.acknum_mono .data)), key.2.2.2, hre⟩

theorem Inv1.left {s t : Sys} (h : LStep s t) (hi : Inv1 s) : Inv1 t := by
  obtain ⟨segs, f, hwf, hf, hrb, hre⟩ := hi.ex
  cases h with
  | ev e he hn hr =>
    obtain ⟨hb, hm⟩ := step_base hi.baseA he
    obtain ⟨f', hw, had⟩ := step_wf hwf hi.baseA he
    obtain ⟨l, hl⟩ := hm.log_ext
    refine ⟨hb, hi.baseB, hi.ackB, hi.rcvB, hi.asmB, _, f', hw, ?_, hrb.mono ?_ (List.prefix_append _ _),
      reasm_step hre⟩
    · exact had.2 _ hf (fun m hm => absurd hm (hn m))
    · intro m hm
      show Out.tx m ∈ (step s.a e).1.log
      rw [hl]; exact List.mem_append_left _ hm
  | recv m hm ht he hr =>
    have he' : Enabled s.a (.recv m) := he
    obtain ⟨hb, hmis⟩ := step_base hi.baseA he'
    obtain ⟨f', hw, had⟩ := step_wf hwf hi.baseA he'
    obtain ⟨l, hl⟩ := hmis.log_ext
    refine ⟨hb, hi.baseB, hi.ackB, hi.rcvB, hi.asmB, segs, f', ?_, ?_, hrb.mono ?_ (List.prefix_refl _), hre⟩
    · have : segs ++ newSegs s.a (.recv m) = segs := List.append_nil _
      rw [this] at hw; exact hw
    · refine had.2 _ hf ?_
      intro m' hm'
      cases hm'
      intro ch hch
      obtain ⟨g1, g2⟩ := dataAcks_mem (hi.ackB.t m ch hm hch)
      refine ⟨?_, g2⟩
      intro n hn
      have := ht.2 ch hch n hn
      exact ⟨g1 n hn, by omega⟩
    · intro m' hm'
      show Out.tx m' ∈ (step s.a (.recv m)).1.log
      rw [hl]; exact List.mem_append_left _ hm'

theorem Inv1.right {s t : Sys} (h : LStep s t) (hi : Inv1 s.swap) : Inv1 t.swap := by
  cases h with
  | ev e he hn hr =>
    obtain ⟨hb, hm⟩ := step_base (c := s.a) hi.baseB he
    refine Inv1.bMoves (b := s.a) hi hm hb ?_
    intro m n h
    cases e <;> first | exact absurd rfl (hn _) | cases h
  | recv m hm ht he hr =>
    have he' : Enabled s.a (.recv m) := he
    obtain ⟨hb, hmis⟩ := step_base (c := s.a) hi.baseB he'
    refine Inv1.bMoves (b := s.a) hi hmis hb ?_
    intro m' n h k hk
    cases h
    have hn : ackAt s.a m = s.a.data.acknum := by unfold ackAt; rw [hk]; rfl
    obtain ⟨dly, bo, eo, p, hbody⟩ := seq_data hk
    refine ⟨hm, hn, ?_⟩
    rw [hn]
    exact ht.1 k dly bo eo p hbody

theorem Reach.inv {s : Sys} (h : Reach s) : Inv1 s ∧ Inv1 s.swap := by
  induction h with
  | start a b ha hb hqa hqb =>
    have key : ∀ {a b : Conn}, Start a → Start b → a.cfg.qmax ≤ 2047 → Inv1 ⟨a, b, [], []⟩ := by
      intro a b ha hb hq
      refine ⟨start_base ha, start_base hb, start_ackI hb, start_rcv hb, start_asm hb, [], 1, start_wf ha hq, ?_,
        ⟨?_, ?_⟩, rfl⟩
      · show 1 ≤ b.data.acknum + 1; omega
      · intro i m hm
        have : ups .data b.log = [] := by
          have h1 := (start_rcv hb).ack .data
          have h2 : b.data.acknum = 0 := by
            cases hb with
            | out => rfl
            | inc cfg id r f i s p => rw [newIn_form]
          rw [show (b.sub .data).acknum = b.data.acknum from rfl, h2] at h1
          exact List.length_eq_zero_iff.1 h1.symm
        rw [show (⟨a, b, [], []⟩ : Sys).b = b from rfl, this] at hm
        cases hm
      · intro x hx
        have : b.data.ooo = [] := by
          cases hb with
          | out => rfl
          | inc cfg id r f i s p => rw [newIn_form]
        rw [show (⟨a, b, [], []⟩ : Sys).b = b from rfl, this] at hx
        cases hx
    exact ⟨key ha hb hqa, key hb ha hqb⟩
  | step s s' _ hs ih =>
    cases hs with
    | left h => exact ⟨Inv1.left h ih.1, Inv1.right h ih.2⟩
    | right h => exact ⟨Inv1.right (s := s.swap) (t := s'.swap) h ih.1, Inv1.left h ih.2⟩

/-- What the right end delivers is an initial part of what the left end accepted. -/
theorem Inv1.prefix {s : Sys} (h : Inv1 s) (ho : Out.opt true ∉ s.b.log) :
    scDatas s.b.log <+: s.sa.filter (· ≠ []) := by
  obtain ⟨segs, f, hwf, hf, hrb, hre⟩ := h.ex
  obtain ⟨-, hasm⟩ := h.asmB ho
  obtain ⟨l, hl⟩ := hrb.upSegs
  have := reasm_prefix [] (upSegs s.b.log) l
  rw [hl, hre, hasm] at this
  exact this

end Verif.Nsp
