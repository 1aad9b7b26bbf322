import Verif.RUpdate.Hist
import Verif.RoutMsg.Props

/-!
# C21: routing updates are complete and fit
-/
namespace Verif.RUpdate

open Verif.RoutMsg (Vectors learned segsOf encode4 decode entries)

/-! ## One update -/

theorem flatMap_learned (cost : Nat) (ps : List Vectors) : ps.flatMap (learned cost) = learned cost ps.flatten := by
  induction ps with
  | nil => rfl
  | cons v ps ih =>
    rw [List.flatMap_cons, ih, List.flatten_cons]
    unfold learned
    rw [List.flatMap_append]

theorem encode4_length {l2 : Bool} {src : Nat} {v : Vectors} {b : Fields.Bytes}
    (h : encode4 l2 src (segsOf v) = .ok b) : b.length = size v := by
  simp only [encode4, RoutMsg.bind_ok, RoutMsg.pure_ok, Except.ok.injEq] at h
  obtain ⟨sb, hsb, ckb, hck, hb, hh, rfl⟩ := h
  obtain ⟨hws, rfl⟩ := RoutMsg.wordsBytes_ok.1 hsb
  obtain ⟨_, rfl⟩ := RoutMsg.wordBytes_ok.1 hck
  have h4 : hb.length = 4 := by
    unfold RoutMsg.hdr at hh
    split at hh
    · cases hh; simp
    · cases hh
  have e : ((segsOf v).flatMap RoutMsg.segWords).length = (v.map fun x => x.2.length + 2).sum := by
    unfold segsOf
    rw [List.length_flatMap, List.map_map]
    congr 1
    apply List.map_congr_left
    intro x _
    simp [RoutMsg.segWords]
  have e2 : (v.map fun x => 4 + 2 * x.2.length).sum = 2 * (v.map fun x => x.2.length + 2).sum := by
    clear * -
    induction v with
    | nil => rfl
    | cons x v ih => simp [ih]; omega
  rw [List.length_append, List.length_append, RoutMsg.flatMap_length, h4, e]
  simp only [Fields.le_length]
  unfold size
  omega

/-- The update a circuit sends, for every table, set of flagged entries and block size of at least 16.
Every packet is built, is no longer than the block size, and is accepted.  The entries that the
receiver extracts from the packets (in any order of the packets) are
* only those of the table as it is now (one hop and the circuit's cost added),
* all that are flagged,
* at most one for each destination.
All flags are clear afterwards. -/
theorem update_complete (complete l2 : Bool) (t : Table) (blk len src cost : Nat) (srm : Nat → Bool)
    (hblk : 16 ≤ blk) (hlen : if l2 then len ≤ 64 else len ≤ 1024) (hsrc : src < 65536)
    (ht : ∀ j, (t j).1 ≤ 31 ∧ (t j).2 ≤ 1023) (hbb : blk ≤ 65535)
    (hany : ∃ j, (if l2 then 1 else 0) ≤ j ∧ j < len ∧ (complete || srm j) = true) :
    ∃ pkts srm', build complete t blk (if l2 then 1 else 0) len srm = some (pkts, srm') ∧
      (∀ v ∈ pkts, ∃ b m, encode4 l2 src (segsOf v) = .ok b ∧ b.length ≤ blk ∧ decode l2 b = .ok m ∧
        entries cost m = learned cost v) ∧
      (∀ e ∈ pkts.flatMap (learned cost), (if l2 then 1 else 0) ≤ e.1 ∧ e.1 < len ∧
        e.2 = ((t e.1).1 + 1, (t e.1).2 + cost)) ∧
      (∀ j, (if l2 then 1 else 0) ≤ j → j < len → (complete || srm j) = true →
        ∃ e ∈ pkts.flatMap (learned cost), e.1 = j) ∧
      ((pkts.flatMap (learned cost)).map (·.1)).Nodup ∧
      (∀ j, srm' j = if (if l2 then 1 else 0) ≤ j ∧ j < len then false else srm j) := by
  obtain ⟨pkts, srm', e, h1, h2, h3, h4, h5⟩ := build_spec complete t blk (if l2 then 1 else 0) len srm hblk hany
  have efl : pkts.flatMap (learned cost) = learned cost pkts.flatten := flatMap_learned cost pkts
  refine ⟨pkts, srm', e, ?_, ?_, ?_, ?_, h5⟩
  · intro v hv
    have hmem : ∀ x ∈ v, Reports t (if l2 then 1 else 0) len x := fun x hx =>
      h1 x (List.mem_flatten.2 ⟨v, hv, hx⟩)
    have hsz := (h4 v hv).1
    have hsum : (v.map fun x => 4 + 2 * x.2.length).sum = 2 * (v.map fun x => x.2.length + 2).sum := by
      clear * -
      induction v with
      | nil => rfl
      | cons x v ih => simp [ih]; omega
    obtain ⟨b, m, e1, e2, e3⟩ := RoutMsg.vectors_survive l2 src hsrc v cost (by
      intro x hx
      have hr := hmem x hx
      refine ⟨?_, hr.ne, ?_⟩
      · intro hc hhc
        rw [hr.val] at hhc
        obtain ⟨j, _, rfl⟩ := List.mem_map.1 hhc
        exact ht j
      · have a := hr.lo
        have b := hr.hi
        cases l2 <;> simp at a hlen ⊢ <;> omega) (by unfold size at hsz; omega)
    refine ⟨b, m, e1, ?_, e2, e3⟩
    rw [encode4_length e1]
    omega
  · intro x hx
    rw [efl] at hx
    obtain ⟨s, hs, j, hj, rfl⟩ := mem_learned.1 hx
    have hr := h1 s hs
    rw [hr.get j hj]
    have a := hr.lo
    have b := hr.hi
    exact ⟨by show _ ≤ s.1 + j; omega, by show s.1 + j < _; omega, rfl⟩
  · intro j hj1 hj2 hf
    obtain ⟨x, hx, a, b⟩ := h3 j hj1 hj2 hf
    rw [efl]
    exact ⟨_, mem_learned.2 ⟨x, hx, j - x.1, by omega, rfl⟩, by show x.1 + (j - x.1) = j; omega⟩
  · rw [efl]
    have key : ∀ l : Vectors, l.Pairwise Before → ((learned cost l).map (·.1)).Nodup := by
      intro l
      induction l with
      | nil => intro _; simp [learned]
      | cons x l ih =>
        intro hp
        rw [List.pairwise_cons] at hp
        have e : (learned cost (x :: l)).map (·.1) =
            List.range' x.1 x.2.length ++ (learned cost l).map (·.1) := by
          have : (x.2.mapIdx fun j hc => (x.1 + j, hc.1 + 1, hc.2 + cost)).map (·.1) =
              List.range' x.1 x.2.length := by
            apply List.ext_getElem
            · simp
            · intro i h1 h2; simp
          unfold learned at *
          rw [List.flatMap_cons, List.map_append, this]
        rw [e, List.nodup_append]
        refine ⟨List.nodup_range', ih hp.2, ?_⟩
        intro a ha b hb hab
        subst hab
        rw [List.mem_range'] at ha
        obtain ⟨i, hi, rfl⟩ := ha
        obtain ⟨y, hy, hye⟩ := List.mem_map.1 hb
        obtain ⟨s, hs, j, hj, rfl⟩ := mem_learned.1 hy
        have := hp.1 s hs
        unfold Before at this
        simp at hye
        omega
    exact key _ h2

/-- The Phase III form: one packet with the whole table from node 1; it fits the block size the
neighbour announced, which the circuit has checked when it came up (route_ptp.py:612-614). -/
theorem update_ph3 (t : Table) (maxnodes src cost nblk : Nat) (srm : Nat → Bool) (hsrc : src < 65536)
    (hm : maxnodes ≤ 1023) (hn : maxnodes * 2 + 6 ≤ nblk) (ht : ∀ j, (t j).1 ≤ 31 ∧ (t j).2 ≤ 1023) :
    ∃ b m, RoutMsg.encode3 src ((build3 t (maxnodes + 1) srm).1.map fun hc => RoutMsg.entry hc.1 hc.2) = .ok b ∧
      decode false b = .ok m ∧ b.length ≤ nblk ∧
      entries cost m = (List.range' 1 maxnodes).map fun j => (j, (t j).1 + 1, (t j).2 + cost) := by
  obtain ⟨b, m, e1, e2, e3⟩ := RoutMsg.vectors_survive_ph3 src hsrc (build3 t (maxnodes + 1) srm).1 cost
    (by
      intro hc hh
      obtain ⟨j, _, rfl⟩ := List.mem_map.1 hh
      exact ht j) (by simp [build3]; omega)
  refine ⟨b, m, e1, e2, ?_, ?_⟩
  · simp only [RoutMsg.encode3, RoutMsg.bind_ok, RoutMsg.pure_ok, Except.ok.injEq] at e1
    obtain ⟨sb, hsb, ckb, hck, hb, hh, rfl⟩ := e1
    obtain ⟨hws, rfl⟩ := RoutMsg.wordsBytes_ok.1 hsb
    obtain ⟨_, rfl⟩ := RoutMsg.wordBytes_ok.1 hck
    have h4 : hb.length = 4 := by
      unfold RoutMsg.hdr at hh
      rw [if_pos hsrc] at hh
      injection hh with hh
      rw [← hh]; simp
    rw [List.length_append, List.length_append, RoutMsg.flatMap_length, h4]
    simp only [Fields.le_length, List.length_map, build3, List.length_range']
    omega
  · rw [e3]
    apply List.ext_getElem
    · simp [build3]
    · intro i h1 h2; simp [build3]

/-! ## Over time -/

theorem start_inv (t1 cc : Nat) (c : Circ) (t : Table) (len now : Nat) (hl : lowid c < len) (hb : 16 ≤ c.blk) :
    Inv1 cc (start t1 c t len now) :=
  ⟨hl, hb, (fun _ _ h => nomatch h), (fun _ _ h => nomatch h), (fun h => nomatch h), (fun _ _ h => nomatch h), (fun h => nomatch h)⟩

theorem step_inv (t1 cc : Nat) (n : Net) (e : Ev) (h : Inv1 cc n) (hv : Valid n e) :
    ∃ m, step t1 cc n e = some m ∧ Inv1 cc m := by
  cases e with
  | tick d =>
    refine ⟨_, rfl, h.len, h.blk, h.wants, h.known, h.any, h.armed, ?_⟩
    intro hh
    obtain ⟨x, h1, h2, h3⟩ := h.soon hh
    have := hv x h1
    exact ⟨x, h1, this, by show x ≤ n.s.now + d + T2; omega⟩
  | entry i v =>
    dsimp only [step]
    by_cases he : n.s.t i = v
    · rw [if_pos he]; exact ⟨n, rfl, h⟩
    · rw [if_neg he]
      refine ⟨_, rfl, h.setsrm i i _ n.view ⟨hv.1, Nat.le_refl _, hv.2⟩ ?_ ?_⟩
      · intro j hj; show (if j = i then v else n.s.t j) = _; rw [if_neg (by omega)]
      · intro k w hk; exact ⟨h.wants k w hk, Or.inl hk⟩
  | touch i =>
    refine ⟨_, rfl, h.setsrm i i n.s.t n.view ⟨hv.1, Nat.le_refl _, hv.2⟩ (fun _ _ => rfl) ?_⟩
    intro k w hk; exact ⟨h.wants k w hk, Or.inl hk⟩
  | restart =>
    exact ⟨_, rfl, h.len, by show 16 ≤ 576; omega, (fun _ _ hk => nomatch hk), (fun _ _ hk => nomatch hk), h.any,
      (fun _ _ hk => nomatch hk), h.soon⟩
  | init nt a p b =>
    obtain ⟨h1, h2, h3⟩ := hv
    have hno : want n.s.c = .no := by unfold want; rw [if_pos (Or.inl h2)]
    have nov : ∀ k w, n.view k ≠ some w := fun k w hk => h.wants k w hk hno
    exact ⟨_, rfl, h.len, by show 16 ≤ min b 576; omega, fun k w hk => absurd hk (nov k w),
      fun k w hk => absurd hk (nov k w), h.any, fun k w hk => absurd hk (nov k w), h.soon⟩
  | blk b => exact ⟨_, rfl, h.len, hv.2, h.wants, h.known, h.any, h.armed, h.soon⟩
  | up k =>
    dsimp only [step]
    by_cases hw : want n.s.c = .no
    · rw [if_pos hw]; exact ⟨n, rfl, h⟩
    · rw [if_neg hw]
      have hl := h.len
      refine ⟨_, rfl, h.setsrm (lowid n.s.c) (n.s.len - 1) n.s.t _ ⟨Nat.le_refl _, by omega, by omega⟩
        (fun _ _ => rfl) ?_⟩
      intro j w _
      exact ⟨hw, Or.inr ⟨rfl, rfl⟩⟩
  | down k =>
    have hk' : ∀ j w, (if j = k then none else n.view j) = some w → n.view j = some w := by
      intro j w hj
      by_cases hjk : j = k
      · rw [if_pos hjk] at hj; cases hj
      · rwa [if_neg hjk] at hj
    exact ⟨_, rfl, h.len, h.blk, fun j w hj => h.wants j w (hk' j w hj), fun j w hj => h.known j w (hk' j w hj), h.any,
      fun j w hj => h.armed j w (hk' j w hj), h.soon⟩
  | fire =>
    dsimp only [step]
    by_cases hw : want n.s.c = .no
    · have e : timeout t1 n.s = some ({ n.s with holdoff := false, timer := none }, none) := by
        unfold timeout
        simp only [hw]
      rw [e]
      have nov : ∀ k w, n.view k ≠ some w := fun k w hk => h.wants k w hk hw
      exact ⟨_, rfl, h.len, h.blk, h.wants, fun k w hk => absurd hk (nov k w), h.any, fun k w hk => absurd hk (nov k w),
        (fun hh => nomatch hh)⟩
    · obtain ⟨s', m, e, f1, f2, f3, f4, f5, f6, f7, f8, f9⟩ := timeout_spec t1 cc n.s h.len h.blk h.any hw
      rw [e]
      refine ⟨_, rfl, ?_, ?_, ?_, ?_, ?_, ?_, ?_⟩
      · show lowid s'.c < s'.len; rw [f1, f3]; exact h.len
      · show 16 ≤ s'.c.blk; rw [f1]; exact h.blk
      · intro k w _; show want s'.c ≠ _; rw [f1]; exact hw
      · intro k w hk j
        show first s'.c ≤ j → j < s'.len → _ → w j = some (current cc s' j)
        rw [f1, f3]
        intro h1 h2 _
        obtain ⟨w0, hk0, rfl⟩ := Option.map_eq_some_iff.1 hk
        have hc : current cc s' j = current cc n.s j := by unfold current; rw [f2]
        rw [hc]
        have hs := hear_spec (current cc n.s) (heard cc m) (fun e he => (f9.cur e he).1) w0 j
        by_cases hex : ∃ e ∈ heard cc m, e.1 = j
        · exact hs.1 hex
        · rw [hs.2 (fun e he hj => hex ⟨e, he, hj⟩)]
          apply h.known k w0 hk0 j h1 h2
          cases hx : n.s.srm j with
          | false => rfl
          | true => exact absurd (f9.all j h1 h2 (by simp [hx])) hex
      · intro hh
        rw [f5] at hh; cases hh
      · intro k w _ hex
        obtain ⟨j, h1, h2, h3⟩ := hex
        have h1' : first s'.c ≤ j := h1
        have h2' : j < s'.len := h2
        rw [f1] at h1'
        rw [f3] at h2'
        have h3' : s'.srm j = true := h3
        rw [f8 j h1' h2'] at h3'
        cases h3'
      · intro hh
        have hh' : s'.holdoff = true := hh
        rw [f6] at hh'; cases hh'

theorem steps_inv {t1 cc : Nat} {n m : Net} {es : List Ev} (h : Steps t1 cc n es m) (hi : Inv1 cc n) : Inv1 cc m := by
  induction h with
  | nil => exact hi
  | cons hv he _ ih =>
    obtain ⟨m', e, hi'⟩ := step_inv t1 cc _ _ hi hv
    rw [he] at e
    cases e
    exact ih hi'

/-- Whatever happens (table changes, circuits going up and down, neighbours coming and going, timers
expiring), the update process never gets an exception. -/
theorem update_no_exception (t1 cc : Nat) (c : Circ) (t : Table) (len now : Nat) (hl : lowid c < len) (hb : 16 ≤ c.blk)
    (es : List Ev) (n : Net) (h : Steps t1 cc (start t1 c t len now) es n) (e : Ev) (hv : Valid n e) :
    step t1 cc n e ≠ none := by
  obtain ⟨m, e, _⟩ := step_inv t1 cc n e (steps_inv h (start_inv t1 cc c t len now hl hb)) hv
  rw [e]; simp

/-- At every moment, a neighbour that listens knows the current entry of every destination that is not
flagged for the next update; and while anything is flagged, the timer is running and expires
within the holdoff time. -/
theorem neighbours_know (t1 cc : Nat) (c : Circ) (t : Table) (len now : Nat) (hl : lowid c < len) (hb : 16 ≤ c.blk)
    (es : List Ev) (n : Net) (h : Steps t1 cc (start t1 c t len now) es n) (k : Nat) (w : View)
    (hk : n.view k = some w) :
    (∀ j, first n.s.c ≤ j → j < n.s.len → n.s.srm j = false → w j = some ((n.s.t j).1 + 1, (n.s.t j).2 + cc)) ∧
    (∀ j, first n.s.c ≤ j → j < n.s.len → w j ≠ some ((n.s.t j).1 + 1, (n.s.t j).2 + cc) →
      ∃ d, n.s.timer = some d ∧ n.s.now ≤ d ∧ d ≤ n.s.now + T2) := by
  have hi := steps_inv h (start_inv t1 cc c t len now hl hb)
  refine ⟨hi.known k w hk, ?_⟩
  intro j h1 h2 h3
  apply hi.soon
  apply hi.armed k w hk
  refine ⟨j, h1, h2, ?_⟩
  cases hs : n.s.srm j with
  | true => rfl
  | false => exact absurd (hi.known k w hk j h1 h2 hs) h3

/-- When the timer expires, every neighbour that listens knows the whole current table. -/
theorem update_tells_all (t1 cc : Nat) (c : Circ) (t : Table) (len now : Nat) (hl : lowid c < len) (hb : 16 ≤ c.blk)
    (es : List Ev) (n m : Net) (h : Steps t1 cc (start t1 c t len now) es n) (hf : step t1 cc n .fire = some m)
    (k : Nat) (w : View) (hk : m.view k = some w) (j : Nat) (h1 : first m.s.c ≤ j) (h2 : j < m.s.len) :
    m.s.t = n.s.t ∧ w j = some ((n.s.t j).1 + 1, (n.s.t j).2 + cc) := by
  have hi := steps_inv h (start_inv t1 cc c t len now hl hb)
  obtain ⟨m', e, hi'⟩ := step_inv t1 cc n .fire hi trivial
  rw [hf] at e
  cases e
  have hw' := hi'.wants k w hk
  have key : m.s.t = n.s.t ∧ m.s.srm j = false := by
    by_cases hw : want n.s.c = .no
    · exfalso
      have e : timeout t1 n.s = some ({ n.s with holdoff := false, timer := none }, none) := by
        unfold timeout
        simp only [hw]
      dsimp only [step] at hf
      rw [e] at hf
      cases hf
      exact hw' hw
    · obtain ⟨s', x, e, f1, f2, f3, _, _, _, _, f8, _⟩ := timeout_spec t1 cc n.s hi.len hi.blk hi.any hw
      dsimp only [step] at hf
      rw [e] at hf
      cases hf
      refine ⟨f2, f8 j ?_ ?_⟩
      · rw [← f1]; exact h1
      · rw [← f3]; exact h2
  refine ⟨key.1, ?_⟩
  have := hi'.known k w hk j h1 h2 key.2
  rw [this]
  unfold current
  rw [key.1]

/-- Time that passes in a list of events. -/
def elapsed : List Ev → Nat
  | [] => 0
  | .tick d :: es => d + elapsed es
  | _ :: es => elapsed es

theorem deadline {t1 cc : Nat} {n m : Net} {es : List Ev} (h : Steps t1 cc n es m) (hi : Inv1 cc n) (d : Nat)
    (hh : n.s.holdoff = true) (hd : n.s.timer = some d) (hn : n.s.now ≤ d) (hnf : ∀ e ∈ es, e ≠ .fire) :
    n.s.now + elapsed es ≤ d := by
  induction h with
  | nil => simpa [elapsed] using hn
  | @cons n m' r e es hv he hs ih =>
    obtain ⟨_, e', hi'⟩ := step_inv t1 cc n e hi hv
    rw [he] at e'
    cases e'
    have keep : ∀ (a b : Nat) (t' : Table), (setsrm a b { n.s with t := t' }).holdoff = true ∧
        (setsrm a b { n.s with t := t' }).timer = n.s.timer ∧ (setsrm a b { n.s with t := t' }).now = n.s.now := by
      intro a b t'
      by_cases hn' : n.s.c.ntype ≠ .endnode ∧ n.s.c.ntype ≠ .phase2
      · obtain ⟨_, _, g3, _, g5⟩ := setsrm_on a b { n.s with t := t' } hn'
        exact ⟨g3, g5 hh, (setsrm_fields a b { n.s with t := t' }).2.2.2⟩
      · rw [setsrm_off a b { n.s with t := t' } hn']
        exact ⟨hh, rfl, rfl⟩
    have fin : m'.s.holdoff = true → m'.s.timer = some d → ∀ x, m'.s.now = n.s.now + x → n.s.now + x ≤ d →
        n.s.now + (x + elapsed es) ≤ d := by
      intro a b x c c'
      have := ih hi' a b (by omega) (fun e' he' => hnf e' (by simp [he']))
      omega
    cases e with
    | tick x =>
      cases he
      exact fin hh hd x rfl (hv d hd)
    | entry i v =>
      dsimp only [step] at he
      have k := keep i i (fun j => if j = i then v else n.s.t j)
      by_cases hq : n.s.t i = v
      · rw [if_pos hq] at he; cases he
        have := fin hh hd 0 rfl (by omega)
        show n.s.now + elapsed es ≤ d
        omega
      · rw [if_neg hq] at he; cases he
        have := fin k.1 (k.2.1.trans hd) 0 k.2.2 (by omega)
        show n.s.now + elapsed es ≤ d
        omega
    | touch i =>
      have k := keep i i n.s.t
      cases he
      have := fin k.1 (k.2.1.trans hd) 0 k.2.2 (by omega)
      show n.s.now + elapsed es ≤ d
      omega
    | up j =>
      dsimp only [step] at he
      have k := keep (lowid n.s.c) (n.s.len - 1) n.s.t
      by_cases hq : want n.s.c = .no
      · rw [if_pos hq] at he; cases he
        have := fin hh hd 0 rfl (by omega)
        show n.s.now + elapsed es ≤ d
        omega
      · rw [if_neg hq] at he; cases he
        have := fin k.1 (k.2.1.trans hd) 0 k.2.2 (by omega)
        show n.s.now + elapsed es ≤ d
        omega
    | fire => exact absurd rfl (hnf .fire (by simp))
    | _ =>
      cases he
      have := fin hh hd 0 rfl (by omega)
      show n.s.now + elapsed es ≤ d
      omega

/-- A neighbour that does not know the current table is told within the holdoff time: no history goes on
for longer without an update being sent (after which, by `update_tells_all`, it knows). -/
theorem told_within_holdoff (t1 cc : Nat) (c : Circ) (t : Table) (len now : Nat) (hl : lowid c < len) (hb : 16 ≤ c.blk)
    (es : List Ev) (n : Net) (h : Steps t1 cc (start t1 c t len now) es n) (k : Nat) (w : View)
    (hk : n.view k = some w) (j : Nat) (h1 : first n.s.c ≤ j) (h2 : j < n.s.len)
    (hw : w j ≠ some ((n.s.t j).1 + 1, (n.s.t j).2 + cc)) (es' : List Ev) (m : Net) (hs : Steps t1 cc n es' m)
    (hlong : T2 < elapsed es') : .fire ∈ es' := by
  have hi := steps_inv h (start_inv t1 cc c t len now hl hb)
  have hh : n.s.holdoff = true := by
    apply hi.armed k w hk
    refine ⟨j, h1, h2, ?_⟩
    cases hx : n.s.srm j with
    | true => rfl
    | false => exact absurd (hi.known k w hk j h1 h2 hx) hw
  obtain ⟨d, e1, e2, e3⟩ := hi.soon hh
  by_cases hf : Ev.fire ∈ es'
  · exact hf
  · have := deadline hs hi d hh e1 e2 (fun e he hq => hf (hq ▸ he))
    omega

/-! ## Findings -/

/-- A neighbour that announces a block size below 16 stops the program when the next update is due. -/
theorem small_block_stops_node (t1 : Nat) (s : St) (hw : want s.c = .ph4) (hb : s.c.blk < 16) : timeout t1 s = none := by
  unfold timeout
  simp only [hw]
  rw [build_small _ _ _ _ _ _ hb]
  rfl

/-! ## Cases -/

/-- Entries 1, 2, 4 and 9 of 10 flagged: 1 to 4 in one segment (3 is sent as well), 9 in another. -/
example : (build false (fun j => (j, 10 * j)) 576 0 10 (fun j => j == 1 || j == 2 || j == 4 || j == 9)).map (·.1) =
    some [[(1, [(1, 10), (2, 20), (3, 30), (4, 40)]), (9, [(9, 90)])]] := by decide +kernel

/-- A small block size. -/
example : (build true (fun j => (j, 10 * j)) 30 0 10 (fun _ => false)).map (fun x => x.1.map size) = some [16, 16, 16, 12] := by
  decide +kernel

/-- A circuit comes up, the neighbour is told within a second, a change follows in the next update. -/
example : ∃ n w, Steps 600000 3 (start 600000 ⟨false, false, .unknown, true, false, 576⟩ (fun _ => (31, 1023)) 4 5000)
      [.init .l1 true false 576, .up 0, .tick 0, .fire, .entry 2 (1, 7), .tick 1000, .fire] n ∧
    n.view 0 = some w ∧ w 2 = some (2, 10) ∧ w 3 = some (32, 1026) := by
  refine ⟨_, _, .cons ⟨rfl, rfl, by omega⟩ rfl (.cons trivial rfl (.cons ?_ rfl (.cons trivial rfl
    (.cons ⟨by decide, by decide⟩ rfl (.cons ?_ rfl (.cons trivial rfl (.nil _))))))), rfl, ?_, ?_⟩
  · intro x hx; cases hx; decide
  · intro x hx; cases hx; decide
  · decide +kernel
  · decide +kernel

/-- C21, who gets updates, and in which format: no one on a circuit to an end node, a Phase II node or
whoever is not known yet; on a point to point circuit, level 2 updates go to area routers only, and level 1
updates not to area routers of another area.  The Phase III format is for level 1 and point to point only. -/
theorem recipients (t1 : Nat) (s s' : St) (o : Option Sent) (h : timeout t1 s = some (s', o)) :
    (o = none ↔ s.c.ntype = .unknown ∨ s.c.ntype = .endnode ∨ s.c.ntype = .phase2 ∨
      (s.c.lan = false ∧ ((s.c.l2 = true ∧ s.c.ntype ≠ .l2) ∨
        (s.c.l2 = false ∧ s.c.ntype = .l2 ∧ s.c.sameArea = false)))) ∧
    (∀ v, o = some (.ph3 v) → s.c.lan = false ∧ s.c.l2 = false ∧ s.c.ph3 = true) ∧
    (∀ v, o = some (.ph4 v) → s.c.lan = true ∨ s.c.l2 = true ∨ s.c.ph3 = false) := by
  have key : (o = none ↔ want s.c = .no) ∧ (∀ v, o = some (.ph3 v) → want s.c = .ph3) ∧
      (∀ v, o = some (.ph4 v) → want s.c = .ph4) := by
    unfold timeout at h
    dsimp only at h
    cases hw : want s.c with
    | no => rw [hw] at h; cases h; simp
    | ph3 =>
      rw [hw] at h
      simp only [if_true, Option.map_some, Option.some.injEq, Prod.mk.injEq] at h
      obtain ⟨-, rfl⟩ := h
      simp
    | ph4 =>
      rw [hw] at h
      simp only [reduceCtorEq, if_false, Option.map_map] at h
      cases hb : build (!s.anysrm) s.t s.c.blk (lowid s.c) s.len s.srm with
      | none => rw [hb] at h; cases h
      | some x =>
        rw [hb] at h
        simp only [Option.map_some, Function.comp_apply, Option.some.injEq, Prod.mk.injEq] at h
        obtain ⟨-, rfl⟩ := h
        simp
  obtain ⟨k1, k2, k3⟩ := key
  have tab : ∀ c : Circ, (want c = .no ↔ c.ntype = .unknown ∨ c.ntype = .endnode ∨ c.ntype = .phase2 ∨
      (c.lan = false ∧ ((c.l2 = true ∧ c.ntype ≠ .l2) ∨ (c.l2 = false ∧ c.ntype = .l2 ∧ c.sameArea = false)))) ∧
      (want c = .ph3 → c.lan = false ∧ c.l2 = false ∧ c.ph3 = true) ∧
      (want c = .ph4 → c.lan = true ∨ c.l2 = true ∨ c.ph3 = false) := by
    intro c
    unfold want
    cases c.ntype <;> cases c.lan <;> cases c.l2 <;> cases c.sameArea <;> cases c.ph3 <;> simp
  obtain ⟨t1, t2, t3⟩ := tab s.c
  exact ⟨k1.trans t1, fun v hv => t2 (k2 v hv), fun v hv => t3 (k3 v hv)⟩

end Verif.RUpdate
