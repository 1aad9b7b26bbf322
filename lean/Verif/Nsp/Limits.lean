import Verif.Nsp.Order

/-! How often packets are transmitted, when the link address is released. -/
namespace Verif.Nsp

variable {inp : Inp}

/-- The log entry is a transmission of the packet with that number on that subchannel. -/
def Out.isTx (ch : Chan) (k : Nat) : Out → Bool
  | .tx m => m.body.seq == some (ch, k)
  | _ => false

/-- How often the packet numbered `k` was transmitted on the subchannel. -/
def txCount (ch : Chan) (k : Nat) (log : List Out) : Nat := log.countP (Out.isTx ch k)

/-- The number the next packet of a subchannel gets. -/
def nxt (c : Conn) : Chan → Nat
  | .data => c.data.nextseg
  | .other => c.other.seqnum

/-- Transmission counts of one transmit queue; `cnt k` is the number of transmissions so far. -/
structure TQ (R : Nat) (cnt : Nat → Nat) (ch : Chan) (n : Nat) (q : List QEnt) : Prop where
  lab : (q.filterMap (·.msg.body.seq)).Pairwise (fun a b => a.2 < b.2)
  bnd : ∀ x ∈ q, ∀ p, x.msg.body.seq = some p → p.1 = ch ∧ p.2 < n
  cntx : ∀ x ∈ q, ∀ p, x.msg.body.seq = some p → cnt p.2 = x.tries
  lim : ∀ x ∈ q, x.tries ≤ R ∧ (x.sent = false → x.tries < R)
  all : ∀ k, cnt k ≤ R
  fut : ∀ k, n ≤ k → cnt k = 0

theorem TQ.drop {R : Nat} {cnt : Nat → Nat} {ch : Chan} {n : Nat} {q : List QEnt}
    (h : TQ R cnt ch n q) (j : Nat) : TQ R cnt ch n (q.drop j) := by
  have hm : ∀ x ∈ q.drop j, x ∈ q := fun x hx => List.mem_of_mem_drop hx
  exact ⟨h.lab.sublist ((List.drop_sublist j q).filterMap _), fun x hx => h.bnd x (hm x hx),
    fun x hx => h.cntx x (hm x hx), fun x hx => h.lim x (hm x hx), h.all, h.fut⟩

theorem TQ.nil {R : Nat} {cnt : Nat → Nat} {ch : Chan} {n : Nat} {q : List QEnt}
    (h : TQ R cnt ch n q) : TQ R cnt ch n [] := by
  have := h.drop q.length
  rwa [List.drop_length] at this

theorem filterMap_set {α β : Type} {f : α → Option β} {q : List α} {i : Nat} {x y : α}
    (hx : q[i]? = some x) (h : f y = f x) : (q.set i y).filterMap f = q.filterMap f := by
  induction q generalizing i with
  | nil => rfl
  | cons a l ih =>
    cases i with
    | zero =>
      cases hx
      rw [List.set_cons_zero, List.filterMap_cons, List.filterMap_cons, h]
    | succ i =>
      rw [List.set_cons_succ, List.filterMap_cons, List.filterMap_cons, ih (by simpa using hx)]

theorem TQ.set {R : Nat} {cnt : Nat → Nat} {ch : Chan} {n : Nat} {q : List QEnt}
    (h : TQ R cnt ch n q) {i : Nat} {x y : QEnt} (hx : q[i]? = some x)
    (h1 : y.msg.body.seq = x.msg.body.seq) (h2 : y.tries = x.tries)
    (h3 : y.sent = false → x.tries < R) : TQ R cnt ch n (q.set i y) := by
  have hxm := List.mem_of_getElem? hx
  refine ⟨by rw [filterMap_set hx h1]; exact h.lab, ?_, ?_, ?_, h.all, h.fut⟩
  · intro z hz p hp
    rcases List.mem_or_eq_of_mem_set hz with hz | rfl
    · exact h.bnd z hz p hp
    · rw [h1] at hp; exact h.bnd x hxm p hp
  · intro z hz p hp
    rcases List.mem_or_eq_of_mem_set hz with hz | rfl
    · exact h.cntx z hz p hp
    · rw [h1] at hp; rw [h2]; exact h.cntx x hxm p hp
  · intro z hz
    rcases List.mem_or_eq_of_mem_set hz with hz | rfl
    · exact h.lim z hz
    · rw [h2]; exact ⟨(h.lim x hxm).1, h3⟩

/-- Transmission of an entry without number. -/
theorem TQ.fire0 {R : Nat} {cnt : Nat → Nat} {ch : Chan} {n : Nat} {q : List QEnt}
    (h : TQ R cnt ch n q) {i : Nat} {x y : QEnt} (hx : q[i]? = some x)
    (h0 : x.msg.body.seq = none) (h1 : y.msg.body.seq = none) (h2 : y.tries = x.tries + 1)
    (h3 : y.sent = true) (ht : x.tries < R) : TQ R cnt ch n (q.set i y) := by
  refine ⟨by rw [filterMap_set hx (by rw [h0, h1])]; exact h.lab, ?_, ?_, ?_, h.all, h.fut⟩
  · intro z hz p hp
    rcases List.mem_or_eq_of_mem_set hz with hz | rfl
    · exact h.bnd z hz p hp
    · rw [h1] at hp; cases hp
  · intro z hz p hp
    rcases List.mem_or_eq_of_mem_set hz with hz | rfl
    · exact h.cntx z hz p hp
    · rw [h1] at hp; cases hp
  · intro z hz
    rcases List.mem_or_eq_of_mem_set hz with hz | rfl
    · exact h.lim z hz
    · rw [h2]; exact ⟨by omega, by rw [h3]; intro h; cases h⟩

/-- Entries at different positions have different numbers. -/
theorem lab_ne {q : List QEnt} (h : (q.filterMap (·.msg.body.seq)).Pairwise (fun a b => a.2 < b.2))
    {i : Nat} {x y z : QEnt} {p p' : Chan × Nat} (hx : q[i]? = some x) (hp : x.msg.body.seq = some p)
    (hz : z ∈ q.set i y) (hne : z ≠ y) (hp' : z.msg.body.seq = some p') : p'.2 ≠ p.2 := by
  induction q generalizing i with
  | nil => cases hx
  | cons a l ih =>
    have hl : (l.filterMap (·.msg.body.seq)).Pairwise (fun a b => a.2 < b.2) := by
      rw [List.filterMap_cons] at h
      split at h
      · exact h
      · exact (List.pairwise_cons.1 h).2
    cases i with
    | zero =>
      cases hx
      rw [List.set_cons_zero, List.mem_cons] at hz
      rcases hz with hz | hz
      · exact absurd hz hne
      · rw [List.filterMap_cons_some (f := fun x : QEnt => x.msg.body.seq) hp, List.pairwise_cons] at h
        have := h.1 p' (List.mem_filterMap.2 ⟨z, hz, hp'⟩)
        omega
    | succ i =>
      rw [List.set_cons_succ, List.mem_cons] at hz
      have hx' : l[i]? = some x := by simpa using hx
      rcases hz with rfl | hz
      · rw [List.filterMap_cons_some (f := fun x : QEnt => x.msg.body.seq) hp', List.pairwise_cons] at h
        have := h.1 p (List.mem_filterMap.2 ⟨x, List.mem_of_getElem? hx', hp⟩)
        omega
      · exact ih hl hx' hz

/-- Transmission of a numbered entry. -/
theorem TQ.fire {R : Nat} {cnt cnt' : Nat → Nat} {ch : Chan} {n : Nat} {q : List QEnt}
    (h : TQ R cnt ch n q) {i k : Nat} {x y : QEnt} (hx : q[i]? = some x)
    (h0 : x.msg.body.seq = some (ch, k)) (h1 : y.msg.body.seq = some (ch, k)) (h2 : y.tries = x.tries + 1)
    (h3 : y.sent = true) (ht : x.tries < R) (hc : cnt' k = cnt k + 1)
    (hc' : ∀ j, j ≠ k → cnt' j = cnt j) : TQ R cnt' ch n (q.set i y) := by
  have hxm := List.mem_of_getElem? hx
  have hkx := h.cntx x hxm _ h0
  have hkn := (h.bnd x hxm _ h0).2
  have hy' : ∀ z ∈ q.set i y, ∀ p, z.msg.body.seq = some p → z ≠ y → p.2 ≠ k := by
    intro z hz p hp hne
    exact lab_ne h.lab hx h0 hz hne hp
  refine ⟨by rw [filterMap_set hx (by rw [h0, h1])]; exact h.lab, ?_, ?_, ?_, ?_, ?_⟩
  · intro z hz p hp
    rcases List.mem_or_eq_of_mem_set hz with hz | rfl
    · exact h.bnd z hz p hp
    · rw [h1] at hp; cases hp; exact ⟨rfl, hkn⟩
  · intro z hz p hp
    by_cases hzy : z = y
    · subst hzy
      rw [h1] at hp; cases hp
      show cnt' k = _
      rw [hc, h2]; have : cnt k = x.tries := hkx
      omega
    · rw [hc' _ (hy' z hz p hp hzy)]
      rcases List.mem_or_eq_of_mem_set hz with hz | rfl
      · exact h.cntx z hz p hp
      · exact absurd rfl hzy
  · intro z hz
    rcases List.mem_or_eq_of_mem_set hz with hz | rfl
    · exact h.lim z hz
    · rw [h2]; exact ⟨by omega, by rw [h3]; intro h; cases h⟩
  · intro j
    by_cases hj : j = k
    · subst hj; rw [hc]; have : cnt j = x.tries := hkx; omega
    · rw [hc' j hj]; exact h.all j
  · intro j hj
    rw [hc' j (by have : k < n := hkn; omega)]; exact h.fut j hj

theorem TQ.app0 {R : Nat} {cnt : Nat → Nat} {ch : Chan} {n : Nat} {q : List QEnt}
    (h : TQ R cnt ch n q) (hR : 1 ≤ R) {y : QEnt} (h1 : y.msg.body.seq = none) (h2 : y.tries = 0) :
    TQ R cnt ch n (q ++ [y]) := by
  refine ⟨?_, ?_, ?_, ?_, h.all, h.fut⟩
  · rw [List.filterMap_append, List.filterMap_cons_none (f := fun x : QEnt => x.msg.body.seq) h1, List.filterMap_nil, List.append_nil]; exact h.lab
  · intro z hz p hp
    rw [List.mem_append, List.mem_singleton] at hz
    rcases hz with hz | rfl
    · exact h.bnd z hz p hp
    · rw [h1] at hp; cases hp
  · intro z hz p hp
    rw [List.mem_append, List.mem_singleton] at hz
    rcases hz with hz | rfl
    · exact h.cntx z hz p hp
    · rw [h1] at hp; cases hp
  · intro z hz
    rw [List.mem_append, List.mem_singleton] at hz
    rcases hz with hz | rfl
    · exact h.lim z hz
    · rw [h2]; exact ⟨by omega, fun _ => by omega⟩

theorem TQ.app {R : Nat} {cnt : Nat → Nat} {ch : Chan} {n : Nat} {q : List QEnt}
    (h : TQ R cnt ch n q) (hR : 1 ≤ R) {y : QEnt} (h1 : y.msg.body.seq = some (ch, n)) (h2 : y.tries = 0) :
    TQ R cnt ch (n + 1) (q ++ [y]) := by
  refine ⟨?_, ?_, ?_, ?_, h.all, fun k hk => h.fut k (by omega)⟩
  · rw [List.filterMap_append, List.filterMap_cons_some (f := fun x : QEnt => x.msg.body.seq) h1, List.filterMap_nil, List.pairwise_append]
    refine ⟨h.lab, by simp, ?_⟩
    intro a ha b hb
    obtain ⟨x, hx, hx'⟩ := List.mem_filterMap.1 ha
    rw [List.mem_singleton] at hb
    rw [hb]; exact (h.bnd x hx a hx').2
  · intro z hz p hp
    rw [List.mem_append, List.mem_singleton] at hz
    rcases hz with hz | rfl
    · have := h.bnd z hz p hp; exact ⟨this.1, by omega⟩
    · rw [h1] at hp; cases hp; exact ⟨rfl, Nat.lt_succ_self _⟩
  · intro z hz p hp
    rw [List.mem_append, List.mem_singleton] at hz
    rcases hz with hz | rfl
    · exact h.cntx z hz p hp
    · rw [h1] at hp; cases hp; rw [h2]; exact h.fut _ (Nat.le_refl _)
  · intro z hz
    rw [List.mem_append, List.mem_singleton] at hz
    rcases hz with hz | rfl
    · exact h.lim z hz
    · rw [h2]; exact ⟨by omega, fun _ => by omega⟩

/-- Transmission counts of a connection. -/
def TI (c : Conn) : Prop :=
  1 ≤ c.cfg.retransmits ∧
  ∀ ch, TQ c.cfg.retransmits (fun k => txCount ch k c.log) ch (nxt c ch) (c.sub ch).pending

theorem txCount_append (ch : Chan) (k : Nat) (a b : List Out) :
    txCount ch k (a ++ b) = txCount ch k a + txCount ch k b := List.countP_append ..

theorem OnlySc.txCount {l : List Out} (h : OnlySc l) (ch : Chan) (k : Nat) : txCount ch k l = 0 := by
  unfold Nsp.txCount
  rw [List.countP_eq_zero]
  intro o ho
  rcases h o ho with ⟨b, rfl⟩ | ⟨b, rfl⟩ | ⟨_, _, _, _, rfl⟩ <;> simp [Out.isTx]

theorem deliver_seqnum (c : Conn) (m : Msg) :
    (deliver c m).other.seqnum = c.other.seqnum ∧ (deliver c m).cfg = c.cfg ∧
    (deliver c m).srcaddr = c.srcaddr := by
  unfold deliver
  split
  · rename_i bom eom p _
    unfold toScData
    have e3 : ∀ b : Bool, (if b = true then c.emit (.scData p) else { c with asm := [p] }).other.seqnum =
        c.other.seqnum ∧ (if b = true then c.emit (.scData p) else { c with asm := [p] }).cfg = c.cfg ∧
        (if b = true then c.emit (.scData p) else { c with asm := [p] }).srcaddr = c.srcaddr := by
      intro b; cases b <;> exact ⟨rfl, rfl, rfl⟩
    split_ifs
    · exact ⟨rfl, rfl, rfl⟩
    · exact ⟨rfl, rfl, rfl⟩
    · exact e3 true
    · exact e3 eom
  · exact ⟨rfl, rfl, rfl⟩
  · unfold lsEff lsFin lsCredit otherLs
    split_ifs <;> exact ⟨rfl, rfl, rfl⟩
  · exact ⟨rfl, rfl, rfl⟩

theorem deliver_nxt (c1 : Conn) (ch ch' : Chan) (m : Msg) :
    nxt (deliver (book c1 ch m) m) ch' = nxt c1 ch' := by
  cases ch' with
  | data =>
    show ((deliver (book c1 ch m) m).sub .data).nextseg = _
    rw [(deliver_sub _ m .data).2.2.2.2, (book_sub c1 m ch .data).2.2.2.2]; rfl
  | other =>
    show (deliver (book c1 ch m) m).other.seqnum = _
    rw [(deliver_seqnum _ m).1]
    cases ch <;> rfl

theorem deliver_txCount (c1 : Conn) (ch ch' : Chan) (m : Msg) (k : Nat) :
    txCount ch' k (deliver (book c1 ch m) m).log = txCount ch' k c1.log := by
  obtain ⟨l, hl, ho⟩ := deliver_log (book c1 ch m) m
  have hb : (book c1 ch m).log = c1.log ++ [.up ch m] := by cases ch <;> rfl
  rw [hl, txCount_append, ho.txCount, hb, txCount_append]
  rfl

theorem Mi.ti {c c' : Conn} (h : Mi inp c c') (hi : TI c) : TI c' := by
  obtain ⟨hR, hi⟩ := hi
  -- nothing of interest happens
  have keep : ∀ {c' : Conn}, c'.cfg = c.cfg → (∀ ch k, txCount ch k c'.log = txCount ch k c.log) →
      (∀ ch, nxt c' ch = nxt c ch) → (∀ ch, (c'.sub ch).pending = (c.sub ch).pending) → TI c' := by
    intro c' h1 h2 h3 h4
    refine ⟨by rw [h1]; exact hR, fun ch => ?_⟩
    rw [h1, h3, h4, show (fun k => txCount ch k c'.log) = (fun k => txCount ch k c.log) from
      funext (h2 ch)]
    exact hi ch
  have one : ∀ {o : Out}, (∀ ch k, o.isTx ch k = false) → ∀ ch k,
      txCount ch k (c.log ++ [o]) = txCount ch k c.log := by
    intro o ho ch k
    rw [txCount_append]
    have : txCount ch k [o] = 0 := by unfold txCount; rw [List.countP_cons, ho]; rfl
    omega
  -- a change of one queue
  have chg : ∀ {ch' : Chan} {q : List QEnt}, TQ c.cfg.retransmits (fun k => txCount ch' k c.log) ch'
      (nxt c ch') q → TI (setPending c ch' q) := by
    intro ch' q hq
    refine ⟨by show 1 ≤ (c.setSub ch' _).cfg.retransmits; rw [cfg_setSub]; exact hR, fun ch => ?_⟩
    unfold setPending
    have e1 : (c.setSub ch' { c.sub ch' with pending := q }).log = c.log := by cases ch' <;> rfl
    have e2 : nxt (c.setSub ch' { c.sub ch' with pending := q }) ch = nxt c ch := by
      cases ch <;> cases ch' <;> rfl
    rw [e1, e2, cfg_setSub]
    rcases chan_cases ch' ch with rfl | rfl
    · rw [sub_setSub]; exact hq
    · rw [sub_setSub_cross]; exact hi _
  cases h with
  | opt b => exact keep rfl (one (fun _ _ => rfl)) (fun ch => by cases ch <;> rfl) (fun ch => by cases ch <;> rfl)
  | send hs ch' m hb ha hch =>
    refine keep rfl (one ?_) (fun ch => by cases ch <;> rfl) (fun ch => by cases ch <;> rfl)
    intro ch k
    show (m.body.seq == some (ch, k)) = false
    have : m.body.seq = none := by
      revert hb; cases m.body <;> intro hb <;> first | rfl | cases hb
    rw [this]; rfl
  | fire hs ch' i x m hx ht hr hf =>
    have hxm := List.mem_of_getElem? hx
    have hseq : m.body.seq = x.msg.body.seq := by
      rcases hr.body with h | ⟨r, r', f, i, s, p, h1, h2⟩
      · rw [h]
      · rw [h1, h2]; rfl
    have htr : x.tries < c.cfg.retransmits := by
      rcases ht with h | h
      · exact ((hi ch').lim x hxm).2 h
      · exact h
    refine ⟨?_, fun ch => ?_⟩
    · show 1 ≤ (c.setSub ch' _).cfg.retransmits; rw [cfg_setSub]; exact hR
    · have e0 : ((setPending c ch' ((c.sub ch').pending.set i (fired x m))).emit (.tx m)).cfg = c.cfg :=
        cfg_setSub c ch' _
      have e1 : ((setPending c ch' ((c.sub ch').pending.set i (fired x m))).emit (.tx m)).log =
        c.log ++ [.tx m] := by cases ch' <;> rfl
      have e2 : nxt ((setPending c ch' ((c.sub ch').pending.set i (fired x m))).emit (.tx m)) ch =
        nxt c ch := by cases ch <;> cases ch' <;> rfl
      rw [e0, e1, e2]
      have e3 : ∀ ch, ((setPending c ch' ((c.sub ch').pending.set i (fired x m))).emit (.tx m)).sub ch =
        (setPending c ch' ((c.sub ch').pending.set i (fired x m))).sub ch := fun ch => sub_emit _ _ ch
      rw [e3]
      unfold setPending
      have hcount : ∀ k, txCount ch k (c.log ++ [.tx m]) =
          txCount ch k c.log + if x.msg.body.seq = some (ch, k) then 1 else 0 := by
        intro k
        rw [txCount_append]
        congr 1
        unfold txCount
        rw [List.countP_cons, List.countP_nil, Nat.zero_add]
        show (if (m.body.seq == some (ch, k)) = true then 1 else 0) = _
        rw [hseq]
        by_cases h : x.msg.body.seq = some (ch, k)
        · rw [if_pos h, h, if_pos (beq_self_eq_true _)]
        · rw [if_neg h, if_neg (by simpa using h)]
      rcases chan_cases ch' ch with rfl | rfl
      · rw [sub_setSub]
        cases hq : x.msg.body.seq with
        | none =>
          rw [show (fun k => txCount ch k (c.log ++ [.tx m])) = (fun k => txCount ch k c.log) from
            funext fun k => by rw [hcount, hq]; simp]
          exact (hi ch).fire0 hx hq (by show m.body.seq = none; rw [hseq, hq]) rfl rfl htr
        | some p =>
          obtain ⟨hp1, hp2⟩ := (hi ch).bnd x hxm p hq
          obtain ⟨p1, p2⟩ := p
          have hp1' : p1 = ch := hp1
          subst hp1'
          exact (hi p1).fire hx hq (by show m.body.seq = _; rw [hseq, hq]) rfl rfl htr
            (by show txCount _ _ _ = _; rw [hcount, if_pos hq])
            (fun j hj => by
              show txCount _ _ _ = _
              rw [hcount, if_neg (by rw [hq]; intro h; cases h; exact hj rfl), Nat.add_zero])
      · rw [sub_setSub_cross]
        have : (fun k => txCount ch'.cross k (c.log ++ [.tx m])) = (fun k => txCount ch'.cross k c.log) := by
          funext k
          rw [hcount, if_neg, Nat.add_zero]
          intro h
          have := ((hi ch').bnd x hxm _ h).1
          cases ch' <;> cases this
        rw [this]
        exact hi _
  | block hs ch' i x hx ht => exact chg ((hi ch').set hx rfl rfl (fun _ => ht))
  | idle hs ch' i x hx =>
    exact chg ((hi ch').set hx rfl rfl ((hi ch').lim x (List.mem_of_getElem? hx)).2)
  | enqCtl hs b hb =>
    have : TI (setPending c .data (c.data.pending ++ [{ msg := mk c b }])) := by
      refine chg ((hi .data).app0 hR ?_ rfl)
      show b.seq = none
      cases b <;> first | rfl | cases hb
    exact this
  | enqData hs hd bom eom p =>
    refine ⟨hR, fun ch => ?_⟩
    cases ch with
    | data => exact (hi .data).app hR rfl rfl
    | other => exact hi .other
  | enqInt hs hd p hp hc =>
    refine ⟨hR, fun ch => ?_⟩
    cases ch with
    | data => exact hi .data
    | other => exact (hi .other).app hR rfl rfl
  | enqLs hs =>
    refine ⟨hR, fun ch => ?_⟩
    cases ch with
    | data => exact hi .data
    | other => exact (hi .other).app hR rfl rfl
  | setMax hs ch' k =>
    exact keep (cfg_setSub _ _ _) (fun ch k => by cases ch' <;> rfl) (fun ch => by cases ch <;> cases ch' <;> rfl)
      (fun ch => by cases ch <;> cases ch' <;> rfl)
  | drop hs ch' n k =>
    have h1 : TI (setPending c ch' ((c.sub ch').pending.drop n)) := chg ((hi ch').drop n)
    obtain ⟨g1, g2⟩ := h1
    cases ch' with
    | data => exact ⟨g1, fun ch => by have := g2 ch; cases ch <;> exact this⟩
    | other => exact ⟨g1, fun ch => by have := g2 ch; cases ch <;> exact this⟩
  | upNew hs ch' m k hi' hm hk ho =>
    refine keep ?_ (fun ch k => deliver_txCount c ch' ch m k) (fun ch => deliver_nxt c ch' ch m)
      (fun ch => by rw [(deliver_sub _ m ch).1, (book_sub c m ch' ch).1])
    rw [(deliver_seqnum _ m).2.1]; cases ch' <;> rfl
  | upOld hs ch' m hi' hm =>
    refine keep ?_ (fun ch k => ?_) (fun ch => ?_)
      (fun ch => by rw [(deliver_sub _ m ch).1, (book_sub _ m ch' ch).1, (eraseO_sub c _ ch' ch).1])
    · rw [(deliver_seqnum _ m).2.1]; cases ch' <;> rfl
    · rw [deliver_txCount]; cases ch' <;> rfl
    · rw [deliver_nxt]; cases ch <;> cases ch' <;> rfl
  | oooAdd hs ch' m k hi' hm h1 h2 =>
    exact keep (cfg_setSub _ _ _) (fun ch k => by cases ch' <;> rfl) (fun ch => by cases ch <;> cases ch' <;> rfl)
      (fun ch => by cases ch <;> cases ch' <;> rfl)
  | accepted hs b =>
    exact keep rfl (one (o := .scAccept b) (fun _ _ => rfl)) (fun ch => by cases ch <;> rfl) (fun ch => by cases ch <;> rfl)
  | ccRun hs =>
    exact keep rfl (one (o := .scRun) (fun _ _ => rfl)) (fun ch => by cases ch <;> rfl) (fun ch => by cases ch <;> rfl)
  | tell hs r b rej =>
    exact keep rfl (one (o := .scDisc r b rej) (fun _ _ => rfl)) (fun ch => by cases ch <;> rfl) (fun ch => by cases ch <;> rfl)
  | clear hs =>
    exact ⟨hR, fun ch => by cases ch <;> exact (hi _).nil⟩
  | close hs =>
    refine ⟨hR, fun ch => ?_⟩
    have e : ∀ ch, (fun k => txCount ch k (Nsp.close c).log) = (fun k => txCount ch k c.log) :=
      fun ch => funext (one (o := .released c.srcaddr) (fun _ _ => rfl) ch)
    rw [e]
    cases ch <;> exact (hi _).nil
  | _ => exact keep rfl (fun _ _ => rfl) (fun ch => by cases ch <;> rfl) (fun ch => by cases ch <;> rfl)

theorem start_ti {c : Conn} (h : Start c) (hR : 1 ≤ c.cfg.retransmits) : TI c := by
  refine ⟨hR, ?_⟩
  cases h with
  | out cfg id p =>
    rw [newOut_form] at hR ⊢
    intro ch
    cases ch with
    | data =>
      refine ⟨by simp [Conn.sub, Body.seq], ?_, ?_, ?_, ?_, ?_⟩
      · intro x hx p hp
        obtain rfl := List.mem_singleton.1 hx
        cases hp
      · intro x hx p hp
        obtain rfl := List.mem_singleton.1 hx
        cases hp
      · intro x hx
        obtain rfl := List.mem_singleton.1 hx
        exact ⟨hR, fun h => by cases h⟩
      · intro k; exact Nat.zero_le _
      · intro k _; rfl
    | other => exact ⟨by simp [Conn.sub], (fun x hx => by cases hx), (fun x hx => by cases hx),
        (fun x hx => by cases hx), fun k => Nat.zero_le _, fun k _ => rfl⟩
  | inc cfg id r f i s p =>
    rw [newIn_form] at hR ⊢
    have hc : ∀ ch k, txCount ch k ((if min (nspPhase i) cfg.phase > 2 then
        [Out.tx { dst := r, src := 0, body := .ackConn }] else []) ++ [.scConn p]) = 0 := by
      intro ch k; split_ifs <;> rfl
    intro ch
    have e : ∀ x : QEnt, x ∈ ([] : List QEnt) → False := fun x hx => by cases hx
    cases ch <;> exact ⟨by simp [Conn.sub], (fun x hx => by cases hx), (fun x hx => by cases hx),
        (fun x hx => by cases hx), fun k => by dsimp only; rw [hc]; exact Nat.zero_le _,
        fun k _ => by dsimp only; rw [hc]⟩

theorem Run.ti {c0 c : Conn} {es : List Ev} (h : Run c0 es c) (h0 : Start c0)
    (hR : 1 ≤ c0.cfg.retransmits) : TI c :=
  h.inv (fun _ _ _ hm hp => hm.ti hp) (start_base h0) (start_ti h0 hR)

/-! ### Release of the link address -/

/-- Number of times the address was returned to the pool. -/
def relCount (log : List Out) : Nat := log.countP fun o => match o with | .released _ => true | _ => false

/-- Released exactly when closed, once, and only the connection's own address. -/
structure Rel (id : Nat) (c : Conn) : Prop where
  cnt : relCount c.log = if c.state = .closed then 1 else 0
  own : ∀ i, Out.released i ∈ c.log → i = id
  src : c.srcaddr = id

theorem OnlySc.rel {l : List Out} (h : OnlySc l) : relCount l = 0 ∧ ∀ i, Out.released i ∉ l := by
  constructor
  · unfold relCount
    rw [List.countP_eq_zero]
    intro o ho
    rcases h o ho with ⟨b, rfl⟩ | ⟨b, rfl⟩ | ⟨_, _, _, _, rfl⟩ <;> simp
  · intro i hi
    rcases h _ hi with ⟨b, h⟩ | ⟨b, h⟩ | ⟨_, _, _, _, h⟩ <;> cases h

theorem Mi.rel {id : Nat} {c c' : Conn} (h : Mi inp c c') (hi : Rel id c) : Rel id c' := by
  obtain ⟨h1, h2, h3⟩ := hi
  have keep : ∀ {c' : Conn} (l : List Out), c'.log = c.log ++ l → relCount l = 0 →
      (∀ i, Out.released i ∉ l) → (c'.state = .closed ↔ c.state = .closed) → c'.srcaddr = c.srcaddr →
      Rel id c' := by
    intro c' l e1 e2 e3 e4 e5
    refine ⟨?_, ?_, by rw [e5, h3]⟩
    · rw [e1]
      unfold relCount at h1 e2 ⊢
      rw [List.countP_append, h1, e2]
      simp only [e4, Nat.add_zero]
    · intro i hi
      rw [e1, List.mem_append] at hi
      rcases hi with hi | hi
      · exact h2 i hi
      · exact absurd hi (e3 i)
  have nolog : ∀ {c' : Conn}, c'.log = c.log → c'.state = c.state → c'.srcaddr = c.srcaddr → Rel id c' := by
    intro c' e1 e2 e3
    exact keep [] (by rw [e1, List.append_nil]) rfl (by simp) (by rw [e2]) e3
  have up : ∀ (c1 : Conn) (ch : Chan) (m : Msg), c1.log = c.log → c1.state = c.state →
      c1.srcaddr = c.srcaddr → Rel id (deliver (book c1 ch m) m) := by
    intro c1 ch m e1 e2 e3
    obtain ⟨l, hl, ho⟩ := deliver_log (book c1 ch m) m
    have hb : (book c1 ch m).log = c1.log ++ [.up ch m] := by cases ch <;> rfl
    refine keep (.up ch m :: l) (by rw [hl, hb, e1]; simp) ?_ ?_ ?_ ?_
    · exact ho.rel.1
    · intro i hi
      rcases List.mem_cons.1 hi with h | h
      · cases h
      · exact ho.rel.2 i h
    · rw [(sameRecv_deliver _ m).state, book_state, e2]
    · rw [(deliver_seqnum _ m).2.2, ← e3]; cases ch <;> rfl
  cases h with
  | opt b => exact keep [.opt b] rfl rfl (by simp) Iff.rfl rfl
  | send hs ch' m hb ha hch => exact keep [.tx m] rfl rfl (by simp) Iff.rfl rfl
  | fire hs ch' i x m hx ht hr hf =>
    cases ch' <;> exact keep [.tx m] rfl rfl (by simp) Iff.rfl rfl
  | block hs ch' i x hx ht => cases ch' <;> exact nolog rfl rfl rfl
  | idle hs ch' i x hx => cases ch' <;> exact nolog rfl rfl rfl
  | setMax hs ch' k => cases ch' <;> exact nolog rfl rfl rfl
  | drop hs ch' n k => cases ch' <;> exact nolog rfl rfl rfl
  | oooAdd hs ch' m k hi hm h1 h2 => cases ch' <;> exact nolog rfl rfl rfl
  | upNew hs ch' m k hi hm hk ho => exact up c ch' m rfl rfl rfl
  | upOld hs ch' m hi hm => exact up _ ch' m (by cases ch' <;> rfl) (by cases ch' <;> rfl) (by cases ch' <;> rfl)
  | accepted hs b =>
    refine keep [.scAccept b] rfl rfl (by simp) ⟨(fun h => by cases h), fun h => ?_⟩ rfl
    rcases hs with hs | hs <;> rw [hs] at h <;> cases h
  | ccRun hs =>
    refine keep [.scRun] rfl rfl (by simp) ⟨(fun h => by cases h), fun h => ?_⟩ rfl
    rw [hs] at h; cases h
  | toCd hs => exact keep [] (List.append_nil _).symm rfl (by simp) ⟨(fun h => by cases h), fun h => by rw [hs] at h; cases h⟩ rfl
  | toCc hs => exact keep [] (List.append_nil _).symm rfl (by simp) ⟨(fun h => by cases h), fun h => by rw [hs] at h; cases h⟩ rfl
  | crRun hs => exact keep [] (List.append_nil _).symm rfl (by simp) ⟨(fun h => by cases h), fun h => by rw [hs] at h; cases h⟩ rfl
  | toDi hs =>
    refine keep [] (List.append_nil _).symm rfl (by simp) ⟨(fun h => by cases h), fun h => ?_⟩ rfl
    rcases hs with hs | hs | hs <;> rw [hs] at h <;> cases h
  | tell hs r b rej => exact keep [.scDisc r b rej] rfl rfl (by simp) Iff.rfl rfl
  | close hs =>
    refine ⟨?_, ?_, h3⟩
    · show relCount (c.log ++ [.released c.srcaddr]) = _
      unfold relCount at h1 ⊢
      rw [List.countP_append, h1, if_neg hs]; rfl
    · intro i hi
      have hi' : Out.released i ∈ c.log ++ [.released c.srcaddr] := hi
      rw [List.mem_append, List.mem_singleton] at hi'
      rcases hi' with hi' | hi'
      · exact h2 i hi'
      · cases hi'; exact h3
  | _ => exact nolog rfl rfl rfl

theorem start_rel {c : Conn} (h : Start c) : Rel c.srcaddr c := by
  cases h with
  | out cfg id p => rw [newOut_form]; exact ⟨rfl, by simp, rfl⟩
  | inc cfg id r f i s p =>
    rw [newIn_form]
    refine ⟨?_, ?_, rfl⟩
    · dsimp only; split_ifs <;> first | rfl | (rename_i h; cases h)
    · dsimp only; split_ifs <;> simp

theorem Run.rel {c0 c : Conn} {es : List Ev} (h : Run c0 es c) (h0 : Start c0) : Rel c0.srcaddr c :=
  h.inv (fun _ _ _ hm hp => hm.rel hp) (start_base h0) (start_rel h0)

end Verif.Nsp
