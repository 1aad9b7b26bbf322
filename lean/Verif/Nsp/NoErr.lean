import Verif.Nsp.Flow2

/-! The transmit queue of the other-data subchannel holds consecutive numbers; acknowledgments never
ask for more queue entries than there are; a received packet raises an exception only through a
comparison of numbers exactly half the modulus apart. -/
namespace Verif.Nsp

variable {inp : Inp}

/-- Queue of the other-data subchannel: consecutive numbers ending just below `seqnum`. -/
structure OQ (c : Conn) : Prop where
  lab : ∀ i x, c.other.pending[i]? = some x →
    ∃ k, x.msg.body.seq = some (.other, k) ∧ k + c.other.pending.length = c.other.seqnum + i
  len : c.other.pending.length < c.other.seqnum
  max : c.other.maxseqsent + 1 = c.other.seqnum

theorem OQ.same {c c' : Conn} (h : OQ c) (h1 : c'.other.pending = c.other.pending)
    (h2 : c'.other.seqnum = c.other.seqnum) (h3 : c'.other.maxseqsent = c.other.maxseqsent) : OQ c' :=
  ⟨by rw [h1, h2]; exact h.lab, by rw [h1, h2]; exact h.len, by rw [h2, h3]; exact h.max⟩

theorem Refill.seq {c : Conn} {ch : Chan} {m m' : Msg} (h : Refill c ch m m') {x : Chan × Nat}
    (hs : m.body.seq = some x) : m'.body.seq = some x := by
  rcases h.body with e | ⟨r, r', f, i, s, p, e1, -⟩
  · rw [e]; exact hs
  · rw [e1] at hs; cases hs

theorem OQ.set {c c' : Conn} (h : OQ c) {i : Nat} {x y : QEnt} (hx : c.other.pending[i]? = some x)
    (hy : ∀ z, x.msg.body.seq = some z → y.msg.body.seq = some z)
    (h1 : c'.other.pending = c.other.pending.set i y)
    (h2 : c'.other.seqnum = c.other.seqnum) (h3 : c'.other.maxseqsent = c.other.maxseqsent) :
    OQ c' := by
  refine ⟨?_, by rw [h1, h2, List.length_set]; exact h.len, by rw [h2, h3]; exact h.max⟩
  intro j z hz
  rw [h1] at hz
  rw [h1, h2, List.length_set]
  by_cases hij : i = j
  · subst hij
    obtain ⟨k, hk, hl⟩ := h.lab i x hx
    have hlt : i < c.other.pending.length := by
      rcases Nat.lt_or_ge i c.other.pending.length with h | h
      · exact h
      · rw [List.getElem?_eq_none h] at hx; cases hx
    rw [List.getElem?_set_self hlt] at hz
    cases hz
    exact ⟨k, hy _ hk, hl⟩
  · rw [List.getElem?_set_ne hij] at hz
    exact h.lab j z hz

theorem book_seqnum (c : Conn) (ch : Chan) (m : Msg) : (book c ch m).other.seqnum = c.other.seqnum := by
  cases ch <;> rfl

theorem eraseO_seqnum (c : Conn) (ch : Chan) (w : Nat) :
    (eraseO c ch w).other.seqnum = c.other.seqnum := by
  cases ch <;> rfl

theorem Mi.seqnum {c c' : Conn} (h : Mi inp c c') :
    c'.other.seqnum = c.other.seqnum ∨ c'.other.seqnum = c.other.seqnum + 1 ∧ inp = none := by
  cases h with
  | enqInt hs hd p hp hc hi => exact Or.inr ⟨rfl, hi⟩
  | enqLs hs hi => exact Or.inr ⟨rfl, hi⟩
  | upNew hs ch m k hi hm hk ho => exact Or.inl (by rw [(deliver_seqnum _ _).1, book_seqnum])
  | upOld hs ch m hi hm => exact Or.inl (by rw [(deliver_seqnum _ _).1, book_seqnum, eraseO_seqnum])
  | fire hs ch => left; cases ch <;> rfl
  | block hs ch => left; cases ch <;> rfl
  | idle hs ch => left; cases ch <;> rfl
  | setMax hs ch => left; cases ch <;> rfl
  | drop hs ch => left; cases ch <;> rfl
  | oooAdd hs ch => left; cases ch <;> rfl
  | _ => exact Or.inl rfl

theorem Mi.oq {c c' : Conn} (h : Mi inp c c') (hs : c'.other.seqnum = c.other.seqnum) (ho : OQ c) :
    OQ c' := by
  cases h with
  | enqInt hs' hd p hp hc hi => exact absurd hs (by show ¬ (c.other.seqnum + 1 = c.other.seqnum); omega)
  | enqLs hs' hi => exact absurd hs (by show ¬ (c.other.seqnum + 1 = c.other.seqnum); omega)
  | upNew hs' ch m k hi hm hk ho' =>
    exact ho.same (by rw [show (deliver (book c ch m) m).other = ((deliver (book c ch m) m).sub .other) from rfl,
        (deliver_sub _ m .other).1, (book_sub c m ch .other).1]; rfl)
      hs (by rw [show (deliver (book c ch m) m).other = ((deliver (book c ch m) m).sub .other) from rfl,
        (deliver_sub _ m .other).2.2.1, (book_sub c m ch .other).2.2.1]; rfl)
  | upOld hs' ch m hi hm =>
    refine ho.same ?_ hs ?_
    · show ((deliver _ m).sub .other).pending = _
      rw [(deliver_sub _ m .other).1, (book_sub _ m ch .other).1, (eraseO_sub c _ ch .other).1]; rfl
    · show ((deliver _ m).sub .other).maxseqsent = _
      rw [(deliver_sub _ m .other).2.2.1, (book_sub _ m ch .other).2.2.1,
        (eraseO_sub c _ ch .other).2.2.1]; rfl
  | fire hs' ch i x m hx ht hr hf =>
    cases ch
    · exact ho.same rfl rfl rfl
    · exact ho.set hx (y := fired x m) (fun z hz => hr.seq hz) rfl rfl rfl
  | block hs' ch i x hx =>
    cases ch
    · exact ho.same rfl rfl rfl
    · exact ho.set hx (y := { x with sent := false, timer := false }) (fun z hz => hz) rfl rfl rfl
  | idle hs' ch i x hx =>
    cases ch
    · exact ho.same rfl rfl rfl
    · exact ho.set hx (y := { x with timer := false }) (fun z hz => hz) rfl rfl rfl
  | setMax hs' ch k hk =>
    cases ch
    · exact ho.same rfl rfl rfl
    · exact ⟨ho.lab, ho.len, (hk rfl).symm⟩
  | drop hs' ch n k =>
    cases ch
    · exact ho.same rfl rfl rfl
    · refine ⟨?_, ?_, ho.max⟩
      · intro i x hx
        have hx : (c.other.pending.drop n)[i]? = some x := hx
        show ∃ k, _ ∧ k + (c.other.pending.drop n).length = c.other.seqnum + i
        rw [List.getElem?_drop] at hx
        obtain ⟨k, hk, hl⟩ := ho.lab _ x hx
        have hlt : n + i < c.other.pending.length := by
          rcases Nat.lt_or_ge (n + i) c.other.pending.length with h | h
          · exact h
          · rw [List.getElem?_eq_none h] at hx; cases hx
        exact ⟨k, hk, by rw [List.length_drop]; omega⟩
      · show (c.other.pending.drop n).length < c.other.seqnum
        rw [List.length_drop]; have := ho.len; omega
  | oooAdd hs' ch =>
    cases ch <;> exact ho.same rfl rfl rfl
  | clear hs' =>
    exact ⟨fun i x hx => (by cases hx), by show 0 < c.other.seqnum; have := ho.len; omega, ho.max⟩
  | close hs' =>
    exact ⟨fun i x hx => (by cases hx), by show 0 < c.other.seqnum; have := ho.len; omega, ho.max⟩
  | _ => exact ho.same rfl rfl rfl

theorem Mis.seqnum_le {c c' : Conn} (h : Mis inp c c') : c.other.seqnum ≤ c'.other.seqnum := by
  induction h with
  | refl => exact Nat.le_refl _
  | tail _ h2 ih => rcases h2.seqnum with h | ⟨h, -⟩ <;> omega

theorem Mis.oq {c c' : Conn} (h : Mis inp c c') (hs : c'.other.seqnum = c.other.seqnum) (ho : OQ c) :
    OQ c' := by
  induction h with
  | refl => exact ho
  | tail h1 h2 ih =>
    have h3 := Mis.seqnum_le h1
    have h4 := Mis.seqnum_le (Mis.one h2)
    exact h2.oq (by omega) (ih (by omega))

theorem Mis.seqnum_some {x : Msg × Nat} {c c' : Conn} (h : Mis (some x) c c') :
    c'.other.seqnum = c.other.seqnum := by
  induction h with
  | refl => rfl
  | tail h1 h2 ih =>
    rcases h2.seqnum with h | ⟨-, h⟩
    · omega
    · cases h

theorem otherSend_oq {c c' : Conn} {b : Body} {k : Nat}
    (ho : OQ { c with other := { c.other with seqnum := k } }) (hb : b.isAckHdr = true)
    (hq : b.seq = some (.other, k)) (he : otherSend c b k = .ok c') :
    OQ { c' with other := { c'.other with seqnum := k + 1 } } := by
  have hl : ∀ i x, c.other.pending[i]? = some x →
    ∃ j, x.msg.body.seq = some (.other, j) ∧ j + c.other.pending.length = k + i := ho.lab
  have hn : c.other.pending.length < k := ho.len
  have hm : c.other.maxseqsent + 1 = k := ho.max
  obtain ⟨a, h, a', h', m', ms, e1, hr, e2⟩ := otherSend_form hb he
  have hms : c'.other.maxseqsent = k := by
    unfold otherSend at he
    dsimp only at he
    split_ifs at he with hc
    · obtain ⟨a, h, a', h', m', e, hr⟩ := qsend_form
        { c with other := { c.other with nextmsg := c.other.nextmsg + 1 } } .other
        { msg := mk c b, msgnum := c.other.nextmsg }
      rw [e] at he
      rw [maxUpd_ok (by show k ≤ c.other.maxseqsent + 2047; omega)
        (by show c.other.maxseqsent ≤ k + 2047; omega)] at he
      cases he
      show max c.other.maxseqsent k = k
      omega
  have hp : c'.other.pending = c.other.pending ++
      [fired { msg := mk c b, msgnum := c.other.nextmsg } m'] := by rw [e2]
  refine ⟨?_, ?_, ?_⟩
  · intro i x hx
    have hx : c'.other.pending[i]? = some x := hx
    show ∃ j, _ ∧ j + c'.other.pending.length = k + 1 + i
    rw [hp] at hx ⊢
    rw [List.length_append, List.length_singleton]
    rcases Nat.lt_or_ge i c.other.pending.length with hi | hi
    · rw [List.getElem?_append_left hi] at hx
      obtain ⟨j, hk, hl⟩ := hl i x hx
      exact ⟨j, hk, by omega⟩
    · rw [List.getElem?_append_right hi] at hx
      have : i - c.other.pending.length = 0 := by
        rcases Nat.eq_zero_or_pos (i - c.other.pending.length) with h | h
        · exact h
        · rw [List.getElem?_eq_none (by rw [List.length_singleton]; omega)] at hx; cases hx
      rw [this] at hx
      cases hx
      exact ⟨k, by show m'.body.seq = _; rw [e1]; exact hq, by omega⟩
  · show c'.other.pending.length < k + 1
    rw [hp, List.length_append, List.length_singleton]
    omega
  · show c'.other.maxseqsent + 1 = k + 1
    omega

theorem start_oq {c : Conn} (h : Start c) : OQ c := by
  cases h with
  | out cfg id payload =>
    rw [newOut_form]
    exact ⟨fun i x hx => (by cases hx), by show 0 < 1; omega, rfl⟩
  | inc cfg id remote fcopt info segsize payload =>
    rw [newIn_form]
    exact ⟨fun i x hx => (by cases hx), by show 0 < 1; omega, rfl⟩

theorem sendCtl_seqnum (c : Conn) (b : Body) : (sendCtl c b).other.seqnum = c.other.seqnum :=
  (fr_qsend c .data { msg := mk c b }).seqnum

theorem discRej_seqnum {c c' : Conn} {r : Int} {p : Bytes} (h : discRej c r p = .ok c') :
    c'.other.seqnum = c.other.seqnum := by
  rw [(discRej_ok h).2, sendCtl_seqnum]; rfl

theorem fin_seqnum {c : Conn} {r : Except Err Conn}
    (h : ∀ c', r = .ok c' → c'.other.seqnum = c.other.seqnum) :
    (step.fin c r).1.other.seqnum = c.other.seqnum := by
  cases r with
  | ok c' => exact h c' rfl
  | error e => rfl

theorem qeTimeout_seqnum (c : Conn) (ch : Chan) (i : Nat) :
    (qeTimeout c ch i).other.seqnum = c.other.seqnum := by
  unfold qeTimeout
  split
  · rfl
  · rename_i qe hq
    split_ifs
    · split
      · cases ch <;> rfl
      · rfl
    · cases ch <;> rfl
    · cases ch
      · exact (fr_qsend c .data qe).seqnum
      · exact (fr_qsend c .other qe).seqnum

theorem runTimeout_oq {c c' : Conn} (ho : OQ c) (he : runTimeout c = .ok c') : OQ c' := by
  unfold runTimeout at he
  dsimp only at he
  obtain ⟨a, h, a', h', m', ms, e1, hr, e2⟩ := otherSend_form rfl he
  have := otherSend_oq (b := .linkSvc c.other.seqnum 0 0 0) (k := c.other.seqnum)
    (c := { c with other := { c.other with seqnum := c.other.seqnum + 1 } }) (ho.same rfl rfl rfl)
    rfl rfl he
  have hsq : c'.other.seqnum = c.other.seqnum + 1 := by rw [e2]; rfl
  rw [← hsq] at this
  exact this

theorem fin_oq {c : Conn} {r : Except Err Conn} (ho : OQ c) (h : ∀ c', r = .ok c' → OQ c') :
    OQ (step.fin c r).1 := by
  cases r with
  | ok c' => exact h c' rfl
  | error e => exact ho

theorem step_oq {c : Conn} {e : Ev} (ho : OQ c) (hb : Base c) (he : Enabled c e) :
    OQ (step c e).1 := by
  have hm := (step_base hb he).2
  cases e with
  | recv m => exact Mis.oq hm (Mis.seqnum_some hm) ho
  | connTimeout =>
    refine fin_oq ho fun c' h => ?_
    unfold connTimeout at h
    dsimp only at h
    have ho' : OQ { c with timer := false } := ho.same rfl rfl rfl
    split at h
    · cases h; exact ⟨fun i x hx => (by cases hx), by show 0 < c.other.seqnum; have := ho.len; omega, ho.max⟩
    · cases h; exact ⟨fun i x hx => (by cases hx), by show 0 < c.other.seqnum; have := ho.len; omega, ho.max⟩
    · rw [bind_ok] at h
      obtain ⟨c1, e1, h⟩ := h
      cases h
      exact OQ.same (Mis.oq (inp := none) (mis_discRej rfl e1) (discRej_seqnum e1)
        (ho.same rfl rfl rfl)) rfl rfl rfl
    · exact runTimeout_oq ho' h
    · exact runTimeout_oq ho' h
    · cases h; exact ho'
    · cases h
  | holdTimeout ch => exact Mis.oq hm (fr_sendAck c ch).seqnum ho
  | qeTimeout ch i => exact Mis.oq hm (qeTimeout_seqnum c ch i) ho
  | accept p =>
    refine Mis.oq hm (fin_seqnum fun c' h => ?_) ho
    unfold accept at h
    split_ifs at h
    · cases h; rfl
    · cases h; exact sendCtl_seqnum _ _
  | reject r p =>
    refine Mis.oq hm ?_ ho
    dsimp only [step]
    split_ifs
    · rfl
    · exact fin_seqnum fun c' h => discRej_seqnum h
  | disconnect r p =>
    refine Mis.oq hm ?_ ho
    dsimp only [step]
    split_ifs
    · rfl
    · rfl
    · exact fin_seqnum fun c' h => discRej_seqnum h
  | abort r p =>
    refine Mis.oq hm ?_ ho
    dsimp only [step]
    split_ifs
    · rfl
    · refine fin_seqnum fun c' h => ?_
      cases h1 : discRej c r p with
      | error e => rw [h1] at h; cases h
      | ok c1 => rw [h1] at h; cases h; exact (discRej_seqnum h1 : c1.other.seqnum = _)
  | sendData d =>
    refine Mis.oq hm (fin_seqnum fun c' h => ?_) ho
    unfold sendData at h
    split_ifs at h with h1 h2
    have hs : c.state = .run ∧ c.shutdown = false := by simpa using h1
    exact (mis_sendAll (inp := none) _ _ _ hs.1 hs.2 h).2.seqnum
  | interrupt d =>
    refine fin_oq ho fun c' h => ?_
    unfold interrupt at h
    split_ifs at h
    rw [bind_ok] at h
    obtain ⟨c1, e1, h⟩ := h
    have hoq := otherSend_oq (k := c.other.seqnum) (ho.same rfl rfl rfl) rfl rfl e1
    cases h
    obtain ⟨a, h, a', h', m', ms, -, hr, e2⟩ := otherSend_form rfl e1
    have : c1.other.seqnum = c.other.seqnum := by rw [e2]; rfl
    rw [this]; exact hoq
  | setsockopt b => exact ho.same rfl rfl rfl
  | learn a => exact ho.same rfl rfl rfl

theorem Run.oq {c0 c : Conn} {es : List Ev} (h : Run c0 es c) (h0 : Start c0) : OQ c := by
  induction h with
  | nil => exact start_oq h0
  | snoc h1 he _ ih => exact step_oq ih (h1.base (start_base h0)) he

/-! ### Acknowledgments find what they release -/

/-- `Clash a k`: the numbers are exactly half the modulus apart. -/
def Clash (a k : Nat) : Prop := (a + 2048) % 4096 = k % 4096

theorem dist_clash {a k : Nat} : dist a k = 2048 ↔ Clash k a := by
  unfold dist Clash; omega

theorem dist_clash' {a k : Nat} : dist a k = 2048 ↔ Clash a k := by
  unfold dist Clash; omega

/-- The numbers an acknowledgment on `ch` may be compared with: those of the segments in the
transmit queue and the highest number sent. -/
def cmpNums (c : Conn) (ch : Chan) : List Nat :=
  (c.sub ch).maxseqsent :: (c.sub ch).pending.filterMap fun x => x.msg.body.ackable

theorem ack_other_ok {c : Conn} {a : Nat} (h : OQ c) (hc : ∀ k ∈ cmpNums c .other, ¬ Clash a k) :
    ∃ c', ack c .other a = .ok c' := by
  unfold ack
  split
  · exact ⟨_, rfl⟩
  · rename_i q rest hq
    have hq' : c.other.pending = q :: rest := hq
    split
    · rename_i k hk
      have hms : ¬ Clash a c.other.maxseqsent := hc _ (List.mem_cons_self ..)
      have hkc : ¬ Clash a k := by
        refine hc _ (List.mem_cons_of_mem _ ?_)
        rw [hq]; exact List.mem_filterMap.2 ⟨q, List.mem_cons_self .., hk⟩
      obtain ⟨k', hk', hl⟩ := h.lab 0 q (by rw [hq']; rfl)
      have hkk : k' = k := by
        revert hk hk'
        cases q.msg.body <;> intro hk hk' <;> cases hk <;> cases hk' <;> rfl
      subst hkk
      have hmax := h.max
      rw [ackSeg_eq]
      rw [if_neg (by rw [dist_clash]; exact hkc)]
      by_cases h1 : 0 < dist k' a ∧ dist k' a ≤ 2047
      · rw [if_pos h1]; exact ⟨_, rfl⟩
      rw [if_neg h1, if_neg (show ¬ dist a (c.sub .other).maxseqsent = 2048 by rw [dist_clash']; exact hms)]
      by_cases h2 : 0 < dist a c.other.maxseqsent ∧ dist a c.other.maxseqsent ≤ 2047
      · exact ⟨c, if_pos h2⟩
      rw [if_neg (show ¬ (0 < dist a (c.sub .other).maxseqsent ∧
        dist a (c.sub .other).maxseqsent ≤ 2047) from h2)]
      have hlen : c.other.pending.length = rest.length + 1 := by rw [hq']; rfl
      have hn : (dist a k' + 1) % 4096 ≤ (c.sub .other).pending.length := by
        show _ ≤ c.other.pending.length
        by_cases hbig : c.other.pending.length ≤ 2047
        · have := dist_sum h1 (fun e => hkc (dist_clash.1 e)) h2 (fun e => hms (dist_clash'.1 e))
            (by omega) (by omega)
          omega
        · have hd : dist k' a ≠ 2048 := fun e => hkc (dist_clash.1 e)
          have : dist a k' ≤ 2047 := by
            revert h1 hd; unfold dist; omega
          omega
      obtain ⟨s', e⟩ := popN_ok _ _ hn
      rw [e]; exact ⟨_, rfl⟩
    · unfold ackOne
      obtain ⟨s', e⟩ := popN_ok 1 (c.sub .other) (by rw [hq]; simp)
      rw [e]; exact ⟨_, rfl⟩

theorem ack_data_ok {segs : List Sg} {f : Nat} {c : Conn} {a : Nat} (hqm : c.cfg.qmax ≤ 2047)
    (h : SI segs f c) (hc : ∀ k ∈ cmpNums c .data, ¬ Clash a k) :
    ∃ c', ack c .data a = .ok c' := by
  obtain ⟨ctl, dat, h⟩ := h
  unfold ack
  split
  · exact ⟨_, rfl⟩
  · rename_i q rest hq
    have hq' : c.data.pending = q :: rest := hq
    split
    · rename_i k hk
      have hms : ¬ Clash a c.data.maxseqsent := hc _ (List.mem_cons_self ..)
      have hkc : ¬ Clash a k := by
        refine hc _ (List.mem_cons_of_mem _ ?_)
        rw [hq]; exact List.mem_filterMap.2 ⟨q, List.mem_cons_self .., hk⟩
      have hctl : ctl = [] := by
        cases ctl with
        | nil => rfl
        | cons y ys =>
          have hp := h.pend
          rw [hq'] at hp
          cases hp
          have := (h.ctlOk q (List.mem_cons_self ..)).2
          revert hk this
          cases q.msg.body <;> intro hk this <;> first | (cases this; done) | (cases hk; done)
      subst hctl
      have hd : dat = q :: rest := by have := h.pend; rw [hq'] at this; simpa using this.symm
      subst hd
      obtain ⟨dly, s, -, hb⟩ := (h.datOk 0 q rfl).body
      have hkf : k = f := by rw [hb] at hk; cases hk; rfl
      subst hkf
      rw [ackSeg_eq]
      rw [if_neg (by rw [dist_clash]; exact hkc)]
      by_cases h1 : 0 < dist k a ∧ dist k a ≤ 2047
      · rw [if_pos h1]; exact ⟨_, rfl⟩
      rw [if_neg h1, if_neg (show ¬ dist a (c.sub .data).maxseqsent = 2048 by rw [dist_clash']; exact hms)]
      by_cases h2 : 0 < dist a c.data.maxseqsent ∧ dist a c.data.maxseqsent ≤ 2047
      · exact ⟨c, if_pos h2⟩
      rw [if_neg (show ¬ (0 < dist a (c.sub .data).maxseqsent ∧
        dist a (c.sub .data).maxseqsent ≤ 2047) from h2)]
      have hn : (dist a k + 1) % 4096 ≤ (c.sub .data).pending.length := by
        show _ ≤ c.data.pending.length
        have h3 := h.hi; have h4 := h.next; have h5 := h.win; have h6 := h.lo
        have := dist_sum h1 (fun e => hkc (dist_clash.1 e)) h2 (fun e => hms (dist_clash'.1 e))
            h6 (by omega)
        rw [hq']
        omega
      obtain ⟨s', e⟩ := popN_ok _ _ hn
      rw [e]; exact ⟨_, rfl⟩
    · unfold ackOne
      obtain ⟨s', e⟩ := popN_ok 1 (c.sub .data) (by rw [hq]; simp)
      rw [e]; exact ⟨_, rfl⟩

/-! ### What the acknowledgments of a packet are compared with -/

/-- The numbers of the segments and interrupts in a transmit queue. -/
def labels (q : List QEnt) : List Nat := q.filterMap fun x => x.msg.body.ackable

theorem Refill.ackable {c : Conn} {ch : Chan} {m m' : Msg} (h : Refill c ch m m') :
    m'.body.ackable = m.body.ackable := by
  rcases h.body with e | ⟨r, r', f, i, s, p, e1, e2⟩
  · rw [e]
  · rw [e1, e2]; rfl

theorem maxUpd_form {c c' : Conn} {k : Nat} (h : maxUpd c .data k = .ok c') :
    c' = c ∨ c' = { c with data := { c.data with maxseqsent := k } } := by
  unfold maxUpd at h
  rw [bind_ok] at h
  obtain ⟨b, -, h⟩ := h
  split_ifs at h
  · cases h; exact Or.inr rfl
  · cases h; exact Or.inl rfl

theorem blockedLoop_nums {hd : Nat} : ∀ (rest done : List QEnt) (c : Conn) (r : Conn × List QEnt),
    blockedLoop hd c done rest = .ok r →
    labels r.2 = labels (done ++ rest) ∧
    (r.1.data.maxseqsent = c.data.maxseqsent ∨ r.1.data.maxseqsent ∈ labels rest) ∧
    r.1.other.maxseqsent = c.other.maxseqsent ∧ r.1.other.pending = c.other.pending := by
  intro rest
  induction rest with
  | nil => intro done c r h; unfold blockedLoop at h; cases h; exact ⟨by simp, Or.inl rfl, rfl, rfl⟩
  | cons x rest ih =>
    intro done c r h
    have hlab : ∀ y : QEnt, y.msg.body.ackable = x.msg.body.ackable →
        labels (done ++ [y] ++ rest) = labels (done ++ x :: rest) := by
      intro y hy
      unfold labels
      simp only [List.filterMap_append, List.filterMap_cons, List.filterMap_nil, hy,
        List.append_assoc]
      cases x.msg.body.ackable <;> rfl
    have hmem : ∀ n, n ∈ labels rest → n ∈ labels (x :: rest) := by
      intro n hn
      obtain ⟨y, hy, e⟩ := List.mem_filterMap.1 hn
      exact List.mem_filterMap.2 ⟨y, List.mem_cons_of_mem _ hy, e⟩
    have hself : ∀ k dly bo eo p, x.msg.body = .dataSeg k dly bo eo p → k ∈ labels (x :: rest) := by
      intro k dly bo eo p e
      exact List.mem_filterMap.2 ⟨x, List.mem_cons_self .., by rw [e]; rfl⟩
    unfold blockedLoop at h
    by_cases hs : x.sent = true
    · rw [if_pos hs] at h
      split at h
      · rename_i k dly bo eo p hb
        rw [bind_ok] at h
        obtain ⟨c1, e1, h⟩ := h
        obtain ⟨i1, i2, i3, i4⟩ := ih _ _ _ h
        rw [hlab x rfl] at i1
        refine ⟨i1, ?_, ?_, ?_⟩
        · rcases i2 with i2 | i2
          · rcases maxUpd_form e1 with e | e
            · rw [i2, e]; exact Or.inl rfl
            · rw [i2, e]; exact Or.inr (hself _ _ _ _ _ hb)
          · exact Or.inr (hmem _ i2)
        · rw [i3]; rcases maxUpd_form e1 with e | e <;> rw [e]
        · rw [i4]; rcases maxUpd_form e1 with e | e <;> rw [e]
      · obtain ⟨i1, i2, i3, i4⟩ := ih _ _ _ h
        rw [hlab x rfl] at i1
        exact ⟨i1, i2.imp id (hmem _), i3, i4⟩
    · rw [if_neg hs] at h
      obtain ⟨a, h1, a', h1', m', e, hr⟩ := qsend_form c .data x
      rw [e] at h
      split at h
      · rename_i k dly bo eo p hb
        by_cases hf : flowOk c hd x = true
        · rw [if_pos hf, bind_ok] at h
          obtain ⟨c1, e1, h⟩ := h
          obtain ⟨i1, i2, i3, i4⟩ := ih _ _ _ h
          rw [hlab (fired x m') hr.ackable] at i1
          refine ⟨i1, ?_, ?_, ?_⟩
          · rcases i2 with i2 | i2
            · rcases maxUpd_form e1 with e | e
              · rw [i2, e]; exact Or.inl rfl
              · rw [i2, e]; exact Or.inr (hself _ _ _ _ _ hb)
            · exact Or.inr (hmem _ i2)
          · rw [i3]; rcases maxUpd_form e1 with e | e <;> rw [e] <;> rfl
          · rw [i4]; rcases maxUpd_form e1 with e | e <;> rw [e] <;> rfl
        · rw [if_neg hf] at h; cases h; exact ⟨rfl, Or.inl rfl, rfl, rfl⟩
      · obtain ⟨i1, i2, i3, i4⟩ := ih _ _ _ h
        rw [hlab (fired x m') hr.ackable] at i1
        exact ⟨i1, i2.imp id (hmem _), i3, i4⟩

/-- `c'` compares acknowledgments with no number `c` does not. -/
def NumLe (c c' : Conn) : Prop := ∀ ch, cmpNums c' ch ⊆ cmpNums c ch

theorem NumLe.trans {a b c : Conn} (h : NumLe a b) (h' : NumLe b c) : NumLe a c :=
  fun ch => (h' ch).trans (h ch)

theorem sendBlocked_nums {c c' : Conn} (h : sendBlocked c = .ok c') : NumLe c c' := by
  unfold sendBlocked at h
  rw [bind_ok] at h
  obtain ⟨r, e, h⟩ := h
  obtain ⟨i1, i2, i3, i4⟩ := blockedLoop_nums _ _ _ _ e
  cases h
  intro ch
  cases ch with
  | data =>
    show r.1.data.maxseqsent :: labels r.2 ⊆ c.data.maxseqsent :: labels c.data.pending
    rw [i1]
    intro n hn
    rcases List.mem_cons.1 hn with rfl | hn
    · rcases i2 with i2 | i2
      · rw [i2]; exact List.mem_cons_self ..
      · exact List.mem_cons_of_mem _ i2
    · exact List.mem_cons_of_mem _ (by simpa using hn)
  | other =>
    show r.1.other.maxseqsent :: labels r.1.other.pending ⊆ c.other.maxseqsent :: labels c.other.pending
    rw [i3, i4]; exact fun _ h => h

theorem drop_nums (c : Conn) (ch : Chan) (n k : Nat) :
    NumLe c (c.setSub ch { c.sub ch with pending := (c.sub ch).pending.drop n, maxackseg := k }) := by
  have key : ∀ (ms : Nat) (q : List QEnt), ms :: labels (q.drop n) ⊆ ms :: labels q := by
    intro ms q j hj
    rcases List.mem_cons.1 hj with rfl | hj
    · exact List.mem_cons_self ..
    · obtain ⟨y, hy, e⟩ := List.mem_filterMap.1 hj
      exact List.mem_cons_of_mem _ (List.mem_filterMap.2 ⟨y, List.mem_of_mem_drop hy, e⟩)
  intro ch'
  cases ch <;> cases ch'
  · exact key _ _
  · exact fun _ h => h
  · exact fun _ h => h
  · exact key _ _

theorem ack_nums {c c' : Conn} {ch : Chan} {a : Nat} (h : ack c ch a = .ok c') : NumLe c c' := by
  rcases ack_form h with rfl | ⟨n, k, -, rfl⟩
  · exact fun _ _ h => h
  · exact drop_nums c ch n k

theorem procAckBase_nums {c c' : Conn} {ch : Chan} {a : Option AckNum}
    (h : procAckBase c ch a = .ok c') : NumLe c c' := by
  cases a with
  | none => cases h; exact fun _ _ h => h
  | some a =>
    unfold procAckBase at h
    dsimp only at h
    split_ifs at h <;> exact ack_nums h

theorem sendCtl_nums {c : Conn} {b : Body} (hb : b.ackable = none) (hp : c.data.pending = []) :
    cmpNums (sendCtl c b) .data = [c.data.maxseqsent] ∧ cmpNums (sendCtl c b) .other = cmpNums c .other := by
  unfold sendCtl
  dsimp only
  obtain ⟨a, h1, a', h1', m', e, hr⟩ := qsend_form c .data { msg := mk c b }
  rw [e, hp]
  refine ⟨?_, rfl⟩
  have h2 : (fired { msg := mk c b } m').msg.body.ackable = none := by
    rw [← hb]; exact hr.ackable
  show c.data.maxseqsent :: labels ([] ++ [fired { msg := mk c b } m']) = _
  unfold labels
  simp only [List.nil_append, List.filterMap_cons, List.filterMap_nil, h2]

theorem shutdownCheck_nums {c c' : Conn} (h : shutdownCheck c = .ok c') : NumLe c c' := by
  unfold shutdownCheck at h
  split_ifs at h
  · rw [bind_ok] at h
    obtain ⟨c1, e1, h⟩ := h
    cases h
    obtain ⟨h1, h2⟩ := sendCtl_nums (c := { c with
        timer := false, data := closeSub c.data, other := closeSub c.other })
      (b := .discInit c.pendingDisc.1.toNat c.pendingDisc.2) rfl rfl
    rw [← (discRej_ok e1).2] at h1 h2
    intro ch j hj
    cases ch with
    | data =>
      have hj : j ∈ cmpNums c1 .data := hj
      rw [h1] at hj
      rcases List.mem_cons.1 hj with rfl | hj
      · exact List.mem_cons_self ..
      · cases hj
    | other =>
      have hj : j ∈ cmpNums c1 .other := hj
      rw [h2] at hj
      rcases List.mem_cons.1 hj with rfl | hj
      · exact List.mem_cons_self ..
      · cases hj
  · cases h; exact fun _ _ h => h

/-- The reason of a deferred disconnect is one `disc_rej` accepts. -/
def DiscOk (c : Conn) : Prop :=
  c.shutdown = true → 0 ≤ c.pendingDisc.1 ∧ c.pendingDisc.1 ≤ 255 ∧
    reservedReason c.pendingDisc.1 = false

theorem shutdownCheck_ok {c : Conn} (h : DiscOk c) : ∃ c', shutdownCheck c = .ok c' := by
  unfold shutdownCheck
  split_ifs with hc
  · obtain ⟨h1, h2, h3⟩ := h hc.1
    unfold discRej
    rw [if_neg (by rw [h3]; simp only [Bool.false_eq_true, or_false]; omega)]
    exact ⟨_, rfl⟩
  · exact ⟨_, rfl⟩

theorem shutdownCheck_keep {c c' : Conn} (h : shutdownCheck c = .ok c') :
    c'.shutdown = c.shutdown ∧ c'.pendingDisc = c.pendingDisc := by
  unfold shutdownCheck at h
  split_ifs at h
  · rw [bind_ok] at h
    obtain ⟨c1, e1, h⟩ := h
    cases h
    rw [(discRej_ok e1).2]
    unfold sendCtl
    dsimp only
    exact ⟨(fr_qsend _ _ _).shutdown, (fr_qsend _ _ _).pendingDisc⟩
  · cases h; exact ⟨rfl, rfl⟩

theorem refs_eq (c : Conn) (ch : Chan) (a : AckNum) : procAckBase c ch (some a) = ack c (refs ch a) a.num := by
  unfold procAckBase refs
  dsimp only
  split_ifs <;> rfl

theorem procAck_ok {segs : List Sg} {f : Nat} {c : Conn} {ch : Chan} {a : Option AckNum}
    (hq : c.cfg.qmax ≤ 2047) (hsp : SP segs f c) (ho : OQ c) (hd : DiscOk c)
    (hc : ∀ n, a = some n → ∀ k ∈ cmpNums c (refs ch n), ¬ Clash n.num k) :
    ∃ c' f', procAck c ch a = .ok c' ∧ SP segs f' c' ∧ c'.cfg = c.cfg ∧ OQ c' ∧ DiscOk c' ∧
      NumLe c c' ∧ SameAck c c' := by
  have base : ∃ c1, procAckBase c ch a = .ok c1 := by
    cases a with
    | none => exact ⟨_, rfl⟩
    | some n =>
      rw [refs_eq]
      have := hc n rfl
      cases hch : refs ch n with
      | data => rw [hch] at this; exact ack_data_ok hq hsp.si this
      | other => rw [hch] at this; exact ack_other_ok ho this
  obtain ⟨c1, e1⟩ := base
  obtain ⟨f1, s1, fr1, -⟩ := procAckBase_sp hq hsp e1
  have full : ∃ c', procAck c ch a = .ok c' ∧ NumLe c c' ∧ DiscOk c' := by
    cases ch with
    | other =>
      exact ⟨c1, e1, procAckBase_nums e1, by
        intro h; rw [fr1.pendingDisc]; exact hd (by rw [← fr1.shutdown]; exact h)⟩
    | data =>
      obtain ⟨c2, e2, s2, -⟩ := sendBlocked_sp (by rw [fr1.cfg]; exact hq) s1
      have fr2 := fr_sendBlocked e2
      have hd2 : DiscOk c2 := by
        intro h; rw [fr2.pendingDisc, fr1.pendingDisc]
        exact hd (by rw [← fr1.shutdown, ← fr2.shutdown]; exact h)
      obtain ⟨c3, e3⟩ := shutdownCheck_ok hd2
      refine ⟨c3, ?_, ((procAckBase_nums e1).trans (sendBlocked_nums e2)).trans (shutdownCheck_nums e3), ?_⟩
      · unfold procAck
        dsimp only
        rw [e1]
        show (sendBlocked c1 >>= shutdownCheck) = _
        rw [e2]
        exact e3
      · intro h
        obtain ⟨k1, k2⟩ := shutdownCheck_keep e3
        rw [k2]; exact hd2 (by rw [← k1]; exact h)
  obtain ⟨c', e, hnum, hd'⟩ := full
  obtain ⟨f', s', hcfg, -⟩ := procAck_sp hq hsp e
  have hm := (mis_procAck (inp := some (⟨0, 0, none, none, .ackData⟩, 0)) hsp.st e).1
  exact ⟨c', f', e, s', hcfg, Mis.oq hm (Mis.seqnum_some hm) ho, hd', hnum, procAck_ack e⟩

/-- The packet `m`, arriving in a running connection, meets no number exactly half the modulus away:
neither an acknowledgment it carries, nor its own number. -/
structure Safe (c : Conn) (m : Msg) : Prop where
  ack : ∀ ch n, m.body.chan = some ch → (m.ack = some n ∨ m.ack2 = some n) →
    ∀ k ∈ cmpNums c (refs ch n), ¬ Clash n.num k
  seq : ∀ ch k, m.body.seq = some (ch, k) → ¬ Clash k (c.sub ch).acknum

theorem recvSeq_ok {segs : List Sg} {f : Nat} {c : Conn} {ch : Chan} {m : Msg} {k : Nat} {dly : Bool}
    (hq : c.cfg.qmax ≤ 2047) (hsp : SP segs f c) (hc : ¬ Clash k (c.sub ch).acknum) :
    ∃ c', recvSeq c ch m k dly = .ok c' := by
  unfold recvSeq
  rw [seqLe_eq, if_neg (fun e => hc (dist_clash.1 e))]
  rw [ok_bind]
  split_ifs
  · exact ⟨_, rfl⟩
  · exact ⟨_, rfl⟩
  · obtain ⟨c1, e1, -⟩ := acceptLoop_sp ((c.sub ch).ooo.length + 1) c ch m hq hsp
    rw [e1]; exact ⟨_, rfl⟩

theorem subRecv_ok {segs : List Sg} {f : Nat} {c : Conn} {ch : Chan} {m : Msg}
    (hq : c.cfg.qmax ≤ 2047) (hsp : SP segs f c) (ho : OQ c) (hd : DiscOk c) (hs : Safe c m)
    (hch : m.body.chan = some ch) : ∃ c', subRecv c ch m = .ok c' := by
  obtain ⟨c1, f1, e1, s1, q1, o1, d1, n1, a1⟩ := procAck_ok (ch := ch) (a := m.ack) hq hsp ho hd
    (fun n hn => hs.ack ch n hch (Or.inl hn))
  obtain ⟨c2, f2, e2, s2, q2, o2, d2, n2, a2⟩ := procAck_ok (ch := ch) (a := m.ack2)
    (by rw [q1]; exact hq) s1 o1 d1
    (fun n hn k hk => hs.ack ch n hch (Or.inr hn) k (n1 _ hk))
  have hq2 : c2.cfg.qmax ≤ 2047 := by rw [q2, q1]; exact hq
  have hseq : ∀ k, m.body.seq = some (ch, k) → ¬ Clash k (c2.sub ch).acknum := by
    intro k hk
    rw [a2 ch, a1 ch]; exact hs.seq ch k hk
  unfold subRecv
  rw [e1, ok_bind, e2, ok_bind]
  split
  · rename_i k dly b e p hb
    rw [hb] at hch hseq; cases hch
    exact recvSeq_ok hq2 s2 (hseq k rfl)
  · rename_i k p hb
    rw [hb] at hch hseq; cases hch
    exact recvSeq_ok hq2 s2 (hseq k rfl)
  · rename_i k a b p hb
    rw [hb] at hch hseq; cases hch
    exact recvSeq_ok hq2 s2 (hseq k rfl)
  · exact ⟨_, rfl⟩

theorem runRecv_ok {segs : List Sg} {f : Nat} {c : Conn} {m : Msg}
    (hq : c.cfg.qmax ≤ 2047) (hsp : SP segs f c) (ho : OQ c) (hd : DiscOk c) (hs : Safe c m) :
    ∃ c', runRecv c m = .ok c' := by
  unfold runRecv
  dsimp only
  have key : ∀ ch, m.body.chan = some ch →
      ∃ c', subRecv (if c.cphase > 2 then { c with timer := true } else c) ch m = .ok c' := by
    intro ch hch
    split_ifs
    · exact subRecv_ok (segs := segs) (f := f) (c := { c with timer := true }) hq
        (hsp.same ⟨rfl, rfl, rfl, rfl, rfl, fun _ h _ => h⟩ rfl)
        (ho.same rfl rfl rfl) hd ⟨fun ch n h1 h2 k hk => hs.ack ch n h1 h2 k (by
          revert hk; cases refs ch n <;> exact fun h => h), fun ch k h => by
          have := hs.seq ch k h; cases ch <;> exact this⟩ hch
    · exact subRecv_ok hq hsp ho hd hs hch
  split
  · exact key _ (by rename_i h; rw [h]; rfl)
  · exact key _ (by rename_i h; rw [h]; rfl)
  · exact key _ (by rename_i h; rw [h]; rfl)
  · exact key _ (by rename_i h; rw [h]; rfl)
  · exact key _ (by rename_i h; rw [h]; rfl)
  all_goals exact ⟨_, rfl⟩

theorem ackEarly_ok {segs : List Sg} {f : Nat} {c : Conn} (h : WF segs f c)
    (hs : c.state.early = true) : ∃ c', ack c .data 0 = .ok c' := by
  have hsg := h.early hs
  subst hsg
  have hsi := h.live (by cases hc : c.state <;> rw [hc] at hs <;>
    first | rfl | exact absurd hs (by decide))
  have hctl := (SI.early hsi).2
  unfold ack
  split
  · exact ⟨_, rfl⟩
  · rename_i q rest hq
    have hq' : c.data.pending = q :: rest := hq
    have := (hctl q (by rw [hq']; exact List.mem_cons_self ..)).2
    split
    · rename_i k hk
      revert hk this
      cases q.msg.body <;> intro hk this <;> first | (cases this; done) | (cases hk; done)
    · unfold ackOne
      obtain ⟨s', e⟩ := popN_ok 1 (c.sub .data) (by rw [hq]; simp)
      rw [e]; exact ⟨_, rfl⟩

theorem recv_ok {segs : List Sg} {f : Nat} {c : Conn} {m : Msg} (h : WF segs f c) (ho : OQ c)
    (hn : c.state ≠ .closed)
    (hr : c.state = .run ∨ c.state = .cc → DiscOk c ∧ Safe c m) : ∃ c', recv c m = .ok c' := by
  have cd : (c.state = .ci ∨ c.state = .cd) → ∃ c', cdRecv c m = .ok c' := by
    intro hs
    have hearly : c.state.early = true := by rcases hs with h | h <;> rw [h] <;> rfl
    unfold cdRecv
    split
    · rename_i fcopt info segsize b hb
      have h0 : WF segs f { setPhase { c with dstaddr := m.src } info with
          data := { (setPhase { c with dstaddr := m.src } info).data with flow := fcopt },
          segsize := min segsize MSS } := h.same ⟨rfl, rfl, rfl, rfl, rfl, fun _ h _ => h⟩ rfl
      obtain ⟨c1, e1⟩ := ackEarly_ok h0 hearly
      exact ⟨_, bind_ok.2 ⟨c1, e1, rfl⟩⟩
    all_goals exact ⟨_, rfl⟩
  unfold recv
  cases hs : c.state with
  | ci =>
    show ∃ c', ciRecv c m = .ok c'
    unfold ciRecv
    split
    · split_ifs
      · obtain ⟨c1, e1⟩ := ackEarly_ok h (by rw [hs]; rfl)
        rw [e1]; exact ⟨_, rfl⟩
      · exact cd (Or.inl hs)
    · exact ⟨_, rfl⟩
    · exact cd (Or.inl hs)
  | cd => exact cd (Or.inr hs)
  | cr => exact ⟨_, rfl⟩
  | cc =>
    show ∃ c', ccRecv c m = .ok c'
    obtain ⟨hd, hsafe⟩ := hr (Or.inr hs)
    have hearly : c.state.early = true := by rw [hs]; rfl
    have hack : ∃ c1, ccAck c m = .ok c1 ∧ SI segs f c1 ∧ Fr c c1 ∧ NumLe c c1 ∧ OQ c1 := by
      unfold ccAck
      split_ifs
      · obtain ⟨c1, e1⟩ := ackEarly_ok h hearly
        have hm := mis_ack (inp := none) (by rw [hs]; decide) e1
        exact ⟨c1, e1, (h.ackEarly hearly e1).1, fr_ack e1, ack_nums e1,
          Mis.oq hm (fr_ack e1).seqnum ho⟩
      · exact ⟨c, rfl, h.live (by rw [hs]; rfl), Fr.refl _, fun _ _ h => h, ho⟩
    obtain ⟨c1, e1, s1, fr, hnum, o1⟩ := hack
    unfold ccRecv
    rw [e1, ok_bind]
    have hsi : SI segs f ({ c1 with state := .run }.emit .scRun) :=
      s1.same (SameSend.trans (b := { c1 with state := .run }) ⟨rfl, rfl, rfl, rfl, rfl, fun _ h _ => h⟩
        (sameSend_emit (fun m hm => by cases hm)))
    refine runRecv_ok (segs := segs) (f := f) (by show c1.cfg.qmax ≤ 2047; rw [fr.cfg]; exact h.core.q)
      ⟨hsi, (fun h => by cases h), Or.inl rfl⟩ (o1.same rfl rfl rfl) ?_ ?_
    · intro hsh
      show 0 ≤ c1.pendingDisc.1 ∧ c1.pendingDisc.1 ≤ 255 ∧ reservedReason c1.pendingDisc.1 = false
      rw [fr.pendingDisc]
      exact hd (by rw [← fr.shutdown]; exact hsh)
    · refine ⟨fun ch n h1 h2 k hk => hsafe.ack ch n h1 h2 k (hnum _ (by
          revert hk; cases refs ch n <;> exact fun h => h)), fun ch k hk => ?_⟩
      have := hsafe.seq ch k hk
      rw [← fr.acknum ch] at this
      cases ch <;> exact this
  | run =>
    obtain ⟨hd, hsafe⟩ := hr (Or.inl hs)
    exact runRecv_ok h.core.q (h.sp hs) ho hd hsafe
  | di => exact ⟨_, rfl⟩
  | closed => exact absurd hs hn

end Verif.Nsp
