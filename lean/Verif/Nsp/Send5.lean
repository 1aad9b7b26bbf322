import Verif.Nsp.Send4

/-! The invariant of the sending half: calls made by session control, and whole steps. -/
namespace Verif.Nsp

/-- `SIx` does not look at the queue when it is stated for an explicit one. -/
theorem sendSeg_si {segs : List Sg} {f : Nat} {c : Conn} (hq : c.cfg.qmax ≤ 2047)
    (h : SI segs f c) (bom eom : Bool) (p : Bytes) :
    ∃ c', sendSeg c bom eom p = .ok c' ∧ SI (segs ++ [(bom, eom, p)]) f c' ∧ Fr c c' := by
  obtain ⟨ctl, dat, h⟩ := h
  let c1 : Conn := { c with data := { c.data with
    nextseg := c.data.nextseg + 1, nextmsg := if eom then c.data.nextmsg + 1 else c.data.nextmsg } }
  let x := dataEnt c bom eom p
  have hfr1 : Fr c c1 :=
    ⟨rfl, rfl, rfl, rfl, rfl, rfl, rfl, rfl, rfl, rfl, rfl, fun ch => by cases ch <;> rfl,
      fun ch => by cases ch <;> rfl, rfl, rfl, rfl, fun ch => by cases ch <;> rfl, rfl, rfl,
      [], by simp [c1], by simp⟩
  have hq0 : c.data.pending = ctl ++ dat := h.pend
  have hidx : f + dat.length = segs.length + 1 := by rw [h.next, h.len]
  -- the queue with the new entry, not sent
  have hnew : SIx (segs ++ [(bom, eom, p)]) ctl (dat ++ [x]) f (withQ c1 (ctl ++ (dat ++ [x]))) := by
    refine ⟨rfl, h.ctlOk, ?_, ?_, ?_, ?_, h.fpos, h.lo, ?_, h.win, ?_, ?_, ?_⟩
    · intro i y hy
      rcases Nat.lt_or_ge i dat.length with hlt | hge
      · rw [List.getElem?_append_left hlt] at hy
        obtain ⟨h1, h2, dly, s, hs, hb⟩ := h.datOk i y hy
        have hk : f + i - 1 < segs.length := by
          rcases Nat.lt_or_ge (f + i - 1) segs.length with hh | hh
          · exact hh
          · rw [List.getElem?_eq_none hh] at hs; cases hs
        refine ⟨h1, ?_, dly, s, ?_, hb⟩
        · rw [h2, List.take_append_of_le_length (by omega)]
        · rw [List.getElem?_append_left hk]; exact hs
      · rw [List.getElem?_append_right hge] at hy
        obtain ⟨rfl⟩ : i = dat.length := by
          rcases Nat.lt_or_ge dat.length i with hh | hh
          · rw [List.getElem?_eq_none (by simp; omega)] at hy; cases hy
          · omega
        rw [Nat.sub_self] at hy
        cases hy
        have hlen := h.len
        refine ⟨?_, ?_, decide (c.cphase ≥ 4 ∧ c.data.pending.length ≤ c.cfg.qmax / 2),
          (bom, eom, p), ?_, ?_⟩
        · show c.data.nextseg = _; omega
        · show c.data.nextmsg = _
          rw [h.nm, List.take_append_of_le_length (by omega), List.take_of_length_le (by omega)]
        · rw [List.getElem?_append_right (by omega)]
          have : f + dat.length - 1 - segs.length = 0 := by omega
          rw [this]; rfl
        · show Body.dataSeg c.data.nextseg _ _ _ _ = _
          rw [show c.data.nextseg = f + dat.length by omega]
    · show (segs ++ [_]).length + 1 = c.data.nextseg + 1
      have := h.len
      simp only [List.length_append, List.length_singleton]; omega
    · show f + (dat ++ [x]).length = c.data.nextseg + 1
      have := h.next
      simp only [List.length_append, List.length_singleton]; omega
    · show (if eom then c.data.nextmsg + 1 else c.data.nextmsg) = _
      rw [List.countP_append, h.nm]
      cases eom <;> simp [List.countP_cons] <;> omega
    · show c.data.maxseqsent < c.data.nextseg + 1
      have := h.hi; omega
    · intro y hy ht
      rw [List.mem_append, List.mem_singleton] at hy
      rcases hy with hy | rfl
      · exact h.tried y hy ht
      · exact absurd ht (Nat.lt_irrefl 0)
    · intro y hy hs
      rw [← List.append_assoc, List.mem_append, List.mem_singleton] at hy
      rcases hy with hy | rfl
      · exact h.armed y hy hs
      · rcases hs with hs | hs <;> exact absurd hs Bool.noConfusion
    · intro m hm k dly b e p' hb
      obtain ⟨t1, t2, t3⟩ := h.txok m hm k dly b e p' hb
      refine ⟨t1, t2, ?_⟩
      have t2' : k ≤ c.data.maxseqsent := t2
      have := h.hi
      have := h.len
      rw [List.getElem?_append_left (by omega)]; exact t3
  unfold sendSeg
  show ∃ c', (if flowOk c1 (headSeg (c.data.pending ++ [x])) x = true then
      maxUpd { (qsend c1 .data x).1 with data := { (qsend c1 .data x).1.data with
        pending := c.data.pending ++ [(qsend c1 .data x).2] } } .data x.segnum
    else .ok (withQ c1 (c.data.pending ++ [x]))) = .ok c' ∧ _
  by_cases hfl : flowOk c1 (headSeg (c.data.pending ++ [x])) x = true
  · rw [if_pos hfl]
    have hhd : headSeg (c.data.pending ++ [x]) ≤ f := by
      rw [hq0, List.append_assoc]; exact headSeg_le hnew
    obtain ⟨c', m', e1, e2, h3, h4⟩ := SIx.fire_dat (c := c1) (d1 := dat) (d2 := []) (x := x)
      (k := c.data.nextseg) hq hnew rfl hfl hhd
    refine ⟨withQ c' (c.data.pending ++ [fired x m']), ?_, ?_, ?_⟩
    · show maxUpd (withQ (qsend c1 .data x).1 (c.data.pending ++ [(qsend c1 .data x).2])) .data
        c.data.nextseg = _
      rw [e2]
      have : ∀ (c0 : Conn) q k, maxUpd (withQ c0 q) .data k = (maxUpd c0 .data k).map (withQ · q) := by
        intro c0 q k
        unfold maxUpd
        show (seqGt k c0.data.maxseqsent).bind _ = Except.map _ ((seqGt k c0.data.maxseqsent).bind _)
        cases seqGt k c0.data.maxseqsent with
        | error e => rfl
        | ok b => cases b <;> rfl
      rw [this, e1]; rfl
    · refine ⟨ctl, dat ++ [fired x m'], ?_⟩
      rw [hq0, List.append_assoc]
      exact h3
    · exact (hfr1.trans (fr_qsend c1 .data x)).trans ((fr_maxUpd e1).trans (fr_withQ _ _))
  · rw [if_neg hfl]
    refine ⟨_, rfl, ⟨ctl, dat ++ [x], ?_⟩, hfr1.trans (fr_withQ _ _)⟩
    rw [hq0, List.append_assoc]
    exact hnew

theorem sendAll_si {f : Nat} : ∀ (l : List Sg) (segs : List Sg) (c : Conn), c.cfg.qmax ≤ 2047 →
    SI segs f c → ∃ c', sendAll c l = .ok c' ∧ SI (segs ++ l) f c' ∧ Fr c c' := by
  intro l
  induction l with
  | nil => intro segs c _ h; exact ⟨c, rfl, by simpa using h, Fr.refl c⟩
  | cons s l ih =>
    intro segs c hq h
    obtain ⟨b, e, p⟩ := s
    obtain ⟨c1, e1, h1, f1⟩ := sendSeg_si hq h b e p
    obtain ⟨c2, e2, h2, f2⟩ := ih _ c1 (by rw [f1.cfg]; exact hq) h1
    refine ⟨c2, ?_, ?_, f1.trans f2⟩
    · unfold sendAll; rw [e1, ok_bind]; exact e2
    · rw [List.append_assoc] at h2; exact h2

/-- What queueing on the other-data subchannel does. -/
theorem otherSend_form {c c' : Conn} {b : Body} {k : Nat} (hb : b.isAckHdr = true)
    (he : otherSend c b k = .ok c') :
    ∃ a h a' h' m' ms, m'.body = b ∧
      Refill c .other (mk c b) m' ∧
      c' = { (tweak c a h a' h').emit (.tx m') with
        other := { (tweak c a h a' h').other with
          nextmsg := c.other.nextmsg + 1, maxseqsent := ms,
          pending := c.other.pending ++ [fired { msg := mk c b, msgnum := c.other.nextmsg } m'] } } := by
  unfold otherSend at he
  dsimp only at he
  split_ifs at he with hc
  · obtain ⟨a, h, a', h', m', e, hr⟩ := qsend_form
      { c with other := { c.other with nextmsg := c.other.nextmsg + 1 } } .other
      { msg := mk c b, msgnum := c.other.nextmsg }
    rw [e] at he
    unfold maxUpd at he
    rw [bind_ok] at he
    obtain ⟨g, -, he⟩ := he
    have hr' : Refill c .other (mk c b) m' := ⟨hr.dst, hr.src, hr.body, hr.ack, hr.ack2⟩
    split_ifs at he
    · cases he
      exact ⟨a, h, a', h', m', k, hr.data hb, hr', rfl⟩
    · cases he
      exact ⟨a, h, a', h', m', c.other.maxseqsent, hr.data hb, hr', rfl⟩

/-- The other-data subchannel does not touch the data subchannel's sending half. -/
theorem otherSend_same {c c' : Conn} {b : Body} {k : Nat} (hb : b.isAckHdr = true)
    (hd : b.isData = false) (he : otherSend c b k = .ok c') : SameSend c c' ∧ c'.state = c.state := by
  obtain ⟨a, h, a', h', m', ms, hm, -, rfl⟩ := otherSend_form hb he
  refine ⟨?_, rfl⟩
  refine (sameSend_tweak c a h a' h').trans ((sameSend_emit (o := .tx m') ?_).trans
    ⟨rfl, rfl, rfl, rfl, rfl, fun _ h _ => h⟩)
  intro m2 h2
  cases h2
  rw [hm]; exact hd

end Verif.Nsp
