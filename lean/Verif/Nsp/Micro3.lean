import Verif.Nsp.Micro2

/-! Decomposition of the events of a connection into small changes: whole steps. -/
namespace Verif.Nsp

/-- The packet an event carries. -/
def Ev.inp (c : Conn) : Ev → Inp
  | .recv m => some (m, ackAt c m)
  | _ => none

variable {inp : Inp}

theorem mis_cdRecv {c c' : Conn} {m : Msg} {n : Nat} (hs : c.state = .ci ∨ c.state = .cd) (hr : Rest c)
    (h : cdRecv c m = .ok c') : Mis (some (m, n)) c c' ∧ Rest c' := by
  have hn : c.state ≠ .closed := by rcases hs with h | h <;> rw [h] <;> decide
  unfold cdRecv at h
  split at h
  · rename_i fcopt info segsize b hb
    rw [bind_ok] at h
    obtain ⟨c2, e2, h⟩ := h
    have hstep := Mi.confirm c hs m n (inp := some (m, n)) rfl fcopt info segsize b hb
    have hs2 : c2.state = c.state := (fr_ack e2).state
    have m2 := (Mis.one hstep).trans (mis_ack (inp := some (m, n)) (by exact hn) e2)
    have r2 : Rest c2 := by
      refine Rest.same ?_ (fr_ack e2).sameRecv
      exact hr.same ⟨rfl, rfl, fun ch => by cases ch <;> rfl, fun ch => by cases ch <;> rfl⟩
    have hn2 : c2.state ≠ .closed := by rw [hs2]; exact hn
    have key : Mis (some (m, n)) c (if c2.cphase > 2 then { sendAck c2 .data with timer := true } else c2) ∧
        SameRecv c2 (if c2.cphase > 2 then { sendAck c2 .data with timer := true } else c2) := by
      split_ifs
      · have hsa := (fr_sendAck c2 .data)
        refine ⟨(m2.trans (mis_sendAck c2 .data hn2)).tail (.timer _ (by rw [hsa.state]; exact hn2) _), ?_⟩
        exact hsa.sameRecv.trans
          ⟨rfl, rfl, fun ch => by cases ch <;> rfl, fun ch => by cases ch <;> rfl⟩
      · exact ⟨m2, SameRecv.refl _⟩
    cases h
    refine ⟨key.1.tail (.accepted _ ?_ b), ?_⟩
    · rw [key.2.state, hs2]; exact hs
    · intro ch
      have := r2.same key.2 ch
      cases ch <;> exact this
  · cases h
    refine ⟨(((Mis.one (Mi.setDst c hs m.src)).tail (.tell _ (by exact hn) _ _ _)).tail
      (.send _ (by exact hn) .data (mk { c with dstaddr := m.src } (.discConf 42)) rfl
        ⟨Or.inl rfl, Or.inl rfl⟩ (Or.inr (Or.inr ⟨rfl, rfl⟩)))).tail (.close _ (by exact hn)), rest_close _⟩
  · cases h
    exact ⟨(Mis.one (.tell c hn _ _ _)).tail (.close _ (by exact hn)), rest_close _⟩
  · cases h; exact ⟨.refl, hr⟩

theorem mis_recv {c c' : Conn} {m : Msg} {n : Nat} (hn0 : ackAt c m = n) (hr : Rest c) (h : recv c m = .ok c') :
    Mis (some (m, n)) c c' ∧ Rest c' := by
  unfold recv at h
  split at h
  · -- ci
    rename_i hs
    have hn : c.state ≠ .closed := by rw [hs]; decide
    unfold ciRecv at h
    split at h
    · split_ifs at h
      · rw [bind_ok] at h
        obtain ⟨c2, e2, h⟩ := h
        cases h
        refine ⟨(mis_ack hn e2).tail (.toCd c2 (by rw [(fr_ack e2).state]; exact hs)), ?_⟩
        intro ch
        have := hr.same (fr_ack e2).sameRecv ch
        cases ch <;> exact this
      · exact mis_cdRecv (Or.inl hs) hr h
    · cases h
      exact ⟨(Mis.one (.tell c hn _ _ _)).tail (.close _ (by exact hn)), rest_close _⟩
    · exact mis_cdRecv (Or.inl hs) hr h
  · rename_i hs; exact mis_cdRecv (Or.inr hs) hr h
  · -- cr
    rename_i hs
    have hn : c.state ≠ .closed := by rw [hs]; decide
    cases h
    unfold crRecv
    split
    · split_ifs
      · exact ⟨Mis.one (.send c hn .data _ rfl ⟨Or.inl rfl, Or.inl rfl⟩ (Or.inr (Or.inr ⟨rfl, rfl⟩))),
          hr.same (sameRecv_emit _ _)⟩
      · exact ⟨.refl, hr⟩
    · exact ⟨.refl, hr⟩
  · -- cc
    rename_i hs
    have hn : c.state ≠ .closed := by rw [hs]; decide
    unfold ccRecv at h
    rw [bind_ok] at h
    obtain ⟨c2, e2, h⟩ := h
    have h2 : Mis (some (m, n)) c c2 ∧ SameRecv c c2 := by
      unfold ccAck at e2
      split_ifs at e2
      · exact ⟨mis_ack hn e2, (fr_ack e2).sameRecv⟩
      · cases e2; exact ⟨.refl, SameRecv.refl _⟩
    have hs2 : c2.state = .cc := by rw [h2.2.state]; exact hs
    obtain ⟨m3, r3⟩ := mis_runRecv (n := n) (c := { c2 with state := .run }.emit .scRun) (by
      rw [← hn0, ← ackAt_same h2.2.acknum m]
      exact ackAt_same (c := c2) (fun ch => by cases ch <;> rfl) m) rfl (by
      intro ch
      have := hr.same h2.2 ch
      cases ch <;> exact this) h
    exact ⟨(h2.1.tail (.ccRun c2 hs2)).trans m3, r3⟩
  · rename_i hs; exact mis_runRecv hn0 hs hr h
  · -- di
    rename_i hs
    have hn : c.state ≠ .closed := by rw [hs]; decide
    cases h
    unfold diRecv
    split
    · exact ⟨(Mis.one (Mi.send c hn .data (mk c (.discConf 42)) rfl ⟨Or.inl rfl, Or.inl rfl⟩
        (Or.inr (Or.inr ⟨rfl, rfl⟩)))).tail (.close _ (by exact hn)), rest_close _⟩
    · exact ⟨Mis.one (.close c hn), rest_close _⟩
    · exact ⟨.refl, hr⟩
  · cases h

/-- Other-data transmission. -/
theorem mis_otherSend {c c' : Conn} {b : Body} {k : Nat} (c0 : Conn) (hn : c.state ≠ .closed)
    (hb : b.isData = false) (hk : c.other.seqnum = k + 1)
    (h0 : Mi inp c0 { c with other := { c.other with
        nextmsg := c.other.nextmsg + 1,
        pending := c.other.pending ++ [{ msg := mk c b, msgnum := c.other.nextmsg }] } })
    (he : otherSend c b k = .ok c') : Mis inp c0 c' ∧ SameRecv c c' := by
  unfold otherSend at he
  dsimp only at he
  split_ifs at he with hc
  · have h1 := mis_fireO (inp := inp) { c with other := { c.other with nextmsg := c.other.nextmsg + 1 } }
      c.other.pending [] { msg := mk c b, msgnum := c.other.nextmsg } hn (Or.inl rfl) hb
    have hf := fr_qsend { c with other := { c.other with nextmsg := c.other.nextmsg + 1 } } .other
      { msg := mk c b, msgnum := c.other.nextmsg }
    refine ⟨((Mis.one h0).trans h1).trans (mis_maxUpd ?_ ?_ he), ?_⟩
    · show (qsend _ _ _).1.state ≠ _
      rw [hf.state]; exact hn
    · intro _
      show (qsend _ _ _).1.other.seqnum = _
      rw [hf.seqnum]; exact hk
    · refine SameRecv.trans ?_ (fr_maxUpd he).sameRecv
      refine SameRecv.trans (b := (qsend { c with other := { c.other with nextmsg := c.other.nextmsg + 1 } }
        .other { msg := mk c b, msgnum := c.other.nextmsg }).1) ?_
        ⟨rfl, rfl, fun ch => by cases ch <;> rfl, fun ch => by cases ch <;> rfl⟩
      refine SameRecv.trans ?_ hf.sameRecv
      exact ⟨rfl, rfl, fun ch => by cases ch <;> rfl, fun ch => by cases ch <;> rfl⟩

theorem mis_runTimeout {c c' : Conn} (hn : c.state ≠ .closed) (h : runTimeout c = .ok c') :
    Mis none c c' ∧ SameRecv c c' := by
  unfold runTimeout at h
  obtain ⟨h1, h2⟩ := mis_otherSend (inp := none) c
    (c := { c with other := { c.other with seqnum := c.other.seqnum + 1 } }) hn rfl rfl (.enqLs c hn rfl) h
  exact ⟨h1, SameRecv.trans (b := { c with other := { c.other with seqnum := c.other.seqnum + 1 } })
    ⟨rfl, rfl, fun ch => by cases ch <;> rfl, fun ch => by cases ch <;> rfl⟩ h2⟩

theorem mis_connTimeout {c c' : Conn} (hr : Rest c) (h : connTimeout c = .ok c') :
    Mis none c c' ∧ Rest c' := by
  have hsr : ∀ b, SameRecv c { c with timer := b } := fun b =>
    ⟨rfl, rfl, fun ch => by cases ch <;> rfl, fun ch => by cases ch <;> rfl⟩
  unfold connTimeout at h
  dsimp only at h
  split at h
  · rename_i hs
    have hn : c.state ≠ .closed := by rw [hs]; decide
    cases h
    exact ⟨((Mis.one (.timer c hn false)).tail (.tell _ (by exact hn) _ _ _)).tail (.close _ (by exact hn)), rest_close _⟩
  · rename_i hs
    have hn : c.state ≠ .closed := by rw [hs]; decide
    cases h
    exact ⟨((Mis.one (.timer c hn false)).tail (.tell _ (by exact hn) _ _ _)).tail (.close _ (by exact hn)), rest_close _⟩
  · rename_i hs
    have hn : c.state ≠ .closed := by rw [hs]; decide
    rw [bind_ok] at h
    obtain ⟨c2, e2, h⟩ := h
    cases h
    have h1 : Mis none c { { c with timer := false } with state := .di } :=
      (Mis.one (.timer c hn false)).tail (.toDi _ (Or.inl (by exact hs)))
    have hs2 : c2.state = .di := by
      obtain ⟨-, rfl⟩ := discRej_ok e2
      rw [sendCtl_state]
    exact ⟨(h1.trans (mis_discRej rfl e2)).tail (.tell c2 (by rw [hs2]; decide) _ _ _),
      (discRej_rest e2).same (sameRecv_emit _ _)⟩
  · rename_i hs
    have hn : c.state ≠ .closed := by rw [hs]; decide
    obtain ⟨h1, h2⟩ := mis_runTimeout  (c := { c with timer := false }) hn h
    exact ⟨(Mis.one (.timer c hn false)).trans h1, (hr.same (hsr false)).same h2⟩
  · rename_i hs
    have hn : c.state ≠ .closed := by rw [hs]; decide
    obtain ⟨h1, h2⟩ := mis_runTimeout  (c := { c with timer := false }) hn h
    exact ⟨(Mis.one (.timer c hn false)).trans h1, (hr.same (hsr false)).same h2⟩
  · rename_i hs
    have hn : c.state ≠ .closed := by rw [hs]; decide
    cases h
    exact ⟨Mis.one (.timer c hn false), hr.same (hsr false)⟩
  · cases h

/-- nothing on the other-data queue is a data segment -/
def OthOk (c : Conn) : Prop := ∀ x ∈ c.other.pending, x.msg.body.isData = false

theorem mis_qeTimeout (c : Conn) (ch : Chan) (i : Nat) (hn : c.state ≠ .closed) (hr : Rest c)
    (ho : OthOk c) : Mis inp c (qeTimeout c ch i) ∧ Rest (qeTimeout c ch i) := by
  have hset : ∀ (c : Conn) q, SameRecv c (setPending c ch q) := by
    intro c q
    unfold setPending
    exact ⟨state_setSub _ _ _, cfg_setSub _ _ _, fun ch' => by cases ch <;> cases ch' <;> rfl,
      fun ch' => by cases ch <;> cases ch' <;> rfl⟩
  unfold qeTimeout
  split
  · exact ⟨.refl, hr⟩
  · rename_i x hx
    split_ifs with h1 h2
    · split
      · exact ⟨Mis.one (.idle c hn ch i x hx), hr.same (hset _ _)⟩
      · exact ⟨(Mis.one (.tell c hn _ _ _)).tail (.close _ (by exact hn)), rest_close _⟩
    · exact ⟨Mis.one (.block c hn ch i x hx (by omega)), hr.same (hset _ _)⟩
    · have hlt : x.tries < c.cfg.retransmits := by omega
      have hfr := fr_qsend c ch x
      refine ⟨?_, (hr.same hfr.sameRecv).same (hset _ _)⟩
      obtain ⟨q1, q2, hq, hl⟩ : ∃ q1 q2, (c.sub ch).pending = q1 ++ x :: q2 ∧ q1.length = i := by
        obtain ⟨hi, hxi⟩ := List.getElem?_eq_some_iff.1 hx
        refine ⟨(c.sub ch).pending.take i, (c.sub ch).pending.drop (i + 1), ?_, ?_⟩
        · rw [← hxi, List.getElem_cons_drop, List.take_append_drop]
        · rw [List.length_take]; omega
      have hset' : ∀ y, (c.sub ch).pending.set i y = q1 ++ y :: q2 := by
        intro y
        rw [hq, List.set_append_right _ _ (by omega), hl, Nat.sub_self]; rfl
      dsimp only
      rw [hset']
      cases ch with
      | data =>
        have hq' : c.data.pending = q1 ++ x :: q2 := hq
        have := mis_fire (inp := inp) c q1 q2 x hn (Or.inr hlt) (fun hd => by
          rw [← hq']
          cases hfl : flowOk c (headSeg c.data.pending) x with
          | true => rfl
          | false => exact absurd ⟨hd, hfl⟩ h2)
        rw [← hq', withQ_self] at this
        exact this
      | other =>
        have hq' : c.other.pending = q1 ++ x :: q2 := hq
        have := mis_fireO (inp := inp) c q1 q2 x hn (Or.inr hlt) (ho x (by rw [hq']; simp))
        rw [← hq'] at this
        exact this

/-- the numbering step of `Data_Subchannel.send` -/
def enqC (c : Conn) (eom : Bool) : Conn := { c with data := { c.data with
    nextseg := c.data.nextseg + 1, nextmsg := if eom then c.data.nextmsg + 1 else c.data.nextmsg } }

theorem sendSeg_eq (c : Conn) (bom eom : Bool) (p : Bytes) : sendSeg c bom eom p =
    if flowOk (enqC c eom) (headSeg (c.data.pending ++ [dataEnt c bom eom p])) (dataEnt c bom eom p) = true
    then maxUpd (withQ (qsend (enqC c eom) .data (dataEnt c bom eom p)).1
      (c.data.pending ++ [(qsend (enqC c eom) .data (dataEnt c bom eom p)).2])) .data c.data.nextseg
    else .ok (withQ (enqC c eom) (c.data.pending ++ [dataEnt c bom eom p])) := rfl

theorem mis_sendSeg {c c' : Conn} {bom eom : Bool} {p : Bytes} (hs : c.state = .run)
    (hd : c.shutdown = false) (h : sendSeg c bom eom p = .ok c') : Mis inp c c' := by
  have hn : c.state ≠ .closed := by rw [hs]; decide
  have h0 : Mi inp c (withQ (enqC c eom) (c.data.pending ++ [dataEnt c bom eom p])) :=
    Mi.enqData (inp := inp) c hs hd bom eom p
  rw [sendSeg_eq] at h
  by_cases hf : flowOk (enqC c eom) (headSeg (c.data.pending ++ [dataEnt c bom eom p]))
      (dataEnt c bom eom p) = true
  · rw [if_pos hf] at h
    refine (Mis.one h0).trans ?_
    have := mis_fire (inp := inp) (enqC c eom) c.data.pending [] (dataEnt c bom eom p) hn (Or.inl rfl)
      (fun _ => hf)
    refine this.trans (mis_maxUpd ?_ (fun h => by cases h) h)
    show (qsend _ _ _).1.state ≠ _
    rw [(fr_qsend _ _ _).state]; exact hn
  · rw [if_neg hf] at h; cases h; exact Mis.one h0

theorem sendSeg_fr {c c' : Conn} {bom eom : Bool} {p : Bytes} (h : sendSeg c bom eom p = .ok c') :
    Fr c c' := by
  have hfr1 : Fr c (enqC c eom) :=
    ⟨rfl, rfl, rfl, rfl, rfl, rfl, rfl, rfl, rfl, rfl, rfl, fun ch => by cases ch <;> rfl,
      fun ch => by cases ch <;> rfl, rfl, rfl, rfl, fun ch => by cases ch <;> rfl, rfl, rfl,
      [], by simp [enqC], by simp⟩
  rw [sendSeg_eq] at h
  by_cases hf : flowOk (enqC c eom) (headSeg (c.data.pending ++ [dataEnt c bom eom p]))
      (dataEnt c bom eom p) = true
  · rw [if_pos hf] at h
    exact ((hfr1.trans (fr_qsend (enqC c eom) .data (dataEnt c bom eom p))).trans
      (fr_withQ _ _)).trans (fr_maxUpd h)
  · rw [if_neg hf] at h
    cases h
    exact hfr1.trans (fr_withQ _ _)

theorem mis_sendAll : ∀ (l : List Sg) (c c' : Conn), c.state = .run → c.shutdown = false →
    sendAll c l = .ok c' → Mis inp c c' ∧ Fr c c' := by
  intro l
  induction l with
  | nil => intro c c' _ _ h; cases h; exact ⟨.refl, Fr.refl _⟩
  | cons s l ih =>
    intro c c' hs hd h
    obtain ⟨b, e, p⟩ := s
    unfold sendAll at h
    rw [bind_ok] at h
    obtain ⟨c1, e1, h⟩ := h
    have f1 := sendSeg_fr e1
    obtain ⟨m2, f2⟩ := ih c1 c' (by rw [f1.state]; exact hs) (by rw [f1.shutdown]; exact hd) h
    exact ⟨(mis_sendSeg hs hd e1).trans m2, f1.trans f2⟩

/-- set the counter for other-data numbers -/
def ws (s : Nat) (c : Conn) : Conn := { c with other := { c.other with seqnum := s } }

theorem setAcks1_ws (s : Nat) (c : Conn) (ch : Chan) (m : Msg) (b : Bool) :
    setAcks1 (ws s c) ch m b = (ws s (setAcks1 c ch m b).1, (setAcks1 c ch m b).2) := by
  have ha : ((ws s c).sub ch).ackpending = (c.sub ch).ackpending := by cases ch <;> rfl
  by_cases h : (b || (c.sub ch).ackpending) = true
  · have e1 : setAcks1 c ch m b = (c.setSub ch { c.sub ch with ackpending := false, hold := false },
        { m with ack := some ⟨(c.sub ch).acknum, 0⟩ }) := if_pos h
    have e2 : setAcks1 (ws s c) ch m b = ((ws s c).setSub ch
        { (ws s c).sub ch with ackpending := false, hold := false },
        { m with ack := some ⟨((ws s c).sub ch).acknum, 0⟩ }) := if_pos (by rw [ha]; exact h)
    rw [e1, e2]; cases ch <;> rfl
  · have e1 : setAcks1 c ch m b = (c, m) := if_neg h
    have e2 : setAcks1 (ws s c) ch m b = (ws s c, m) := if_neg (by rw [ha]; exact h)
    rw [e1, e2]

theorem setAcks2_ws (s : Nat) (c : Conn) (ch : Chan) (m : Msg) :
    setAcks2 (ws s c) ch m = (ws s (setAcks2 c ch m).1, (setAcks2 c ch m).2) := by
  have ha : ((ws s c).sub ch.cross).ackpending = (c.sub ch.cross).ackpending := by cases ch <;> rfl
  by_cases h : c.cphase = 4 ∧ (c.sub ch.cross).ackpending = true
  · have e1 : setAcks2 c ch m = (c.setSub ch.cross { c.sub ch.cross with ackpending := false, hold := false },
        { m with ack2 := some ⟨(c.sub ch.cross).acknum, 2⟩ }) := if_pos h
    have e2 : setAcks2 (ws s c) ch m = ((ws s c).setSub ch.cross
        { (ws s c).sub ch.cross with ackpending := false, hold := false },
        { m with ack2 := some ⟨((ws s c).sub ch.cross).acknum, 2⟩ }) := if_pos (by rw [ha]; exact h)
    rw [e1, e2]; cases ch <;> rfl
  · have e1 : setAcks2 c ch m = (c, m) := if_neg h
    have e2 : setAcks2 (ws s c) ch m = (ws s c, m) := if_neg (by rw [ha]; exact h)
    rw [e1, e2]

theorem qsend_ws (s : Nat) (c : Conn) (ch : Chan) (x : QEnt) :
    qsend (ws s c) ch x = (ws s (qsend c ch x).1, (qsend c ch x).2) := by
  have hprep : prep (ws s c) ch x = (ws s (prep c ch x).1, (prep c ch x).2) := by
    unfold prep
    split
    · rfl
    · split_ifs
      · unfold setAcks
        rw [setAcks1_ws, setAcks2_ws]
      · rfl
  unfold qsend
  rw [hprep]; rfl

/-- The counter for other-data numbers plays no part in sending. -/
theorem otherSend_seqnum {c c' : Conn} {n : Nat} {p : Bytes} {k : Nat} (s : Nat)
    (h : otherSend c (.intMsg n p) k = .ok c') :
    otherSend { c with other := { c.other with seqnum := s } } (.intMsg n p) k =
      .ok { c' with other := { c'.other with seqnum := s } } := by
  have key : ∀ (c0 : Conn) (x : QEnt),
      qsend { c0 with other := { c0.other with seqnum := s } } .other x =
      ({ (qsend c0 .other x).1 with other := { (qsend c0 .other x).1.other with seqnum := s } },
        (qsend c0 .other x).2) := fun c0 x => qsend_ws s c0 .other x
  unfold otherSend at h ⊢
  dsimp only at h ⊢
  split_ifs at h ⊢ with hc
  have e := key { c with other := { c.other with nextmsg := c.other.nextmsg + 1 } }
    { msg := mk c (.intMsg n p), msgnum := c.other.nextmsg }
  have e' : mk { c with other := { c.other with seqnum := s } } (.intMsg n p) = mk c (.intMsg n p) := rfl
  rw [e']
  rw [e]
  unfold maxUpd at h ⊢
  rw [bind_ok] at h
  obtain ⟨b, hb, h⟩ := h
  have hb' : seqGt k (qsend { c with other := { c.other with nextmsg := c.other.nextmsg + 1 } } .other
    { msg := mk c (.intMsg n p), msgnum := c.other.nextmsg }).1.other.maxseqsent = .ok b := hb
  show (seqGt k (qsend { c with other := { c.other with nextmsg := c.other.nextmsg + 1 } } .other
    { msg := mk c (.intMsg n p), msgnum := c.other.nextmsg }).1.other.maxseqsent).bind _ = _
  rw [hb']
  cases b
  · cases h; rfl
  · cases h; rfl

/-- Closed connections have no timers and nothing queued. -/
structure Quiet (c : Conn) : Prop where
  timer : c.timer = false
  hold : ∀ ch, (c.sub ch).hold = false
  pending : ∀ ch, (c.sub ch).pending = []

theorem rest_fin {c : Conn} {r : Except Err Conn} (hr : Rest c)
    (h : ∀ c', r = .ok c' → Mis inp c c' ∧ Rest c') :
    Mis inp c (step.fin c r).1 ∧ Rest (step.fin c r).1 := by
  cases r with
  | error e => exact ⟨.refl, hr⟩
  | ok c' => exact h c' rfl

/-- Every event consists of small changes. -/
theorem step_mis {c : Conn} {e : Ev} (he : Enabled c e) (hr : Rest c) (ho : OthOk c)
    (hc : c.state = .closed → Quiet c) :
    Mis (e.inp c) c (step c e).1 ∧ Rest (step c e).1 := by
  have hrs : ∀ {c c' : Conn}, Rest c → (∀ ch, (c'.sub ch).acknum = (c.sub ch).acknum) →
      (∀ ch, (c'.sub ch).ooo = (c.sub ch).ooo) → Rest c' := by
    intro c c' h h1 h2 ch
    rw [h1, h2]; exact h ch
  cases e with
  | recv m => exact rest_fin hr fun c' h => mis_recv rfl hr h
  | connTimeout => exact rest_fin hr fun c' h => mis_connTimeout hr h
  | holdTimeout ch =>
    have hn : c.state ≠ .closed := by
      intro hs
      have := (hc hs).hold ch
      rw [he] at this; exact absurd this Bool.noConfusion
    exact ⟨mis_sendAck c ch hn, hr.same (fr_sendAck c ch).sameRecv⟩
  | qeTimeout ch i =>
    have hn : c.state ≠ .closed := by
      intro hs
      obtain ⟨x, hx, -⟩ := he
      rw [(hc hs).pending ch] at hx
      cases hx
    exact mis_qeTimeout c ch i hn hr ho
  | accept p =>
    refine rest_fin hr fun c' h => ?_
    unfold accept at h
    split_ifs at h with h1 h2
    · have hs : c.state = .cr := by simpa using h1
      have hn : c.state ≠ .closed := by rw [hs]; decide
      cases h
      refine ⟨((Mis.one (.timer c hn false)).tail (.crRun _ (by exact hs))).tail
        (.send _ (fun h => by cases h) .data _ rfl ⟨Or.inl rfl, Or.inl rfl⟩ (Or.inr (Or.inr ⟨rfl, rfl⟩))), ?_⟩
      exact hrs hr (fun ch => by cases ch <;> rfl) (fun ch => by cases ch <;> rfl)
    · have hs : c.state = .cr := by simpa using h1
      cases h
      refine ⟨(Mis.one (.toCc c hs)).trans (mis_sendCtl _ _ (fun h => by cases h) rfl), ?_⟩
      refine Rest.same ?_ (sameRecv_sendCtl _ _)
      exact hrs hr (fun ch => by cases ch <;> rfl) (fun ch => by cases ch <;> rfl)
  | reject r p =>
    dsimp only [step]
    split_ifs with h1
    · exact ⟨.refl, hr⟩
    · have hs : c.state = .cr := by simpa using h1
      have hn : c.state ≠ .closed := by rw [hs]; decide
      have h1 : Mis none c { c with timer := false, state := .di } :=
        (Mis.one (.timer c hn false)).tail (.toDi _ (Or.inl (by exact hs)))
      have r1 : Rest { c with timer := false, state := .di } :=
        hrs hr (fun ch => by cases ch <;> rfl) (fun ch => by cases ch <;> rfl)
      have := rest_fin (inp := none) (r := discRej { c with timer := false, state := .di } r p) r1
        fun c' h => ⟨mis_discRej rfl h, discRej_rest h⟩
      exact ⟨h1.trans this.1, this.2⟩
  | disconnect r p =>
    dsimp only [step]
    split_ifs with h1 h2
    · exact ⟨.refl, hr⟩
    · have hs : c.state = .run := by simpa using h1
      exact ⟨Mis.one (.shut c hs r p),
        hrs hr (fun ch => by cases ch <;> rfl) (fun ch => by cases ch <;> rfl)⟩
    · have hs : c.state = .run := by simpa using h1
      have h1 : Mis none c { c with state := .di } := Mis.one (.toDi _ (Or.inr (Or.inl hs)))
      have r1 : Rest { c with state := .di } :=
        hrs hr (fun ch => by cases ch <;> rfl) (fun ch => by cases ch <;> rfl)
      have := rest_fin (inp := none) (r := discRej { c with state := .di } r p) r1
        fun c' h => ⟨mis_discRej rfl h, discRej_rest h⟩
      exact ⟨h1.trans this.1, this.2⟩
  | abort r p =>
    dsimp only [step]
    split_ifs with h1
    · exact ⟨.refl, hr⟩
    · have hs : c.state = .run := by simpa using h1
      have hn : c.state ≠ .closed := by rw [hs]; decide
      refine rest_fin hr fun c' h => ?_
      cases hd : discRej c r p with
      | error e => rw [hd] at h; cases h
      | ok c2 =>
        rw [hd] at h
        cases h
        refine ⟨mis_discRej_di (Or.inr (Or.inl hs)) hd, ?_⟩
        · exact hrs (discRej_rest hd) (fun ch => by cases ch <;> rfl) (fun ch => by cases ch <;> rfl)
  | sendData d =>
    refine rest_fin hr fun c' h => ?_
    unfold sendData at h
    split_ifs at h with h1 h2
    obtain ⟨hs, hd⟩ : c.state = .run ∧ c.shutdown = false := by simpa using h1
    obtain ⟨t1, t2⟩ := mis_sendAll (inp := none) _ c c' hs hd h
    exact ⟨t1, hr.same t2.sameRecv⟩
  | interrupt d =>
    refine rest_fin hr fun c' h => ?_
    unfold interrupt at h
    split_ifs at h with h1 h2
    obtain ⟨hs, hd⟩ : c.state = .run ∧ c.shutdown = false := by simpa using h1
    have hn : c.state ≠ .closed := by rw [hs]; decide
    rw [bind_ok] at h
    obtain ⟨c2, e2, h⟩ := h
    cases h
    have hc : (c.other.nextmsg : Int) ≤ c.other.maxmsg := by
      unfold otherSend at e2
      dsimp only at e2
      split_ifs at e2 with hc
      simp at hc
      omega
    have e3 := otherSend_seqnum (c.other.seqnum + 1) e2
    obtain ⟨t1, t2⟩ := mis_otherSend (inp := none) c
      (c := { c with other := { c.other with seqnum := c.other.seqnum + 1 } }) hn rfl rfl
      (.enqInt c hs hd d (by omega) hc rfl) e3
    have hseq : c2.other.seqnum = c.other.seqnum := by
      obtain ⟨a, h, a', h', m', ms, -, -, rfl⟩ := otherSend_form rfl e2
      rfl
    have e4 : ({ c2 with other := { c2.other with seqnum := c2.other.seqnum + 1 } } : Conn) =
      { c2 with other := { c2.other with seqnum := c.other.seqnum + 1 } } := by rw [hseq]
    rw [e4]
    exact ⟨t1, hr.same (SameRecv.trans
      (b := { c with other := { c.other with seqnum := c.other.seqnum + 1 } })
      ⟨rfl, rfl, fun ch => by cases ch <;> rfl, fun ch => by cases ch <;> rfl⟩ t2)⟩
  | setsockopt b =>
    exact ⟨Mis.one (.opt c b), hrs hr (fun ch => by cases ch <;> rfl) (fun ch => by cases ch <;> rfl)⟩
  | learn a =>
    exact ⟨Mis.one (.setDst c he.1 a), hrs hr (fun ch => by cases ch <;> rfl) (fun ch => by cases ch <;> rfl)⟩

end Verif.Nsp
