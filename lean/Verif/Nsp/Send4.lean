import Verif.Nsp.Send3

/-! The invariant of the sending half: received packets, continued. -/
namespace Verif.Nsp

theorem sameSend_toScData (c : Conn) (bom eom : Bool) (p : Bytes) :
    SameSend c (toScData c bom eom p) ∧ (toScData c bom eom p).state = c.state := by
  unfold toScData
  have e1 : ∀ (c : Conn) (b : Bytes), SameSend c (c.emit (.scData b)) := fun c b =>
    sameSend_emit (by intro m h; cases h)
  have e2 : ∀ (c : Conn) (l : List Bytes), SameSend c { c with asm := l } := fun c l =>
    ⟨rfl, rfl, rfl, rfl, rfl, fun _ h _ => h⟩
  have e3 : ∀ b : Bool, SameSend c (if b = true then c.emit (.scData p) else { c with asm := [p] }) ∧
      (if b = true then c.emit (.scData p) else { c with asm := [p] }).state = c.state := by
    intro b; cases b
    · exact ⟨e2 c _, rfl⟩
    · exact ⟨e1 c _, rfl⟩
  split_ifs
  · exact ⟨(e2 c []).trans (e1 _ _), rfl⟩
  · exact ⟨e2 c _, rfl⟩
  · exact e3 true
  · exact e3 eom

theorem dataLs_sp {segs : List Sg} {f : Nat} {c : Conn} (hq : c.cfg.qmax ≤ 2047)
    (h : SP segs f c) (fcmod : Nat) (fcval : Int) :
    ∃ c', dataLs c fcmod fcval = .ok c' ∧ SP segs f c' ∧ c'.cfg = c.cfg := by
  have hfin : ∀ c0 : Conn, SameSend c c0 → c0.state = c.state →
      ∃ c', dataLs.finish fcmod fcval c0 = .ok c' ∧ SP segs f c' ∧ c'.cfg = c.cfg := by
    intro c0 hs hst
    have hsp : SP segs f (if fcmod ≠ 0 then { c0.emit (.ls fcmod 0 fcval true) with
        data := { (c0.emit (.ls fcmod 0 fcval true)).data with xon := fcmod == 2 } }
        else c0.emit (.ls fcmod 0 fcval true)) := by
      have h0 : SP segs f (c0.emit (.ls fcmod 0 fcval true)) :=
        h.same (hs.trans (sameSend_emit (by intro m h; cases h))) hst
      split_ifs
      · exact h0.same ⟨rfl, rfl, rfl, rfl, rfl, fun _ h _ => h⟩ rfl
      · exact h0
    have hcfg : (if fcmod ≠ 0 then { c0.emit (.ls fcmod 0 fcval true) with
        data := { (c0.emit (.ls fcmod 0 fcval true)).data with xon := fcmod == 2 } }
        else c0.emit (.ls fcmod 0 fcval true)).cfg = c.cfg := by
      split_ifs <;> exact hs.cfg
    obtain ⟨c', e, h', -⟩ := sendBlocked_sp (by rw [hcfg]; exact hq) hsp
    exact ⟨c', e, h', by rw [(fr_sendBlocked e).cfg, hcfg]⟩
  have hbad : ∃ c', (Except.ok (c.emit (.ls fcmod 0 fcval false)) : Except Err Conn) = .ok c' ∧
      SP segs f c' ∧ c'.cfg = c.cfg :=
    ⟨_, rfl, h.same (sameSend_emit (by intro m h; cases h)) rfl, rfl⟩
  unfold dataLs
  split_ifs
  · exact hfin _ ⟨rfl, rfl, rfl, rfl, rfl, fun _ h _ => h⟩ rfl
  · exact hbad
  · exact hfin _ ⟨rfl, rfl, rfl, rfl, rfl, fun _ h _ => h⟩ rfl
  · exact hbad
  · exact hfin _ (SameSend.refl c) rfl

theorem procData_sp {segs : List Sg} {f : Nat} {c : Conn} (hq : c.cfg.qmax ≤ 2047)
    (h : SP segs f c) (m : Msg) :
    ∃ c', procData c m = .ok c' ∧ SP segs f c' ∧ c'.cfg = c.cfg := by
  unfold procData
  split
  · exact ⟨_, rfl, h.same (sameSend_toScData c _ _ _).1 (sameSend_toScData c _ _ _).2,
      (sameSend_toScData c _ _ _).1.cfg⟩
  · exact ⟨_, rfl, h.same (sameSend_emit (by intro m h; cases h)) rfl, rfl⟩
  · split_ifs
    · exact dataLs_sp hq h _ _
    · refine ⟨_, rfl, ?_, ?_⟩
      · unfold otherLs
        split_ifs
        · rename_i fm fi fv _ _ _
          have h0 : SP segs f { c with other := { c.other with maxmsg := c.other.maxmsg + fv } } :=
            h.same ⟨rfl, rfl, rfl, rfl, rfl, fun _ h _ => h⟩ rfl
          exact h0.same (sameSend_emit (fun m h => by cases h)) rfl
        · exact h.same (sameSend_emit (fun m h => by cases h)) rfl
      · unfold otherLs; split_ifs <;> rfl
  · exact ⟨c, rfl, h, rfl⟩

/-- bookkeeping of the receiving half does not touch the sending half -/
theorem sameSend_recvBook (c : Conn) (ch : Chan) (s : Sub) (h1 : s.pending = (c.sub ch).pending)
    (h2 : s.nextseg = (c.sub ch).nextseg) (h3 : s.nextmsg = (c.sub ch).nextmsg)
    (h4 : s.maxseqsent = (c.sub ch).maxseqsent) : SameSend c (c.setSub ch s) := by
  cases ch
  · exact ⟨rfl, h1, h2, h3, h4, fun _ h _ => h⟩
  · exact ⟨rfl, rfl, rfl, rfl, rfl, fun _ h _ => h⟩

theorem state_setSub (c : Conn) (ch : Chan) (s : Sub) : (c.setSub ch s).state = c.state := by
  cases ch <;> rfl
theorem cfg_setSub (c : Conn) (ch : Chan) (s : Sub) : (c.setSub ch s).cfg = c.cfg := by
  cases ch <;> rfl

theorem accept1_sp {segs : List Sg} {f : Nat} {c : Conn} (hq : c.cfg.qmax ≤ 2047)
    (h : SP segs f c) (ch : Chan) (m : Msg) :
    ∃ c', accept1 c ch m = .ok c' ∧ SP segs f c' ∧ c'.cfg = c.cfg := by
  unfold accept1
  have h0 := h.same (sameSend_recvBook c ch
    { c.sub ch with acknum := (c.sub ch).acknum + 1, ackpending := true } rfl rfl rfl rfl)
    (state_setSub _ _ _)
  have h1 := h0.same (sameSend_emit (o := .up ch m) (by intro m h; cases h)) rfl
  obtain ⟨c', e, h2, h3⟩ := procData_sp (by
    show (c.setSub ch _).cfg.qmax ≤ 2047
    rw [cfg_setSub]; exact hq) h1 m
  exact ⟨c', e, h2, by rw [h3]; exact cfg_setSub _ _ _⟩

theorem acceptLoop_sp {segs : List Sg} {f : Nat} : ∀ (fuel : Nat) (c : Conn) (ch : Chan) (m : Msg),
    c.cfg.qmax ≤ 2047 → SP segs f c →
    ∃ c', acceptLoop fuel c ch m = .ok c' ∧ SP segs f c' ∧ c'.cfg = c.cfg := by
  intro fuel
  induction fuel with
  | zero => intro c ch m _ h; exact ⟨c, rfl, h, rfl⟩
  | succ n ih =>
    intro c ch m hq h
    obtain ⟨c1, e1, h1, hc1⟩ := accept1_sp hq h ch m
    unfold acceptLoop
    rw [e1, ok_bind]
    dsimp only
    cases hf : oooFind (c1.sub ch).ooo (wire ((c1.sub ch).acknum + 1)) with
    | none => exact ⟨c1, rfl, h1, hc1⟩
    | some m' =>
      dsimp only
      obtain ⟨c2, e2, h2, hc2⟩ := ih (c1.setSub ch _) ch m' (by rw [cfg_setSub, hc1]; exact hq)
        (h1.same (sameSend_recvBook c1 ch
          { c1.sub ch with ooo := oooErase (c1.sub ch).ooo (wire ((c1.sub ch).acknum + 1)) }
          rfl rfl rfl rfl) (state_setSub _ _ _))
      exact ⟨c2, e2, h2, by rw [hc2, cfg_setSub, hc1]⟩

theorem ackPolicy_same (c : Conn) (ch : Chan) (dly : Bool) :
    SameSend c (ackPolicy c ch dly) ∧ (ackPolicy c ch dly).state = c.state := by
  unfold ackPolicy
  split_ifs
  · exact ⟨sameSend_recvBook c ch _ rfl rfl rfl rfl, state_setSub _ _ _⟩
  · exact ⟨SameSend.refl c, rfl⟩
  · exact ⟨sameSend_sendAck c ch, (fr_sendAck c ch).state⟩
  · exact ⟨SameSend.refl c, rfl⟩

theorem recvSeq_sp {segs : List Sg} {f : Nat} {c c' : Conn} {ch : Chan} {m : Msg} {k : Nat}
    {dly : Bool} (hq : c.cfg.qmax ≤ 2047) (h : SP segs f c)
    (he : recvSeq c ch m k dly = .ok c') : SP segs f c' ∧ c'.cfg = c.cfg := by
  unfold recvSeq at he
  rw [bind_ok] at he
  obtain ⟨b, -, he⟩ := he
  split_ifs at he
  · cases he
    exact ⟨h.same (sameSend_sendAck c ch) (fr_sendAck c ch).state, (fr_sendAck c ch).cfg⟩
  · cases he
    exact ⟨h.same (sameSend_recvBook c ch _ rfl rfl rfl rfl) (state_setSub _ _ _), cfg_setSub _ _ _⟩
  · rw [bind_ok] at he
    obtain ⟨c1, e1, he⟩ := he
    obtain ⟨c1', e1', h1, hc1⟩ := acceptLoop_sp ((c.sub ch).ooo.length + 1) c ch m hq h
    rw [e1] at e1'
    cases e1'
    cases he
    obtain ⟨h2, h3⟩ := ackPolicy_same c1 ch dly
    exact ⟨h1.same h2 h3, by rw [h2.cfg, hc1]⟩

theorem subRecv_sp {segs : List Sg} {f : Nat} {c c' : Conn} {ch : Chan} {m : Msg}
    (hq : c.cfg.qmax ≤ 2047) (h : SP segs f c) (he : subRecv c ch m = .ok c') :
    ∃ f', SP segs f' c' ∧ c'.cfg = c.cfg ∧ f ≤ f' ∧
      ∀ r, f ≤ r + 1 → AcksOk r f (dataAcks ch m) → (ch = .data → (dataAcks ch m).length ≤ 1) →
        f' ≤ r + 1 := by
  unfold subRecv at he
  rw [bind_ok] at he
  obtain ⟨c1, e1, he⟩ := he
  rw [bind_ok] at he
  obtain ⟨c2, e2, he⟩ := he
  obtain ⟨f1, h1, hc1, hm1, hs1, hr1, hn1⟩ := procAck_sp hq h e1
  obtain ⟨f2, h2, hc2, hm2, hs2, hr2, hn2⟩ := procAck_sp (by rw [hc1]; exact hq) h1 e2
  have hrec : SP segs f2 c' ∧ c'.cfg = c2.cfg := by
    have hq2 : c2.cfg.qmax ≤ 2047 := by rw [hc2, hc1]; exact hq
    split at he
    · exact recvSeq_sp hq2 h2 he
    · exact recvSeq_sp hq2 h2 he
    · exact recvSeq_sp hq2 h2 he
    · cases he; exact ⟨h2, rfl⟩
  refine ⟨f2, hrec.1, by rw [hrec.2, hc2, hc1], Nat.le_trans hm1 hm2, ?_⟩
  intro r hf ha hval
  -- the first ack field
  have hfst : f1 ≤ r + 1 ∧ ((∀ n, m.ack = some n → refs ch n ≠ .data) → f1 = f) := by
    refine ⟨?_, hn1⟩
    by_cases hd : ∃ n, m.ack = some n ∧ refs ch n = .data
    · obtain ⟨n, hn, hd⟩ := hd
      have := hr1 n hn hd
      have hmem : n.num ∈ dataAcks ch m := by
        unfold dataAcks; simp [hn, hd]
      obtain ⟨t1, t2⟩ := ha _ hmem
      have hw := h.si.win'
      exact this.bound hf t1 (by omega)
    · have : f1 = f := hn1 (fun n hn hd' => hd ⟨n, hn, hd'⟩)
      omega
  by_cases hd : ∃ n, m.ack2 = some n ∧ refs ch n = .data
  · obtain ⟨n, hn, hd⟩ := hd
    have hrel := hr2 n hn hd
    have hmem : n.num ∈ dataAcks ch m := by
      unfold dataAcks
      simp [hn, hd]
    obtain ⟨t1, t2⟩ := ha _ hmem
    have hw := h.si.win'
    have hw1 := h1.si.win'
    rw [hc1] at hw1
    cases ch with
    | other =>
      have := hs1 rfl
      exact hrel.bound hfst.1 t1 (by omega)
    | data =>
      -- at most one ack refers to the data subchannel, so the first did not
      have hfirst : ∀ n1, m.ack = some n1 → refs .data n1 ≠ .data := by
        intro n1 hn1' hd1
        have := hval rfl
        unfold dataAcks at this
        simp [hn, hn1', hd, hd1] at this
      have := hfst.2 hfirst
      exact hrel.bound hfst.1 t1 (by omega)
  · have : f2 = f1 := hn2 (fun n hn hd' => hd ⟨n, hn, hd'⟩)
    omega

end Verif.Nsp
