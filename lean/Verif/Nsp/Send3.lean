import Verif.Nsp.Send2

/-! The invariant of the sending half: received packets. -/
namespace Verif.Nsp

/-- the subchannel an ack field refers to -/
def refs (ch : Chan) (a : AckNum) : Chan := if a.isCross then ch.cross else ch

/-- Invariant while the connection is running or has just queued its Disconnect Initiate. -/
structure SP (segs : List Sg) (f : Nat) (c : Conn) : Prop where
  si : SI segs f c
  di : c.state = .di → f = segs.length + 1
  st : c.state = .run ∨ c.state = .di

theorem SP.same {segs : List Sg} {f : Nat} {c c' : Conn} (h : SP segs f c) (s : SameSend c c')
    (hs : c'.state = c.state) : SP segs f c' :=
  ⟨h.si.same s, by rw [hs]; exact h.di, by rw [hs]; exact h.st⟩

theorem sendBlocked_sp {segs : List Sg} {f : Nat} {c : Conn} (hq : c.cfg.qmax ≤ 2047)
    (h : SP segs f c) :
    ∃ c', sendBlocked c = .ok c' ∧ SP segs f c' ∧ (c'.data.pending = [] → c.data.pending = []) := by
  obtain ⟨c', e, h', hp⟩ := sendBlocked_inv hq h.si
  have hf := fr_sendBlocked e
  exact ⟨c', e, ⟨h', by rw [hf.state]; exact h.di, by rw [hf.state]; exact h.st⟩, hp⟩

theorem SI.win' {segs : List Sg} {f : Nat} {c : Conn} (h : SI segs f c) :
    c.data.maxseqsent + 1 ≤ f + c.cfg.qmax := by
  obtain ⟨_, _, h⟩ := h; exact h.win

theorem SI.lo' {segs : List Sg} {f : Nat} {c : Conn} (h : SI segs f c) :
    f ≤ c.data.maxseqsent + 1 := by
  obtain ⟨_, _, h⟩ := h; exact h.lo

theorem SI.f_le {segs : List Sg} {f : Nat} {c : Conn} (h : SI segs f c) : f ≤ segs.length + 1 := by
  obtain ⟨_, _, h⟩ := h
  have := h.next
  have := h.len
  omega

theorem AckRel.mono {a f f' ms : Nat} (h : AckRel a f f' ms) : f ≤ f' := by
  rcases h with rfl | ⟨rfl, -⟩ <;> omega

theorem AckRel.bound {a f f' ms r : Nat} (h : AckRel a f f' ms) (hf : f ≤ r + 1) (ha : a ≤ r)
    (hms : ms < a + 4096) : f' ≤ r + 1 := by
  rcases h with rfl | ⟨rfl, h⟩
  · exact hf
  · unfold dist at *; omega

theorem procAckBase_sp {segs : List Sg} {f : Nat} {c c' : Conn} {ch : Chan} {a : Option AckNum}
    (hq : c.cfg.qmax ≤ 2047) (h : SP segs f c) (he : procAckBase c ch a = .ok c') :
    ∃ f', SP segs f' c' ∧ Fr c c' ∧ c'.data.maxseqsent = c.data.maxseqsent ∧ f ≤ f' ∧
      ((∀ n, a = some n → refs ch n = .data → AckRel n.num f f' c.data.maxseqsent)) ∧
      ((∀ n, a = some n → refs ch n ≠ .data) → f' = f) := by
  cases a with
  | none =>
    cases he
    exact ⟨f, h, Fr.refl _, rfl, Nat.le_refl _, by simp, fun _ => rfl⟩
  | some n =>
    have he' : ack c (refs ch n) n.num = .ok c' := by
      unfold procAckBase at he
      unfold refs
      dsimp only at he
      split_ifs at he ⊢ <;> exact he
    have hf := fr_ack he'
    cases hr : refs ch n with
    | other =>
      rw [hr] at he'
      have hs := sameSend_ack_other he'
      refine ⟨f, h.same hs hf.state, hf, hs.maxseqsent, Nat.le_refl _, ?_, fun _ => rfl⟩
      intro n' hn' hd
      cases hn'; rw [hr] at hd; cases hd
    | data =>
      rw [hr] at he'
      obtain ⟨f', h1, h2, h3, h4⟩ := ack_inv hq h.si he'
      refine ⟨f', ⟨h1, ?_, ?_⟩, hf, h3, h2.mono, ?_, ?_⟩
      · intro hd
        rw [hf.state] at hd
        have e1 := h.di hd
        have := h2.mono
        have := h1.f_le
        omega
      · rw [hf.state]; exact h.st
      · intro n' hn' _; cases hn'; exact h2
      · intro hn'; exact absurd hr (hn' n rfl)

theorem sendCtl_pending {c : Conn} {b : Body} (hb : b.isAckHdr = false) (hp : c.data.pending = []) :
    ∃ m a h a' h', sendCtl c b = withQ ((tweak c a h a' h').emit (.tx m)) [fired { msg := mk c b } m] ∧
      m.body.isAckHdr = false ∧ m.dst = c.dstaddr ∧ m.src = c.srcaddr ∧ Refill c .data (mk c b) m := by
  obtain ⟨a, h, a', h', m', e, hr⟩ := qsend_form c .data { msg := mk c b }
  refine ⟨m', a, h, a', h', ?_, ?_, hr.dst, hr.src, hr⟩
  · unfold sendCtl
    simp only [e, hp]
    rfl
  · rw [hr.hdr]; exact hb

/-- Queueing a control packet on an empty queue. -/
theorem sendCtl_si {segs : List Sg} {f : Nat} {c : Conn} {b : Body} (hb : b.isAckHdr = false)
    (hp : c.data.pending = []) (h : SI segs f c) : SI segs f (sendCtl c b) := by
  obtain ⟨m, a, h1, a', h1', e, hm, -, -, -⟩ := sendCtl_pending (c := c) hb hp
  rw [e]
  obtain ⟨ctl, dat, h⟩ := h
  have hpe := h.pend
  rw [hp] at hpe
  obtain ⟨rfl, rfl⟩ := List.append_eq_nil_iff.1 hpe.symm
  refine ⟨[fired { msg := mk c b } m], [], rfl, ?_, by simp, h.len, h.next, h.nm, h.fpos, h.lo, h.hi,
    h.win, by simp, ?_, ?_⟩
  · intro x hx
    rw [List.mem_singleton] at hx
    subst hx
    exact ⟨rfl, hm⟩
  · intro x hx _
    simp only [List.append_nil, List.mem_singleton] at hx
    subst hx
    exact Nat.succ_pos _
  · intro m2 hm2 k dly b2 e2 p2 hb2
    have : Out.tx m2 ∈ c.log ++ [.tx m] := hm2
    rw [List.mem_append, List.mem_singleton] at this
    rcases this with h' | h'
    · exact h.txok m2 h' k dly b2 e2 p2 hb2
    · obtain rfl : m2 = m := by simpa using h'
      rw [hb2] at hm; exact absurd hm Bool.noConfusion

theorem discRej_ok {c c' : Conn} {r : Int} {p : Bytes} (h : discRej c r p = .ok c') :
    (0 ≤ r ∧ r ≤ 255 ∧ reservedReason r = false) ∧
    c' = sendCtl { c with timer := false, data := closeSub c.data, other := closeSub c.other }
      (.discInit r.toNat p) := by
  unfold discRej at h
  split_ifs at h with hc
  cases h
  refine ⟨?_, rfl⟩
  simp only [not_or, Bool.not_eq_true] at hc
  exact ⟨by omega, by omega, hc.2.2⟩

theorem shutdownCheck_sp {segs : List Sg} {f : Nat} {c c' : Conn} (h : SP segs f c)
    (he : shutdownCheck c = .ok c') : SP segs f c' ∧ c'.data.nextseg = c.data.nextseg ∧
      c'.data.maxseqsent = c.data.maxseqsent ∧ c'.cfg = c.cfg := by
  unfold shutdownCheck at he
  split_ifs at he with hc
  · rw [bind_ok] at he
    obtain ⟨c2, h1, h2⟩ := he
    cases h2
    obtain ⟨-, rfl⟩ := discRej_ok h1
    have hsi : SI segs f { c with timer := false, data := closeSub c.data, other := closeSub c.other } :=
      h.si.same ⟨rfl, by simp [closeSub, hc.2], rfl, rfl, rfl, fun _ h _ => h⟩
    have h3 := sendCtl_si (b := .discInit c.pendingDisc.1.toNat c.pendingDisc.2) rfl (by rfl) hsi
    obtain ⟨m, a, h1, a', h1', e, hm, -, -, -⟩ := sendCtl_pending
      (c := { c with timer := false, data := closeSub c.data, other := closeSub c.other })
      (b := .discInit c.pendingDisc.1.toNat c.pendingDisc.2) rfl rfl
    refine ⟨⟨h3.same ⟨rfl, rfl, rfl, rfl, rfl, fun _ h _ => h⟩, ?_, Or.inr rfl⟩, ?_, ?_, ?_⟩
    · intro _
      obtain ⟨ctl, dat, hx⟩ := h.si
      have hpe := hx.pend
      rw [hc.2] at hpe
      obtain ⟨rfl, rfl⟩ := List.append_eq_nil_iff.1 hpe.symm
      have := hx.next
      have := hx.len
      simp only [List.length_nil] at *
      omega
    · rw [e]; rfl
    · rw [e]; rfl
    · rw [e]; rfl
  · cases he; exact ⟨h, rfl, rfl, rfl⟩

/-- acknowledgments that refer to the data subchannel -/
def dataAcks (ch : Chan) (m : Msg) : List Nat :=
  ([m.ack, m.ack2].filterMap id).filterMap fun a => if refs ch a = .data then some a.num else none

/-- The acknowledgments in the packet are for segments up to `r` and not too old. -/
def AcksOk (r f : Nat) (acks : List Nat) : Prop := ∀ a ∈ acks, a ≤ r ∧ f ≤ a + 2047

theorem procAck_sp {segs : List Sg} {f : Nat} {c c' : Conn} {ch : Chan} {a : Option AckNum}
    (hq : c.cfg.qmax ≤ 2047) (h : SP segs f c) (he : procAck c ch a = .ok c') :
    ∃ f', SP segs f' c' ∧ c'.cfg = c.cfg ∧ f ≤ f' ∧
      (ch = .other → c'.data.maxseqsent = c.data.maxseqsent) ∧
      ((∀ n, a = some n → refs ch n = .data → AckRel n.num f f' c.data.maxseqsent)) ∧
      ((∀ n, a = some n → refs ch n ≠ .data) → f' = f) := by
  cases ch with
  | other =>
    have he' : procAckBase c .other a = .ok c' := he
    obtain ⟨f', h1, h2, h3, h4, h5, h6⟩ := procAckBase_sp hq h he'
    exact ⟨f', h1, h2.cfg, h4, fun _ => h3, h5, h6⟩
  | data =>
    unfold procAck at he
    rw [bind_ok] at he
    obtain ⟨c1, e1, he⟩ := he
    rw [bind_ok] at he
    obtain ⟨c2, e2, he⟩ := he
    obtain ⟨f', h1, h2, h3, h4, h5, h6⟩ := procAckBase_sp hq h e1
    obtain ⟨c2', e2', h7, -⟩ := sendBlocked_sp (by rw [h2.cfg]; exact hq) h1
    rw [e2] at e2'
    cases e2'
    obtain ⟨h8, -, h9, h10⟩ := shutdownCheck_sp h7 he
    exact ⟨f', h8, by rw [h10, (fr_sendBlocked e2).cfg, h2.cfg], h4, (fun h => by cases h), h5, h6⟩

end Verif.Nsp
