import Verif.Nsp.Send6

/-! The invariant of the sending half over whole steps, continued. -/
namespace Verif.Nsp

theorem WF.qeTimeout {segs : List Sg} {f : Nat} {c : Conn} (h : WF segs f c) (hb : Base c) {ch : Chan}
    {i : Nat} (he : Enabled c (.qeTimeout ch i)) : WF segs f (qeTimeout c ch i) := by
  obtain ⟨x, hx, ht⟩ := he
  unfold Nsp.qeTimeout
  rw [hx]
  dsimp only
  by_cases h1 : x.tries ≥ c.cfg.retransmits
  · rw [if_pos h1]
    split
    · cases ch with
      | other => exact h.same ⟨rfl, rfl, rfl, rfl, rfl, fun _ h _ => h⟩ rfl
      | data =>
        refine ⟨h.core.same rfl rfl (fun _ h _ => h), ?_, h.early, ?_, ?_⟩
        · intro hd
          obtain ⟨ctl, dat, hs⟩ := h.live hd
          exact hs.reflag hx rfl rfl rfl rfl (fun hh => by
            have hm : x ∈ ctl ++ dat := by rw [← hs.pend]; exact List.mem_of_getElem? hx
            exact hs.armed x hm (Or.inr ht))
        · intro hd y hy
          rcases List.mem_or_eq_of_mem_set hy with hy | rfl
          · exact h.dead hd y hy
          · exact h.dead hd x (List.mem_of_getElem? hx)
        · intro hc
          have := h.cr hc
          rw [show (c.sub .data).pending = c.data.pending from rfl, this] at hx
          cases hx
    · exact (h.emit (o := .scDisc 39 [] false) (by intro m hm; cases hm)).close
  · rw [if_neg h1]
    by_cases h2 : x.msg.body.isData = true ∧ flowOk c (headSeg (c.sub ch).pending) x = false
    · rw [if_pos h2]
      cases ch with
      | other => exact h.same ⟨rfl, rfl, rfl, rfl, rfl, fun _ h _ => h⟩ rfl
      | data =>
        refine ⟨h.core.same rfl rfl (fun _ h _ => h), ?_, h.early, ?_, ?_⟩
        · intro hd
          obtain ⟨ctl, dat, hs⟩ := h.live hd
          exact hs.reflag hx rfl rfl rfl rfl (fun hh => by simp at hh)
        · intro hd y hy
          rcases List.mem_or_eq_of_mem_set hy with hy | rfl
          · exact h.dead hd y hy
          · exact h.dead hd x (List.mem_of_getElem? hx)
        · intro hc
          have := h.cr hc
          rw [show (c.sub .data).pending = c.data.pending from rfl, this] at hx
          cases hx
    · rw [if_neg h2]
      have hfl : x.msg.body.isData = true → flowOk c (headSeg (c.sub ch).pending) x = true := by
        intro hd
        cases hfo : flowOk c (headSeg (c.sub ch).pending) x
        · exact absurd ⟨hd, hfo⟩ h2
        · rfl
      obtain ⟨a, g1, a', g1', m', eq, hr⟩ := qsend_form c ch x
      cases ch with
      | other =>
        have hnd : m'.body.isData = false := by
          rw [hr.isData]; exact hb.oth x (List.mem_of_getElem? hx)
        rw [eq]
        exact h.same ⟨rfl, rfl, rfl, rfl, rfl, fun m hm hd => log_emit_tx hnd hm hd⟩ rfl
      | data =>
        have hst : (setPending (qsend c .data x).1 .data ((c.sub .data).pending.set i (qsend c .data x).2)).state
            = c.state := by rw [eq]; rfl
        have hcf : (setPending (qsend c .data x).1 .data ((c.sub .data).pending.set i (qsend c .data x).2)).cfg
            = c.cfg := by rw [eq]; rfl
        cases hdd : c.state.dead
        · have hsi := (h.live hdd).refire h.core.q hx ht hfl
          exact ⟨hsi.core (by rw [hcf]; exact h.core.q), fun _ => hsi, (fun he => h.early (by rw [← hst]; exact he)),
            (fun hd => by rw [hst, hdd] at hd; cases hd), (fun hc => by
              rw [hst] at hc
              have := h.cr hc
              rw [show (c.sub .data).pending = c.data.pending from rfl, this] at hx
              cases hx)⟩
        · have hctl := h.dead hdd x (List.mem_of_getElem? hx)
          have hnd : m'.body.isAckHdr = false := by rw [hr.hdr]; exact hctl.2
          have hnd' : m'.body.isData = false := by
            cases hb' : m'.body.isData
            · rfl
            · rw [isAckHdr_of_isData hb'] at hnd; cases hnd
          refine h.kill hcf (by rw [eq]; rfl) ?_ (by rw [hst]; exact hdd) ?_
          · rw [eq]
            intro m hm hd
            exact log_emit_tx hnd' hm hd
          · intro y hy
            rcases List.mem_or_eq_of_mem_set (show y ∈ c.data.pending.set i (qsend c .data x).2 from hy) with hy | rfl
            · exact h.dead hdd y hy
            · rw [eq]; exact ⟨hctl.1, hnd⟩

/-- The subchannel the acknowledgments in a packet are processed on. -/
def Body.chan : Body → Option Chan
  | .dataSeg .. | .ackData => some .data
  | .intMsg .. | .linkSvc .. | .ackOther => some .other
  | _ => none

/-- The acknowledgments for data in a packet are at most `r` and not too old. -/
def Fresh (r f : Nat) (m : Msg) : Prop := ∀ ch, m.body.chan = some ch →
  AcksOk r f (dataAcks ch m) ∧ (ch = .data → (dataAcks ch m).length ≤ 1)

/-- The conclusion about a step: the window moves forward, and not beyond `r` if the packet says
nothing beyond `r`. -/
def Adv (f f' : Nat) (e : Ev) : Prop :=
  f ≤ f' ∧ ∀ r, f ≤ r + 1 → (∀ m, e = .recv m → Fresh r f m) → f' ≤ r + 1

theorem Adv.refl (f : Nat) (e : Ev) : Adv f f e := ⟨Nat.le_refl _, fun _ h _ => h⟩

theorem WF.runRecv {segs : List Sg} {f : Nat} {c c' : Conn} {m : Msg} (h : WF segs f c)
    (hs : c.state = .run) (he : runRecv c m = .ok c') :
    ∃ f', WF segs f' c' ∧ f ≤ f' ∧ ∀ r, f ≤ r + 1 → Fresh r f m → f' ≤ r + 1 := by
  unfold Nsp.runRecv at he
  dsimp only at he
  generalize hc1 : (if c.cphase > 2 then { c with timer := true } else c) = c1 at he
  have h1 : WF segs f c1 ∧ c1.state = .run := by
    subst hc1
    split_ifs
    · exact ⟨h.same ⟨rfl, rfl, rfl, rfl, rfl, fun _ h _ => h⟩ rfl, hs⟩
    · exact ⟨h, hs⟩
  obtain ⟨h1, hs1⟩ := h1
  have sub : ∀ ch, m.body.chan = some ch → subRecv c1 ch m = .ok c' →
      ∃ f', WF segs f' c' ∧ f ≤ f' ∧ ∀ r, f ≤ r + 1 → Fresh r f m → f' ≤ r + 1 := by
    intro ch hch he
    obtain ⟨f', g1, g2, g3, g4⟩ := subRecv_sp h1.core.q (h1.sp hs1) he
    exact ⟨f', g1.wf (by rw [g2]; exact h1.core.q), g3, fun r hr hf => g4 r hr (hf ch hch).1 (hf ch hch).2⟩
  split at he
  · rename_i hb; exact sub .data (by rw [hb]; rfl) he
  · rename_i hb; exact sub .data (by rw [hb]; rfl) he
  · rename_i hb; exact sub .other (by rw [hb]; rfl) he
  · rename_i hb; exact sub .other (by rw [hb]; rfl) he
  · rename_i hb; exact sub .other (by rw [hb]; rfl) he
  · cases he
    refine ⟨f, ?_, Nat.le_refl _, fun _ h _ => h⟩
    refine WF.close (WF.emit (WF.emit h1 ?_) ?_)
    · intro m hm; cases hm
    · intro m hm; cases hm; rfl
  · cases he
    refine ⟨f, ?_, Nat.le_refl _, fun _ h _ => h⟩
    refine WF.close (WF.emit h1 ?_)
    intro m hm; cases hm
  · cases he
    refine ⟨f, ?_, Nat.le_refl _, fun _ h _ => h⟩
    split_ifs
    · exact h1.same (sameSend_sendAck c1 .data) (fr_sendAck c1 .data).state
    · exact h1
  · cases he
    exact ⟨f, h1, Nat.le_refl _, fun _ h _ => h⟩

/-- An acknowledgment of a control packet before any data was sent. -/
theorem WF.ackEarly {segs : List Sg} {f : Nat} {c c' : Conn} (h : WF segs f c)
    (hs : c.state.early = true) (he : ack c .data 0 = .ok c') :
    SI segs f c' ∧ c'.cfg = c.cfg ∧ c'.state = c.state ∧ segs = [] := by
  have hsg := h.early hs
  subst hsg
  have hsi := h.live (by cases hc : c.state <;> rw [hc] at hs <;>
    first | rfl | exact absurd hs (by decide))
  obtain ⟨f', h1, -, -, -⟩ := ack_inv h.core.q hsi he
  have e1 := (SI.early hsi).1
  have e2 := (SI.early h1).1
  subst e1 e2
  exact ⟨h1, (fr_ack he).cfg, (fr_ack he).state, rfl⟩

theorem SI.wf_run {segs : List Sg} {f : Nat} {c : Conn} (hq : c.cfg.qmax ≤ 2047) (h : SI segs f c)
    (hs : c.state = .run) : WF segs f c :=
  ⟨h.core hq, fun _ => h, (fun he => by rw [hs] at he; cases he), (fun hd => by rw [hs] at hd; cases hd),
    (fun hc => by rw [hs] at hc; cases hc)⟩

theorem WF.cdRecv {segs : List Sg} {f : Nat} {c c' : Conn} {m : Msg} (h : WF segs f c)
    (hs : c.state = .ci ∨ c.state = .cd) (he : cdRecv c m = .ok c') : WF segs f c' := by
  have hearly : c.state.early = true := by rcases hs with h | h <;> rw [h] <;> rfl
  unfold Nsp.cdRecv at he
  split at he
  · rename_i fcopt info segsize b hb
    rw [bind_ok] at he
    obtain ⟨c1, e1, he⟩ := he
    cases he
    have h0 : WF segs f { setPhase { c with dstaddr := m.src } info with
        data := { (setPhase { c with dstaddr := m.src } info).data with flow := fcopt },
        segsize := min segsize MSS } := h.same ⟨rfl, rfl, rfl, rfl, rfl, fun _ h _ => h⟩ rfl
    obtain ⟨h1, h2, -, -⟩ := h0.ackEarly hearly e1
    have hq1 : c1.cfg.qmax ≤ 2047 := by rw [h2]; exact h.core.q
    by_cases hp : c1.cphase > 2
    · rw [if_pos hp]
      refine SI.wf_run ?_ (h1.same ((sameSend_sendAck c1 .data).trans
        (SameSend.trans (b := { sendAck c1 .data with timer := true }.emit (.scAccept b)) ?_
          ⟨rfl, rfl, rfl, rfl, rfl, fun _ h _ => h⟩))) rfl
      · show (sendAck c1 .data).cfg.qmax ≤ 2047
        rw [(fr_sendAck c1 .data).cfg]; exact hq1
      · exact SameSend.trans (b := { sendAck c1 .data with timer := true })
          ⟨rfl, rfl, rfl, rfl, rfl, fun _ h _ => h⟩ (sameSend_emit (fun m hm => by cases hm))
    · rw [if_neg hp]
      exact SI.wf_run hq1 (h1.same (SameSend.trans (b := c1.emit (.scAccept b))
        (sameSend_emit (fun m hm => by cases hm)) ⟨rfl, rfl, rfl, rfl, rfl, fun _ h _ => h⟩)) rfl
  · rename_i r b hb
    cases he
    have h0 : WF segs f { c with dstaddr := m.src } := h.same ⟨rfl, rfl, rfl, rfl, rfl, fun _ h _ => h⟩ rfl
    refine WF.close (WF.emit (WF.emit h0 ?_) ?_)
    · intro m hm; cases hm
    · intro m hm; cases hm; rfl
  · cases he
    refine WF.close (WF.emit h ?_)
    intro m hm; cases hm
  · cases he; exact h

theorem WF.recv {segs : List Sg} {f : Nat} {c c' : Conn} {m : Msg} (h : WF segs f c)
    (he : recv c m = .ok c') :
    ∃ f', WF segs f' c' ∧ f ≤ f' ∧ ∀ r, f ≤ r + 1 → Fresh r f m → f' ≤ r + 1 := by
  have same : WF segs f c' → ∃ f', WF segs f' c' ∧ f ≤ f' ∧ ∀ r, f ≤ r + 1 → Fresh r f m → f' ≤ r + 1 :=
    fun h => ⟨f, h, Nat.le_refl _, fun _ h _ => h⟩
  unfold Nsp.recv at he
  cases hs : c.state with
  | ci =>
    rw [hs] at he
    have he : ciRecv c m = .ok c' := he
    unfold ciRecv at he
    split at he
    · split_ifs at he with hp
      · rw [bind_ok] at he
        obtain ⟨c1, e1, he⟩ := he
        cases he
        obtain ⟨h1, h2, h3, h4⟩ := h.ackEarly (by rw [hs]; rfl) e1
        have h1' : SI segs f { c1 with state := .cd } := h1.same ⟨rfl, rfl, rfl, rfl, rfl, fun _ h _ => h⟩
        exact same ⟨h1'.core (by show c1.cfg.qmax ≤ 2047; rw [h2]; exact h.core.q), fun _ => h1', fun _ => h4,
          (fun hd => by cases hd), (fun hc => by cases hc)⟩
      · exact same (h.cdRecv (Or.inl hs) he)
    · cases he
      refine same (WF.close (WF.emit h ?_))
      intro m hm; cases hm
    · exact same (h.cdRecv (Or.inl hs) he)
  | cd =>
    rw [hs] at he
    exact same (h.cdRecv (Or.inr hs) he)
  | cr =>
    rw [hs] at he
    have he : Except.ok (crRecv c m) = .ok c' := he
    cases he
    refine same ?_
    unfold crRecv
    split
    · split_ifs
      · exact h.emit (fun m hm => by cases hm; rfl)
      · exact h
    · exact h
  | cc =>
    rw [hs] at he
    have he : ccRecv c m = .ok c' := he
    unfold ccRecv at he
    rw [bind_ok] at he
    obtain ⟨c1, e1, he⟩ := he
    have h1 : SI segs f c1 ∧ c1.cfg = c.cfg := by
      unfold ccAck at e1
      split_ifs at e1
      · obtain ⟨h1, h2, -⟩ := h.ackEarly (by rw [hs]; rfl) e1
        exact ⟨h1, h2⟩
      · cases e1
        exact ⟨h.live (by rw [hs]; rfl), rfl⟩
    have h2 : SI segs f ({ c1 with state := .run }.emit .scRun) :=
      h1.1.same (SameSend.trans (b := { c1 with state := .run }) ⟨rfl, rfl, rfl, rfl, rfl, fun _ h _ => h⟩
        (sameSend_emit (fun m hm => by cases hm)))
    exact (SI.wf_run (by show c1.cfg.qmax ≤ 2047; rw [h1.2]; exact h.core.q) h2 rfl).runRecv rfl he
  | run =>
    rw [hs] at he
    exact h.runRecv hs he
  | di =>
    rw [hs] at he
    have he : Except.ok (diRecv c m) = .ok c' := he
    cases he
    refine same ?_
    unfold diRecv
    split
    · refine WF.close (WF.emit h ?_)
      intro m hm; cases hm; rfl
    · exact h.close
    · exact h
  | closed =>
    rw [hs] at he
    cases he

/-- The slices a call adds to the stream. -/
def newSegs (c : Conn) (e : Ev) : List Sg :=
  match e with
  | .sendData d => if (step c e).2 = none then slices c.segsize d else []
  | _ => []

theorem WF.interrupt {segs : List Sg} {f : Nat} {c c' : Conn} {d : Bytes} (h : WF segs f c)
    (he : interrupt c d = .ok c') : WF segs f c' := by
  unfold Nsp.interrupt at he
  split_ifs at he
  rw [bind_ok] at he
  obtain ⟨c1, e1, he⟩ := he
  cases he
  obtain ⟨h1, h2⟩ := otherSend_same rfl rfl e1
  exact (h.same h1 h2).same ⟨rfl, rfl, rfl, rfl, rfl, fun _ h _ => h⟩ rfl

theorem WF.runTimeout {segs : List Sg} {f : Nat} {c c' : Conn} (h : WF segs f c)
    (he : runTimeout c = .ok c') : WF segs f c' := by
  unfold Nsp.runTimeout at he
  have h0 : WF segs f { c with other := { c.other with seqnum := c.other.seqnum + 1 } } :=
    h.same ⟨rfl, rfl, rfl, rfl, rfl, fun _ h _ => h⟩ rfl
  obtain ⟨h1, h2⟩ := otherSend_same rfl rfl he
  exact h0.same h1 h2

theorem WF.connTimeout {segs : List Sg} {f : Nat} {c c' : Conn} (h : WF segs f c)
    (he : connTimeout c = .ok c') : WF segs f c' := by
  have h0 : WF segs f { c with timer := false } := h.same ⟨rfl, rfl, rfl, rfl, rfl, fun _ h _ => h⟩ rfl
  unfold Nsp.connTimeout at he
  dsimp only at he
  have hnone : ∀ {o : Out}, (∀ m, o ≠ .tx m) → ∀ m, o = .tx m → m.body.isData = false :=
    fun h m hm => absurd hm (h m)
  split at he
  · cases he; exact (h0.emit (fun m hm => by cases hm)).close
  · cases he; exact (h0.emit (fun m hm => by cases hm)).close
  · rename_i hs
    rw [bind_ok] at he
    obtain ⟨c1, e1, he⟩ := he
    cases he
    have hsi := h.live (by rw [hs]; rfl)
    have hsg := h.early (by rw [hs]; rfl)
    have hk : WF segs f { c with timer := false, state := .di } :=
      h.kill rfl rfl (fun _ h _ => h) rfl (by subst hsg; exact hsi.early.2)
    have hst : c1.state = .di := by
      obtain ⟨-, rfl⟩ := discRej_ok e1
      rw [(sameRecv_sendCtl _ _).state]
    have := hk.discRej e1 .di rfl
    have e : { c1 with state := .di } = c1 := by rw [← hst]
    rw [e] at this
    exact this.emit (fun m hm => by cases hm)
  · exact h0.runTimeout he
  · exact h0.runTimeout he
  · cases he; exact h0
  · cases he

/-- Every event keeps the invariant of the sending half. -/
theorem step_wf {segs : List Sg} {f : Nat} {c : Conn} {e : Ev} (h : WF segs f c) (hb : Base c)
    (he : Enabled c e) :
    ∃ f', WF (segs ++ newSegs c e) f' (step c e).1 ∧ Adv f f' e := by
  have none : ∀ {c' : Conn}, newSegs c e = [] → WF segs f c' → ∃ f', WF (segs ++ newSegs c e) f' c' ∧ Adv f f' e := by
    intro c' h1 h2; rw [h1, List.append_nil]; exact ⟨f, h2, Adv.refl f e⟩
  have fin : ∀ {c0 : Conn} {r : Except Err Conn}, newSegs c e = [] → WF segs f c0 →
      (∀ c', r = .ok c' → WF segs f c') → ∃ f', WF (segs ++ newSegs c e) f' (step.fin c0 r).1 ∧ Adv f f' e := by
    intro c0 r h1 h2 h3
    cases r with
    | ok c' => exact none h1 (h3 c' rfl)
    | error err => exact none h1 h2
  cases e with
  | recv m =>
    dsimp only [step]
    cases hr : recv c m with
    | error err => exact none rfl h
    | ok c' =>
      obtain ⟨f', h1, h2, h3⟩ := h.recv hr
      refine ⟨f', ?_, h2, fun r hr hf => h3 r hr (hf m rfl)⟩
      show WF (segs ++ []) f' c'
      rw [List.append_nil]; exact h1
  | connTimeout => exact fin rfl h (fun c' => h.connTimeout)
  | holdTimeout ch => exact none rfl (h.same (sameSend_sendAck c ch) (fr_sendAck c ch).state)
  | qeTimeout ch i => exact none rfl (h.qeTimeout hb he)
  | accept p =>
    refine fin rfl h ?_
    intro c' he
    unfold accept at he
    by_cases hs : c.state ≠ .cr
    · rw [if_pos hs] at he; cases he
    rw [if_neg hs] at he
    simp only [ne_eq, Decidable.not_not] at hs
    have hsi := h.live (by rw [hs]; rfl)
    dsimp only at he
    by_cases hp : c.cphase = 2
    · rw [if_pos hp] at he
      cases he
      refine SI.wf_run h.core.q (hsi.same (SameSend.trans (b := { c with state := .run, timer := false })
        ⟨rfl, rfl, rfl, rfl, rfl, fun _ h _ => h⟩ (sameSend_emit (fun m hm => by cases hm; rfl)))) rfl
    · rw [if_neg hp] at he
      cases he
      have h1 : SI segs f { c with state := .cc } := hsi.same ⟨rfl, rfl, rfl, rfl, rfl, fun _ h _ => h⟩
      have h2 := sendCtl_si (c := { c with state := .cc })
        (b := .connConf 0 (nspVer c.cfg.phase) MSS p) rfl (h.cr hs) h1
      have hr := sameRecv_sendCtl { c with state := .cc } (.connConf 0 (nspVer c.cfg.phase) MSS p)
      have hst : (sendCtl { c with state := .cc } (.connConf 0 (nspVer c.cfg.phase) MSS p)).state = .cc := hr.state
      refine ⟨h2.core (by rw [hr.cfg]; exact h.core.q), fun _ => h2, (fun _ => h.early (by rw [hs]; rfl)), ?_, ?_⟩
      · intro hd; rw [hst] at hd; cases hd
      · intro hc; rw [hst] at hc; cases hc
  | reject r p =>
    dsimp only [step]
    split_ifs with hs
    · exact none rfl h
    · simp only [ne_eq, Decidable.not_not] at hs
      have hsi := h.live (by rw [hs]; rfl)
      have hsg := h.early (by rw [hs]; rfl)
      have hk : WF segs f { c with timer := false, state := .di } :=
        h.kill rfl rfl (fun _ h _ => h) rfl (by subst hsg; exact hsi.early.2)
      refine fin rfl hk ?_
      intro c' e1
      have hst : c'.state = .di := by
        obtain ⟨-, rfl⟩ := discRej_ok e1
        rw [(sameRecv_sendCtl _ _).state]
      have := hk.discRej e1 .di rfl
      have e : { c' with state := .di } = c' := by rw [← hst]
      rw [e] at this
      exact this
  | disconnect r p =>
    dsimp only [step]
    split_ifs with hs hp
    · exact none rfl h
    · exact none rfl (h.same ⟨rfl, rfl, rfl, rfl, rfl, fun _ h _ => h⟩ rfl)
    · simp only [ne_eq, Decidable.not_not] at hs hp
      have hk : WF segs f { c with state := .di } :=
        h.kill rfl rfl (fun _ h _ => h) rfl (by intro x hx; rw [show _ = c.data.pending from rfl, hp] at hx; cases hx)
      refine fin rfl hk ?_
      intro c' e1
      have hst : c'.state = .di := by
        obtain ⟨-, rfl⟩ := discRej_ok e1
        rw [(sameRecv_sendCtl _ _).state]
      have := hk.discRej e1 .di rfl
      have e : { c' with state := .di } = c' := by rw [← hst]
      rw [e] at this
      exact this
  | abort r p =>
    dsimp only [step]
    split_ifs with hs
    · exact none rfl h
    · refine fin rfl h ?_
      intro c' he
      cases hd : discRej c r p with
      | error err => rw [hd] at he; cases he
      | ok c1 =>
        rw [hd] at he
        cases he
        exact h.discRej hd .di rfl
  | sendData d =>
    dsimp only [step]
    cases hr : sendData c d with
    | error err =>
      refine none ?_ h
      have e2 : (step c (.sendData d)).2 = some err := by dsimp only [step]; rw [hr]; rfl
      exact if_neg (by rw [e2]; exact fun h => by cases h)
    | ok c' =>
      have hn : newSegs c (.sendData d) = slices c.segsize d := by
        have e2 : (step c (.sendData d)).2 = Option.none := by dsimp only [step]; rw [hr]; rfl
        exact if_pos e2
      unfold sendData at hr
      split_ifs at hr with h1 h2
      simp only [ne_eq, not_or, Decidable.not_not] at h1
      have hsi := h.live (by rw [h1.1]; rfl)
      obtain ⟨c2, e2, h3, h4⟩ := sendAll_si (slices c.segsize d) segs c h.core.q hsi
      rw [hr] at e2
      cases e2
      refine ⟨f, ?_, Adv.refl f _⟩
      rw [hn]
      show WF _ f c'
      exact SI.wf_run (by rw [h4.cfg]; exact h.core.q) h3 (h4.state.trans h1.1)
  | interrupt d => exact fin rfl h (fun c' => h.interrupt)
  | setsockopt b =>
    refine none rfl ?_
    exact WF.emit (c := { c with rsts := b }) (h.same ⟨rfl, rfl, rfl, rfl, rfl, fun _ h _ => h⟩ rfl)
      (fun m hm => by cases hm)
  | learn a => exact none rfl (h.same ⟨rfl, rfl, rfl, rfl, rfl, fun _ h _ => h⟩ rfl)

theorem start_wf {c : Conn} (h : Start c) (hq : c.cfg.qmax ≤ 2047) : WF [] 1 c := by
  cases h with
  | out cfg id p =>
    rw [newOut_form] at hq ⊢
    have hsi : SI [] 1 (let m : Msg := { dst := 0, src := id, body := .connInit false 0 (nspVer cfg.phase) MSS p }
        ({ cfg := cfg, state := .ci, srcaddr := id, timer := true, log := [.tx m],
           data := { pending := [{ msg := m, tries := 1, sent := true, timer := true }] } } : Conn)) := by
      refine ⟨[_], [], rfl, ?_, by simp, rfl, rfl, rfl, Nat.le_refl _, Nat.le_refl _, Nat.one_pos, ?_, by simp, ?_, ?_⟩
      · intro x hx; rw [List.mem_singleton] at hx; subst hx; exact ⟨rfl, rfl⟩
      · show 0 + 1 ≤ 1 + _; omega
      · intro x hx _; simp only [List.append_nil, List.mem_singleton] at hx; subst hx; exact Nat.one_pos
      · intro m hm k dly b e p' hb
        rw [List.mem_singleton] at hm
        cases hm
        cases hb
    exact ⟨hsi.core hq, fun _ => hsi, fun _ => rfl, (fun h => by cases h), (fun h => by cases h)⟩
  | inc cfg id r fc i s p =>
    rw [newIn_form] at hq ⊢
    have hsi : SI [] 1 ({
        cfg := cfg, state := .cr, srcaddr := id, dstaddr := r, timer := true,
        cphase := min (nspPhase i) cfg.phase, data := { flow := fc }, segsize := min s MSS,
        log := (if min (nspPhase i) cfg.phase > 2 then
          [.tx { dst := r, src := 0, body := .ackConn }] else []) ++ [.scConn p] } : Conn) := by
      refine ⟨[], [], rfl, by simp, by simp, rfl, rfl, rfl, Nat.le_refl _, Nat.le_refl _, Nat.one_pos, ?_, by simp,
        by simp, ?_⟩
      · show 0 + 1 ≤ 1 + _; omega
      · intro m hm k dly b e p' hb
        dsimp only at hm
        rw [List.mem_append, List.mem_singleton] at hm
        rcases hm with hm | hm
        · split_ifs at hm
          · rw [List.mem_singleton] at hm; cases hm; cases hb
          · cases hm
        · cases hm
    exact ⟨hsi.core hq, fun _ => hsi, fun _ => rfl, (fun h => by cases h), fun _ => rfl⟩

end Verif.Nsp
