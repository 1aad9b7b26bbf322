import Verif.Ddcmp.Recover
/-! From any good state both ends can get to the running state. -/
namespace Verif.Ddcmp

theorem idle_zero {qp qq p q} (hg : Good qp qq p q) (h : p.st ≠ .running) :
    p.r = 0 ∧ q.r = 0 := by
  obtain ⟨A, lo, lf, B, lo', lf', hf, hi⟩ := hg
  obtain ⟨h1, h2, h3⟩ := hi.h1.idle h
  constructor
  · rw [hi.d2.qr, h2]; rfl
  · have hc := chain_le hi.d1.fwd
    have hd := hi.d1.rlf
    rw [h1] at hc
    simp at hc
    rw [hi.d1.qr]; omega

/-- `p` waits for an acknowledgment, `q` runs. -/
theorem finish_astart {qp qq p q} (hg : Good qp qq p q) (hp : p.st = .astart)
    (hq : q.st = .running) {f fs} (hqo : q.out = f :: fs) (hf : f = .ack 0) :
    ∃ p' q', Reach qp qq (p, q) (p', q') ∧ p'.st = .running ∧ q'.st = .running := by
  subst hf
  obtain ⟨p1, q1, e1, g1⟩ := act_good hg .recv
  refine ⟨p1, q1, Reach.act1 .recv (by simp) e1, ?_, ?_⟩
  · simp only [act, hqo, handle, hp, astart, if_true, running, Option.map_eq_some_iff,
      Option.bind_eq_some_iff] at e1
    obtain ⟨p2, ⟨⟨p3, b⟩, e2, e3⟩, e4⟩ := e1
    simp only [Prod.mk.injEq] at e4
    obtain ⟨rfl, rfl⟩ := e4
    simp only [Option.some.injEq] at e3
    rw [← e3, (same_ack p3).st, (same_processAck e2).st]
    rfl
  · simp only [act, hqo, Option.map_eq_some_iff] at e1
    obtain ⟨p2, _, e4⟩ := e1
    simp only [Prod.mk.injEq] at e4
    rw [← e4.2]; exact hq

/-- `p` receives a Stack when `q` waits for the acknowledgment. -/
theorem finish_stack {qp qq p q} (hg : Good qp qq p q) (hp : p.st ≠ .running)
    (hpo : p.out = []) (hq : q.st = .astart) {fs} (hqo : q.out = .stack :: fs) :
    ∃ p' q', Reach qp qq (p, q) (p', q') ∧ p'.st = .running ∧ q'.st = .running := by
  obtain ⟨z1, z2⟩ := idle_zero hg hp
  have e1 : act qp p q .recv = some (enterRunning true p, { q with out := fs }) := by
    simp only [act, hqo, handle]
    cases hs : p.st with
    | istart => rfl
    | astart => rfl
    | running => exact absurd hs hp
  have r1 : Reach qp qq (p, q) (enterRunning true p, { q with out := fs }) :=
    Reach.act1 .recv (by simp) e1
  have g1 := reach_good r1 hg
  have ho : (enterRunning true p).out = [.ack 0] := by
    simp [enterRunning, sendAck, emit, hpo, z1]
  obtain ⟨q', p', r2, h1, h2⟩ := finish_astart g1.symm hq rfl ho rfl
  exact ⟨p', q', r1.trans r2.swap, h2, h1⟩

theorem start_up {qp qq p q} (hg : Good qp qq p q) :
    ∃ p' q', Reach qp qq (p, q) (p', q') ∧ p'.st = .running ∧ q'.st = .running := by
  -- both not running, or one waiting for the acknowledgment of a running peer
  have both : ∀ {qp qq p q}, Good qp qq p q → p.out = [] → q.out = [] → p.st ≠ .running →
      q.st = .astart →
      ∃ p' q', Reach qp qq (p, q) (p', q') ∧ p'.st = .running ∧ q'.st = .running := by
    intro qp qq p q hg hpo hqo hp hq
    have e1 : act qq q p .timeout = some (emit .stack q, p) := by
      simp [act, handle, hq, astart]
    have r1 : Reach qp qq (p, q) (p, emit .stack q) := Reach.act2 .timeout (by simp) e1
    have g1 := reach_good r1 hg
    obtain ⟨p', q', r2, h1, h2⟩ := finish_stack g1 hp hpo (by exact hq) (fs := [])
      (by simp [emit, hqo])
    exact ⟨p', q', r1.trans r2, h1, h2⟩
  have half : ∀ {qp qq p q}, Good qp qq p q → p.out = [] → q.out = [] → p.st = .astart →
      q.st = .running →
      ∃ p' q', Reach qp qq (p, q) (p', q') ∧ p'.st = .running ∧ q'.st = .running := by
    intro qp qq p q hg hpo hqo hp hq
    obtain ⟨z1, z2⟩ := idle_zero hg (by rw [hp]; simp)
    have e1 : act qp p q .timeout = some (emit .stack p, q) := by
      simp [act, handle, hp, astart]
    have r1 : Reach qp qq (p, q) (emit .stack p, q) := Reach.act1 .timeout (by simp) e1
    have e2 : act qq q (emit .stack p) .recv =
        some (sendAck { q with ackflag := true }, p) := by
      have : (emit .stack p).out = [.stack] := by simp [emit, hpo]
      simp only [act, this, handle, hq, running, Option.map_some, ackIfNeeded, if_true]
      congr 2
      cases p; simp_all [emit]
    have r2 : Reach qp qq (emit .stack p, q) (p, sendAck { q with ackflag := true }) :=
      Reach.act2 .recv (by simp) e2
    have rr := r1.trans r2
    obtain ⟨p', q', r3, h1, h2⟩ := finish_astart (reach_good rr hg) hp
      (by exact hq) (fs := []) (f := .ack 0) (by simp [sendAck, emit, hqo, z2]) rfl
    exact ⟨p', q', rr.trans r3, h1, h2⟩
  have hc := good_cleared hg
  have hr := reach_clear (qp := qp) (qq := qq) p q
  suffices h : ∃ p' q', Reach qp qq ({ p with out := [] }, { q with out := [] }) (p', q') ∧
      p'.st = .running ∧ q'.st = .running by
    obtain ⟨p', q', r, h1, h2⟩ := h
    exact ⟨p', q', hr.trans r, h1, h2⟩
  generalize hP : ({ p with out := [] } : Stn) = P at hc
  generalize hQ : ({ q with out := [] } : Stn) = Q at hc
  have hPo : P.out = [] := by rw [← hP]
  have hQo : Q.out = [] := by rw [← hQ]
  clear hr hg hP hQ
  cases hps : P.st with
  | running =>
    cases hqs : Q.st with
    | running => exact ⟨P, Q, Reach.refl _, hps, hqs⟩
    | astart =>
      obtain ⟨q', p', r, h1, h2⟩ := half hc.symm hQo hPo hqs hps
      exact ⟨p', q', r.swap, h2, h1⟩
    | istart =>
      obtain ⟨A, lo, lf, B, lo', lf', hf, hi⟩ := hc
      exact absurd hqs (hi.h1.knows hps).1
  | astart =>
    cases hqs : Q.st with
    | running => exact half hc hPo hQo hps hqs
    | astart => exact both hc hPo hQo (by rw [hps]; simp) hqs
    | istart =>
      obtain ⟨q', p', r, h1, h2⟩ := both hc.symm hQo hPo (by rw [hqs]; simp) hps
      exact ⟨p', q', r.swap, h2, h1⟩
  | istart =>
    cases hqs : Q.st with
    | running =>
      obtain ⟨A, lo, lf, B, lo', lf', hf, hi⟩ := hc
      exact absurd hps (hi.h2.knows hqs).1
    | astart => exact both hc hPo hQo (by rw [hps]; simp) hqs
    | istart =>
      have e1 : act qp P Q .timeout = some (emit .start P, Q) := by
        simp [act, handle, hps, istart]
      have r1 : Reach qp qq (P, Q) (emit .start P, Q) := Reach.act1 .timeout (by simp) e1
      have e2 : act qq Q (emit .start P) .recv =
          some ({ emit .stack Q with st := .astart }, P) := by
        have : (emit .start P).out = [.start] := by simp [emit, hPo]
        simp only [act, this, handle, hqs, istart, Option.map_some]
        congr 2
        cases P; simp_all [emit]
      have r2 : Reach qp qq (emit .start P, Q) (P, { emit .stack Q with st := .astart }) :=
        Reach.act2 .recv (by simp) e2
      have rr := r1.trans r2
      obtain ⟨p', q', r3, h1, h2⟩ := finish_stack (reach_good rr hc) (by simp [hps]) hPo rfl
        (fs := []) (by simp [emit, hQo])
      exact ⟨p', q', rr.trans r3, h1, h2⟩

/-! ### Delivery only grows -/

theorem del_running {qmax s i s'} (h : running qmax s i = some s') (hd : s'.downs = 0) :
    s.delivered.length ≤ s'.delivered.length := by
  by_cases hi : i = .packet .start
  · subst hi
    simp [running] at h; subst h
    simp [doRestart, connected, emit] at hd
  · unfold running at h
    split at h
    · rw [Option.bind_eq_some_iff] at h
      obtain ⟨⟨s1, b⟩, e1, h⟩ := h
      have := (same_processAck e1).del
      simp only at h this
      split at h
      · simp at h; rw [← h, this]; exact Nat.le_refl _
      · simp at h; rw [← h, (same_ack _).del]; simp [this]
    · rw [Option.bind_eq_some_iff] at h
      obtain ⟨⟨s1, b⟩, e1, h⟩ := h
      simp at h; rw [← h, (same_ack _).del, (same_processAck e1).del]; exact Nat.le_refl _
    · rw [Option.bind_eq_some_iff] at h
      obtain ⟨⟨s1, b⟩, e1, h⟩ := h
      have := (same_processAck e1).del
      simp only at h this
      split at h
      · rw [Option.bind_eq_some_iff] at h
        obtain ⟨s2, e2, h⟩ := h
        simp at h; rw [← h, (same_ack _).del, (same_resend e2).del, this]; exact Nat.le_refl _
      · simp at h; rw [← h, (same_ack _).del, this]; exact Nat.le_refl _
    · split at h
      · simp at h; rw [← h, (same_ack _).del]; exact Nat.le_refl _
      · simp at h; rw [← h, (same_ack _).del]; exact Nat.le_refl _
    · exact absurd rfl hi
    · simp at h; rw [← h, (same_ack _).del]; exact Nat.le_refl _
    · simp at h; rw [← h, (same_ack _).del]; exact Nat.le_refl _
    · rw [Option.bind_eq_some_iff] at h
      obtain ⟨⟨s1, b⟩, e1, h⟩ := h
      simp at h; rw [← h, (same_ack _).del]
      have := (same_processAck e1).del
      simp only at this
      show _ ≤ (sendNak _ s1).delivered.length
      have e : (∀ c, (sendNak c s1).delivered = s1.delivered) := fun _ => rfl
      rw [e, this]; exact Nat.le_refl _
    · simp at h; rw [← h, (same_ack _).del]; exact Nat.le_refl _

theorem del_handle {qmax s i s'} (h : handle qmax s i = some s') (hd : s'.downs = 0) :
    s.delivered.length ≤ s'.delivered.length := by
  unfold handle at h
  split at h
  · simp at h; rw [← h]
    unfold istart
    split <;> exact Nat.le_refl _
  · unfold astart at h
    split at h
    · simp at h; rw [← h]; exact Nat.le_refl _
    · simp at h; rw [← h]; exact Nat.le_refl _
    · split at h
      · have := del_running h hd; exact this
      · simp at h; rw [← h]; exact Nat.le_refl _
    · split at h
      · have := del_running h hd; exact this
      · simp at h; rw [← h]; exact Nat.le_refl _
    · simp at h; rw [← h]; exact Nat.le_refl _
  · exact del_running h hd

theorem del_act {qmax p q x p' q'} (h : act qmax p q x = some (p', q')) :
    q'.delivered = q.delivered ∧
    (p'.downs = 0 → p.delivered.length ≤ p'.delivered.length) := by
  have wrap : ∀ {i q2}, (handle qmax p i).map (fun p' => (p', q2)) = some (p', q') →
      q2.delivered = q.delivered → q'.delivered = q.delivered ∧
    (p'.downs = 0 → p.delivered.length ≤ p'.delivered.length) := by
    intro i q2 hm hq
    rw [Option.map_eq_some_iff] at hm
    obtain ⟨p1, e1, e2⟩ := hm
    simp at e2
    obtain ⟨rfl, rfl⟩ := e2
    exact ⟨hq, fun hd => del_handle e1 hd⟩
  cases x with
  | send m =>
    simp only [act] at h
    rw [Option.map_eq_some_iff] at h
    obtain ⟨p1, e1, e2⟩ := h
    simp at e2
    obtain ⟨rfl, rfl⟩ := e2
    refine ⟨rfl, fun _ => ?_⟩
    rw [(same_send e1).del]
    split <;> exact Nat.le_refl _
  | timeout => exact wrap h rfl
  | noise => exact wrap h rfl
  | lose => simp [act] at h; obtain ⟨rfl, rfl⟩ := h; exact ⟨rfl, fun _ => Nat.le_refl _⟩
  | recv =>
    simp only [act] at h
    split at h
    · simp at h; obtain ⟨rfl, rfl⟩ := h; exact ⟨rfl, fun _ => Nat.le_refl _⟩
    · exact wrap h rfl
  | badHeader =>
    simp only [act] at h
    split at h
    · simp at h; obtain ⟨rfl, rfl⟩ := h; exact ⟨rfl, fun _ => Nat.le_refl _⟩
    · exact wrap h rfl
  | badData =>
    simp only [act] at h
    split at h
    · simp at h; obtain ⟨rfl, rfl⟩ := h; exact ⟨rfl, fun _ => Nat.le_refl _⟩
    · exact wrap h rfl

end Verif.Ddcmp
