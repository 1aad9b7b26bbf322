import Verif.Ptp.Emits

/-!
# Point-to-point circuits: running, errors, exceptions
-/
namespace Verif.Ptp

theorem accepts_iff {c : Cfg} {h : List Item} {s : St} (hi : Inv c h s) (hru : s.state.isRu = true) (p : Pkt) :
    s.state.accepts p = true ↔ Expected c s.rphase s.ntype p := by
  rcases hi.ph hru with ⟨h1, h2, h3⟩ | ⟨h1, h2, h3⟩
  · rw [h1, h2, h3]
    cases p <;> simp [State.accepts, Expected]
  · rw [h3]
    rcases h1 with h1 | h1
    · simp only [rustate, h1]
      cases hc : c.ntype <;> cases hn : s.ntype <;> simp [hn] at h2 <;> cases p <;>
        simp [State.accepts, Expected, NT.router, hc]
    · simp only [rustate, h1]
      cases hc : c.ntype <;> cases hn : s.ntype <;> simp [hn] at h2 <;> cases p <;>
        simp [State.accepts, Expected, NT.router, hc]

/-- Errors on a running circuit with neighbour `id` of phase `ph` and type `nt`: the datalink went
down, the neighbour was silent, or a buffer was received that is not ignored and is not what the neighbour
should send. -/
inductive RunErr (c : Cfg) (ph id : Nat) (nt : NT) : Item → Prop
  | dlDown : RunErr c ph id nt .dlDown
  | listen : RunErr c ph id nt .listen
  | checksum {pd} : pd = false ∨ ph = 4 → RunErr c ph id nt (.recv pd .checksum)
  | bad {pd} : pd = false ∨ ph = 4 → RunErr c ph id nt (.recv pd .bad)
  | extra {pd p} : pd = false ∨ ph = 4 → RunErr c ph id nt (.recv pd (.extra p))
  | unexpected {pd p} : pd = false ∨ ph = 4 → ¬ Expected c ph nt p → RunErr c ph id nt (.recv pd (.pkt p))
  | wrongSource {pd p src} : pd = false ∨ ph = 4 → ph ≠ 2 → p.isCtl = true → p.src? = some src →
      src ≠ (if ph = 4 then id else id % 1024) → RunErr c ph id nt (.recv pd (.pkt p))
  | badHello {pd src} : pd = false ∨ ph = 4 → RunErr c ph id nt (.recv pd (.pkt (.hello src false)))

/-- `i` is an init message, on a datalink which does not tell when the other end restarts. -/
def ReInit (c : Cfg) (i : Item) : Prop :=
  c.startWorks = false ∧ ∃ pd p, p.isInit = true ∧ (i = .recv pd (.pkt p) ∨ i = .recv pd (.extra p))

/-- What `restart` does to a running circuit. -/
def Restarted (c : Cfg) (s s' : St) : Prop :=
  s'.state = .ds ∧ s'.log = s.log ++ [.adjDown s.id, if c.startWorks then .dlRestart else .selfUp]

theorem restarted_of {c : Cfg} {s s1 : St} (hru : s1.state.isRu = true) (ha : s1.adj = some s.id) (hl : s1.log = s.log) :
    Restarted c s (restart c s1) := by
  refine ⟨rfl, ?_⟩
  simp [restart, restart0, hru, ha, emit, adjDown, hl]

/-- What `nrec`, `adj` do not matter for. -/
theorem action_circuitDown {c : Cfg} {s : St} (hru : s.state.isRu = true) (w : Work) (hw : w = .dlDown ∨ w = .circuitDown) :
    action c s w = some (restart c s) := by
  unfold action
  cases hst : s.state <;> simp [hst, State.isRu] at hru <;> rcases hw with rfl | rfl <;> rfl

theorem not_ignored {s : St} {pd : Bool} {b : Buf} (h : pd = false ∨ s.rphase = 4) (hb : b ≠ .null) :
    ¬ (b = .null ∨ (pd = true ∧ s.rphase < 4)) := by
  rintro (h1 | ⟨h1, h2⟩)
  · exact hb h1
  · rcases h with h | h
    · rw [h] at h1; cases h1
    · omega

theorem reject_go {c : Cfg} {s : St} {p : Pkt} (h : ¬ (c.startWorks = false ∧ p.isInit = true)) :
    reject c s p = .go .circuitDown := by
  unfold reject
  rw [if_neg h]

theorem action_ru {c : Cfg} {s : St} (hru : s.state.isRu = true) (h2 : s.state ≠ .ru2) (w : Work) :
    action c s w = ru c s w := by
  unfold action
  cases hst : s.state <;> simp [hst, State.isRu] at hru h2 <;> rfl

theorem running_error {c : Cfg} {h : List Item} {s : St} {i : Item} (hi : Inv c h s) (hru : s.state.isRu = true)
    (hv : Valid s i) (he : RunErr c s.rphase s.id s.ntype i) (hr : ¬ ReInit c i) :
    ∃ s', step c s i = some s' ∧ Restarted c s s' := by
  obtain ⟨ha, ⟨n, hn⟩, hl⟩ := hi.run hru
  have hdown : ∃ s', action c s .circuitDown = some s' ∧ Restarted c s s' :=
    ⟨_, action_circuitDown hru _ (Or.inr rfl), restarted_of hru ha rfl⟩
  have hph : ∀ p, Expected c s.rphase s.ntype p → s.rphase ≠ 2 → s.state ≠ .ru2 := by
    intro p _ h2 h3
    rcases hi.ph hru with ⟨h4, -⟩ | ⟨-, -, h4⟩
    · exact h2 h4
    · rw [h4] at h3
      revert h3
      unfold rustate
      repeat' split
      all_goals simp
  cases he with
  | dlDown => exact ⟨_, action_circuitDown hru _ (Or.inl rfl), restarted_of hru ha rfl⟩
  | listen =>
    refine ⟨_, rfl, ?_⟩
    cases hls : s.listen with
    | none => exact absurd hls hv
    | some a =>
      have : a = s.id := by
        rw [hls] at hl
        split at hl
        · cases hl
        · exact Option.some.inj hl
      subst this
      have e : adjTimeout c s = { emit (if c.startWorks then .dlRestart else .selfUp)
          { adjDown s.id s with adj := none } with state := .ds } := by
        simp [adjTimeout, hls, restart0]
      rw [e]
      exact ⟨rfl, by simp [emit, adjDown]⟩
  | checksum h1 =>
    dsimp only [step, validate]
    rw [if_neg (not_ignored h1 (by simp))]
    exact hdown
  | bad h1 =>
    dsimp only [step, validate]
    rw [if_neg (not_ignored h1 (by simp))]
    exact hdown
  | @extra pd p h1 =>
    dsimp only [step, validate]
    rw [if_neg (not_ignored h1 (by simp))]
    have : reject c s p = .go .circuitDown := reject_go (fun ⟨a, b⟩ => hr ⟨a, pd, p, b, Or.inr rfl⟩)
    rw [this]
    exact hdown
  | @unexpected pd p h1 h2 =>
    dsimp only [step, validate]
    rw [if_neg (not_ignored h1 (by simp))]
    have hacc : s.state.accepts p = false := by
      cases hk : s.state.accepts p
      · rfl
      · exact absurd ((accepts_iff hi hru p).1 hk) h2
    have : reject c s p = .go .circuitDown := reject_go (fun ⟨a, b⟩ => hr ⟨a, pd, p, b, Or.inl rfl⟩)
    rw [hacc, this]
    exact hdown
  | @wrongSource pd p src h1 h0 h2 h3 h4 =>
    dsimp only [step, validate]
    rw [if_neg (not_ignored h1 (by simp))]
    cases hacc : s.state.accepts p
    · have : reject c s p = .go .circuitDown := reject_go (fun ⟨a, b⟩ => hr ⟨a, pd, p, b, Or.inl rfl⟩)
      simp only [this]
      exact hdown
    · have hst := hph p ((accepts_iff hi hru p).1 hacc) h0
      have hnt : s.ntype ≠ .phase2 := by
        rcases hi.ph hru with ⟨h5, -⟩ | ⟨-, h5, -⟩
        · exact absurd h5 h0
        · exact h5
      simp only [if_true]
      rw [action_ru hru hst]
      simp only [ru, hn, ha, hnt, if_false]
      rw [← ha]
      have hs : srcOk { s with nrec := some (n + 1), listen := s.adj } p = false := by
        simp only [srcOk, h3, checksrc]
        simpa using h4
      rw [if_pos ⟨h2, hs⟩]
      exact ⟨_, rfl, restarted_of hru ha rfl⟩
  | @badHello pd src h1 =>
    dsimp only [step, validate]
    rw [if_neg (not_ignored h1 (by simp))]
    cases hacc : s.state.accepts (.hello src false)
    · have : reject c s (.hello src false) = .go .circuitDown := reject_go (fun ⟨a, b⟩ => by simp [Pkt.isInit] at b)
      simp only [this]
      exact hdown
    · have h2 : s.rphase ≠ 2 := by
        have := (accepts_iff hi hru _).1 hacc
        simp only [Expected] at this
        omega
      have hst := hph _ ((accepts_iff hi hru _).1 hacc) h2
      have hnt : s.ntype ≠ .phase2 := by
        rcases hi.ph hru with ⟨h5, -⟩ | ⟨-, h5, -⟩
        · exact absurd h5 h2
        · exact h5
      simp only [if_true]
      rw [action_ru hru hst]
      simp only [ru, hn, ha, hnt, if_false]
      rw [← ha]
      split
      · exact ⟨_, rfl, restarted_of hru ha rfl⟩
      · exact ⟨_, rfl, restarted_of hru ha rfl⟩

/-- The neighbour is still there. -/
structure Stays (s s' : St) : Prop where
  state : s'.state = s.state
  id : s'.id = s.id
  ntype : s'.ntype = s.ntype
  rphase : s'.rphase = s.rphase
  blksize : s'.blksize = s.blksize

/-- Whatever is not an error leaves a running circuit running. -/
theorem running_stays {c : Cfg} {h : List Item} {s s' : St} {i : Item} (hi : Inv c h s) (hru : s.state.isRu = true)
    (hs : step c s i = some s') (hn1 : ¬ RunErr c s.rphase s.id s.ntype i) (hn2 : i ≠ .stop)
    (hn3 : ∀ p, i ≠ .again p) (hn4 : ¬ ReInit c i) : Stays s s' := by
  obtain ⟨ha, ⟨n, hn⟩, hl⟩ := hi.run hru
  have hignore : ∀ w, w = .start ∨ w = .dlUp → action c s w = some s' → Stays s s' := by
    intro w hw h
    unfold action at h
    cases hst : s.state <;> simp [hst, State.isRu] at hru <;> rw [hst] at h <;>
      rcases hw with rfl | rfl <;> cases h <;> exact ⟨rfl, rfl, rfl, rfl, rfl⟩
  cases i with
  | start => exact hignore _ (Or.inl rfl) hs
  | dlUp => exact hignore _ (Or.inr rfl) hs
  | stop => exact absurd rfl hn2
  | dlDown => exact absurd .dlDown hn1
  | listen => exact absurd .listen hn1
  | again p => exact absurd rfl (hn3 p)
  | timeout =>
    dsimp only [step, action] at hs
    cases hst : s.state <;> simp [hst, State.isRu] at hru <;> simp only [hst] at hs <;> cases hs <;>
      exact ⟨by simp [rucommon, emit, hst], rfl, rfl, rfl, rfl⟩
  | recv pd b =>
    dsimp only [step, validate] at hs
    by_cases hig : b = .null ∨ (pd = true ∧ s.rphase < 4)
    · rw [if_pos hig] at hs
      cases hs
      exact ⟨rfl, rfl, rfl, rfl, rfl⟩
    rw [if_neg hig] at hs
    have hpd : pd = false ∨ s.rphase = 4 := by
      cases pd
      · exact Or.inl rfl
      · rcases hi.ph hru with ⟨h1, -⟩ | ⟨h1, -⟩
        · exact absurd (Or.inr ⟨rfl, by omega⟩) hig
        · rcases h1 with h1 | h1
          · exact absurd (Or.inr ⟨rfl, by omega⟩) hig
          · exact Or.inr h1
    cases b with
    | null => simp at hig
    | crash => cases hs
    | checksum => exact absurd (.checksum hpd) hn1
    | bad => exact absurd (.bad hpd) hn1
    | extra p => exact absurd (.extra hpd) hn1
    | pkt p =>
      cases hacc : s.state.accepts p
      · refine absurd (.unexpected hpd ?_) hn1
        intro h
        rw [(accepts_iff hi hru p).2 h] at hacc
        cases hacc
      · simp only [hacc, if_true] at hs
        by_cases hst : s.state = .ru2
        · unfold action at hs
          rw [hst] at hs
          simp only [ru2, hn] at hs
          split at hs <;> cases hs <;> exact ⟨rfl, rfl, rfl, rfl, rfl⟩
        · rw [action_ru hru hst] at hs
          simp only [ru, hn, ha] at hs
          rw [← ha] at hs
          generalize (if s.ntype = .phase2 then s.listen else s.adj) = li at hs
          have h2 : s.rphase ≠ 2 := by
            rcases hi.ph hru with ⟨-, -, h3⟩ | ⟨h3, -⟩
            · exact absurd h3 hst
            · omega
          by_cases hc : p.isCtl = true ∧ srcOk { s with nrec := some (n + 1), listen := li } p = false
          · exfalso
            have hsr : ∃ src, p.src? = some src := by
              cases p <;> simp [Pkt.isCtl] at hc <;> simp [Pkt.src?]
            obtain ⟨src, hsr⟩ := hsr
            refine hn1 (.wrongSource hpd h2 hc.1 hsr ?_)
            have := hc.2
            simpa [srcOk, hsr, checksrc] using this
          · rw [if_neg hc] at hs
            split at hs
            · rename_i src good
              cases good
              · exact absurd (.badHello hpd) hn1
              · cases hs; exact ⟨rfl, rfl, rfl, rfl, rfl⟩
            · cases hs; exact ⟨rfl, rfl, rfl, rfl, rfl⟩

/-- Only datalinks without start notification requeue packets. -/
theorem requeued_nil {c : Cfg} {h : List Item} {s : St} (hs : Steps c h s) (hw : c.startWorks = true) :
    s.requeued = [] := by
  induction hs with
  | nil => rfl
  | @snoc h s s' i hs hv hst ih =>
    have hi := steps_inv hs
    have hre : ∀ s1 : St, s1.requeued = [] → (restart c s1).requeued = [] := by
      intro s1 h1
      unfold restart restart0
      cases s1.state.isRu <;> cases ha : s1.adj <;> simp [emit, adjDown, h1]
    have hup : ∀ s1 : St, s1.requeued = [] → (up s1).requeued = [] := by
      intro s1 h1
      unfold up
      cases ha : s1.adj <;> simp [emit, h1]
    have hruc : ∀ (s1 : St) w, s1.requeued = [] → (rucommon c s1 w).requeued = [] := by
      intro s1 w h1
      cases w with
      | stop => cases ha : s1.adj <;> simp [rucommon, ha, halt, emit, adjDown, h1]
      | dlDown => exact hre _ h1
      | circuitDown => exact hre _ h1
      | timeout => simpa [rucommon, emit] using h1
      | _ => exact h1
    have hrvc : ∀ (s1 : St) w, s1.requeued = [] → (rvcommon c s1 w).requeued = [] := by
      intro s1 w h1
      cases w with
      | stop => simpa [rvcommon, halt, emit] using h1
      | dlDown => exact hre _ h1
      | circuitDown => exact hre _ h1
      | timeout => exact hre _ h1
      | _ => exact h1
    have hact : ∀ (s1 : St) w, s1.requeued = [] → action c s1 w = some s' → s'.requeued = [] := by
      intro s1 w h1 h2
      have hruu : ru c s1 w = some s' → s'.requeued = [] := by
        intro h2
        cases w with
        | pkt p =>
          simp only [ru] at h2
          split at h2
          · rename_i n a hn ha
            generalize (if s1.ntype = .phase2 then s1.listen else some a) = li at h2
            by_cases hc : p.isCtl = true ∧ srcOk { s1 with nrec := some (n + 1), listen := li } p = false
            · rw [if_pos hc] at h2; cases h2; exact hre _ h1
            · rw [if_neg hc] at h2
              split at h2
              · split at h2
                · cases h2; exact h1
                · cases h2; exact hre _ h1
              · cases h2; exact h1
          · cases h2
        | _ => cases h2; exact hruc _ _ h1
      unfold action at h2
      cases hst1 : s1.state with
      | ha => rw [hst1] at h2; cases w <;> cases h2 <;> exact h1
      | ds =>
        rw [hst1] at h2
        cases w with
        | dlDown => cases h2; exact hre _ h1
        | circuitDown => cases h2; exact hre _ h1
        | _ => cases h2; exact h1
      | ri =>
        rw [hst1] at h2
        cases w with
        | timeout => cases h2; exact hre _ h1
        | dlDown => cases h2; exact hre _ h1
        | circuitDown => cases h2; exact hre _ h1
        | pkt p =>
          cases riPkt_out h2 with
          | ignored => exact h1
          | refused s2 a b e d => exact hre _ (by rw [e, h1])
          | wait => exact h1
          | up => exact hup _ h1
        | _ => cases h2; exact h1
      | rv =>
        rw [hst1] at h2
        cases w with
        | pkt p =>
          simp only [rv] at h2
          split at h2
          · cases h2
          · split at h2
            · cases h2; exact hre _ h1
            · split at h2
              · split at h2
                · cases h2; exact hre _ h1
                · cases h2; exact hup _ h1
              · cases h2
        | _ => cases h2; exact hrvc _ _ h1
      | rv2 =>
        rw [hst1] at h2
        cases w with
        | pkt p =>
          simp only [rv2] at h2
          split at h2
          · split at h2
            · cases h2; exact hre _ h1
            · cases h2; exact hup _ h1
          · cases h2
        | _ => cases h2; exact hrvc _ _ h1
      | ru2 =>
        rw [hst1] at h2
        cases w with
        | pkt p =>
          simp only [ru2] at h2
          split at h2
          · cases h2
          · split at h2 <;> cases h2 <;> exact h1
        | _ => cases h2; exact hruc _ _ h1
      | _ => rw [hst1] at h2; exact hruu h2
    cases i with
    | start => exact hact s _ ih hst
    | stop => exact hact s _ ih hst
    | dlUp => exact hact s _ ih hst
    | dlDown => exact hact s _ ih hst
    | timeout => exact hact { s with timer := false } _ ih hst
    | listen =>
      cases hst
      cases hl : s.listen with
      | none => exact absurd hl hv
      | some a =>
        have e : adjTimeout c s = { emit (if c.startWorks then .dlRestart else .selfUp)
            { adjDown a s with adj := none } with state := .ds } := by
          simp [adjTimeout, hl, restart0]
        rw [e]
        exact ih
    | again p =>
      have : p ∈ s.requeued := hv
      rw [ih] at this
      cases this
    | recv pd b =>
      have hval := validate_val c s pd b
      dsimp only [step] at hst
      generalize validate c s pd b = r at hst hval
      cases hval with
      | null h1 => cases hst; exact ih
      | padded h1 h2 => cases hst; exact ih
      | pkt p h1 h2 => exact hact s _ ih hst
      | dup p h1 h2 h3 => rw [hw] at h3; cases h3
      | again p h1 h2 h3 => rw [hw] at h3; cases h3
      | down h1 => exact hact s _ ih hst
      | exc => cases hst

end Verif.Ptp
