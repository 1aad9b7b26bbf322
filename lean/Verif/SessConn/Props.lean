import Verif.SessConn.Model

/-!
# C66: applications get the messages of their own connections

Connection objects are created once: the histories considered open no connection twice.
-/

namespace Verif.SessConn

theorem run_snoc (dict : Nat → Bool) (as : List Act) (a : Act) :
    run dict (as ++ [a]) =
      ((step dict (run dict as).1 a).1, (run dict as).2 ++ (step dict (run dict as).1 a).2) := by
  simp [run, List.foldl_append]

/-! ## The pieces -/

theorem lookup_some {s : State} {c : Nat} {x : Option Nat} (h : lookup s c = some x) :
    (c, x) ∈ s.conns := by
  unfold lookup at h
  cases hf : s.conns.find? (·.1 = c) with
  | none => rw [hf] at h; cases h
  | some p =>
    rw [hf] at h
    have h1 := List.find?_some hf
    have h2 := List.mem_of_find?_eq_some hf
    simp only [Option.map_some, Option.some.injEq, decide_eq_true_eq] at h h1
    have : p = (c, x) := by cases p; simp_all
    rw [← this]; exact h2

theorem lookup_none {s : State} {c : Nat} : lookup s c = none ↔ ∀ x, (c, x) ∉ s.conns := by
  unfold lookup
  rw [Option.map_eq_none_iff, List.find?_eq_none]
  constructor
  · intro h x hx; exact absurd (decide_eq_true rfl) (h _ hx)
  · rintro h ⟨c', x⟩ hx
    simp only [decide_eq_true_eq]
    rintro rfl
    exact h x hx

/-- What `cleanup` can do: entries of `conns` go, nothing else. -/
theorem cleanup_spec (cs : List Nat) : ∀ s : State,
    (∀ p, p ∈ (cleanup s cs).1.conns → p ∈ s.conns) ∧ (cleanup s cs).1.owned = s.owned ∧
    (cleanup s cs).1.up = s.up := by
  induction cs with
  | nil => intro s; exact ⟨fun p h => h, rfl, rfl⟩
  | cons c cs ih =>
    intro s
    unfold cleanup
    split
    · exact ⟨fun p h => h, rfl, rfl⟩
    · obtain ⟨h1, h2, h3⟩ := ih (drop s c)
      refine ⟨fun p h => ?_, h2, h3⟩
      have := h1 p h
      simp only [drop, List.mem_filter] at this
      exact this.1

/-- The outcome of one action: entries that may appear, and the effect. -/
inductive Out (dict : Nat → Bool) (s : State) (a : Act) (s' : State) : List Ev → Prop
  /-- nothing new -/
  | quiet (hc : ∀ p, p ∈ s'.conns → p ∈ s.conns) (ho : ∀ p, p ∈ s'.owned → p ∈ s.owned) :
      Out dict s a s' []
  /-- a connect that could not be started -/
  | leak (c : Nat) (raises : Bool) (ha : a = .connectInit c true none raises)
      (hn : lookup s c = none) (hc : ∀ p, p ∈ s'.conns → p ∈ s.conns ∨ p = (c, none))
      (ho : ∀ p, p ∈ s'.owned → p ∈ s.owned) : Out dict s a s' []
  | connect (k c : Nat) (ha : a = .connect k c)
      (hc : ∀ p, p ∈ s'.conns → p ∈ s.conns ∨ p = (c, some k))
      (ho : ∀ p, p ∈ s'.owned → p ∈ s.owned ∨ p = (k, c)) : Out dict s a s' []
  | incoming (k c : Nat) (raises : Bool) (ha : a = .connectInit c true (some k) raises)
      (hn : lookup s c = none)
      (hc : ∀ p, p ∈ s'.conns → p ∈ s.conns ∨ p = (c, some k))
      (ho : ∀ p, p ∈ s'.owned → p ∈ s.owned ∨ p = (k, c)) : Out dict s a s' [.deliver k c .connect]
  | packet (k c : Nat) (kind : Kind) (raises : Bool) (ha : a = .packet c kind raises)
      (hk : kind ≠ .connect) (hl : lookup s c = some (some k))
      (hc : ∀ p, p ∈ s'.conns → p ∈ s.conns ∧ (kind = .close → p.1 ≠ c))
      (ho : ∀ p, p ∈ s'.owned → p ∈ s.owned ∨ p = (k, c)) : Out dict s a s' [.deliver k c kind]
  | closed (k c : Nat) (ok : Bool) (ha : a = .call k c .closing ok) (hw : (k, c) ∈ s.owned)
      (hc : ∀ p, p ∈ s'.conns → p ∈ s.conns ∧ p.1 ≠ c)
      (ho : ∀ p, p ∈ s'.owned → p ∈ s.owned) : Out dict s a s' [.appClosed k c]

private theorem connDispatch_spec (s : State) (k c : Nat) (kind : Kind) (raises : Bool) :
    (∀ p, p ∈ (connDispatch s k c kind raises).1.conns → p ∈ s.conns) ∧
    (∀ p, p ∈ (connDispatch s k c kind raises).1.owned → p ∈ s.owned ∨ p = (k, c)) ∧
    ((connDispatch s k c kind raises).2.1 = [.deliver k c kind] ∨
      (kind = .close ∧ (k, c) ∉ s.owned ∧ connDispatch s k c kind raises = (s, [], false))) := by
  unfold connDispatch
  split
  · rename_i h
    exact ⟨fun p h => h, fun p h => .inl h, .inr ⟨h.1, h.2, rfl⟩⟩
  · -- the state after the bookkeeping
    have h1 : ∀ p, p ∈ (if kind = .close then { s with owned := s.owned.filter (· ≠ (k, c)) }
        else if (k, c) ∈ s.owned then s else { s with owned := s.owned ++ [(k, c)] } : State).owned →
        p ∈ s.owned ∨ p = (k, c) := by
      intro p hp
      split at hp
      · exact .inl (List.mem_filter.mp hp).1
      · split at hp
        · exact .inl hp
        · rcases List.mem_append.mp hp with hp | hp
          · exact .inl hp
          · exact .inr (by simpa using hp)
    have h2 : (if kind = .close then { s with owned := s.owned.filter (· ≠ (k, c)) }
        else if (k, c) ∈ s.owned then s else { s with owned := s.owned ++ [(k, c)] } : State).conns =
        s.conns := by
      split
      · rfl
      · split <;> rfl
    generalize (if kind = .close then { s with owned := s.owned.filter (· ≠ (k, c)) }
        else if (k, c) ∈ s.owned then s else { s with owned := s.owned ++ [(k, c)] } : State) = s1 at h1 h2
    simp only
    split
    · obtain ⟨c1, c2, _⟩ := cleanup_spec (ofClient s1 k) s1
      refine ⟨fun p hp => ?_, fun p hp => ?_, .inl rfl⟩
      · rw [← h2]; exact c1 p hp
      · rw [c2] at hp; exact h1 p hp
    · exact ⟨fun p hp => h2 ▸ hp, h1, .inl rfl⟩

private theorem cleanup_quiet (dict : Nat → Bool) (s : State) (a : Act) (cs : List Nat) :
    Out dict s a (if (cleanup s cs).2 then ((cleanup s cs).1, ([] : List Ev))
      else (stopped (cleanup s cs).1, [])).1
      (if (cleanup s cs).2 then ((cleanup s cs).1, ([] : List Ev))
      else (stopped (cleanup s cs).1, [])).2 := by
  obtain ⟨c1, c2, _⟩ := cleanup_spec cs s
  split
  · exact .quiet c1 (fun p hp => by rw [c2] at hp; exact hp)
  · exact .quiet c1 (fun p hp => by
      have : p ∈ (cleanup s cs).1.owned := hp
      rw [c2] at this; exact this)

theorem step_out (dict : Nat → Bool) (s : State) (a : Act) :
    Out dict s a (step dict s a).1 (step dict s a).2 := by
  have q : Out dict s a s [] := .quiet (fun p h => h) (fun p h => h)
  cases a with
  | connectInit c admitted client raises =>
    unfold step
    dsimp only
    split
    · exact q
    split
    · exact q
    rename_i hn
    have hn' : lookup s c = none := Classical.not_not.mp hn
    split
    · exact q
    rename_i hadm
    have ha : admitted = true := by cases admitted <;> simp_all
    subst ha
    cases client with
    | none =>
      refine .leak c raises rfl hn' (fun p hp => ?_) (fun p hp => hp)
      rcases List.mem_append.mp hp with hp | hp
      · exact .inl hp
      · exact .inr (by simpa using hp)
    | some k =>
      obtain ⟨d1, d2, d3⟩ := connDispatch_spec { s with conns := s.conns ++ [(c, some k)] } k c .connect raises
      have d4 : (connDispatch { s with conns := s.conns ++ [(c, some k)] } k c .connect raises).2.1 =
          [.deliver k c .connect] := by
        rcases d3 with h | ⟨h, _⟩
        · exact h
        · cases h
      dsimp only
      generalize connDispatch { s with conns := s.conns ++ [(c, some k)] } k c .connect raises = r at d1 d2 d4 ⊢
      have d1' : ∀ p, p ∈ r.1.conns → p ∈ s.conns ∨ p = (c, some k) := by
        intro p hp
        rcases List.mem_append.mp (d1 p hp) with hp | hp
        · exact .inl hp
        · exact .inr (by simpa using hp)
      split
      · rw [d4]
        exact .incoming k c raises rfl hn' d1' d2
      · rw [d4]
        exact .incoming k c raises rfl hn' d1' d2
  | packet c kind raises =>
    unfold step
    dsimp only
    split
    · exact q
    rename_i hk
    have hk' : kind ≠ .connect := fun h => hk (.inr h)
    cases hl : lookup s c with
    | none => exact q
    | some client =>
      have hdrop : ∀ p, p ∈ (if kind = .close then drop s c else s).conns →
          p ∈ s.conns ∧ (kind = .close → p.1 ≠ c) := by
        intro p hp
        split at hp
        · simp only [drop, List.mem_filter, decide_eq_true_eq] at hp
          exact ⟨hp.1, fun _ => by simpa using hp.2⟩
        · rename_i h; exact ⟨hp, fun h' => absurd h' h⟩
      have hown : (if kind = .close then drop s c else s).owned = s.owned := by
        split <;> rfl
      cases client with
      | none => exact .quiet (fun p hp => (hdrop p hp).1) (fun p hp => by rw [← hown]; exact hp)
      | some k =>
        obtain ⟨d1, d2, d3⟩ := connDispatch_spec (if kind = .close then drop s c else s) k c kind raises
        dsimp only
        generalize connDispatch (if kind = .close then drop s c else s) k c kind raises = r at d1 d2 d3 ⊢
        rw [hown] at d2
        rcases d3 with d3 | ⟨_, _, d3⟩
        · split
          · rw [d3]
            exact .packet k c kind raises rfl hk' hl (fun p hp => hdrop p (d1 p hp)) d2
          · rw [d3]
            exact .packet k c kind raises rfl hk' hl (fun p hp => hdrop p (d1 p hp)) d2
        · subst d3
          refine .quiet (fun p hp => (hdrop p hp).1) (fun p hp => ?_)
          have : p ∈ (if kind = .close then drop s c else s).owned := hp
          rw [hown] at this
          exact this
  | connect k c =>
    unfold step
    dsimp only
    split
    · exact q
    refine .connect k c rfl (fun p hp => ?_) (fun p hp => ?_)
    · rcases List.mem_append.mp hp with hp | hp
      · exact .inl hp
      · exact .inr (by simpa using hp)
    · rcases List.mem_append.mp hp with hp | hp
      · exact .inl hp
      · exact .inr (by simpa using hp)
  | call k c what ok =>
    unfold step
    dsimp only
    split
    · exact q
    split
    · exact cleanup_quiet dict s _ _
    split
    · exact q
    rename_i hw
    have hw' : (k, c) ∈ s.owned := Classical.not_not.mp hw
    split
    · exact q
    cases what with
    | other => exact q
    | closing =>
      simp only
      split
      · exact cleanup_quiet dict s _ _
      · refine .closed k c ok rfl hw' (fun p hp => ?_) (fun p hp => ?_)
        · have : p ∈ (drop s c).conns := by
            split at hp <;> exact hp
          simp only [drop, List.mem_filter, decide_eq_true_eq] at this
          exact ⟨this.1, by simpa using this.2⟩
        · split at hp
          · exact (List.mem_filter.mp hp).1
          · exact hp
  | exited k =>
    unfold step
    dsimp only
    split
    · exact q
    · exact cleanup_quiet dict s _ _

/-! ## The invariant -/

/-- The connections opened by a history. -/
def opened (as : List Act) : List Nat := as.filterMap Act.opens

/-- Connection `c` was opened by a connect message. -/
def Incoming (as : List Act) (c : Nat) : Prop := ∃ adm cl r, Act.connectInit c adm cl r ∈ as

private structure Inv (as : List Act) (s : State) (log : List Ev) : Prop where
  connsUsed : ∀ c x, (c, x) ∈ s.conns → c ∈ opened as
  ownedUsed : ∀ k c, (k, c) ∈ s.owned → c ∈ opened as
  logUsed : ∀ k c kind, Ev.deliver k c kind ∈ log → c ∈ opened as
  closedUsed : ∀ k c, Ev.appClosed k c ∈ log → c ∈ opened as
  owner : ∃ f : Nat → Nat, (∀ k c kind, Ev.deliver k c kind ∈ log → k = f c) ∧
    (∀ k c, Ev.appClosed k c ∈ log → k = f c) ∧
    (∀ k c, (k, c) ∈ s.owned → k = f c) ∧ (∀ c k, (c, some k) ∈ s.conns → k = f c)
  gone : ∀ k c, (Ev.deliver k c .close ∈ log ∨ Ev.appClosed k c ∈ log) → ∀ x, (c, x) ∉ s.conns
  told : ∀ c k, (c, some k) ∈ s.conns → Incoming as c → Ev.deliver k c .connect ∈ log

private theorem opened_snoc (as : List Act) (a : Act) : opened (as ++ [a]) = opened as ++ a.opens.toList := by
  unfold opened
  rw [List.filterMap_append]
  cases h : a.opens <;> simp [h]

private theorem incoming_snoc {as : List Act} {a : Act} {c : Nat} (h : Incoming (as ++ [a]) c) :
    Incoming as c ∨ ∃ adm cl r, a = .connectInit c adm cl r := by
  obtain ⟨adm, cl, r, h⟩ := h
  rcases List.mem_append.mp h with h | h
  · exact .inl ⟨adm, cl, r, h⟩
  · exact .inr ⟨adm, cl, r, by simpa [eq_comm] using h⟩

private theorem incoming_opened {as : List Act} {c : Nat} (h : Incoming as c) : c ∈ opened as := by
  obtain ⟨adm, cl, r, h⟩ := h
  exact List.mem_filterMap.mpr ⟨_, h, rfl⟩

private theorem inv_step (dict : Nat → Bool) {as : List Act} {a : Act} {s s' : State} {log ev : List Ev}
    (i : Inv as s log) (hn : (opened (as ++ [a])).Nodup) (o : Out dict s a s' ev) :
    Inv (as ++ [a]) s' (log ++ ev) := by
  have hop := opened_snoc as a
  have used : ∀ c, c ∈ opened as → c ∈ opened (as ++ [a]) := by
    intro c h; rw [hop]; exact List.mem_append_left _ h
  obtain ⟨f, f1, f2, f3, f4⟩ := i.owner
  -- for actions which open no connection
  have inc : a.opens = none → ∀ c, Incoming (as ++ [a]) c → Incoming as c := by
    intro ha c h
    rcases incoming_snoc h with h | ⟨adm, cl, r, rfl⟩
    · exact h
    · cases ha
  have newOpen : ∀ c, a.opens = some c → c ∈ opened (as ++ [a]) ∧ c ∉ opened as := by
    intro c ha
    rw [hop, ha] at hn
    refine ⟨by rw [hop, ha]; simp, fun h => ?_⟩
    rw [List.nodup_append] at hn
    exact hn.2.2 c h c (by simp) rfl
  cases o with
  | quiet hc ho =>
    rw [List.append_nil]
    refine ⟨fun c x h => used c (i.connsUsed c x (hc _ h)), fun k c h => used c (i.ownedUsed k c (ho _ h)),
      fun k c kind h => used c (i.logUsed k c kind h), fun k c h => used c (i.closedUsed k c h),
      ⟨f, f1, f2, fun k c h => f3 k c (ho _ h), fun c k h => f4 c k (hc _ h)⟩,
      fun k c h x hx => i.gone k c h x (hc _ hx), fun c k h hi => ?_⟩
    rcases incoming_snoc hi with hi | ⟨adm, cl, r, rfl⟩
    · exact i.told c k (hc _ h) hi
    · exact absurd (i.connsUsed _ _ (hc _ h)) (newOpen c rfl).2
  | leak c raises ha hnone hc ho =>
    rw [List.append_nil]
    obtain ⟨n1, n2⟩ := newOpen c (by rw [ha]; rfl)
    refine ⟨fun c' x h => ?_, fun k c' h => used c' (i.ownedUsed k c' (ho _ h)),
      fun k c' kind h => used c' (i.logUsed k c' kind h), fun k c' h => used c' (i.closedUsed k c' h),
      ⟨f, f1, f2, fun k c' h => f3 k c' (ho _ h), fun c' k h => ?_⟩,
      fun k c' h x hx => ?_, fun c' k h hi => ?_⟩
    · rcases hc _ h with h | h
      · exact used _ (i.connsUsed _ _ h)
      · cases h; exact n1
    · rcases hc _ h with h | h
      · exact f4 c' k h
      · cases h
    · rcases hc _ hx with hx | hx
      · exact i.gone k c' h x hx
      · cases hx
        rcases h with h | h
        · exact n2 (i.logUsed _ _ _ h)
        · exact n2 (i.closedUsed _ _ h)
    · rcases hc _ h with h | h
      · rcases incoming_snoc hi with hi | ⟨adm, cl, r, h2⟩
        · exact i.told c' k h hi
        · rw [h2] at ha; cases ha
          exact absurd (i.connsUsed _ _ h) n2
      · cases h
  | connect k0 c ha hc ho =>
    rw [List.append_nil]
    obtain ⟨n1, n2⟩ := newOpen c (by rw [ha]; rfl)
    refine ⟨fun c' x h => ?_, fun k c' h => ?_,
      fun k c' kind h => used c' (i.logUsed k c' kind h), fun k c' h => used c' (i.closedUsed k c' h),
      ⟨fun x => if x = c then k0 else f x, ?_, ?_, ?_, ?_⟩,
      fun k c' h x hx => ?_, fun c' k h hi => ?_⟩
    · rcases hc _ h with h | h
      · exact used _ (i.connsUsed _ _ h)
      · cases h; exact n1
    · rcases ho _ h with h | h
      · exact used _ (i.ownedUsed _ _ h)
      · cases h; exact n1
    · intro k c' kind h
      have : c' ≠ c := fun e => n2 (e ▸ i.logUsed _ _ _ h)
      simp only [if_neg this]; exact f1 k c' kind h
    · intro k c' h
      have : c' ≠ c := fun e => n2 (e ▸ i.closedUsed _ _ h)
      simp only [if_neg this]; exact f2 k c' h
    · intro k c' h
      rcases ho _ h with h | h
      · have : c' ≠ c := fun e => n2 (e ▸ i.ownedUsed _ _ h)
        simp only [if_neg this]; exact f3 k c' h
      · cases h; simp only [if_true]
    · intro c' k h
      rcases hc _ h with h | h
      · have : c' ≠ c := fun e => n2 (e ▸ i.connsUsed _ _ h)
        simp only [if_neg this]; exact f4 c' k h
      · cases h; simp only [if_true]
    · rcases hc _ hx with hx | hx
      · exact i.gone k c' h x hx
      · cases hx
        rcases h with h | h
        · exact n2 (i.logUsed _ _ _ h)
        · exact n2 (i.closedUsed _ _ h)
    · have hi' : Incoming as c' := by
        rcases incoming_snoc hi with hi | ⟨adm, cl, r, h2⟩
        · exact hi
        · rw [h2] at ha; cases ha
      rcases hc _ h with h | h
      · exact i.told c' k h hi'
      · cases h; exact absurd (incoming_opened hi') n2
  | incoming k0 c raises ha hnone hc ho =>
    obtain ⟨n1, n2⟩ := newOpen c (by rw [ha]; rfl)
    have mem : ∀ e : Ev, e ∈ log ++ [Ev.deliver k0 c .connect] → e ∈ log ∨ e = .deliver k0 c .connect := by
      intro e he
      rcases List.mem_append.mp he with he | he
      · exact .inl he
      · exact .inr (by simpa using he)
    refine ⟨fun c' x h => ?_, fun k c' h => ?_, fun k c' kind h => ?_, fun k c' h => ?_,
      ⟨fun x => if x = c then k0 else f x, ?_, ?_, ?_, ?_⟩,
      fun k c' h x hx => ?_, fun c' k h hi => ?_⟩
    · rcases hc _ h with h | h
      · exact used _ (i.connsUsed _ _ h)
      · cases h; exact n1
    · rcases ho _ h with h | h
      · exact used _ (i.ownedUsed _ _ h)
      · cases h; exact n1
    · rcases mem _ h with h | h
      · exact used _ (i.logUsed _ _ _ h)
      · cases h; exact n1
    · rcases mem _ h with h | h
      · exact used _ (i.closedUsed _ _ h)
      · cases h
    · intro k c' kind h
      rcases mem _ h with h | h
      · have : c' ≠ c := fun e => n2 (e ▸ i.logUsed _ _ _ h)
        simp only [if_neg this]; exact f1 k c' kind h
      · cases h; simp only [if_true]
    · intro k c' h
      rcases mem _ h with h | h
      · have : c' ≠ c := fun e => n2 (e ▸ i.closedUsed _ _ h)
        simp only [if_neg this]; exact f2 k c' h
      · cases h
    · intro k c' h
      rcases ho _ h with h | h
      · have : c' ≠ c := fun e => n2 (e ▸ i.ownedUsed _ _ h)
        simp only [if_neg this]; exact f3 k c' h
      · cases h; simp only [if_true]
    · intro c' k h
      rcases hc _ h with h | h
      · have : c' ≠ c := fun e => n2 (e ▸ i.connsUsed _ _ h)
        simp only [if_neg this]; exact f4 c' k h
      · cases h; simp only [if_true]
    · have h' : Ev.deliver k c' .close ∈ log ∨ Ev.appClosed k c' ∈ log := by
        rcases h with h | h <;> rcases mem _ h with h | h
        · exact .inl h
        · cases h
        · exact .inr h
        · cases h
      rcases hc _ hx with hx | hx
      · exact i.gone k c' h' x hx
      · cases hx
        rcases h' with h | h
        · exact n2 (i.logUsed _ _ _ h)
        · exact n2 (i.closedUsed _ _ h)
    · rcases hc _ h with h | h
      · rcases incoming_snoc hi with hi | ⟨adm, cl, r, h2⟩
        · exact List.mem_append_left _ (i.told c' k h hi)
        · rw [h2] at ha; cases ha
          exact absurd (i.connsUsed _ _ h) n2
      · cases h; simp
  | packet k0 c kind0 raises ha hk hl hc ho =>
    have hin := lookup_some hl
    have mem : ∀ e : Ev, e ∈ log ++ [Ev.deliver k0 c kind0] → e ∈ log ∨ e = .deliver k0 c kind0 := by
      intro e he
      rcases List.mem_append.mp he with he | he
      · exact .inl he
      · exact .inr (by simpa using he)
    refine ⟨fun c' x h => used _ (i.connsUsed _ _ (hc _ h).1), fun k c' h => ?_, fun k c' kind h => ?_,
      fun k c' h => ?_, ⟨f, ?_, ?_, ?_, ?_⟩, fun k c' h x hx => ?_, fun c' k h hi => ?_⟩
    · rcases ho _ h with h | h
      · exact used _ (i.ownedUsed _ _ h)
      · cases h; exact used _ (i.connsUsed _ _ hin)
    · rcases mem _ h with h | h
      · exact used _ (i.logUsed _ _ _ h)
      · cases h; exact used _ (i.connsUsed _ _ hin)
    · rcases mem _ h with h | h
      · exact used _ (i.closedUsed _ _ h)
      · cases h
    · intro k c' kind h
      rcases mem _ h with h | h
      · exact f1 k c' kind h
      · cases h; exact f4 _ _ hin
    · intro k c' h
      rcases mem _ h with h | h
      · exact f2 k c' h
      · cases h
    · intro k c' h
      rcases ho _ h with h | h
      · exact f3 k c' h
      · cases h; exact f4 _ _ hin
    · intro c' k h; exact f4 c' k (hc _ h).1
    · rcases h with h | h <;> rcases mem _ h with h | h
      · exact i.gone k c' (.inl h) x (hc _ hx).1
      · cases h; exact (hc _ hx).2 rfl rfl
      · exact i.gone k c' (.inr h) x (hc _ hx).1
      · cases h
    · exact List.mem_append_left _ (i.told c' k (hc _ h).1 (inc (by rw [ha]; rfl) _ hi))
  | closed k0 c ok ha hw hc ho =>
    have mem : ∀ e : Ev, e ∈ log ++ [Ev.appClosed k0 c] → e ∈ log ∨ e = .appClosed k0 c := by
      intro e he
      rcases List.mem_append.mp he with he | he
      · exact .inl he
      · exact .inr (by simpa using he)
    refine ⟨fun c' x h => used _ (i.connsUsed _ _ (hc _ h).1), fun k c' h => used _ (i.ownedUsed _ _ (ho _ h)),
      fun k c' kind h => ?_, fun k c' h => ?_, ⟨f, ?_, ?_, ?_, ?_⟩, fun k c' h x hx => ?_, fun c' k h hi => ?_⟩
    · rcases mem _ h with h | h
      · exact used _ (i.logUsed _ _ _ h)
      · cases h
    · rcases mem _ h with h | h
      · exact used _ (i.closedUsed _ _ h)
      · cases h; exact used _ (i.ownedUsed _ _ hw)
    · intro k c' kind h
      rcases mem _ h with h | h
      · exact f1 k c' kind h
      · cases h
    · intro k c' h
      rcases mem _ h with h | h
      · exact f2 k c' h
      · cases h; exact f3 _ _ hw
    · intro k c' h; exact f3 k c' (ho _ h)
    · intro c' k h; exact f4 c' k (hc _ h).1
    · rcases h with h | h <;> rcases mem _ h with h | h
      · exact i.gone k c' (.inl h) x (hc _ hx).1
      · cases h
      · exact i.gone k c' (.inr h) x (hc _ hx).1
      · cases h; exact (hc _ hx).2 rfl
    · exact List.mem_append_left _ (i.told c' k (hc _ h).1 (inc (by rw [ha]; rfl) _ hi))

private theorem nodup_prefix {as : List Act} {a : Act} (h : (opened (as ++ [a])).Nodup) :
    (opened as).Nodup := by
  rw [opened_snoc, List.nodup_append] at h
  exact h.1

private theorem snocRec {P : List Act → Prop} (h0 : P []) (h1 : ∀ as a, P as → P (as ++ [a])) :
    ∀ as, P as := by
  have key : ∀ n (as : List Act), as.length = n → P as := by
    intro n
    induction n with
    | zero => intro as h; rw [List.length_eq_zero_iff] at h; rw [h]; exact h0
    | succ n ih =>
      intro as h
      rcases List.eq_nil_or_concat as with rfl | ⟨bs, b, rfl⟩
      · exact h0
      · rw [List.concat_eq_append] at *
        exact h1 bs b (ih bs (by simpa using h))
  exact fun as => key _ as rfl

private theorem inv_run (dict : Nat → Bool) (as : List Act) (hn : (opened as).Nodup) :
    Inv as (run dict as).1 (run dict as).2 := by
  revert hn
  refine snocRec (P := fun as => (opened as).Nodup → Inv as (run dict as).1 (run dict as).2) ?_ ?_ as
  · intro _
    exact ⟨fun c x h => (by cases h), fun k c h => (by cases h), fun k c kind h => (by cases h),
      fun k c h => (by cases h), ⟨fun _ => 0, fun k c kind h => (by cases h), fun k c h => (by cases h),
        fun k c h => (by cases h), fun c k h => (by cases h)⟩, fun k c h x hx => (by cases hx),
      fun c k h => (by cases h)⟩
  · intro as a ih hn
    rw [run_snoc]
    exact inv_step dict (ih (nodup_prefix hn)) hn (step_out dict _ a)

/-! ## C66 -/

/-- **C66, one owner.**  All messages of a connection go to one application, and only that
application can close it. -/
theorem one_owner (dict : Nat → Bool) (as : List Act) (hn : (opened as).Nodup) :
    ∃ f : Nat → Nat, ∀ c, (∀ k kind, Ev.deliver k c kind ∈ (run dict as).2 → k = f c) ∧
      ∀ k, Ev.appClosed k c ∈ (run dict as).2 → k = f c := by
  obtain ⟨f, f1, f2, _, _⟩ := (inv_run dict as hn).owner
  exact ⟨f, fun c => ⟨fun k kind h => f1 k c kind h, fun k h => f2 k c h⟩⟩

private theorem mem_split_snoc {α : Type} {l m pre post : List α} {e : α}
    (h : l ++ m = pre ++ e :: post) :
    (∃ c, l = pre ++ e :: c ∧ post = c ++ m) ∨ (∃ c, pre = l ++ c ∧ m = c ++ e :: post) := by
  rw [List.append_eq_append_iff] at h
  rcases h with ⟨c, h1, h2⟩ | ⟨c, h1, h2⟩
  · exact .inr ⟨c, h1, h2⟩
  · cases c with
    | nil => exact .inr ⟨[], by simpa using h1.symm, by simpa using h2.symm⟩
    | cons x c =>
      simp only [List.cons_append, List.cons.injEq] at h2
      obtain ⟨rfl, rfl⟩ := h2
      exact .inl ⟨c, h1, rfl⟩

private theorem single_split {α : Type} {x e : α} {pre post : List α} (h : [x] = pre ++ e :: post) :
    pre = [] ∧ post = [] ∧ x = e := by
  cases pre with
  | nil => simp at h; exact ⟨rfl, h.2, h.1⟩
  | cons y pre => simp at h

/-- Where a delivery comes from: the state in which it happened. -/
private theorem deliver_at (dict : Nat → Bool) (as : List Act) :
    ∀ pre post k c kind, (run dict as).2 = pre ++ .deliver k c kind :: post →
      ∃ bs a cs, as = bs ++ a :: cs ∧ (run dict bs).2 = pre ∧
        ((∃ r, a = .connectInit c true (some k) r ∧ kind = .connect) ∨
         (∃ r, a = .packet c kind r ∧ kind ≠ .connect ∧ (c, some k) ∈ (run dict bs).1.conns)) := by
  refine snocRec (P := fun as => ∀ pre post k c kind, (run dict as).2 = pre ++ .deliver k c kind :: post →
      ∃ bs a cs, as = bs ++ a :: cs ∧ (run dict bs).2 = pre ∧
        ((∃ r, a = .connectInit c true (some k) r ∧ kind = .connect) ∨
         (∃ r, a = .packet c kind r ∧ kind ≠ .connect ∧ (c, some k) ∈ (run dict bs).1.conns))) ?_ ?_ as
  · intro pre post k c kind h
    have : ([] : List Ev) = pre ++ .deliver k c kind :: post := h
    cases pre <;> cases this
  · intro as a ih pre post k c kind h
    rw [run_snoc] at h
    rcases mem_split_snoc h with ⟨m, h1, _⟩ | ⟨m, h1, h2⟩
    · obtain ⟨bs, b, cs, e, h2, h3⟩ := ih pre m k c kind h1
      exact ⟨bs, b, cs ++ [a], by rw [e]; simp, h2, h3⟩
    · have o := step_out dict (run dict as).1 a
      rw [h2] at o
      generalize hev : m ++ Ev.deliver k c kind :: post = ev at o
      cases o with
      | quiet => cases m <;> cases hev
      | leak => cases m <;> cases hev
      | connect => cases m <;> cases hev
      | incoming k0 c0 r ha _ _ _ =>
        obtain ⟨rfl, rfl, h3⟩ := single_split hev.symm
        cases h3
        exact ⟨as, a, [], by simp, by simpa using h1.symm, .inl ⟨r, ha, rfl⟩⟩
      | packet k0 c0 kind0 r ha hk hl _ _ =>
        obtain ⟨rfl, rfl, h3⟩ := single_split hev.symm
        cases h3
        exact ⟨as, a, [], by simp, by simpa using h1.symm, .inr ⟨r, ha, hk, lookup_some hl⟩⟩
      | closed =>
        obtain ⟨rfl, rfl, h3⟩ := single_split hev.symm
        cases h3

private theorem opened_append (as bs : List Act) : opened (as ++ bs) = opened as ++ opened bs := by
  simp [opened]

/-- **C66, nothing after the end.**  Once a connection was closed, by a close message or by its
application, nothing more is delivered for it. -/
theorem nothing_after_close (dict : Nat → Bool) (as : List Act) (hn : (opened as).Nodup)
    {pre post : List Ev} {k c : Nat} {kind : Kind}
    (h : (run dict as).2 = pre ++ .deliver k c kind :: post) (k' : Nat) :
    Ev.deliver k' c .close ∉ pre ∧ Ev.appClosed k' c ∉ pre := by
  obtain ⟨bs, a, cs, e, h1, h2⟩ := deliver_at dict as pre post k c kind h
  have hnb : (opened bs).Nodup := by
    rw [e, opened_append, List.nodup_append] at hn; exact hn.1
  have i := inv_run dict bs hnb
  rw [← h1]
  rcases h2 with ⟨r, ha, _⟩ | ⟨r, ha, _, hc⟩
  · have hnot : c ∉ opened bs := by
      rw [e, opened_append, List.nodup_append] at hn
      intro hc
      exact hn.2.2 c hc c (by rw [ha]; simp [opened, Act.opens]) rfl
    exact ⟨fun hx => hnot (i.logUsed _ _ _ hx), fun hx => hnot (i.closedUsed _ _ hx)⟩
  · exact ⟨fun hx => i.gone _ _ (.inl hx) _ hc, fun hx => i.gone _ _ (.inr hx) _ hc⟩

/-- **C66, first the connect.**  The first message of a connection that came in is the connect
message, it was admitted by the access check, and there is only one; nothing is delivered on it
before.  On a connection made by the application itself no connect message is delivered. -/
theorem connect_first (dict : Nat → Bool) (as : List Act) (hn : (opened as).Nodup)
    {pre post : List Ev} {k c : Nat} {kind : Kind}
    (h : (run dict as).2 = pre ++ .deliver k c kind :: post) :
    (kind = .connect → (∃ r, Act.connectInit c true (some k) r ∈ as) ∧
      ∀ k' kind', Ev.deliver k' c kind' ∉ pre) ∧
    (kind ≠ .connect → Incoming as c → Ev.deliver k c .connect ∈ pre) := by
  obtain ⟨bs, a, cs, e, h1, h2⟩ := deliver_at dict as pre post k c kind h
  have hnb : (opened bs).Nodup := by
    rw [e, opened_append, List.nodup_append] at hn; exact hn.1
  have i := inv_run dict bs hnb
  rcases h2 with ⟨r, ha, hk⟩ | ⟨r, ha, hk, hc⟩
  · refine ⟨fun _ => ⟨⟨r, by rw [e, ha]; simp⟩, fun k' kind' hx => ?_⟩, fun h => absurd hk h⟩
    rw [← h1] at hx
    have := i.logUsed _ _ _ hx
    rw [e, opened_append, List.nodup_append] at hn
    exact hn.2.2 c this c (by rw [ha]; simp [opened, Act.opens]) rfl
  · refine ⟨fun h => absurd h hk, fun _ hi => ?_⟩
    rw [← h1]
    apply i.told c k hc
    -- the connection was opened before, by the same message
    have hused := i.connsUsed _ _ hc
    obtain ⟨adm, cl, r', hm⟩ := hi
    rw [e] at hm
    rcases List.mem_append.mp hm with hm | hm
    · exact ⟨adm, cl, r', hm⟩
    · exfalso
      rw [e, opened_append, List.nodup_append] at hn
      exact hn.2.2 c hused c (List.mem_filterMap.mpr ⟨_, hm, rfl⟩) rfl

/-! ## Every message arrives while applications behave -/

/-- The specification: which application has which open connection, what was ever opened, and which
applications have gone. -/
structure Spec where
  holder : Nat → Option Nat
  used : List Nat
  gone : List Nat

def Spec.init : Spec := ⟨fun _ => none, [], []⟩

def Spec.set (p : Spec) (c : Nat) (x : Option Nat) : Nat → Option Nat :=
  fun d => if d = c then x else p.holder d

/-- What should happen. -/
def Spec.step (p : Spec) : Act → Spec × List Ev
  | .connectInit c true (some k) _ => ({ p with holder := p.set c (some k), used := c :: p.used },
      [.deliver k c .connect])
  | .connectInit c _ _ _ => ({ p with used := c :: p.used }, [])
  | .packet _ .connect _ => (p, [])
  | .packet c kind _ =>
    match p.holder c with
    | none => (p, [])
    | some k => (if kind = .close then { p with holder := p.set c none } else p, [.deliver k c kind])
  | .connect k c => ({ p with holder := p.set c (some k), used := c :: p.used }, [])
  | .call k c .closing true => ({ p with holder := p.set c none }, [.appClosed k c])
  | .call _ _ _ _ => (p, [])
  | .exited k => (Spec.mk (fun d => if p.holder d = some k then none else p.holder d) p.used (k :: p.gone), [])

/-- Applications behave: they raise no exception, can be started, use only connections they have
open, and do nothing after their exit.  Connections are opened once. -/
def Behaves (dict : Nat → Bool) (p : Spec) : Act → Prop
  | .connectInit c adm cl r => c ∉ p.used ∧ r = false ∧ (adm = true → ∃ k, cl = some k ∧ k ∉ p.gone)
  | .packet _ _ r => r = false
  | .connect k c => c ∉ p.used ∧ k ∉ p.gone
  | .call k c _ _ => p.holder c = some k
  | .exited k => dict k = true ∧ k ∉ p.gone

def AllBehave (dict : Nat → Bool) : Spec → List Act → Prop
  | _, [] => True
  | p, a :: as => Behaves dict p a ∧ AllBehave dict (p.step a).1 as

def Spec.run (p : Spec) : List Act → List Ev
  | [] => []
  | a :: as => (p.step a).2 ++ (p.step a).1.run as

private structure Sim (dict : Nat → Bool) (s : State) (p : Spec) : Prop where
  up : s.up = true
  conns : ∀ c, lookup s c = (p.holder c).map some
  owns : ∀ c k, p.holder c = some k → (k, c) ∈ s.owned
  exact : ∀ k c, dict k = true → k ∉ p.gone → (k, c) ∈ s.owned → p.holder c = some k
  nodup : s.owned.Nodup
  used1 : ∀ c, p.holder c ≠ none → c ∈ p.used
  used2 : ∀ k c, (k, c) ∈ s.owned → c ∈ p.used
  live : ∀ c k, p.holder c = some k → k ∉ p.gone

private theorem lookup_drop (s : State) (c d : Nat) :
    lookup (drop s c) d = if d = c then none else lookup s d := by
  unfold lookup drop
  by_cases h : d = c
  · rw [if_pos h]
    rw [Option.map_eq_none_iff, List.find?_eq_none]
    intro x hx
    simp only [List.mem_filter, decide_eq_true_eq] at hx
    simp only [decide_eq_true_eq, h]
    simpa using hx.2
  · rw [if_neg h]
    congr 1
    rw [List.find?_filter]
    congr 1
    funext x
    by_cases hx : x.1 = d
    · have : x.1 ≠ c := by rw [hx]; exact h
      simp [hx, h]
    · simp [hx]

private theorem lookup_snoc {s : State} {c : Nat} (x : Option Nat) (h : lookup s c = none) (d : Nat) :
    lookup { s with conns := s.conns ++ [(c, x)] } d = if d = c then some x else lookup s d := by
  unfold lookup at *
  rw [List.find?_append]
  by_cases hd : d = c
  · subst hd
    rw [Option.map_eq_none_iff] at h
    rw [if_pos rfl, h]; simp
  · rw [if_neg hd]
    have : ([(c, x)] : List (Nat × Option Nat)).find? (·.1 = d) = none := by
      simp [Ne.symm hd]
    rw [this, Option.or_none]

private theorem cleanup_all : ∀ (cs : List Nat) (s : State), cs.Nodup → (∀ c ∈ cs, lookup s c ≠ none) →
    (cleanup s cs).2 = true ∧
    (∀ d, lookup (cleanup s cs).1 d = if d ∈ cs then none else lookup s d) ∧
    (cleanup s cs).1.owned = s.owned ∧ (cleanup s cs).1.up = s.up := by
  intro cs
  induction cs with
  | nil => intro s _ _; exact ⟨rfl, fun d => by simp [cleanup], rfl, rfl⟩
  | cons c cs ih =>
    intro s hn hl
    rw [List.nodup_cons] at hn
    unfold cleanup
    rw [if_neg (hl c (by simp))]
    obtain ⟨h1, h2, h3, h4⟩ := ih (drop s c) hn.2 (by
      intro d hd
      rw [lookup_drop, if_neg (fun e : d = c => hn.1 (e ▸ hd))]
      exact hl d (by simp [hd]))
    refine ⟨h1, fun d => ?_, h3, h4⟩
    rw [h2 d, lookup_drop]
    by_cases hd : d ∈ cs
    · simp [hd]
    · by_cases he : d = c
      · simp [he]
      · simp [hd, he]

private theorem sim_step (dict : Nat → Bool) {s : State} {p : Spec} (i : Sim dict s p) (a : Act)
    (hb : Behaves dict p a) :
    Sim dict (step dict s a).1 (p.step a).1 ∧ (step dict s a).2 = (p.step a).2 := by
  have hup : ¬ ¬ s.up = true := by simp [i.up]
  cases a with
  | connectInit c adm cl r =>
    obtain ⟨hc, rfl, hk⟩ := hb
    have hnone : p.holder c = none := Classical.byContradiction fun h => hc (i.used1 c h)
    have hl : lookup s c = none := by rw [i.conns, hnone]; rfl
    have hno : ∀ k, (k, c) ∉ s.owned := fun k h => hc (i.used2 k c h)
    cases adm with
    | false =>
      have e1 : step dict s (.connectInit c false cl false) = (s, []) := by simp [step, hl]
      have e2 : p.step (.connectInit c false cl false) = ({ p with used := c :: p.used }, []) := by
        cases cl <;> rfl
      rw [e1, e2]
      exact ⟨⟨i.up, i.conns, i.owns, i.exact, i.nodup, fun d h => List.mem_cons_of_mem _ (i.used1 d h),
        fun k d h => List.mem_cons_of_mem _ (i.used2 k d h), i.live⟩, rfl⟩
    | true =>
      obtain ⟨k, rfl, hkg⟩ := hk rfl
      have e1 : step dict s (.connectInit c true (some k) false) =
          ({ s with conns := s.conns ++ [(c, some k)], owned := s.owned ++ [(k, c)] },
            [.deliver k c .connect]) := by
        simp [step, hl, i.up, connDispatch, hno]
      have e2 : p.step (.connectInit c true (some k) false) =
          ({ p with holder := p.set c (some k), used := c :: p.used }, [.deliver k c .connect]) := rfl
      rw [e1, e2]
      refine ⟨⟨i.up, ?_, ?_, ?_, ?_, ?_, ?_, ?_⟩, rfl⟩
      · intro d
        have := lookup_snoc (some k) hl d
        simp only [lookup] at this ⊢
        rw [this]
        simp only [Spec.set]
        by_cases hd : d = c
        · simp [hd]
        · simp only [hd, if_false]; exact i.conns d
      · intro d k' h
        simp only [Spec.set] at h
        split at h
        · rename_i e; cases h; subst e; simp
        · exact List.mem_append_left _ (i.owns d k' h)
      · intro k' d h1 h2 h3
        simp only [Spec.set]
        rcases List.mem_append.mp h3 with h3 | h3
        · have : d ≠ c := fun e => hno k' (e ▸ h3)
          rw [if_neg this]; exact i.exact k' d h1 h2 h3
        · simp only [List.mem_singleton, Prod.mk.injEq] at h3
          obtain ⟨rfl, rfl⟩ := h3
          rw [if_pos rfl]
      · rw [List.nodup_append]
        refine ⟨i.nodup, by simp, ?_⟩
        intro x hx y hy
        simp only [List.mem_singleton] at hy
        subst hy
        rintro rfl
        exact hno k hx
      · intro d h
        simp only [Spec.set] at h
        by_cases hd : d = c
        · simp [hd]
        · rw [if_neg hd] at h; exact List.mem_cons_of_mem _ (i.used1 d h)
      · intro k' d h
        rcases List.mem_append.mp h with h | h
        · exact List.mem_cons_of_mem _ (i.used2 k' d h)
        · simp only [List.mem_singleton, Prod.mk.injEq] at h
          simp [h.2]
      · intro d k' h
        simp only [Spec.set] at h
        split at h
        · cases h; exact hkg
        · exact i.live d k' h
  | packet c kind r =>
    have hr : r = false := hb
    subst hr
    by_cases hkc : kind = .connect
    · subst hkc
      have e1 : step dict s (.packet c .connect false) = (s, []) := by simp [step]
      rw [e1]
      exact ⟨i, rfl⟩
    have e2 : p.step (.packet c kind false) = match p.holder c with
        | none => (p, [])
        | some k => (if kind = .close then { p with holder := p.set c none } else p, [.deliver k c kind]) := by
      cases kind <;> first | rfl | exact absurd rfl hkc
    rw [e2]
    cases hh : p.holder c with
    | none =>
      have hl : lookup s c = none := by rw [i.conns, hh]; rfl
      have e1 : step dict s (.packet c kind false) = (s, []) := by
        unfold step
        dsimp only
        rw [if_neg (by simp [i.up, hkc]), hl]
      rw [e1]
      exact ⟨i, rfl⟩
    | some k =>
      have hl : lookup s c = some (some k) := by rw [i.conns, hh]; rfl
      have hown := i.owns c k hh
      by_cases hc : kind = .close
      · subst hc
        have e1 : step dict s (.packet c .close false) =
            ({ drop s c with owned := s.owned.filter (· ≠ (k, c)) }, [.deliver k c .close]) := by
          unfold step
          dsimp only
          rw [if_neg (by simp [i.up]), hl]
          simp [connDispatch, drop, hown]
        rw [e1]
        simp only [if_true]
        refine ⟨⟨i.up, ?_, ?_, ?_, ?_, ?_, ?_, ?_⟩, trivial⟩
        · intro d
          have := lookup_drop s c d
          simp only [lookup] at this ⊢
          rw [this]
          simp only [Spec.set]
          by_cases hd : d = c
          · simp [hd]
          · simp only [hd, if_false]; exact i.conns d
        · intro d k' h
          simp only [Spec.set] at h
          split at h
          · cases h
          · rename_i hd
            refine List.mem_filter.mpr ⟨i.owns d k' h, ?_⟩
            simp [hd]
        · intro k' d h1 h2 h3
          simp only [List.mem_filter, decide_eq_true_eq, ne_eq, Prod.mk.injEq, not_and] at h3
          have h4 := i.exact k' d h1 h2 h3.1
          simp only [Spec.set]
          by_cases hd : d = c
          · subst hd
            rw [hh] at h4; cases h4
            exact absurd rfl (h3.2 rfl)
          · rw [if_neg hd]; exact h4
        · exact i.nodup.sublist List.filter_sublist
        · intro d h
          simp only [Spec.set] at h
          by_cases hd : d = c
          · subst hd; exact i.used1 d (by rw [hh]; simp)
          · rw [if_neg hd] at h; exact i.used1 d h
        · intro k' d h
          exact i.used2 k' d (List.mem_filter.mp h).1
        · intro d k' h
          simp only [Spec.set] at h
          split at h
          · cases h
          · exact i.live d k' h
      · have e1 : step dict s (.packet c kind false) = (s, [.deliver k c kind]) := by
          unfold step
          dsimp only
          rw [if_neg (by simp [i.up, hkc]), hl]
          simp [connDispatch, hc, hown]
        rw [e1]
        simp only [if_neg hc]
        exact ⟨i, trivial⟩
  | connect k c =>
    obtain ⟨hc, hkg⟩ := hb
    have hnone : p.holder c = none := Classical.byContradiction fun h => hc (i.used1 c h)
    have hl : lookup s c = none := by rw [i.conns, hnone]; rfl
    have hno : ∀ k, (k, c) ∉ s.owned := fun k h => hc (i.used2 k c h)
    have e1 : step dict s (.connect k c) =
        ({ s with conns := s.conns ++ [(c, some k)], owned := s.owned ++ [(k, c)] }, []) := by
      simp [step, i.up]
    have e2 : p.step (.connect k c) =
        ({ p with holder := p.set c (some k), used := c :: p.used }, []) := rfl
    rw [e1, e2]
    refine ⟨⟨i.up, ?_, ?_, ?_, ?_, ?_, ?_, ?_⟩, rfl⟩
    · intro d
      have := lookup_snoc (some k) hl d
      simp only [lookup] at this ⊢
      rw [this]
      simp only [Spec.set]
      by_cases hd : d = c
      · simp [hd]
      · simp only [hd, if_false]; exact i.conns d
    · intro d k' h
      simp only [Spec.set] at h
      split at h
      · rename_i e; cases h; subst e; simp
      · exact List.mem_append_left _ (i.owns d k' h)
    · intro k' d h1 h2 h3
      simp only [Spec.set]
      rcases List.mem_append.mp h3 with h3 | h3
      · have : d ≠ c := fun e => hno k' (e ▸ h3)
        rw [if_neg this]; exact i.exact k' d h1 h2 h3
      · simp only [List.mem_singleton, Prod.mk.injEq] at h3
        obtain ⟨rfl, rfl⟩ := h3
        rw [if_pos rfl]
    · rw [List.nodup_append]
      refine ⟨i.nodup, by simp, ?_⟩
      intro x hx y hy
      simp only [List.mem_singleton] at hy
      subst hy
      rintro rfl
      exact hno k hx
    · intro d h
      simp only [Spec.set] at h
      by_cases hd : d = c
      · simp [hd]
      · rw [if_neg hd] at h; exact List.mem_cons_of_mem _ (i.used1 d h)
    · intro k' d h
      rcases List.mem_append.mp h with h | h
      · exact List.mem_cons_of_mem _ (i.used2 k' d h)
      · simp only [List.mem_singleton, Prod.mk.injEq] at h
        simp [h.2]
    · intro d k' h
      simp only [Spec.set] at h
      split at h
      · cases h; exact hkg
      · exact i.live d k' h
  | call k c what ok =>
    have hh : p.holder c = some k := hb
    have hl : lookup s c = some (some k) := by rw [i.conns, hh]; rfl
    have hown := i.owns c k hh
    have quiet : (step dict s (.call k c what ok) = (s, [])) → (p.step (.call k c what ok) = (p, [])) →
        Sim dict (step dict s (.call k c what ok)).1 (p.step (.call k c what ok)).1 ∧
        (step dict s (.call k c what ok)).2 = (p.step (.call k c what ok)).2 := by
      intro h1 h2; rw [h1, h2]; exact ⟨i, rfl⟩
    cases what with
    | other => exact quiet (by cases ok <;> simp [step, i.up, hown]) (by cases ok <;> rfl)
    | closing =>
      cases ok with
      | false => exact quiet (by simp [step, i.up, hown]) rfl
      | true =>
        have e1 : step dict s (.call k c .closing true) =
            (if dict k then { drop s c with owned := s.owned.filter (· ≠ (k, c)) } else drop s c,
              [.appClosed k c]) := by
          simp [step, i.up, hown, hl, drop]
        have e2 : p.step (.call k c .closing true) =
            ({ p with holder := p.set c none }, [.appClosed k c]) := rfl
        rw [e1, e2]
        have ho1 : ∀ x, x ∈ (if dict k then { drop s c with owned := s.owned.filter (· ≠ (k, c)) }
            else drop s c).owned → x ∈ s.owned ∧ (dict k = true → x ≠ (k, c)) := by
          intro x hx
          split at hx
          · simp only [List.mem_filter, decide_eq_true_eq] at hx
            exact ⟨hx.1, fun _ => hx.2⟩
          · rename_i hd
            exact ⟨hx, fun h => absurd h hd⟩
        have ho2 : ∀ x, x ∈ s.owned → x ≠ (k, c) → x ∈ (if dict k then
            { drop s c with owned := s.owned.filter (· ≠ (k, c)) } else drop s c).owned := by
          intro x hx hne
          split
          · exact List.mem_filter.mpr ⟨hx, by simpa using hne⟩
          · exact hx
        have hcn : (if dict k then { drop s c with owned := s.owned.filter (· ≠ (k, c)) }
            else drop s c).conns = (drop s c).conns := by split <;> rfl
        have hu : (if dict k then { drop s c with owned := s.owned.filter (· ≠ (k, c)) }
            else drop s c).up = s.up := by split <;> rfl
        have hnd : (if dict k then { drop s c with owned := s.owned.filter (· ≠ (k, c)) }
            else drop s c).owned.Nodup := by
          split
          · exact i.nodup.sublist List.filter_sublist
          · exact i.nodup
        generalize (if dict k then { drop s c with owned := s.owned.filter (· ≠ (k, c)) }
            else drop s c) = s' at ho1 ho2 hcn hu hnd
        refine ⟨⟨hu.trans i.up, ?_, ?_, ?_, hnd, ?_, ?_, ?_⟩, rfl⟩
        · intro d
          have := lookup_drop s c d
          simp only [lookup] at this ⊢
          rw [hcn, this]
          simp only [Spec.set]
          by_cases hd : d = c
          · simp [hd]
          · simp only [hd, if_false]; exact i.conns d
        · intro d k' h
          simp only [Spec.set] at h
          split at h
          · cases h
          · rename_i hd
            exact ho2 _ (i.owns d k' h) (by simp [hd])
        · intro k' d h1 h2 h3
          obtain ⟨h3, h5⟩ := ho1 _ h3
          have h4 := i.exact k' d h1 h2 h3
          simp only [Spec.set]
          by_cases hd : d = c
          · subst hd
            rw [hh] at h4; cases h4
            exact absurd rfl (h5 h1)
          · rw [if_neg hd]; exact h4
        · intro d h
          simp only [Spec.set] at h
          by_cases hd : d = c
          · subst hd; exact i.used1 d (by rw [hh]; simp)
          · rw [if_neg hd] at h; exact i.used1 d h
        · intro k' d h
          exact i.used2 k' d (ho1 _ h).1
        · intro d k' h
          simp only [Spec.set] at h
          split at h
          · cases h
          · exact i.live d k' h
  | exited k =>
    obtain ⟨hd, hg⟩ := hb
    have hmem : ∀ c, c ∈ ofClient s k ↔ p.holder c = some k := by
      intro c
      simp only [ofClient, List.mem_map, List.mem_filter, decide_eq_true_eq]
      constructor
      · rintro ⟨⟨k', c'⟩, ⟨h1, rfl⟩, rfl⟩
        exact i.exact _ _ hd hg h1
      · intro h
        exact ⟨(k, c), ⟨i.owns c k h, rfl⟩, rfl⟩
    have hnd : (ofClient s k).Nodup := by
      unfold ofClient
      have h1 : (s.owned.filter (·.1 = k)).Nodup := i.nodup.sublist List.filter_sublist
      have h2 : ∀ x ∈ s.owned.filter (·.1 = k), x.1 = k := by
        intro x hx; simpa using (List.mem_filter.mp hx).2
      generalize s.owned.filter (·.1 = k) = l at h1 h2
      induction l with
      | nil => simp
      | cons x l ih =>
        rw [List.nodup_cons] at h1
        rw [List.map_cons, List.nodup_cons]
        refine ⟨?_, ih h1.2 (fun y hy => h2 y (by simp [hy]))⟩
        intro hx
        obtain ⟨y, hy, he⟩ := List.mem_map.mp hx
        have : y = x := by
          have h3 := h2 y (by simp [hy])
          have h4 := h2 x (by simp)
          cases x; cases y; simp_all
        exact h1.1 (this ▸ hy)
    obtain ⟨c1, c2, c3, c4⟩ := cleanup_all (ofClient s k) s hnd (by
      intro c hc
      rw [i.conns, (hmem c).mp hc]; simp)
    have e1 : step dict s (.exited k) = ((cleanup s (ofClient s k)).1, []) := by
      unfold step
      dsimp only
      rw [if_neg hup, c1]; rfl
    rw [e1]
    refine ⟨⟨c4.trans i.up, ?_, ?_, ?_, by rw [c3]; exact i.nodup, ?_, ?_, ?_⟩, rfl⟩
    · intro d
      rw [c2 d]
      simp only [Spec.step]
      by_cases h : p.holder d = some k
      · rw [if_pos ((hmem d).mpr h), if_pos h]; rfl
      · rw [if_neg (fun hc => h ((hmem d).mp hc)), if_neg h]; exact i.conns d
    · intro d k' h
      simp only [Spec.step] at h
      rw [c3]
      split at h
      · cases h
      · exact i.owns d k' h
    · intro k' d h1 h2 h3
      simp only [Spec.step, List.mem_cons, not_or] at h2 ⊢
      rw [c3] at h3
      have h4 := i.exact k' d h1 h2.2 h3
      rw [h4, if_neg]
      intro h; cases h; exact h2.1 rfl
    · intro d h
      simp only [Spec.step] at h
      apply i.used1 d
      intro hn; rw [hn] at h; simp at h
    · intro k' d h
      rw [c3] at h
      exact i.used2 k' d h
    · intro d k' h
      simp only [Spec.step, List.mem_cons, not_or] at h ⊢
      split at h
      · cases h
      · rename_i hne
        exact ⟨fun e => hne (e ▸ h), i.live d k' h⟩

/-- **C66, complete.**  While applications behave, the node keeps running, and deliveries are exactly
those of the specification: an admitted connect reaches the application of the object, every packet
of an open connection reaches its holder, in order, until one side closes it or the application
exits. -/
theorem delivers_all (dict : Nat → Bool) (as : List Act) (h : AllBehave dict .init as) :
    (run dict as).1.up = true ∧ (run dict as).2 = Spec.init.run as := by
  have key : ∀ (as : List Act) (s : State) (p : Spec) (log : List Ev), Sim dict s p →
      AllBehave dict p as →
      (as.foldl (fun q a => let r := step dict q.1 a; (r.1, q.2 ++ r.2)) (s, log)).1.up = true ∧
      (as.foldl (fun q a => let r := step dict q.1 a; (r.1, q.2 ++ r.2)) (s, log)).2 =
        log ++ p.run as := by
    intro as
    induction as with
    | nil => intro s p log i _; exact ⟨i.up, by simp [Spec.run]⟩
    | cons a as ih =>
      intro s p log i hb
      obtain ⟨h1, h2⟩ := hb
      obtain ⟨i', he⟩ := sim_step dict i a h1
      obtain ⟨r1, r2⟩ := ih _ _ (log ++ (step dict s a).2) i' h2
      refine ⟨r1, ?_⟩
      rw [List.foldl_cons]
      simp only at r2 ⊢
      rw [r2, he]
      simp [Spec.run]
  have i0 : Sim dict .init .init := by
    refine ⟨rfl, fun c => rfl, ?_, ?_, List.nodup_nil, ?_, ?_, ?_⟩
    · intro c k h; cases h
    · intro k c _ _ h; cases h
    · intro c h; exact absurd rfl h
    · intro k c h; cases h
    · intro c k h; cases h
  have := key as .init .init [] i0 h
  exact ⟨this.1, by simpa [run] using this.2⟩

/-! ## Findings -/

/-- **Finding.**  An application process which raises an error in the node (here: a request with a
handle that is not its own) and later exits stops the node: its connections were deleted the first
time, and deleting them again raises `KeyError`. -/
theorem exit_after_error_stops : ∃ as : List Act, (opened as).Nodup ∧
    (run (fun _ => true) as).1.up = false ∧
    as = [.connectInit 1 true (some 7) false, .call 7 99 .other true, .exited 7] :=
  ⟨_, by decide, by decide, rfl⟩

/-- **Finding.**  A module application that closes its connection and then raises an exception (here:
on a message of another connection it has) stops the node. -/
theorem module_error_after_close_stops :
    (run (fun _ => false) [.connectInit 1 true (some 7) false, .connect 7 2, .call 7 1 .closing true,
      .packet 2 .data true]).1.up = false := by decide

/-- **Finding.**  If an object's program cannot be started, the connection stays in the table without
an application.  NSP rejects it; if the reject is never acknowledged, NSP reports a disconnect, and
that stops the node. -/
theorem failed_start_stops :
    (run (fun _ => true) [.connectInit 1 true none false, .packet 1 .close false]).1.up = false := by
  decide

/-- An API client with an outgoing connection and a module with an incoming one. -/
example : AllBehave (· = 7) .init [.connect 7 1, .connectInit 2 true (some 8) false,
      .packet 1 .accept false, .packet 2 .data false, .call 8 2 .other true, .packet 1 .data false,
      .call 8 2 .closing true, .packet 2 .data false, .packet 1 .close false, .exited 7] ∧
    (run (· = 7) [.connect 7 1, .connectInit 2 true (some 8) false,
      .packet 1 .accept false, .packet 2 .data false, .call 8 2 .other true, .packet 1 .data false,
      .call 8 2 .closing true, .packet 2 .data false, .packet 1 .close false, .exited 7]).2 =
    [.deliver 8 2 .connect, .deliver 7 1 .accept, .deliver 8 2 .data, .deliver 7 1 .data,
     .appClosed 8 2, .deliver 7 1 .close] := by
  refine ⟨?_, by decide⟩
  simp [AllBehave, Behaves, Spec.step, Spec.init, Spec.set]

end Verif.SessConn
