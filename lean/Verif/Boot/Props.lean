import Verif.Boot.Spec
import Mathlib.Tactic.Tauto

/-!
# C131, C132: start and end of the program
-/

namespace Verif.Boot

/-! ## C131: configuration files -/

theorem scan_run (cs : List Cfg) : ∀ (ns : List Cfg) (h a : Option Cfg) (ns' : List Cfg) (h' a' : Option Cfg),
    scan cs ns h a = .run ns' h' a' ↔
      ns' = ns ++ cs.filter isSystem ∧
      (h.isSome → ∀ c ∈ cs, isSystem c = false → c.http = none) ∧
      (a.isSome → ∀ c ∈ cs, isSystem c = false → c.api = none) ∧
      (cs.filter fun c => !isSystem c).Pairwise (fun c d => ¬ (c.http = some true ∧ d.http ≠ none)) ∧
      (cs.filter fun c => !isSystem c).Pairwise (fun c d => ¬ (c.api ≠ none ∧ d.api ≠ none)) ∧
      h' = h.or ((cs.filter fun c => !isSystem c).find? fun c => c.http = some true) ∧
      a' = a.or ((cs.filter fun c => !isSystem c).find? fun c => c.api ≠ none) := by
  induction cs with
  | nil =>
    intro ns h a ns' h' a'
    simp only [scan, Plan.run.injEq, List.filter_nil, List.append_nil, List.not_mem_nil, false_implies, implies_true,
      List.Pairwise.nil, List.find?_nil, Option.or_none, true_and]
    constructor
    · rintro ⟨rfl, rfl, rfl⟩; exact ⟨rfl, rfl, rfl⟩
    · rintro ⟨rfl, rfl, rfl⟩; exact ⟨rfl, rfl, rfl⟩
  | cons c cs ih =>
    intro ns h a ns' h' a'
    unfold scan
    by_cases hs : isSystem c = true
    · have hs' : c.routing = true ∨ c.bridge = true := by simpa [isSystem] using hs
      rw [if_pos hs', ih]
      simp [hs]
    · have hs0 : isSystem c = false := by simpa using hs
      have hs' : ¬ (c.routing = true ∨ c.bridge = true) := by simpa [isSystem] using hs
      rw [if_neg hs']
      simp only [List.filter_cons, hs0, Bool.not_false, if_true, List.pairwise_cons, List.mem_cons, forall_eq_or_imp,
        List.mem_filter, Bool.not_eq_true', List.find?_cons, if_false, Bool.false_eq_true]
      cases hh : c.http with
      | none =>
        cases ha : c.api with
        | none =>
          simp [ih]
        | some x =>
          cases a with
          | some y => simp
          | none =>
            simp [ih]
            intros
            tauto
      | some b =>
        cases h with
        | some y => simp
        | none =>
          cases b <;> cases ha : c.api <;> cases a <;> simp [ih]
          all_goals
            intros
            tauto

/-- The program starts exactly if there is a system, and no other file has a monitor after one with a port, and
no two have an API; what it runs are these. -/
theorem plan_iff (cs ns : List Cfg) (h a : Option Cfg) : plan cs = .run ns h a ↔
    ns = cs.filter isSystem ∧ ns ≠ [] ∧
    (cs.filter fun c => !isSystem c).Pairwise (fun c d => ¬ (c.http = some true ∧ d.http ≠ none)) ∧
    (cs.filter fun c => !isSystem c).Pairwise (fun c d => ¬ (c.api ≠ none ∧ d.api ≠ none)) ∧
    h = (cs.filter fun c => !isSystem c).find? (fun c => c.http = some true) ∧
    a = (cs.filter fun c => !isSystem c).find? (fun c => c.api ≠ none) := by
  have hs := scan_run cs [] none none
  simp only [Option.isSome_none, Bool.false_eq_true, false_implies, true_and, List.nil_append, Option.none_or] at hs
  unfold plan
  cases he : scan cs [] none none with
  | exit =>
    simp only [reduceCtorEq, false_iff]
    rintro ⟨h1, _, h3, h4, h5, h6⟩
    have := (hs ns h a).mpr ⟨h1, h3, h4, h5, h6⟩
    rw [he] at this
    cases this
  | run n h0 a0 =>
    rw [he] at hs
    cases n with
    | nil =>
      simp only [reduceCtorEq, false_iff]
      rintro ⟨h1, h2, h3, h4, h5, h6⟩
      have := (hs ns h a).mpr ⟨h1, h3, h4, h5, h6⟩
      injection this with this
      exact h2 this.symm
    | cons x xs =>
      simp only
      rw [hs]
      constructor
      · rintro ⟨h1, h2⟩
        refine ⟨h1, ?_, h2⟩
        have := ((hs (x :: xs) h0 a0).mp rfl).1
        rw [h1, ← this]
        simp
      · rintro ⟨h1, _, h2⟩
        exact ⟨h1, h2⟩

/-- The order of the files matters: a monitor without port is passed over before one with a port, and refused
after it. -/
theorem portless_order : ∃ s m z : Cfg, (∃ x, plan [s, m, z] = x ∧ x ≠ .exit) ∧ plan [s, z, m] = .exit :=
  ⟨{ routing := true }, { http := some false }, { http := some true }, ⟨_, rfl, by decide⟩, by decide⟩

example : plan [{ api := some [97], http := some true }, { routing := true }, { bridge := true, http := some true }] =
    .run [{ routing := true }, { bridge := true, http := some true }] (some { api := some [97], http := some true })
      (some { api := some [97], http := some true }) := by decide

/-! ## C132: running -/

theorem exec_prefix (api : Option Api) (env : Nat → Option Exc) (l : List Act) : ∀ i, (exec api env i l).1 <+: l := by
  induction l with
  | nil => intro i; exact List.prefix_refl _
  | cons a l ih =>
    intro i
    unfold exec
    cases env i with
    | some x => exact List.nil_prefix
    | none =>
      simp only
      split
      · exact ⟨l, rfl⟩
      · exact List.cons_prefix_cons.mpr ⟨rfl, ih _⟩

/-- Whether a list of acts is done to its end. -/
theorem exec_none (api : Option Api) (env : Nat → Option Exc) (l : List Act) : ∀ i, (exec api env i l).2 = none ↔
    (∀ j, i ≤ j → j < i + l.length → env j = none) ∧ (.apiStop ∈ l → ∀ p, api = some p → p.bound = true) := by
  induction l with
  | nil => intro i; simp [exec]; intros; omega
  | cons a l ih =>
    intro i
    unfold exec
    cases he : env i with
    | some x =>
      simp only [reduceCtorEq, false_iff, not_and]
      intro h
      have := h i (Nat.le_refl _) (by simp)
      rw [he] at this; cases this
    | none =>
      simp only
      split
      · next h =>
        simp only [reduceCtorEq, false_iff, not_and]
        intro _ h'
        obtain ⟨p, hp⟩ : ∃ p, api = some p := by
          cases api with
          | none => simp at h
          | some p => exact ⟨p, rfl⟩
        have := h' (by rw [h.1]; exact List.mem_cons_self) p hp
        have h2 := h.2
        rw [hp] at h2
        simp [this] at h2
      · next h =>
        simp only
        rw [ih]
        constructor
        · rintro ⟨h1, h2⟩
          refine ⟨fun j hj hj' => ?_, fun hm p hp => ?_⟩
          · rcases Nat.eq_or_lt_of_le hj with rfl | hlt
            · exact he
            · exact h1 j hlt (by simp only [List.length_cons] at hj'; omega)
          · rcases List.mem_cons.mp hm with e | hm
            · cases hb : p.bound with
              | true => rfl
              | false => exact absurd ⟨e.symm, by rw [hp]; simp [hb]⟩ h
            · exact h2 hm p hp
        · rintro ⟨h1, h2⟩
          refine ⟨fun j hj hj' => h1 j (by omega) (by simp only [List.length_cons]; omega),
            fun hm p hp => h2 (List.mem_cons_of_mem _ hm) p hp⟩

theorem exec_all (api : Option Api) (env : Nat → Option Exc) (l : List Act) : ∀ i, (exec api env i l).2 = none →
    (exec api env i l).1 = l := by
  induction l with
  | nil => intro i _; rfl
  | cons a l ih =>
    intro i h
    unfold exec at h ⊢
    cases he : env i with
    | some x => rw [he] at h; cases h
    | none =>
      rw [he] at h
      simp only at h ⊢
      split at h
      · cases h
      · next hc => rw [if_neg hc]; simp only at h ⊢; rw [ih _ h]

theorem exec_append (api : Option Api) (env : Nat → Option Exc) (l m : List Act) : ∀ i, exec api env i (l ++ m) =
    if (exec api env i l).2 = none then (l ++ (exec api env (i + l.length) m).1, (exec api env (i + l.length) m).2)
    else exec api env i l := by
  induction l with
  | nil => intro i; simp [exec]
  | cons a l ih =>
    intro i
    have hx := ih (i + 1)
    have hl : i + (a :: l).length = i + 1 + l.length := by simp only [List.length_cons]; omega
    rw [hl]
    rw [List.cons_append]
    have hc : ∀ k : List Act, exec api env i (a :: k) = match env i with
        | some x => ([], some x)
        | none =>
          if a = .apiStop ∧ api.any (fun p => !p.bound) then ([a], some .other)
          else (a :: (exec api env (i + 1) k).1, (exec api env (i + 1) k).2) := fun _ => rfl
    rw [hc, hc]
    cases env i with
    | some x => simp
    | none =>
      simp only
      split
      · simp
      · rw [hx]
        split <;> rfl

/-- Without `apiStop` an exception leaves something undone. -/
theorem exec_short (api : Option Api) (env : Nat → Option Exc) (l : List Act) (hn : .apiStop ∉ l) : ∀ i,
    (exec api env i l).2 ≠ none → (exec api env i l).1.length < l.length := by
  induction l with
  | nil => intro i h; exact absurd rfl h
  | cons a l ih =>
    intro i h
    rw [List.mem_cons, not_or] at hn
    unfold exec at h ⊢
    cases he : env i with
    | some x => simp
    | none =>
      rw [he] at h
      have hc : ¬ (a = .apiStop ∧ (api.any fun p => !p.bound) = true) := fun e => hn.1 e.1.symm
      simp only [if_neg hc] at h ⊢
      have := ih hn.2 _ h
      simp only [List.length_cons]
      omega

/-! ### What the lists are -/

theorem starts_append (a b : List Act) : starts (a ++ b) = starts a ++ starts b := List.filterMap_append
theorem stops_append (a b : List Act) : stops (a ++ b) = stops a ++ stops b := List.filterMap_append

theorem starts_map (n : Nat) (l : List Elem) : starts (l.map (.start n)) = l.map fun e => (n, e) := by
  induction l with
  | nil => rfl
  | cons e l ih => simpa [starts] using ih

theorem stops_map (n : Nat) (l : List Elem) : stops (l.map (.stop n)) = l.map fun e => (n, e) := by
  induction l with
  | nil => rfl
  | cons e l ih => simpa [stops] using ih

theorem stops_startNodes (ss : List Sys) : ∀ n, stops (startNodes n ss) = [] := by
  induction ss with
  | nil => intro n; rfl
  | cons s l ih =>
    intro n
    have : stops (startNode n s) = [] := by
      unfold startNode stops
      rw [List.filterMap_eq_nil_iff]
      intro a ha
      simp only [List.mem_cons, List.mem_append, List.mem_map, List.not_mem_nil, or_false] at ha
      rcases ha with rfl | ⟨e, _, rfl⟩ | rfl <;> rfl
    rw [startNodes, stops_append, this, ih]; rfl

theorem starts_stopNodes (ss : List Sys) : ∀ n, starts (stopNodes n ss) = [] := by
  induction ss with
  | nil => intro n; rfl
  | cons s l ih =>
    intro n
    have : starts (stopNode n s) = [] := by
      unfold stopNode starts
      rw [List.filterMap_eq_nil_iff]
      intro a ha
      simp only [List.mem_append, List.mem_map, List.mem_singleton] at ha
      rcases ha with ⟨e, _, rfl⟩ | rfl <;> rfl
    rw [stopNodes, starts_append, this, ih]; rfl

theorem reversed (ss : List Sys) : ∀ n, stops (stopNodes n ss) = (starts (startNodes n ss)).reverse := by
  induction ss with
  | nil => intro n; rfl
  | cons s l ih =>
    intro n
    have : stops (stopNode n s) = (starts (startNode n s)).reverse := by
      have h1 : starts (startNode n s) = (n, .timers) :: (startlist.filter s).map fun e => (n, e) := by
        unfold startNode
        rw [← List.singleton_append, starts_append, starts_append, starts_map]
        simp [starts]
      have h2 : stops (stopNode n s) = ((startlist.filter s).reverse.map fun e => (n, e)) ++ [(n, .timers)] := by
        unfold stopNode
        rw [stops_append, stops_map, List.filter_reverse]
        rfl
      rw [h1, h2, List.reverse_cons, List.map_reverse]
    rw [startNodes, stopNodes, stops_append, starts_append, List.reverse_append, ih, this]

/-- Everything that a system has. -/
theorem started (ss : List Sys) : ∀ n k e, (k, e) ∈ starts (startNodes n ss) ↔
    ∃ s, n ≤ k ∧ ss[k - n]? = some s ∧ (e = .timers ∨ s e = true ∧ e ∈ startlist) := by
  induction ss with
  | nil => intro n k e; simp [startNodes, starts]
  | cons s l ih =>
    intro n k e
    have h1 : starts (startNode n s) = (n, .timers) :: (startlist.filter s).map fun e => (n, e) := by
      unfold startNode
      rw [← List.singleton_append, starts_append, starts_append, starts_map]
      simp [starts]
    rw [startNodes, starts_append, List.mem_append, ih, h1]
    simp only [List.mem_cons, Prod.mk.injEq, List.mem_map, List.mem_filter]
    constructor
    · rintro ((⟨rfl, rfl⟩ | ⟨x, ⟨h1, h2⟩, rfl, rfl⟩) | ⟨t, h1, h2, h3⟩)
      · exact ⟨s, Nat.le_refl _, by simp, Or.inl rfl⟩
      · exact ⟨s, Nat.le_refl _, by simp, Or.inr ⟨h2, h1⟩⟩
      · refine ⟨t, by omega, ?_, h3⟩
        have : k - n = k - (n + 1) + 1 := by omega
        rw [this, List.getElem?_cons_succ]; exact h2
    · rintro ⟨t, h1, h2, h3⟩
      rcases Nat.eq_or_lt_of_le h1 with rfl | hlt
      · simp only [Nat.sub_self, List.getElem?_cons_zero, Option.some.injEq] at h2
        subst h2
        rcases h3 with rfl | ⟨h3, h4⟩
        · exact Or.inl (Or.inl ⟨rfl, rfl⟩)
        · exact Or.inl (Or.inr ⟨e, ⟨h4, h3⟩, rfl, rfl⟩)
      · refine Or.inr ⟨t, hlt, ?_, h3⟩
        have : k - n = k - (n + 1) + 1 := by omega
        rw [this, List.getElem?_cons_succ] at h2; exact h2

end Verif.Boot
