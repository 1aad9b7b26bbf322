import Verif.Conv.Model

namespace Verif.Conv

open Verif.Route

variable {V ℓ : Type}

/-- Equal, or both at `n` or more. -/
def Agree (n : Nat) (b b' : Best) : Prop := b = b' ∨ (n ≤ b.cost ∧ n ≤ b'.cost)

theorem map_split {α β : Type} {f : α → β} {xs : List α} {pre post : List β} {c : β}
    (h : xs.map f = pre ++ c :: post) :
    ∃ p x q, xs = p ++ x :: q ∧ p.map f = pre ∧ f x = c ∧ q.map f = post := by
  induction xs generalizing pre with
  | nil => simp at h
  | cons a xs ih =>
    cases pre with
    | nil =>
      simp only [List.map_cons, List.nil_append, List.cons.injEq] at h
      exact ⟨[], a, xs, rfl, rfl, h.1, h.2⟩
    | cons b pre =>
      simp only [List.map_cons, List.cons_append, List.cons.injEq] at h
      obtain ⟨p, x, q, rfl, e1, e2, e3⟩ := ih h.2
      exact ⟨a :: p, x, q, rfl, by simp [h.1, e1], e2, e3⟩

theorem firstMin_transfer {α : Type} {xs : List α} {f g : α → Col} {n : Nat}
    (h : ∀ x ∈ xs, f x = g x ∨ (n ≤ (f x).cost ∧ n ≤ (g x).cost)) {c : Col}
    (hc : FirstMin (xs.map f) c) (hn : c.cost < n) : FirstMin (xs.map g) c := by
  obtain ⟨pre, post, e, h1, h2⟩ := hc
  obtain ⟨p, x, q, rfl, rfl, rfl, rfl⟩ := map_split e
  have hx : f x = g x := by
    rcases h x (by simp) with h | h
    · exact h
    · omega
  refine ⟨p.map g, q.map g, by rw [hx]; simp, ?_, ?_⟩
  · intro y hy
    simp only [List.mem_map] at hy
    obtain ⟨a, ha, rfl⟩ := hy
    rcases h a (by simp [ha]) with e | e
    · rw [← e]; exact h1 _ (List.mem_map_of_mem ha)
    · omega
  · intro y hy
    simp only [List.mem_map] at hy
    obtain ⟨a, ha, rfl⟩ := hy
    rcases h a (by simp [ha]) with e | e
    · rw [← e]; exact h2 _ (List.mem_map_of_mem ha)
    · omega

/-- A decision depends on the offers below `n` only, up to results of `n` or more. -/
theorem decision_agree {α : Type} {lim : Lim} (hm : lim.maxcost < INFCOST) {xs : List α} {f g : α → Col} {n : Nat}
    (hn : n ≤ INFCOST) (hf : WfCols (xs.map f)) (hg : WfCols (xs.map g))
    (h : ∀ x ∈ xs, f x = g x ∨ (n ≤ (f x).cost ∧ n ≤ (g x).cost)) :
    Agree n (decision lim (xs.map f)) (decision lim (xs.map g)) := by
  have h' : ∀ x ∈ xs, g x = f x ∨ (n ≤ (g x).cost ∧ n ≤ (f x).cost) := fun x hx => by
    rcases h x hx with e | e
    · exact Or.inl e.symm
    · exact Or.inr ⟨e.2, e.1⟩
  rcases decision_eq hf hm with ⟨c, hc, h1, h2, e⟩ | ⟨h1, e⟩ <;>
    rcases decision_eq hg hm with ⟨d, hd, h1', h2', e'⟩ | ⟨h1', e'⟩
  · rw [e, e']
    by_cases hcn : c.cost < n
    · left; rw [(firstMin_transfer h hc hcn).unique hd]
    · by_cases hdn : d.cost < n
      · left; rw [(firstMin_transfer h' hd hdn).unique hc]
      · right; simp only [Col.best]; omega
  · rw [e, e']
    right
    refine ⟨?_, hn⟩
    by_cases hcn : c.cost < n
    · have := h1' c (firstMin_transfer h hc hcn); omega
    · simp only [Col.best]; omega
  · rw [e, e']
    right
    refine ⟨hn, ?_⟩
    by_cases hdn : d.cost < n
    · have := h1 d (firstMin_transfer h' hd hdn); omega
    · simp only [Col.best]; omega
  · left; rw [e, e']

/-- The offers as one list. -/
def Net.idx (N : Net V ℓ) (v : V) : List (Col ⊕ ℓ) := (N.loc v).map .inl ++ (N.ins v).map .inr

def Net.offer (N : Net V ℓ) (tbl : ℓ → Nat × Nat) : Col ⊕ ℓ → Col
  | .inl c => c
  | .inr l => ⟨(tbl l).1, (tbl l).2, some (N.out l)⟩

theorem cols_eq (N : Net V ℓ) (tbl : ℓ → Nat × Nat) (v : V) : N.cols tbl v = (N.idx v).map (N.offer tbl) := by
  simp [Net.cols, Net.idx, Net.offer, Function.comp_def]

theorem Net.Ok.wf {N : Net V ℓ} (h : N.Ok) (tbl : ℓ → Nat × Nat) (v : V) : WfCols (N.cols tbl v) := by
  intro c hc hlt
  unfold Net.cols at hc
  simp only [List.mem_append, List.mem_map] at hc
  rcases hc with hc | ⟨l, _, rfl⟩
  · exact h.loc v c hc hlt
  · simp

theorem Net.Ok.lt {N : Net V ℓ} (h : N.Ok) (v : V) : (N.lim v).maxcost < INFCOST := by
  have := h.maxcost v; simp only [INFCOST]; omega

/-- A decision is within the limit or infinite. -/
theorem best_cases {N : Net V ℓ} (h : N.Ok) (tbl : ℓ → Nat × Nat) (v : V) :
    (N.best tbl v).cost ≤ (N.lim v).maxcost ∨ N.best tbl v = unreachable := by
  unfold Net.best
  rcases decision_eq (h.wf tbl v) (h.lt v) with ⟨c, _, h1, _, e⟩ | ⟨_, e⟩
  · left; rw [e]; exact h1
  · right; exact e

theorem best_le_inf {N : Net V ℓ} (h : N.Ok) (tbl : ℓ → Nat × Nat) (v : V) : (N.best tbl v).cost ≤ INFCOST := by
  rcases best_cases h tbl v with e | e
  · have := h.lt v; omega
  · rw [e]; exact Nat.le_refl _

/-! ## Rounds -/

/-- From time `T'` on, every received value in use is one that was sent at time `T` or later. -/
def Fresh (N : Net V ℓ) (tbl : Nat → ℓ → Nat × Nat) (T T' : Nat) : Prop :=
  ∀ t, T' ≤ t → ∀ v, ∀ l ∈ N.ins v, ∃ s, T ≤ s ∧ tbl t l = N.adv l (N.best (tbl s) (N.src l))

/-- `n` rounds have been completed by a time. -/
def After (N : Net V ℓ) (tbl : Nat → ℓ → Nat × Nat) : Nat → Nat → Prop
  | 0, _ => True
  | n + 1, T' => ∃ T, After N tbl n T ∧ Fresh N tbl T T'

/-- The main step: after `n` rounds two runs agree on everything that costs less than `n`. -/
theorem stage {N : Net V ℓ} (hN : N.Ok) (tbl tbl' : Nat → ℓ → Nat × Nat) (n : Nat) :
    n ≤ INFCOST → ∀ T T', After N tbl n T → After N tbl' n T' → ∀ t t', T ≤ t → T' ≤ t' →
      ∀ v, Agree n (N.best (tbl t) v) (N.best (tbl' t') v) := by
  induction n with
  | zero => intro _ T T' _ _ t t' _ _ v; right; exact ⟨Nat.zero_le _, Nat.zero_le _⟩
  | succ n ih =>
    rintro hn T T' ⟨U, hU, hf⟩ ⟨U', hU', hf'⟩ t t' ht ht' v
    unfold Net.best
    rw [cols_eq, cols_eq]
    refine decision_agree (hN.lt v) hn ?_ ?_ ?_
    · rw [← cols_eq]; exact hN.wf _ v
    · rw [← cols_eq]; exact hN.wf _ v
    · intro x hx
      cases x with
      | inl c => left; rfl
      | inr l =>
        have hl : l ∈ N.ins v := by simpa [Net.idx] using hx
        obtain ⟨s, hs, e⟩ := hf t ht v l hl
        obtain ⟨s', hs', e'⟩ := hf' t' ht' v l hl
        simp only [Net.offer, e, e', Net.adv]
        rcases ih (by omega) U U' hU hU' s s' hs hs' (N.src l) with h | ⟨h1, h2⟩
        · left; rw [h]
        · right; have := hN.w l; omega

/-- A number of rounds that is enough: one more than the largest maximum cost. -/
theorem converged {N : Net V ℓ} (hN : N.Ok) {M : Nat} (hM : ∀ v, (N.lim v).maxcost ≤ M) (hM' : M ≤ 1022)
    {tbl tbl' : Nat → ℓ → Nat × Nat} {T T' : Nat} (h : After N tbl (M + 1) T) (h' : After N tbl' (M + 1) T')
    {t t' : Nat} (ht : T ≤ t) (ht' : T' ≤ t') (v : V) : N.best (tbl t) v = N.best (tbl' t') v := by
  rcases stage hN tbl tbl' (M + 1) (by simp only [INFCOST]; omega) T T' h h' t t' ht ht' v with e | ⟨h1, h2⟩
  · exact e
  · have := hM v
    rcases best_cases hN (tbl t) v with e | e
    · omega
    · rcases best_cases hN (tbl' t') v with e' | e'
      · omega
      · rw [e, e']

/-- Tables that no update would change. -/
def Stable (N : Net V ℓ) (tbl : ℓ → Nat × Nat) : Prop :=
  ∀ v, ∀ l ∈ N.ins v, tbl l = N.adv l (N.best tbl (N.src l))

theorem Stable.after {N : Net V ℓ} {tbl : ℓ → Nat × Nat} (h : Stable N tbl) (n T : Nat) :
    After N (fun _ => tbl) n T := by
  induction n generalizing T with
  | zero => trivial
  | succ n ih => exact ⟨T, ih T, fun t _ v l hl => ⟨T, Nat.le_refl _, h v l hl⟩⟩

/-! ## A stable state exists: everything sent at once, over and over -/

def sync (N : Net V ℓ) : Nat → ℓ → Nat × Nat
  | 0 => fun _ => (INFHOPS, INFCOST)
  | n + 1 => fun l => N.adv l (N.best (sync N n) (N.src l))

theorem sync_fresh (N : Net V ℓ) (T : Nat) : Fresh N (sync N) T (T + 1) := by
  intro t ht v l _
  cases t with
  | zero => omega
  | succ t => exact ⟨t, by omega, rfl⟩

theorem sync_after (N : Net V ℓ) (n : Nat) : After N (sync N) n n := by
  induction n with
  | zero => trivial
  | succ n ih => exact ⟨n, ih, sync_fresh N n⟩

theorem stable_exists {N : Net V ℓ} (hN : N.Ok) : Stable N (sync N 1024) := by
  intro v l hl
  show N.adv l (N.best (sync N 1023) (N.src l)) = _
  rw [converged hN (M := 1022) hN.maxcost (Nat.le_refl _) (sync_after N 1023) (sync_after N 1023)
    (Nat.le_refl 1023) (t' := 1024) (by omega)]

end Verif.Conv
