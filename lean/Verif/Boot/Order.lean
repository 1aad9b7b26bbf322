import Verif.Boot.End

/-!
# C132: the order of the start, the API, exceptions, and runs one after another
-/

namespace Verif.Boot

/-! ## Specification -/

/-- The layers from below: an element uses those with a smaller number. -/
def layer : Elem → Nat
  | .timers => 0 | .datalink => 1 | .mop => 2 | .routing => 3 | .nsp => 4 | .session => 5 | .bridge => 6
  | .eventLogger => 7

/-- System by system, and in each from below. -/
def Before (a b : Nat × Elem) : Prop := a.1 < b.1 ∨ a.1 = b.1 ∧ layer a.2 < layer b.2

/-! ## Lemmas -/

theorem startNode_starts (n : Nat) (s : Sys) :
    starts (startNode n s) = (n, .timers) :: (startlist.filter s).map fun e => (n, e) := by
  show starts (.start n .timers :: ((startlist.filter s).map (.start n) ++ [.loop n])) = _
  have : starts (.start n .timers :: ((startlist.filter s).map (.start n) ++ [.loop n])) =
      (n, .timers) :: starts ((startlist.filter s).map (.start n) ++ [.loop n]) := rfl
  rw [this, starts_append, starts_map]
  simp [starts]

theorem startNode_order (n : Nat) (s : Sys) : (starts (startNode n s)).Pairwise Before := by
  rw [startNode_starts, List.pairwise_cons]
  constructor
  · intro b hb
    rw [List.mem_map] at hb
    obtain ⟨e, he, rfl⟩ := hb
    have he := (List.mem_filter.1 he).1
    refine Or.inr ⟨rfl, ?_⟩
    cases e <;> simp [startlist, layer] at he ⊢
  · rw [List.pairwise_map]
    have h : startlist.Pairwise fun a b => layer a < layer b := by decide
    exact (h.filter s).imp fun h => Or.inr ⟨rfl, h⟩

theorem startNodes_order (ss : List Sys) : ∀ n, (starts (startNodes n ss)).Pairwise Before ∧
    ∀ x ∈ starts (startNodes n ss), n ≤ x.1 := by
  induction ss with
  | nil => intro n; exact ⟨.nil, by intro x hx; cases hx⟩
  | cons s l ih =>
    intro n
    have h1 : ∀ x ∈ starts (startNode n s), x.1 = n := by
      rw [startNode_starts]
      intro x hx
      rw [List.mem_cons, List.mem_map] at hx
      rcases hx with rfl | ⟨e, _, rfl⟩ <;> rfl
    rw [startNodes, starts_append]
    refine ⟨List.pairwise_append.2 ⟨startNode_order n s, (ih _).1, ?_⟩, ?_⟩
    · intro a ha b hb
      have := (ih (n + 1)).2 b hb
      have := h1 a ha
      exact Or.inl (by omega)
    · intro x hx
      rw [List.mem_append] at hx
      rcases hx with hx | hx
      · have := h1 x hx; omega
      · have := (ih (n + 1)).2 x hx; omega

/-! ## Theorems -/

/-- Whatever happens: systems are started one after another, and in each every element after those it uses. -/
theorem start_order (ss : List Sys) (api : Option Api) (env : Nat → Option Exc) :
    (starts (run ss api env).1).Pairwise Before := by
  cases h : (exec api env 0 (before ss api)).2 with
  | some x =>
    rw [run_early h]
    have := starts_prefix (exec_prefix api env (before ss api) 0)
    rw [before_starts] at this
    exact (startNodes_order ss 0).1.sublist this.sublist
  | none =>
    rw [(run_late h).1]
    exact (startNodes_order ss 0).1

/-- The API is started when all systems are. -/
theorem api_last (ss : List Sys) (api : Option Api) (env : Nat → Option Exc) (h : .apiStart ∈ (run ss api env).1)
    (k : Nat) (e : Elem) :
    (k, e) ∈ starts (run ss api env).1 ↔ ∃ s, ss[k]? = some s ∧ (e = .timers ∨ s e = true ∧ e ≠ .timers) := by
  have he : e ∈ startlist ↔ e ≠ .timers := by cases e <;> simp [startlist]
  have hall : starts (run ss api env).1 = starts (startNodes 0 ss) := by
    cases hb : (exec api env 0 (before ss api)).2 with
    | none => exact (run_late hb).1
    | some x =>
      rw [run_early hb] at h ⊢
      simp only at h ⊢
      have hn : Act.apiStart ∉ startNodes 0 ss := by
        have : ∀ ss n, Act.apiStart ∉ startNodes n ss := by
          intro ss
          induction ss with
          | nil => intro n; simp [startNodes]
          | cons s l ih =>
            intro n
            rw [startNodes, List.mem_append, not_or]
            exact ⟨by simp [startNode], ih _⟩
        exact this ss 0
      unfold before at h hb ⊢
      rw [exec_append] at h ⊢
      split
      · rw [starts_append]
        have hp := starts_prefix (exec_prefix api env ((if api.isSome then [.apiStart] else []) ++ [.running])
          (0 + (startNodes 0 ss).length))
        have : starts ((if api.isSome then [.apiStart] else []) ++ [.running]) = [] := by cases api <;> rfl
        rw [this] at hp
        rw [prefix_nil hp, List.append_nil]
      · rename_i hc
        rw [if_neg hc] at h
        exact absurd ((exec_prefix api env (startNodes 0 ss) 0).subset h) hn
  rw [hall, started]
  simp [he]

/-- The program ends without an exception exactly if none comes outside of serving, and the API (if any) has its
socket. -/
theorem quiet_iff (ss : List Sys) (api : Option Api) (env : Nat → Option Exc) :
    (run ss api env).2 = none ↔
      (∀ i, i < (before ss api).length + 2 + (after ss api).length → i ≠ (before ss api).length → env i = none) ∧
      ∀ p, api = some p → p.bound = true := by
  have hb := exec_none api env (before ss api) 0
  have hs := exec_none api env [.say] ((before ss api).length + 1)
  have hf := exec_none api env (after ss api) ((before ss api).length + 2)
  have hm : Act.apiStop ∈ after ss api ↔ api.isSome = true := by
    unfold after
    rw [List.mem_append, List.mem_append]
    have := no_apiStop_nodes ss 0
    cases api <;> simp [this]
  have hA : (Act.apiStop ∈ after ss api → ∀ p, api = some p → p.bound = true) ↔ ∀ p, api = some p → p.bound = true := by
    rw [hm]
    constructor
    · intro h p hp; exact h (by rw [hp]; rfl) p hp
    · intro h _; exact h
  have hB : (Act.apiStop ∈ before ss api → ∀ p, api = some p → p.bound = true) ↔ True :=
    ⟨fun _ => trivial, fun _ h => absurd h (no_apiStop_before ss api)⟩
  rw [hA] at hf
  rw [hB] at hb
  have hS : (Act.apiStop ∈ [Act.say] → ∀ p, api = some p → p.bound = true) ↔ True :=
    ⟨fun _ => trivial, fun _ h => by simp at h⟩
  rw [hS] at hs
  simp only [List.length_singleton] at hs
  cases h : (exec api env 0 (before ss api)).2 with
  | some x =>
    rw [h] at hb
    have hb : ¬ ∀ j, 0 ≤ j → j < 0 + (before ss api).length → env j = none := fun hh => by
      have := hb.2 ⟨hh, trivial⟩
      cases this
    rw [run_early h]
    constructor
    · intro hh; cases hh
    · rintro ⟨hh, _⟩
      exact absurd (fun j _ hj => hh j (by omega) (by omega)) hb
  | none =>
    have hb := (hb.1 h).1
    unfold run
    simp only [h, Option.or_eq_none_iff, hf, hs]
    constructor
    · rintro ⟨⟨h1, h2⟩, h3, _⟩
      refine ⟨fun i hi hne => ?_, h2⟩
      by_cases c1 : i < (before ss api).length
      · exact hb i (by omega) (by omega)
      · by_cases c2 : i = (before ss api).length + 1
        · exact h3 i (by omega) (by omega)
        · exact h1 i (by omega) (by omega)
    · rintro ⟨h1, h2⟩
      exact ⟨⟨fun j hj hk => h1 j (by omega) (by omega), h2⟩, fun j hj hk => h1 j (by omega) (by omega), trivial⟩

/-- In a sequence of runs with an API, one is refused exactly if an earlier one left the file of its socket. -/
theorem refused_in_turn (h : List Life) (i : Nat) (hi : i < h.length) :
    (lives false h).1[i]? = some .refused ↔ ∃ j, j < i ∧ ∃ r, h[j]? = some r ∧ Leaves r := by
  have key : ∀ (h : List Life) (f : Bool) (i : Nat) (l : Life), h[i]? = some l →
      (lives f h).1[i]? = some (life (lives f (h.take i)).2 l).1 := by
    intro h
    induction h with
    | nil => intro f i l hl; simp at hl
    | cons a r ih =>
      intro f i l hl
      cases i with
      | zero =>
        simp only [List.getElem?_cons_zero, Option.some.injEq] at hl
        subst hl
        rfl
      | succ i =>
        simp only [List.getElem?_cons_succ] at hl
        show (lives (life f a).2 r).1[i]? = some (life (lives (life f a).2 (r.take i)).2 l).1
        exact ih _ i l hl
  rw [key h false i h[i] (List.getElem?_eq_getElem hi), Option.some.injEq, refused_iff]
  constructor
  · rintro ⟨r, hr, hl⟩
    obtain ⟨j, hj, rfl⟩ := List.mem_iff_getElem.1 hr
    rw [List.length_take] at hj
    exact ⟨j, by omega, _, by rw [List.getElem_take]; exact List.getElem?_eq_getElem (by omega), hl⟩
  · rintro ⟨j, hj, r, hr, hl⟩
    refine ⟨r, ?_, hl⟩
    rw [List.mem_iff_getElem?]
    exact ⟨j, by rw [List.getElem?_take, if_pos hj]; exact hr⟩

/-! ## Cases -/

example : starts (run [exNode, exBridge] (some ⟨true⟩) (fun _ => none)).1 = [(0, .timers), (0, .datalink), (0, .mop),
    (0, .routing), (0, .nsp), (0, .session), (0, .eventLogger), (1, .timers), (1, .datalink), (1, .bridge)] ∧
    Act.apiStart ∈ (run [exNode, exBridge] (some ⟨true⟩) (fun _ => none)).1 := by decide +kernel

example : (run [exNode] none fun i => if i = (before [exNode] none).length + 1 then some .interrupt else none).2 ≠ none := by
  rw [Ne, quiet_iff]
  intro h
  have := h.1 ((before [exNode] none).length + 1) (by omega) (by omega)
  simp at this

example : (lives false [⟨false, true, true⟩, ⟨true, false, false⟩, ⟨true, false, true⟩]).1 =
    [.noApi, .serving, .refused] := by decide

end Verif.Boot
