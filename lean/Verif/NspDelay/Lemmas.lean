import Verif.NspDelay.Spec
import Mathlib.Tactic.Linarith
import Mathlib.Tactic.FieldSimp
import Mathlib.Tactic.Ring

/-!
# Lemmas
-/

namespace Verif.NspDelay

theorem den_pos (w : Nat) : (0 : Rat) < w + 1 := by
  have : (0 : Rat) ≤ w := Nat.cast_nonneg w
  linarith

theorem avg_bounds (w : Nat) {e x lo hi : Rat} (h1 : lo ≤ e) (h2 : e ≤ hi) (h3 : lo ≤ x) (h4 : x ≤ hi) :
    lo ≤ (w * e + x) / (w + 1) ∧ (w * e + x) / (w + 1) ≤ hi := by
  have hw : (0 : Rat) ≤ w := Nat.cast_nonneg w
  have hp := den_pos w
  constructor
  · rw [le_div_iff₀ hp]
    nlinarith
  · rw [div_le_iff₀ hp]
    nlinarith

theorem avg_lo (w : Nat) {e x lo : Rat} (h1 : lo ≤ e) (h3 : lo ≤ x) : lo ≤ (w * e + x) / (w + 1) := by
  have hw : (0 : Rat) ≤ w := Nat.cast_nonneg w
  rw [le_div_iff₀ (den_pos w)]
  nlinarith

theorem estimate_cons {w : Nat} {x : Rat} {l : List Rat} (h : l ≠ []) :
    estimate w (x :: l) = min 5 ((w * estimate w l + x) / (w + 1)) := by
  cases l with
  | nil => exact absurd rfl h
  | cons y l => rfl

theorem estimate_range (w : Nat) : ∀ (l : List Rat), (∀ x ∈ l, 1 ≤ x) → l ≠ [] → 1 ≤ estimate w l ∧ estimate w l ≤ 5
  | [], _, h => absurd rfl h
  | [x], h, _ => by
    have := h x (by simp)
    simp only [estimate]
    exact ⟨le_min (by norm_num) this, min_le_left _ _⟩
  | x :: y :: l, h, _ => by
    obtain ⟨h1, h2⟩ := estimate_range w (y :: l) (fun z hz => h z (by simp [hz])) (by simp)
    rw [estimate_cons (by simp)]
    exact ⟨le_min (by norm_num) (avg_lo w h1 (h x (by simp))), min_le_left _ _⟩

theorem samples_ge (c : Cfg) (n : Nat) : ∀ (h : List Ev), ∀ x ∈ samples c n h, 1 ≤ x
  | [], _, hx => by simp [samples] at hx
  | .send _ _ _ :: past, x, hx => samples_ge c n past x hx
  | .done p now :: past, x, hx => by
    simp only [samples] at hx
    cases hf : firstTimed p past with
    | none => rw [hf] at hx; exact samples_ge c n past x hx
    | some t =>
      rw [hf] at hx
      simp only at hx
      split at hx
      · rcases List.mem_cons.1 hx with rfl | hx
        · exact le_max_left _ _
        · exact samples_ge c n past x hx
      · exact samples_ge c n past x hx

theorem updateDelay_eq (w : Nat) (now t : Rat) (ht : t ≠ 0) (l : List Rat) (hl : ∀ x ∈ l, 1 ≤ x) :
    updateDelay w now t (estimate w l) = estimate w (max 1 (now - t) :: l) := by
  have hd : (if now - t < 1 then 1 else now - t) = max 1 (now - t) := by
    split
    · rename_i h; exact (max_eq_left h.le).symm
    · rename_i h; exact (max_eq_right (not_lt.1 h)).symm
  have hcap : ∀ d : Rat, (if d > 5 then 5 else d) = min 5 d := by
    intro d
    split
    · rename_i h; exact (min_eq_left (le_of_lt h)).symm
    · rename_i h; exact (min_eq_right (not_lt.1 h)).symm
  unfold updateDelay
  rw [if_neg ht, hd]
  simp only
  rw [hcap]
  cases l with
  | nil => simp [estimate]
  | cons y l =>
    have h1 := (estimate_range w (y :: l) hl (by simp)).1
    have hne : estimate w (y :: l) ≠ 0 := by intro h; rw [h] at h1; norm_num at h1
    rw [if_pos hne, estimate_cons (x := max 1 (now - t)) (l := y :: l) (by simp)]
    congr 1
    have := den_pos w
    field_simp
    ring

/-- Starting times are those of the specification. -/
theorem run_state (c : Cfg) : ∀ (h : List Ev), Timed h →
    (∀ p, (h.reverse.foldl (step c) {}).txtime p = (firstTimed p h).getD 0) ∧
    (∀ p t, firstTimed p h = some t → t ≠ 0) ∧
    (∀ n, (h.reverse.foldl (step c) {}).delay n = estimate c.weight (samples c n h))
  | [], _ => by simp [firstTimed, samples, estimate]
  | e :: h, ht => by
    obtain ⟨h1, h2, h3⟩ := run_state c h (fun x hx => ht x (by simp [hx]))
    rw [List.reverse_cons, List.foldl_append]
    simp only [List.foldl_cons, List.foldl_nil]
    generalize h.reverse.foldl (step c) {} = s at h1 h3 ⊢
    cases e with
    | send q now dly =>
      have hne : now ≠ 0 := ht (.send q now dly) (by simp)
      refine ⟨fun p => ?_, fun p t hp => ?_, fun n => ?_⟩
      · simp only [step]
        cases dly with
        | true => simp [firstTimed, h1]
        | false =>
          simp only [firstTimed]
          cases hf : firstTimed p h with
          | none =>
            have := h1 p
            rw [hf] at this
            simp only [Option.getD_none] at this
            by_cases hq : p = q
            · subst hq; simp [this]
            · rw [if_neg (by rintro ⟨h, -⟩; exact hq h), this, if_neg (by rintro rfl; exact hq rfl)]
              rfl
          | some t =>
            have hp := h1 p
            rw [hf] at hp
            simp only [Option.getD_some] at hp ⊢
            by_cases hq : p = q
            · subst hq
              rw [if_neg (by rintro ⟨-, h, -⟩; rw [hp] at h; exact h2 p t hf h), hp]
            · rw [if_neg (by rintro ⟨h, -⟩; exact hq h), hp]
      · cases dly with
        | true => exact h2 p t hp
        | false =>
          simp only [firstTimed] at hp
          cases hf : firstTimed p h with
          | none =>
            rw [hf] at hp
            simp only at hp
            split at hp
            · cases hp; exact hne
            · cases hp
          | some t' => rw [hf] at hp; cases hp; exact h2 p _ hf
      · simp only [step]
        rw [h3 n]
        simp [samples]
    | done q now =>
      refine ⟨fun p => by simp [step, firstTimed, h1], fun p t hp => h2 p t hp, fun n => ?_⟩
      simp only [step, samples]
      rw [h1 q, h3 n]
      cases hf : firstTimed q h with
      | none => simp [updateDelay]
      | some t =>
        simp only [Option.getD_some]
        by_cases hd : n = c.dest q
        · rw [if_pos hd, if_pos hd.symm]
          exact updateDelay_eq _ _ _ (h2 q t hf) _ (samples_ge c n h)
        · rw [if_neg hd, if_neg (Ne.symm hd)]

end Verif.NspDelay
