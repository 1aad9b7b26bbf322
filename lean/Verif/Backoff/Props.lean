import Verif.Backoff.Model

/-!
# C52: retry intervals

Specification: the `k`-th interval handed out since the last reset (or since the object was made)
is `min (low * 2 ^ k) high`.  All other parts of the claim are facts about that formula.
-/

namespace Verif.Backoff

/-- The interval expected after `k` earlier ones since the last reset. -/
def expected (low high k : Nat) : Nat := min (low * 2 ^ k) high

/-- How many intervals were handed out since the last reset in a history (newest call last),
counted from `n` before it. -/
def since (n : Nat) : List Op → Nat
  | [] => n
  | .next :: os => since (n + 1) os
  | .reset :: os => since 0 os

private theorem expected_succ (low high k : Nat) :
    min (expected low high k * 2) high = expected low high (k + 1) := by
  unfold expected
  rw [Nat.pow_succ, ← Nat.mul_assoc]
  omega

private theorem run_state (low high : Nat) (ops : List Op) :
    ∀ n, low ≤ high →
      (run ⟨low, expected low high n, high, n⟩ ops).1 =
        ⟨low, expected low high (since n ops), high, since n ops⟩ := by
  induction ops with
  | nil => intro n _; rfl
  | cons o os ih =>
    intro n hl
    cases o with
    | next =>
      simp only [run, step, since]
      rw [expected_succ]
      exact ih (n + 1) hl
    | reset =>
      simp only [run, step, since]
      have h0 : low = expected low high 0 := by unfold expected; omega
      have := ih 0 hl
      rw [← h0] at this
      exact this

private theorem init_some {low : Nat} {high : Option Nat} {s : State} (h : init low high = some s) :
    s.low < s.high ∧ 0 < s.low ∧ s.current = s.low ∧ s.tries = 0 := by
  unfold init at h
  generalize bounds low high = p at h
  by_cases hc : p.1 < p.2 ∧ 0 < p.1
  · rw [if_pos hc] at h
    cases h
    exact ⟨hc.1, hc.2, rfl, rfl⟩
  · rw [if_neg hc] at h
    cases h

/-- **C52.**  For any bounds that the constructor accepts and any history of calls, the next
interval returned is `min (low * 2 ^ k) high`, where `k` is the number of intervals handed out
since the last reset. -/
theorem interval_formula {low : Nat} {high : Option Nat} {s : State} (h : init low high = some s)
    (ops : List Op) :
    (step (run s ops).1 .next).2 = some (min (s.low * 2 ^ since 0 ops) s.high) := by
  obtain ⟨h1, h2, h3, h4⟩ := init_some h
  have h0 : s = ⟨s.low, expected s.low s.high 0, s.high, 0⟩ := by
    cases s; simp only at h1 h2 h3 h4; subst h3 h4
    simp only [expected]; congr 1; omega
  have h5 := run_state s.low s.high ops 0 (by omega)
  rw [← h0] at h5
  rw [h5]
  rfl

private theorem since_next (ops : List Op) :
    ∀ n, since n (ops ++ [.next]) = since n ops + 1 := by
  induction ops with
  | nil => intro n; rfl
  | cons o os ih => intro n; cases o <;> exact ih _

/-- **C52, consequences for the caller.**  Within one run without a reset the intervals never
decrease, never exceed the maximum, are at least the minimum, and each is twice the one before it
unless that would exceed the maximum. -/
theorem intervals_grow {low : Nat} {high : Option Nat} {s : State} (h : init low high = some s)
    (ops : List Op) {a b : Nat}
    (ha : (step (run s ops).1 .next).2 = some a)
    (hb : (step (run s (ops ++ [.next])).1 .next).2 = some b) :
    s.low ≤ a ∧ a ≤ b ∧ b ≤ s.high ∧ (2 * a ≤ s.high → b = 2 * a) ∧ (s.high ≤ 2 * a → b = s.high) := by
  obtain ⟨h1, h2, _, _⟩ := init_some h
  rw [interval_formula h] at ha hb
  rw [since_next, Nat.pow_succ, ← Nat.mul_assoc] at hb
  cases ha; cases hb
  have h3 : 1 ≤ 2 ^ since 0 ops := Nat.one_le_two_pow
  have h4 : s.low * 1 ≤ s.low * 2 ^ since 0 ops := Nat.mul_le_mul_left _ h3
  generalize s.low * 2 ^ since 0 ops = x at *
  omega

/-- **C52, reset.**  After a reset the next interval is the minimum again. -/
theorem reset_restarts {low : Nat} {high : Option Nat} {s : State} (h : init low high = some s)
    (ops : List Op) : (step (run s (ops ++ [.reset])).1 .next).2 = some s.low := by
  obtain ⟨h1, h2, _, _⟩ := init_some h
  have hs : ∀ n, since n (ops ++ [.reset]) = 0 := by
    induction ops with
    | nil => intro n; rfl
    | cons o os ih => intro n; cases o <;> exact ih _
  rw [interval_formula h, hs]
  congr 1; omega

/-- The maximum is reached: after enough intervals without a reset, the maximum is returned. -/
theorem reaches_maximum {low : Nat} {high : Option Nat} {s : State} (h : init low high = some s)
    (n : Nat) (hn : s.high ≤ 2 ^ n) :
    (step (run s (List.replicate n .next)).1 .next).2 = some s.high := by
  obtain ⟨h1, h2, _, _⟩ := init_some h
  have hs : ∀ n m, since m (List.replicate n Op.next) = m + n := by
    intro n
    induction n with
    | zero => intro m; rfl
    | succ n ih => intro m; rw [List.replicate_succ, since, ih]; omega
  rw [interval_formula h, hs, Nat.zero_add]
  have : 1 * 2 ^ n ≤ s.low * 2 ^ n := Nat.mul_le_mul_right _ h2
  congr 1; omega

/-- The constructor accepts exactly proper bounds; in particular `Backoff (1)` is refused. -/
theorem init_accepts (low : Nat) (high : Option Nat) :
    (init low high).isSome ↔
      match high with
      | none => 1 < low
      | some h => 0 < low ∧ low < h := by
  cases high with
  | none => by_cases h : 1 < low <;> simp [init, bounds, h]
  | some h => by_cases hc : low < h ∧ 0 < low <;> simp [init, bounds, hc] <;> omega

/-- The restart timer of a datalink (`Backoff (2, 120)`): 2, 4, 8, 16, 32, 64, 120, 120, then 2
after a reset. -/
example : ((init 2 (some 120)).map fun s =>
    (run s [.next, .next, .next, .next, .next, .next, .next, .next, .reset, .next]).2) =
    some [2, 4, 8, 16, 32, 64, 120, 120, 2] := by decide

example : (init 1 none) = none := by decide

end Verif.Backoff
