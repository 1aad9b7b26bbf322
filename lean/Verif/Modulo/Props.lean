import Verif.Modulo.Lemmas
/-!
# C01, C02: sequence number arithmetic
-/
namespace Verif.Modulo

/-- A legal residue of modulus `m` (what the constructor accepts). -/
def Res (m a : Int) : Prop := 0 ≤ a ∧ a < m

/-- C01 (a): the comparison raises exactly if the two values are half the modulus apart (which
needs an even modulus); all four comparisons raise in the same cases. -/
theorem undefined_iff {m a b : Int} (hm : 0 < m) (ha : Res m a) (hb : Res m b) :
    (lt m a b = none ↔ (2 * (b - a) = m ∨ 2 * (a - b) = m)) ∧
    (le m a b = none ↔ (2 * (b - a) = m ∨ 2 * (a - b) = m)) ∧
    (gt m a b = none ↔ (2 * (b - a) = m ∨ 2 * (a - b) = m)) ∧
    (ge m a b = none ↔ (2 * (b - a) = m ∨ 2 * (a - b) = m)) := by
  unfold Res at *
  rw [gt_eq, ge_eq, lt_none hm, le_none hm, lt_none hm, le_none hm,
    emod_cases (z := b - a) (by omega) (by omega), emod_cases (z := a - b) (by omega) (by omega)]
  refine ⟨?_, ?_, ?_, ?_⟩ <;> split <;> omega

/-- C01 (b): whenever comparison is defined, exactly one of `<`, `==`, `>` is true and the
others are false. -/
theorem trichotomy {m a b : Int} (hm : 0 < m) (ha : Res m a) (hb : Res m b)
    (hdef : lt m a b ≠ none) :
    (lt m a b = some true ∧ eq a b = false ∧ gt m a b = some false) ∨
    (lt m a b = some false ∧ eq a b = true ∧ gt m a b = some false) ∨
    (lt m a b = some false ∧ eq a b = false ∧ gt m a b = some true) := by
  unfold Res at *
  rw [Ne, lt_none hm] at hdef
  rw [gt_eq, lt_true hm, lt_false hm, lt_true hm, lt_false hm]
  simp only [eq, decide_eq_true_eq, decide_eq_false_iff_not]
  rw [emod_cases (z := b - a) (by omega) (by omega)] at *
  rw [emod_cases (z := a - b) (by omega) (by omega)]
  split <;> split <;> omega

/-- C01 (c): `<=` is "less or equal", and `>`, `>=` are the mirror images; `<=` is the negation
of `>`. -/
theorem derived {m a b : Int} (hm : 0 < m) (ha : Res m a) (hb : Res m b)
    (hdef : lt m a b ≠ none) :
    (le m a b = some true ↔ (lt m a b = some true ∨ a = b)) ∧
    gt m a b = lt m b a ∧ ge m a b = le m b a ∧
    (le m a b = some true ↔ gt m a b = some false) ∧
    (le m a b = some false ↔ gt m a b = some true) := by
  unfold Res at *
  refine ⟨?_, rfl, rfl, ?_⟩ <;> rw [Ne, lt_none hm] at hdef
  · rw [le_true hm, lt_true hm]
    rw [emod_cases (z := b - a) (by omega) (by omega)] at *
    split <;> omega
  · rw [gt_eq, le_true hm, le_false hm, lt_true hm, lt_false hm]
    rw [emod_cases (z := b - a) (by omega) (by omega)] at *
    rw [emod_cases (z := a - b) (by omega) (by omega)]
    split <;> split <;> omega

/-- C01 (d): comparison is invariant under adding the same number to both sides. -/
theorem shift_invariant {m a b c : Int} :
    lt m ((a + c) % m) ((b + c) % m) = lt m a b ∧
    le m ((a + c) % m) ((b + c) % m) = le m a b := by
  have : ((b + c) % m - (a + c) % m) % m = (b - a) % m := by
    rw [← Int.sub_emod]; congr 1; omega
  unfold lt le
  simp only [this, and_self]

/-- C01 (e): for unbounded counters `x`, `y` that are less than half the modulus apart, the
comparison of their residues is the comparison of the counters. -/
theorem agrees_with_counters {m x y : Int} (hm : 0 < m)
    (h1 : 2 * (y - x) < m) (h2 : 2 * (x - y) < m) :
    lt m (x % m) (y % m) = some (decide (x < y)) ∧
    le m (x % m) (y % m) = some (decide (x ≤ y)) ∧
    gt m (x % m) (y % m) = some (decide (x > y)) ∧
    ge m (x % m) (y % m) = some (decide (x ≥ y)) ∧
    eq (x % m) (y % m) = decide (x = y) := by
  have k1 : (y % m - x % m) % m = if 0 ≤ y - x then y - x else y - x + m := by
    rw [← Int.sub_emod]; exact emod_cases (by omega) (by omega)
  have k2 : (x % m - y % m) % m = if 0 ≤ x - y then x - y else x - y + m := by
    rw [← Int.sub_emod]; exact emod_cases (by omega) (by omega)
  have heq : x % m = y % m ↔ x = y := by
    constructor
    · intro h
      rw [h, Int.sub_self, Int.zero_emod] at k1
      split at k1 <;> omega
    · intro h; rw [h]
  rw [gt_eq, ge_eq]
  refine ⟨?_, ?_, ?_, ?_, ?_⟩
  · by_cases h : x < y <;> simp only [h, decide_true, decide_false]
    · rw [lt_true hm, k1]; split <;> omega
    · rw [lt_false hm, k1]; split <;> omega
  · by_cases h : x ≤ y <;> simp only [h, decide_true, decide_false]
    · rw [le_true hm, k1]; split <;> omega
    · rw [le_false hm, k1]; split <;> omega
  · by_cases h : y < x <;> simp only [h, decide_true, decide_false, gt_iff_lt]
    · rw [lt_true hm, k2]; split <;> omega
    · rw [lt_false hm, k2]; split <;> omega
  · by_cases h : y ≤ x <;> simp only [h, decide_true, decide_false, ge_iff_le]
    · rw [le_true hm, k2]; split <;> omega
    · rw [le_false hm, k2]; split <;> omega
  · simp only [eq, heq]

/-- C02: addition, subtraction and multiplication never overflow, give a legal value, and
follow the unbounded integers represented. -/
theorem arithmetic_tracks {m x y : Int} (hm : 0 < m) :
    add m (x % m) (y % m) = some ((x + y) % m) ∧
    sub m (x % m) (y % m) = some ((x - y) % m) ∧
    mul m (x % m) (y % m) = some ((x * y) % m) ∧
    Res m ((x + y) % m) ∧ Res m ((x - y) % m) ∧ Res m ((x * y) % m) := by
  have r : ∀ z : Int, Res m (z % m) := fun z =>
    ⟨Int.emod_nonneg z (by omega), Int.emod_lt_of_pos z hm⟩
  refine ⟨?_, ?_, ?_, r _, r _, r _⟩
  · unfold add new; rw [← Int.add_emod]; exact if_pos (r _)
  · unfold sub new; rw [← Int.sub_emod]; exact if_pos (r _)
  · unfold mul new; rw [← Int.mul_emod]; exact if_pos (r _)

/-- C02: the constructor accepts exactly the legal residues and keeps the value. -/
theorem new_iff {m v r : Int} : new m v = some r ↔ (r = v ∧ 0 ≤ v ∧ v < m) := by
  unfold new; split <;> simp <;> omega

/-! Non-vacuity: modulus 4096 (NSP) across the wrap, and the undefined pair. -/
example : lt 4096 4090 5 = some true ∧ gt 4096 5 4090 = some true := by decide
example : lt 4096 0 2048 = none ∧ Res 4096 0 ∧ Res 4096 2048 := by
  refine ⟨by decide, ?_, ?_⟩ <;> unfold Res <;> omega
example : lt 7 5 1 = some true ∧ lt 7 1 5 = some false := by decide
example : add 256 255 3 = some 2 := by decide

end Verif.Modulo
