import Verif.Modulo.Model
/-! Helper lemmas for sequence number arithmetic. -/
namespace Verif.Modulo

theorem emod_cases {m z : Int} (h1 : -m < z) (h2 : z < m) :
    z % m = if 0 ≤ z then z else z + m := by
  split
  · exact Int.emod_eq_of_lt (by omega) (by omega)
  · rw [← Int.add_emod_right]; exact Int.emod_eq_of_lt (by omega) (by omega)

theorem lt_true {m a b : Int} (hm : 0 < m) :
    lt m a b = some true ↔ (0 < (b - a) % m ∧ 2 * ((b - a) % m) < m) := by
  have h := Int.emod_nonneg (b - a) (by omega : m ≠ 0)
  unfold lt undef maxdelta
  by_cases hp : m % 2 = 1 <;> simp [hp] <;> omega

theorem lt_false {m a b : Int} (hm : 0 < m) :
    lt m a b = some false ↔ ((b - a) % m = 0 ∨ m < 2 * ((b - a) % m)) := by
  have h := Int.emod_nonneg (b - a) (by omega : m ≠ 0)
  unfold lt undef maxdelta
  by_cases hp : m % 2 = 1 <;> simp [hp] <;> omega

theorem lt_none {m a b : Int} (hm : 0 < m) :
    lt m a b = none ↔ 2 * ((b - a) % m) = m := by
  have h := Int.emod_nonneg (b - a) (by omega : m ≠ 0)
  unfold lt undef maxdelta
  by_cases hp : m % 2 = 1 <;> simp [hp] <;> omega

theorem le_true {m a b : Int} (hm : 0 < m) :
    le m a b = some true ↔ 2 * ((b - a) % m) < m := by
  have h := Int.emod_nonneg (b - a) (by omega : m ≠ 0)
  unfold le undef maxdelta
  by_cases hp : m % 2 = 1 <;> simp [hp] <;> omega

theorem le_false {m a b : Int} (hm : 0 < m) :
    le m a b = some false ↔ m < 2 * ((b - a) % m) := by
  have h := Int.emod_nonneg (b - a) (by omega : m ≠ 0)
  unfold le undef maxdelta
  by_cases hp : m % 2 = 1 <;> simp [hp] <;> omega

theorem le_none {m a b : Int} (hm : 0 < m) :
    le m a b = none ↔ 2 * ((b - a) % m) = m := by
  have h := Int.emod_nonneg (b - a) (by omega : m ≠ 0)
  unfold le undef maxdelta
  by_cases hp : m % 2 = 1 <;> simp [hp] <;> omega

theorem gt_eq {m a b : Int} : gt m a b = lt m b a := rfl
theorem ge_eq {m a b : Int} : ge m a b = le m b a := rfl

end Verif.Modulo
