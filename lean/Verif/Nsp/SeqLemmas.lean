import Verif.Nsp.Model
import Verif.Modulo.Lemmas
import Mathlib.Tactic.SplitIfs

/-! Helper lemmas: the modular comparisons in terms of labels. -/
namespace Verif.Nsp

theorem bind_ok {ε α β : Type} {x : Except ε α} {f : α → Except ε β} {b : β} :
    (x >>= f) = .ok b ↔ ∃ a, x = .ok a ∧ f a = .ok b := by
  cases x with
  | error e => simp [bind, Except.bind]
  | ok a => simp [bind, Except.bind]

theorem bind_err {ε α β : Type} {x : Except ε α} {f : α → Except ε β} {e : ε} :
    (x >>= f) = .error e ↔ x = .error e ∨ ∃ a, x = .ok a ∧ f a = .error e := by
  cases x with
  | error e => simp [bind, Except.bind]
  | ok a => simp [bind, Except.bind]

theorem ok_bind {ε α β : Type} (a : α) (f : α → Except ε β) :
    ((Except.ok a : Except ε α) >>= f) = f a := rfl

/-- distance from `b` up to `a`, modulo 4096 -/
def dist (a b : Nat) : Nat := (a + 4096 - b % 4096) % 4096

theorem dist_lt (a b : Nat) : dist a b < 4096 := Nat.mod_lt _ (by omega)

theorem dist_of_le {a b : Nat} (h : b ≤ a) (h2 : a - b < 4096) : dist a b = a - b := by
  unfold dist; omega

theorem dist_of_lt {a b : Nat} (h : a < b) (h2 : b - a < 4096) : dist a b = 4096 - (b - a) := by
  unfold dist; omega

private theorem zdist (a b : Nat) : (((wire a : Nat) : Int) - ((wire b : Nat) : Int)) % 4096 = (dist a b : Nat) := by
  unfold wire dist; omega

theorem undef_4096 : Modulo.undef 4096 = some 2048 := by decide
theorem maxdelta_4096 : Modulo.maxdelta 4096 = 2047 := by decide

theorem seqLe_eq (a b : Nat) : seqLe a b =
    if dist b a = 2048 then .error .typeError
    else .ok (decide (dist b a ≤ 2047)) := by
  unfold seqLe Modulo.le
  simp only [zdist, undef_4096, maxdelta_4096]
  by_cases h : dist b a = 2048
  · rw [if_pos h, if_pos (by rw [h]; rfl)]; rfl
  · rw [if_neg h, if_neg (by intro h'; have := Option.some.inj h'; omega)]
    simp only [cmp]
    congr 1
    apply decide_eq_decide.2
    constructor <;> intro h' <;> omega

theorem seqLt_eq (a b : Nat) : seqLt a b =
    if dist b a = 2048 then .error .typeError
    else .ok (decide (0 < dist b a ∧ dist b a ≤ 2047)) := by
  unfold seqLt Modulo.lt
  simp only [zdist, undef_4096, maxdelta_4096]
  by_cases h : dist b a = 2048
  · rw [if_pos h, if_pos (by rw [h]; rfl)]; rfl
  · rw [if_neg h, if_neg (by intro h'; have := Option.some.inj h'; omega)]
    simp only [cmp]
    congr 1
    apply decide_eq_decide.2
    constructor <;> intro h' <;> omega

theorem seqGt_eq (a b : Nat) : seqGt a b =
    if dist a b = 2048 then .error .typeError
    else .ok (decide (0 < dist a b ∧ dist a b ≤ 2047)) := by
  unfold seqGt Modulo.gt
  simp only [zdist, undef_4096, maxdelta_4096]
  by_cases h : dist a b = 2048
  · rw [if_pos h, if_pos (by rw [h]; rfl)]; rfl
  · rw [if_neg h, if_neg (by intro h'; have := Option.some.inj h'; omega)]
    simp only [cmp]
    congr 1
    apply decide_eq_decide.2
    constructor <;> intro h' <;> omega

theorem seqCount_eq (a b : Nat) : seqCount a b = (dist a b + 1) % 4096 := by
  unfold seqCount wire dist; omega

theorem wire_eq_iff (a b : Nat) : wire a = wire b ↔ dist a b = 0 := by
  unfold wire dist; omega

end Verif.Nsp
