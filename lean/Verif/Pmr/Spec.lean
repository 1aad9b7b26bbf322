import Verif.Pmr.Model

/-!
# Routes as users write them
-/

namespace Verif.Pmr

/-- A node name or address: letters, digits and periods. -/
def NodeName (n : Str) : Prop :=
  n ≠ [] ∧ ∀ c ∈ n, (97 ≤ c ∧ c ≤ 122) ∨ (65 ≤ c ∧ c ≤ 90) ∨ (48 ≤ c ∧ c ≤ 57) ∨ c = 46

/-- The nodes after the first, each after two colons. -/
def segs : List Str → Str
  | [] => []
  | n :: ns => 58 :: 58 :: (n ++ segs ns)

/-- A number as written. -/
def Digits (s : Str) : Prop := s ≠ [] ∧ ∀ c ∈ s, 48 ≤ c ∧ c ≤ 57

/-- The value of a number as written. -/
def valueOf (s : Str) : Nat := s.foldl (fun a c => 10 * a + (c - 48)) 0

/-- A task name: no white space. -/
def TaskName (u : Uni) (s : Str) : Prop := s ≠ [] ∧ ∀ c ∈ s, u.space c = false

/-- `TASK=` in upper or lower case, or mixed. -/
def TaskWord (w : Str) : Prop :=
  ∃ t a s k, w = [t, a, s, k, 61] ∧ (t = 84 ∨ t = 116) ∧ (a = 65 ∨ a = 97) ∧ (s = 83 ∨ s = 115) ∧ (k = 75 ∨ k = 107)

end Verif.Pmr
