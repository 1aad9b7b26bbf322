import Verif.EvLog.Model

/-!
# What an event list means, and which sinks a configuration selects

Written from the description in doc/config.txt:638-660.
-/

namespace Verif.EvLog

/-- Decimal numeral of a number; leading zeros are allowed. -/
inductive Numeral : Str → Nat → Prop
  | one {d : Nat} : d < 10 → Numeral [48 + d] d
  | snoc {s : Str} {n d : Nat} : Numeral s n → d < 10 → Numeral (s ++ [48 + d]) (10 * n + d)

/-- Text for the events `a` to `b`: a number, a range, or an asterisk for all. -/
inductive EventsText : Str → Nat → Nat → Prop
  | one {s : Str} {a : Nat} : Numeral s a → EventsText s a a
  | range {s t : Str} {a b : Nat} : Numeral s a → Numeral t b → a < b → EventsText (s ++ 45 :: t) a b
  | all : EventsText [42] 0 31

/-- A newline at the end of an entry is allowed. -/
def Newline (n : Str) : Prop := n = [] ∨ n = [10]

/-- Entries of a list and the events they stand for, as triples of a class and the first and last
number.  An entry without a class is of the class of the entry before it. -/
inductive Entries : Option Nat → List Str → List (Nat × Nat × Nat) → Prop
  | nil {c : Option Nat} : Entries c [] []
  | own {c : Option Nat} {t s n : Str} {k a b : Nat} {ss : List Str} {l : List (Nat × Nat × Nat)} :
      Numeral t k → k < 512 → EventsText s a b → b ≤ 31 → Newline n → Entries (some k) ss l →
      Entries c ((t ++ 46 :: s ++ n) :: ss) ((k, a, b) :: l)
  | same {s n : Str} {k a b : Nat} {ss : List Str} {l : List (Nat × Nat × Nat)} :
      EventsText s a b → b ≤ 31 → Newline n → Entries (some k) ss l →
      Entries (some k) ((s ++ n) :: ss) ((k, a, b) :: l)

/-- Entries separated by commas. -/
def commas : List Str → Str
  | [] => []
  | [x] => x
  | x :: xs => x ++ 44 :: commas xs

/-- An event list and the ranges it stands for. -/
def Reads (s : Str) (l : List (Nat × Nat × Nat)) : Prop :=
  ∃ items, items ≠ [] ∧ s = commas items ∧ Entries none items l

/-- An event is in one of the ranges. -/
def InRanges (l : List (Nat × Nat × Nat)) (x : Nat × Nat) : Prop :=
  ∃ r ∈ l, r.1 = x.1 ∧ r.2.1 ≤ x.2 ∧ x.2 ≤ r.2.2

/-- The event is known and the list (if there is one) has it.  Without a list only the local console
takes events. -/
def Selects (e : Ent) (x : Nat × Nat) : Prop :=
  known x = true ∧
  ((∃ s l, e.events = some s ∧ Reads s l ∧ InRanges l x) ∨
   e.events = some [42, 46, 42] ∨
   ((e.events = none ∨ e.events = some []) ∧ e.node = none ∧ e.kind = .console))

/-- The configuration sends event `x` to the sink `k` of this node (`none`) or another. -/
def Selected (cfg : List Ent) (n : Option Str) (k : Kind) (x : Nat × Nat) : Prop :=
  ∃ e ∈ cfg, e.node = n ∧ e.kind = k ∧ Selects e x

/-- One entry for each sink of each node, config.py:115-122. -/
def OneEach (cfg : List Ent) : Prop := cfg.Pairwise fun a b => ¬(a.node = b.node ∧ a.kind = b.kind)

end Verif.EvLog
