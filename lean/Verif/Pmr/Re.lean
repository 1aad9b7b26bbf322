/-!
# Backtracking regular expressions

The part of Python's `re` that `connectors.py` 33 uses, with groups: the matcher tries the alternatives in
order and gives the first that leads to a match of the whole, as `re` does.  Text is a list of character codes.
-/

namespace Verif.Pmr

abbrev Str := List Nat

inductive Re
  /-- One character of a set. -/
  | chr (p : Nat → Bool)
  /-- Nothing. -/
  | eps
  | seq (a b : Re)
  | alt (a b : Re)
  /-- `a*`, or `a*?` if not greedy; `a` does not match the empty text. -/
  | star (greedy : Bool) (a : Re)
  /-- A numbered group. -/
  | grp (n : Nat) (a : Re)
  /-- `$`: the end, or before a newline at the end. -/
  | eos

/-- The groups matched so far, last first. -/
abbrev Caps := List (Nat × Str)

/-- The text of a group; `none` if it did not take part. -/
def Caps.get (c : Caps) (n : Nat) : Option Str := (c.find? (·.1 = n)).map (·.2)

/-- What is left of the text, and the groups. -/
abbrev St := Str × Caps

/-- A loop; `n` bounds the number of rounds, each of which takes at least one character. -/
def loop (greedy : Bool) (f : (St → Option Caps) → St → Option Caps) (k : St → Option Caps) : Nat → St → Option Caps
  | 0, st => k st
  | n + 1, st =>
    if greedy then (f (fun st' => if st'.1.length < st.1.length then loop greedy f k n st' else none) st).or (k st)
    else (k st).or (f (fun st' => if st'.1.length < st.1.length then loop greedy f k n st' else none) st)

/-- Match, then go on with `k`. -/
def Re.run : Re → (St → Option Caps) → St → Option Caps
  | .chr p, k, st =>
    match st.1 with
    | [] => none
    | c :: r => if p c then k (r, st.2) else none
  | .eps, k, st => k st
  | .seq a b, k, st => a.run (b.run k) st
  | .alt a b, k, st => (a.run k st).or (b.run k st)
  | .star g a, k, st => loop g a.run k st.1.length st
  | .grp n a, k, st => a.run (fun st' => k (st'.1, (n, st.1.take (st.1.length - st'.1.length)) :: st'.2)) st
  | .eos, k, st => if st.1 = [] ∨ st.1 = [10] then k st else none

/-- `re.match`. -/
def Re.match (r : Re) (s : Str) : Option Caps := r.run (fun st => some st.2) (s, [])

/-- `a+`. -/
def Re.plus (a : Re) : Re := .seq a (.star true a)

/-- `a?`. -/
def Re.opt (a : Re) : Re := .alt a .eps

end Verif.Pmr
