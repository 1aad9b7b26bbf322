/-!
# Model of `Backoff` (`/repo/pydecnet/decnet/common.py` 865-892)

The retry interval generator used by the datalinks (`datalink.py` 320, `multinet.py` 158, 219,
`ddcmp.py` 404-405, 978-980, 1441-1442) and the MOP console client (`mop.py` 878).
Simplification: the bounds are natural numbers.  Every use in the repository passes integers; the
class itself would also take floats.
-/

namespace Verif.Backoff

/-- The attributes of a `Backoff` object: common.py 875-878. -/
structure State where
  low : Nat
  current : Nat
  high : Nat
  tries : Nat
deriving DecidableEq, Repr

/-- The bounds: with one argument they are 1 and that argument, like `range`.  common.py 873-874. -/
def bounds (low : Nat) : Option Nat → Nat × Nat
  | none => (1, low)
  | some h => (low, h)

/-- `Backoff.__init__`: common.py 867-878.  `none` is the `AssertionError` of line 875. -/
def init (low : Nat) (high : Option Nat) : Option State :=
  if (bounds low high).1 < (bounds low high).2 ∧ 0 < (bounds low high).1 then
    some ⟨(bounds low high).1, (bounds low high).1, (bounds low high).2, 0⟩
  else none

/-- The two calls an owner makes. -/
inductive Op where
  /-- `next (b)` or `b.next ()`: common.py 880-884, 890-892. -/
  | next
  /-- `b.reset ()`: common.py 886-888. -/
  | reset
deriving DecidableEq, Repr

/-- One call: the new state and the value returned, if any.  common.py 880-888. -/
def step (s : State) : Op → State × Option Nat
  | .next => ({ s with current := min (s.current * 2) s.high, tries := s.tries + 1 }, some s.current)
  | .reset => ({ s with current := s.low, tries := 0 }, none)

/-- A sequence of calls, with the list of the values returned. -/
def run (s : State) : List Op → State × List Nat
  | [] => (s, [])
  | o :: os =>
    let (s', r) := step s o
    let (s'', rs) := run s' os
    (s'', r.toList ++ rs)

end Verif.Backoff
