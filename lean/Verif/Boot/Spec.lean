import Verif.Boot.Model

/-!
# C131, C132: what is started and stopped
-/

namespace Verif.Boot

/-- The files that say what a system is, and the others. -/
def isSystem (c : Cfg) : Bool := c.routing || c.bridge

/-- What was started, in order. -/
def starts (t : List Act) : List (Nat × Elem) :=
  t.filterMap fun
    | .start n e => some (n, e)
    | _ => none

/-- What was stopped, in order. -/
def stops (t : List Act) : List (Nat × Elem) :=
  t.filterMap fun
    | .stop n e => some (n, e)
    | _ => none

/-- A run that leaves the file of its socket. -/
def Leaves (l : Life) : Prop := l.bindFails = false ∧ (l.orderly = false ∨ l.wakes = false)

end Verif.Boot
