import Verif.Timers.Model

/-!
# The linked lists of the timer wheel (`decnet/timers.py`)

`Cque` (timers.py 15-62) as memory: a `next` and a `prev` reference and a revision count for each list
head and each timer, and the timer wheel (123-224) working on it.  Other than in
`Verif.Timers`, the unlocked test `while qh.islinked ()` (202) of the timer thread and the removal
under the lock (203-206) are separate actions, so that anything may happen between them.

Simplification as in `Verif.Timers`: time is counted in ticks.
-/
namespace Verif.Cque

/-- Objects of class `Cque`: the heads in `wheel` and the timers. -/
inductive Node
  | head (i : Nat)
  | item (t : Nat)
  deriving DecidableEq, Repr

structure Mem where
  next : Node → Node
  prev : Node → Node
  rev : Node → Nat

/-- Assignment to an attribute. -/
def set {α : Type} (f : Node → α) (x : Node) (v : α) : Node → α := fun y => if y = x then v else f y

def setNext (m : Mem) (x v : Node) : Mem := { m with next := set m.next x v }
def setPrev (m : Mem) (x v : Node) : Mem := { m with prev := set m.prev x v }

/-- `self.revcount += 1`. -/
def bump (m : Mem) (x : Node) : Mem := { m with rev := set m.rev x (m.rev x + 1) }

/-- `reset`, timers.py 21-22. -/
def reset (m : Mem) (x : Node) : Mem := setPrev (setNext m x x) x x

/-- All objects as `__init__` (24-26) leaves them. -/
def Mem.init : Mem := { next := id, prev := id, rev := fun _ => 0 }

/-- `add_after`, timers.py 28-36. -/
def addAfter (m : Mem) (self item : Node) : Mem :=
  let m := bump m self
  let m := setPrev m item self
  let m := setNext m item (m.next self)
  let m := setPrev m (m.next self) item
  setNext m self item

/-- `add_before`, timers.py 38-46. -/
def addBefore (m : Mem) (self item : Node) : Mem :=
  let m := bump m self
  let m := setNext m item self
  let m := setPrev m item (m.prev self)
  let m := setNext m (m.prev self) item
  setPrev m self item

/-- `remove`, timers.py 48-56. -/
def remove (m : Mem) (self : Node) : Mem :=
  let m := bump m self
  let m := setPrev m (m.next self) (m.prev self)
  let m := setNext m (m.prev self) (m.next self)
  reset m self

/-- `islinked`, timers.py 58-62. -/
def islinked (m : Mem) (self : Node) : Bool := m.next self ≠ self

/-! ## The wheel -/

/-- Where the timer thread is, timers.py 177-211. -/
inductive PC
  | idle
  /-- at the test of the loop, 202 -/
  | testing
  /-- the test found a linked head; waiting for the lock, 203 -/
  | popping
  /-- 207-209 -/
  | posting (t : Nat) (rev : Nat)
  deriving DecidableEq, Repr

structure State where
  size : Nat
  pos : Nat
  mem : Mem
  pc : PC
  queue : List (Nat × Nat)

/-- timers.py 130-142. -/
def init (size : Nat) : State := { size, pos := 0, mem := .init, pc := .idle, queue := [] }

inductive Op
  | start (t : Nat) (ticks : Int)
  | stop (t : Nat)
  | tick | test | pop | post | dispatch
  deriving DecidableEq, Repr

open Timers (Ev effTicks)

/-- The removal by the timer thread, timers.py 203-209.  The item is the head itself if the list has
been emptied since the test. -/
def pop (s : State) : State × Ev :=
  let item := s.mem.next (.head s.pos)
  let m := remove s.mem item
  match item with
  | .item t => ({ s with mem := m, pc := .posting t (m.rev item) }, .expired t)
  | .head _ => ({ s with mem := m, pc := .testing }, .nothing)

/-- One atomic action; the events are those of `Verif.Timers`. -/
def step (s : State) : Op → State × Ev
  -- timers.py 148-166
  | .start t ticks =>
    let n := effTicks ticks
    if n ≥ s.size then (s, .refused t ticks)
    else
      let pos := ((s.pos + n) % (s.size : Int)).toNat
      ({ s with mem := addBefore (remove s.mem (.item t)) (.head pos) (.item t) }, .started t ticks)
  -- timers.py 217-224
  | .stop t => ({ s with mem := remove s.mem (.item t) }, .stopped t)
  -- timers.py 182-191
  | .tick =>
    match s.pc with
    | .idle => ({ s with pos := (s.pos + 1) % s.size, pc := .testing }, .ticked)
    | _ => (s, .nothing)
  -- timers.py 202
  | .test =>
    match s.pc with
    | .testing =>
      if islinked s.mem (.head s.pos) then ({ s with pc := .popping }, .nothing)
      else ({ s with pc := .idle }, .nothing)
    | _ => (s, .nothing)
  | .pop =>
    match s.pc with
    | .popping => pop s
    | _ => (s, .nothing)
  -- timers.py 207-209
  | .post =>
    match s.pc with
    | .posting t r => ({ s with queue := s.queue ++ [(t, r)], pc := .testing }, .nothing)
    | _ => (s, .nothing)
  -- timers.py 119-121
  | .dispatch =>
    match s.queue with
    | [] => (s, .nothing)
    | (t, r) :: q =>
      if r = s.mem.rev (.item t) then ({ s with queue := q }, .delivered t)
      else ({ s with queue := q }, .dropped t)

def run (s : State) : List Op → State × List Ev
  | [] => (s, [])
  | op :: ops =>
    let (s1, e) := step s op
    let (s2, es) := run s1 ops
    (s2, e :: es)

end Verif.Cque
