/-!
# Model of `decnet/timers.py`

The timer wheel, its timer thread and the node work queue, at the granularity of the lock
sections of the code: every `Op` below is one atomic action of one of the two threads, so a list
of `Op`s is an arbitrary interleaving.

Simplifications: the circular doubly linked list of a slot is a `List` of timer names, head
first (the pointer structure is modelled separately in `Verif.Cque`, which refines this model); a timer object is a
`Nat`; time in seconds is already divided by the tick length (`ticks` is the value of
`int (timeout / self.tick)`), so floating point is not modelled; logging is left out.
-/
namespace Verif.Timers

abbrev Tid := Nat

/-- Program counter of the timer thread in `TimerWheel.run` / `expirations`,
timers.py 177-211. -/
inductive PC where
  /-- sleeping at the top of the loop, 182-183 -/
  | idle
  /-- at the `while qh.islinked ()` test, 202 -/
  | draining
  /-- lock released, about to `addwork (Timeout (item, revcount))`, 207-209 -/
  | posting (t : Tid) (rev : Nat)
deriving DecidableEq, Repr

/-- `TimerWheel` fields (timers.py 130-142), the `revcount` of each timer (15-26), the timer
thread's program counter and the node work queue restricted to `Timeout` items (timer and
saved revcount, 115-117). -/
structure State where
  size : Nat
  pos : Nat
  slot : Nat → List Tid
  rev : Tid → Nat
  pc : PC
  queue : List (Tid × Nat)

/-- `TimerWheel.__init__`, timers.py 130-142. -/
def init (size : Nat) : State :=
  { size, pos := 0, slot := fun _ => [], rev := fun _ => 0, pc := .idle, queue := [] }

/-- `Cque.remove`, timers.py 48-56: unlink from whatever queue, bump the revision count. -/
def remove (s : State) (t : Tid) : State :=
  { s with slot := fun i => (s.slot i).filter (· ≠ t)
           rev := fun u => if u = t then s.rev u + 1 else s.rev u }

/-- `self.wheel[pos].add_before (item)`, timers.py 38-46: append at the end of the list. -/
def addBefore (s : State) (i : Nat) (t : Tid) : State :=
  { s with slot := fun j => if j = i then s.slot j ++ [t] else s.slot j }

/-- `int (timeout / self.tick) or 1`, timers.py 154. -/
def effTicks (ticks : Int) : Int := if ticks = 0 then 1 else ticks

/-- Atomic actions. -/
inductive Op where
  | start (t : Tid) (ticks : Int)
  | stop (t : Tid)
  /-- timer thread: 190, `self.pos = (self.pos + 1) % self.maxtime` -/
  | tick
  /-- timer thread: 202-206, one test of the loop and, if linked, one removal -/
  | drain
  /-- timer thread: 209, post the work item -/
  | post
  /-- node thread: take one work item off the queue, node.py mainloop, and `Timeout.dispatch` -/
  | dispatch
deriving DecidableEq, Repr

/-- What an action did, as seen from outside. -/
inductive Ev where
  | started (t : Tid) (ticks : Int)
  /-- `OverflowError`, timers.py 155-156 -/
  | refused (t : Tid) (ticks : Int)
  | stopped (t : Tid)
  | ticked
  | expired (t : Tid)
  | delivered (t : Tid)
  | dropped (t : Tid)
  | nothing
deriving DecidableEq, Repr

/-- One atomic action. -/
def step (s : State) : Op → State × Ev
  -- timers.py 148-166
  | .start t ticks =>
    let n := effTicks ticks
    if n ≥ s.size then (s, .refused t ticks)
    else
      let pos := ((s.pos + n) % (s.size : Int)).toNat
      (addBefore (remove s t) pos t, .started t ticks)
  -- timers.py 217-224
  | .stop t => (remove s t, .stopped t)
  -- timers.py 182-191
  | .tick =>
    match s.pc with
    | .idle => ({ s with pos := (s.pos + 1) % s.size, pc := .draining }, .ticked)
    | _ => (s, .nothing)
  -- timers.py 202-206
  | .drain =>
    match s.pc with
    | .draining =>
      match s.slot s.pos with
      | [] => ({ s with pc := .idle }, .nothing)
      | t :: _ =>
        let s' := remove s t
        ({ s' with pc := .posting t (s'.rev t) }, .expired t)
    | _ => (s, .nothing)
  -- timers.py 207-209
  | .post =>
    match s.pc with
    | .posting t r => ({ s with queue := s.queue ++ [(t, r)], pc := .draining }, .nothing)
    | _ => (s, .nothing)
  -- timers.py 119-121
  | .dispatch =>
    match s.queue with
    | [] => (s, .nothing)
    | (t, r) :: q =>
      if r = s.rev t then ({ s with queue := q }, .delivered t)
      else ({ s with queue := q }, .dropped t)

/-- A whole schedule; returns the final state and the events in order. -/
def run (s : State) : List Op → State × List Ev
  | [] => (s, [])
  | op :: ops =>
    let (s1, e) := step s op
    let (s2, es) := run s1 ops
    (s2, e :: es)

end Verif.Timers
