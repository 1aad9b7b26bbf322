import Verif.Timers.Model
/-!
# Model of `decnet/bridge.py`

The bridge's address database on top of the timer wheel of `Verif.Timers`: every address entry is
a timer of its own, and the timer thread, the receive path and the delivery of timeouts are
separate actions, so a list of actions is an arbitrary interleaving of the timer thread with the
node thread.

Simplifications: a circuit is a number (the code compares circuit objects with `is`); the
`extra` argument handed through to `send_frame` is left out, as are counters, logging and the
HTTP and API views. The frames that arrive here have passed the protocol filter of
`_Ethernet.receive`, which is modelled in `Verif.Framing.Eth`.
-/
namespace Verif.Bridge
open Verif

abbrev Bytes := List UInt8
abbrev Mac := Bytes
abbrev Circ := Nat

/-- `AddrEnt`, bridge.py 68-104: which timer it is, and the circuit it points to. -/
structure Ent where
  tid : Nat
  circ : Circ
deriving DecidableEq, Repr

/-- `Bridge` 146-166 with its `AddrDb` 106-113. `addr` is the `addr` attribute of each timer
object, `next` the next timer object. -/
structure State where
  tm : Timers.State
  table : Mac → Option Ent
  addr : Nat → Mac
  next : Nat
  circuits : List Circ

/-- A bridge just started, timer wheel of the given size. -/
def init (size : Nat) (circuits : List Circ) : State :=
  { tm := Timers.init size, table := fun _ => none, addr := fun _ => [], next := 0, circuits }

/-- `AddrEnt.alive`, bridge.py 88-89: restart the timer. `none` is the `OverflowError` of
`TimerWheel.start`. -/
def alive (ticks : Int) (s : State) (t : Nat) : Option State :=
  match Timers.step s.tm (.start t ticks) with
  | (tm, .started _ _) => some { s with tm }
  | _ => none

/-- `AddrDb.learn`, bridge.py 115-123, with `AddrEnt.__init__` 76-84 and `update` 89-93. -/
def learn (ticks : Int) (s : State) (a : Mac) (c : Circ) : Option State :=
  match s.table a with
  | some e =>
    if e.circ = c then alive ticks s e.tid
    else alive ticks { s with table := fun x => if x = a then some { e with circ := c }
                                                else s.table x } e.tid
  | none =>
    let s1 := { s with addr := fun t => if t = s.next then a else s.addr t, next := s.next + 1 }
    match alive ticks s1 s.next with
    | some s2 => some { s2 with table := fun x => if x = a then some ⟨s.next, c⟩ else s2.table x }
    | none => none

/-- `AddrEnt.dispatch`, bridge.py 97-101: the timer expired. `none` is the `KeyError` of `del`. -/
def expire (s : State) (t : Nat) : Option State :=
  match s.table (s.addr t) with
  | some _ => some { s with table := fun x => if x = s.addr t then none else s.table x }
  | none => none

/-- `packet[:6]` and `packet[6:12]`, bridge.py 187-188. -/
def dest (pdu : Bytes) : Mac := pdu.take 6
def source (pdu : Bytes) : Mac := (pdu.drop 6).take 6

/-- `Bridge.dispatch`, bridge.py 183-204. `none` is an exception (`Macaddr` of fewer than six
bytes, or one from `learn`). -/
def dispatch (ticks : Int) (s : State) (c : Circ) (pdu : Bytes) :
    Option (State × List (Circ × Bytes)) :=
  if pdu.length < 12 then none
  else if dest pdu = source pdu then some (s, [])
  else
    match learn ticks s (source pdu) c with
    | none => none
    | some s1 =>
      match s1.table (dest pdu) with
      | some e => if e.circ = c then some (s1, []) else some (s1, [(e.circ, pdu)])
      | none => some (s1, (s1.circuits.filter (· ≠ c)).map (fun x => (x, pdu)))

/-- Actions: a frame handed to the bridge by the node thread, the timer thread's three steps, and
the node thread taking one `Timeout` off the work queue. -/
inductive In where
  | frame (c : Circ) (pdu : Bytes)
  | tick
  | drain
  | post
  | timeout
deriving DecidableEq, Repr

/-- What can be seen from outside: frames in and out, and the clock. -/
inductive Act where
  | frame (c : Circ) (pdu : Bytes) (out : List (Circ × Bytes))
  | ticked
  | quiet
deriving DecidableEq, Repr

def ofEv : Timers.Ev → Act
  | .ticked => .ticked
  | _ => .quiet

/-- One action; `none` is an exception in the node thread. -/
def step (ticks : Int) (s : State) : In → Option (State × Act)
  | .frame c pdu =>
    match dispatch ticks s c pdu with
    | some (s1, out) => some (s1, .frame c pdu out)
    | none => none
  | .tick => some ({ s with tm := (Timers.step s.tm .tick).1 }, ofEv (Timers.step s.tm .tick).2)
  | .drain => some ({ s with tm := (Timers.step s.tm .drain).1 }, .quiet)
  | .post => some ({ s with tm := (Timers.step s.tm .post).1 }, .quiet)
  -- timers.py 119-121 then bridge.py 95-99
  | .timeout =>
    match Timers.step s.tm .dispatch with
    | (tm, .delivered t) => (expire { s with tm } t).map (fun s1 => (s1, .quiet))
    | (tm, _) => some ({ s with tm }, .quiet)

def run (ticks : Int) (s : State) : List In → Option (State × List Act)
  | [] => some (s, [])
  | i :: is =>
    match step ticks s i with
    | none => none
    | some (s1, a) => (run ticks s1 is).map (fun r => (r.1, a :: r.2))

end Verif.Bridge
