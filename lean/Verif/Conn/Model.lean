/-!
# The asynchronous connector of applications

Model of `pydecnet/decnet/async_connectors.py`: `AsyncConnection` (40-80), `AsyncConnector` (82-284) and of
what they use of `connectors.py`: `Connection.send`, `close`, `reject`, `disconnect`, `abort` (99-133),
`SimpleConnector.parse` (254-273).

Tasks run one at a time between their waiting points, so a run is a sequence of events: a call of `exch`,
the cancellation of a task that waits for an answer, a line read by the receiver task, a call of `recv` or
`listen` that finds something in the queue, and a request on a connection.  Connection objects are numbered
in the order in which they are made.  Handles and tags are numbers, and no handle is `0`; a message
without a handle has `0`.  The rest of a message is `body`.  The coding of lines (JSON) is left out: a line
is the dictionary it carries, which has the keys `system` and `api` that `makeconn` looks up (apiserver.py
and session.py 1115-1118 put them in).  Poor man's routing (`usepmr`) is in `Verif.Pmr`.

`late` is true for Python 3.8 and later, where `CancelledError` is not an `Exception`: there the clean up
in `exch` (199-203) does not see a cancellation.  A cancellation is one event with the clean up: a line read after
`cancel` and before the task runs again is left out.  `pipe` is true for `AsyncPipeConnector`.
-/

namespace Verif.Conn

/-- The types of messages that the code tells apart; `missing`: no key `type`. -/
inductive Ty
  | connect | connecting | bind
  | reject | disconnect | abort | close
  | other (n : Nat)
  | missing
deriving DecidableEq, Repr

/-- The types with which a new handle may appear, connectors.py 263. -/
def Ty.opens : Ty → Bool
  | .connect => true
  | .connecting => true
  | .bind => true
  | _ => false

/-- The types after which `recv` closes the connection, async_connectors.py 54-55. -/
def Ty.ends : Ty → Bool
  | .reject => true
  | .disconnect => true
  | .abort => true
  | .close => true
  | _ => false

/-- A message from the server; `err`: it has the key `error`. -/
structure Msg where
  handle : Nat
  type : Ty
  tag : Option Nat
  err : Bool
  listen : Option Nat
  body : Nat
deriving DecidableEq, Repr

/-- `Connection.__init__`, connectors.py 77-83 and async_connectors.py 41-45. -/
structure Obj where
  handle : Nat
  closed : Bool
  recvq : List Msg
  listenq : List Nat
deriving DecidableEq, Repr

/-- `conns`: `connections`; `exch`: `exchanges`, each with whether its future has been cancelled;
`recvq`, `listenq`: the queues of the connector; `up`: the receiver task runs. -/
structure State where
  tag : Nat
  exch : List (Nat × Bool)
  conns : List (Nat × Nat)
  next : Nat
  obj : Nat → Obj
  recvq : List Msg
  listenq : List Nat
  up : Bool

/-- `__init__`, connectors.py 147-149 and async_connectors.py 83-88. -/
def State.init : State where
  tag := 1
  exch := []
  conns := []
  next := 0
  obj := fun _ => ⟨0, true, [], []⟩
  recvq := []
  listenq := []
  up := true

/-- `d.get (k)`. -/
def get {β} (d : List (Nat × β)) (k : Nat) : Option β := (d.find? (·.1 = k)).map (·.2)

/-- `d[k] = v`. -/
def put {β} (d : List (Nat × β)) (k : Nat) (v : β) : List (Nat × β) := (k, v) :: d.filter (·.1 ≠ k)

/-- `del d[k]` (the key is there). -/
def del {β} (d : List (Nat × β)) (k : Nat) : List (Nat × β) := d.filter (·.1 ≠ k)

/-- Assign to a field of a connection object. -/
def State.set (s : State) (c : Nat) (o : Obj) : State :=
  { s with obj := fun i => if i = c then o else s.obj i }

inductive Ev
  /-- A task calls `exch`. -/
  | exch
  /-- The task that waits for the answer with this tag is cancelled. -/
  | cancel (tag : Nat)
  /-- The receiver reads a line. -/
  | line (m : Msg)
  /-- A task calls `recv` on a connection and the queue is not empty, or the connection is closed. -/
  | recv (c : Nat)
  /-- A task calls `listen` on a (bound) connection and the queue is not empty. -/
  | listen (c : Nat)
  /-- A request on a connection; `closes`: reject, disconnect or abort. -/
  | call (c : Nat) (closes : Bool)
deriving DecidableEq, Repr

inductive Out
  /-- A request with this tag is sent. -/
  | asked (tag : Nat)
  /-- The exchange has its answer: connection and message. -/
  | done (tag : Nat) (rc : Option Nat) (m : Msg)
  /-- A connection object is made for a handle. -/
  | opened (c handle : Nat)
  /-- The connection object is closed. -/
  | closed (c : Nat)
  /-- A request on a handle is sent. -/
  | sent (handle : Nat) (closes : Bool)
  /-- `recv` returns this (or raises it). -/
  | got (c : Nat) (m : Msg)
  /-- `listen` on the first returns the second. -/
  | accepted (b c : Nat)
  /-- `ConnClosed` is raised. -/
  | isClosed (c : Nat)
  /-- The receiver task ends with an exception. -/
  | down
deriving DecidableEq, Repr

/-- `Connection.close`, connectors.py 105-108. -/
def close (s : State) (c : Nat) : State × List Out :=
  if (s.obj c).closed then (s, [])
  else ({ s.set c { s.obj c with closed := true } with conns := del s.conns (s.obj c).handle }, [.closed c])

/-- A new connection object under a handle, connectors.py 77-83. -/
def fresh (s : State) (h : Nat) : State :=
  { s.set s.next ⟨h, false, [], []⟩ with conns := put s.conns h s.next, next := s.next + 1 }

/-- `makeconn` after the object was made, async_connectors.py 261-284.  `c` is the new object. -/
def place (pipe : Bool) (s : State) (c : Nat) (m : Msg) : State × Option Nat × List Out :=
  if m.type = .connect then
    match m.listen with
    | none => (if pipe then { s with listenq := s.listenq ++ [c] } else s, some c, [])
    | some b =>
      match get s.conns b with
      | some bc => (s.set bc { s.obj bc with listenq := (s.obj bc).listenq ++ [c] }, some c, [])
      | none => ((close s c).1, none, .sent m.handle true :: (close s c).2)
  else (s, some c, [])

/-- `makeconn`, async_connectors.py 261-284. -/
def makeconn (pipe : Bool) (s : State) (m : Msg) : State × Option Nat × List Out :=
  let r := place pipe (fresh s m.handle) s.next m
  (r.1, r.2.1, .opened s.next m.handle :: r.2.2)

/-- `parse`, connectors.py 254-273; `none` is an exception. -/
def parse (pipe : Bool) (s : State) (m : Msg) : Option (State × Option Nat × List Out) :=
  if m.handle = 0 then some (s, none, [])
  else
    match get s.conns m.handle with
    | some c => some (s, some c, [])
    | none => if m.type.opens then some (makeconn pipe s m) else none

/-- The end of the receiver task, async_connectors.py 107-115. -/
def die (s : State) (o : List Out) : State × List Out := ({ s with up := false }, o ++ [.down])

/-- `dispatch` after `parse`, async_connectors.py 167-185. -/
def deliver (s : State) (rc : Option Nat) (o : List Out) (m : Msg) : State × List Out :=
  match m.tag with
  | some t =>
    match get s.exch t with
    | none => (s, o)
    | some true => die { s with exch := del s.exch t } o
    | some false => ({ s with exch := del s.exch t }, o ++ [.done t rc m])
  | none =>
    match rc with
    | some c => (s.set c { s.obj c with recvq := (s.obj c).recvq ++ [m] }, o)
    | none => ({ s with recvq := s.recvq ++ [m] }, o)

/-- `dispatch`, async_connectors.py 165-185. -/
def dispatch (pipe : Bool) (s : State) (m : Msg) : State × List Out :=
  match parse pipe s m with
  | none => die s []
  | some (s', rc, o) => deliver s' rc o m

/-- `AsyncConnection.recv`, async_connectors.py 47-64. -/
def recv (s : State) (c : Nat) : State × List Out :=
  if (s.obj c).closed then (s, [.isClosed c])
  else
    match (s.obj c).recvq with
    | [] => (s, [])
    | m :: q =>
      let s' := s.set c { s.obj c with recvq := q }
      if m.err then (s', [.got c m])
      else if m.type.ends then ((close s' c).1, .got c m :: (close s' c).2)
      else (s', [.got c m])

/-- `listen`, async_connectors.py 66-68. -/
def listen (s : State) (c : Nat) : State × List Out :=
  match (s.obj c).listenq with
  | [] => (s, [])
  | n :: q => (s.set c { s.obj c with listenq := q }, [.accepted c n])

/-- `Connection.send` and the requests, connectors.py 99-142. -/
def call (s : State) (c : Nat) (closes : Bool) : State × List Out :=
  if (s.obj c).closed then (s, [.isClosed c])
  else if closes then ((close s c).1, .sent (s.obj c).handle true :: (close s c).2)
  else (s, [.sent (s.obj c).handle false])

/-- One event; `exch` is async_connectors.py 187-203.  Events on connections that do not exist do nothing. -/
def step (late pipe : Bool) (s : State) : Ev → State × List Out
  | .exch => ({ s with tag := s.tag + 1, exch := put s.exch (s.tag + 1) false }, [.asked (s.tag + 1)])
  | .cancel t =>
    match get s.exch t with
    | none => (s, [])
    | some _ => ({ s with exch := if late then put s.exch t true else del s.exch t }, [])
  | .line m => if s.up then dispatch pipe s m else (s, [])
  | .recv c => if c < s.next then recv s c else (s, [])
  | .listen c => if c < s.next then listen s c else (s, [])
  | .call c closes => if c < s.next then call s c closes else (s, [])

/-- A run, with what was seen at each event. -/
def run (late pipe : Bool) (s : State) : List Ev → State × List (Ev × List Out)
  | [] => (s, [])
  | e :: es =>
    let r := step late pipe s e
    let q := run late pipe r.1 es
    (q.1, (e, r.2) :: q.2)

end Verif.Conn
