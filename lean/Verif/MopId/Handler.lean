import Verif.MopId.Model
import Verif.Mop.Model

/-!
# The handler of identification and counters; the API's list; console connections
-/

namespace Verif.MopId

/-- mop.py:49 `CONSMC`. -/
def consMc : Bytes := [0xAB, 0, 0, 2, 0, 0]

/-- `MopCircuit` and its `SysIdHandler`.  `ver` is the console verification from the configuration,
`none` if there is none; `server` is the station to which the console is reserved; `requests` are the
numbers of pending requests (of loop tests, in the code as it is); `heard` is a dictionary in the order of
insertion, with the time of the last message. -/
structure Circ where
  ver : Option Bytes
  hwaddr : Bytes
  server : Option Bytes := none
  requests : List Nat := []
  heard : List (Bytes × SysId × Int) := []
deriving DecidableEq, Repr

/-- `"DECnet/Python"`. -/
def software : Bytes := [68, 69, 67, 110, 101, 116, 47, 80, 121, 116, 104, 111, 110]

/-- mop.py:746-767 `send_id`, the message; mop.py:1118-1119 for the timer and sizes. -/
def ident (c : Circ) (receipt : Nat) : SysId :=
  let base : SysId :=
    { receipt := receipt, version := some [3, 0, 0], hwaddr := some c.hwaddr,
      funcs := some { loop := true, counters := true, carrier := c.ver.isSome,
                      reserved := c.ver.isSome && c.server.isSome },
      device := some 9, datalink := some 1, processor := some 2, software := some (.text software) }
  if c.ver.isSome then
    { base with resTimer := some 15, cmdSize := some 512, respSize := some 512, user := c.server }
  else base

/-- What happens on the outside.  `raise` is an exception that leaves the dispatch of a work item, which
stops the node (node.py:326-329). -/
inductive Out where
  | send (dest : Bytes) (msg : Bytes)
  /-- a pending request gets an answer, mop.py:604-611 -/
  | deliver (receipt : Nat)
  /-- for the console server (mop.py:655-661 and 666-667) or a console client (mop.py:648-654) -/
  | console (src : Bytes) (m : Msg)
  | raise
deriving DecidableEq, Repr

/-- `port.send`: an exception of the encoder is passed on (packet.py:1023-1026). -/
def sendMsg (dest : Bytes) : Option Bytes → Out
  | some b => .send dest b
  | none => .raise

/-- mop.py:769-774 `send_ctrs`; `dt` are the seconds since the counters were zeroed by the clock, negative
if the clock was set back: common.py:638-639 raises OverflowError then. -/
def sendCtrs (dest : Bytes) (receipt : Nat) (dt : Int) (wide narrow : List Nat) : Out :=
  if dt < 0 then .raise
  else sendMsg dest (encCounters receipt { secs := dt.toNat, wide := wide, narrow := narrow })

/-- Assignment to a dictionary. -/
def put (l : List (Bytes × SysId × Int)) (k : Bytes) (v : SysId × Int) : List (Bytes × SysId × Int) :=
  if k ∈ l.map (·.1) then l.map fun x => if x.1 = k then (k, v) else x else l ++ [(k, v)]

/-- mop.py:604-611 `deliver`. -/
def deliver (c : Circ) (receipt : Nat) : Circ × List Out :=
  if receipt ≠ 0 ∧ receipt ∈ c.requests then
    ({ c with requests := c.requests.filter (· ≠ receipt) }, [.deliver receipt])
  else (c, [])

/-- What comes to the circuit. -/
inductive Ev where
  /-- A message.  `now` is the time, `dt` as in `sendCtrs`, and the counters of the data link. -/
  | frame (src : Bytes) (b : Bytes) (now dt : Int) (wide narrow : List Nat)
  /-- the timer of the handler, mop.py:741-744 -/
  | timer
  /-- the console is reserved or released (`Mop`) -/
  | reserve (r : Option Bytes)
  /-- a loop test sends or gives up a request (`Mop`) -/
  | request (r : Nat)
  | done (r : Nat)
deriving DecidableEq, Repr

/-- mop.py:619-668 `MopCircuit.dispatch`, mop.py:725-744 `SysIdHandler.dispatch`. -/
def step (c : Circ) : Ev → Circ × List Out
  | .frame src b now dt wide narrow =>
    match parse b with
    | none => (c, [])
    | some (.sysId m) => deliver { c with heard := put c.heard src (m, now) } m.receipt
    | some (.counters r _) => deliver c r
    | some (.requestId r) =>
      (c, (if c.server.isSome then [.console src (.requestId r)] else [])
        ++ [sendMsg src (encSysId (ident c r))])
    | some (.requestCounters r) =>
      (c, (if c.server.isSome then [.console src (.requestCounters r)] else [])
        ++ [sendCtrs src r dt wide narrow])
    | some (.consoleResponse f p) => (c, [.console src (.consoleResponse f p)])
    | some (.consoleRequest v) =>
      (c, if c.ver.isSome ∧ c.server = none then [.console src (.consoleRequest v)] else [])
    | some (.consoleRelease) => (c, if c.server.isSome then [.console src .consoleRelease] else [])
    | some (.consoleCommand f p) =>
      (c, if c.server.isSome then [.console src (.consoleCommand f p)] else [])
  | .timer => (c, [sendMsg consMc (encSysId (ident c 0))])
  | .reserve r => ({ c with server := r }, [])
  | .request r => ({ c with requests := if r ∈ c.requests then c.requests else c.requests ++ [r] }, [])
  | .done r => ({ c with requests := c.requests.filter (· ≠ r) }, [])

/-- A history. -/
def run (c : Circ) : List Ev → Circ
  | [] => c
  | e :: es => run (step c e).1 es

/-! ## The list for the API -/

/-- mop.py:200-207 `services`; AttributeError if the message had no item 2. -/
def services (m : SysId) : Option (List String) :=
  m.funcs.map fun f =>
    (if f.loop then ["loop"] else []) ++ (if f.dump then ["dump"] else [])
    ++ (if f.ploader then ["ploader"] else []) ++ (if f.sloader then ["sloader"] else [])
    ++ (if f.boot then ["boot"] else []) ++ (if f.carrier then ["carrier"] else [])
    ++ (if f.counters then ["counters"] else [])

/-- What `time.strftime` takes (the C function behind it, `checktm`): otherwise ValueError. -/
def timeOk (t : Time) : Bool := t.mon ≤ 12 && t.mday ≤ 31 && t.hour ≤ 23 && t.min ≤ 59 && t.sec ≤ 61

/-- mop.py:843-844, hours and minutes that are shown for the time zone. -/
def zone (tz : Int) : Option (Int × Int) :=
  if tz = 0 then none else some ((tz / 60) / 60, (tz / 60) % 60)

/-- One item of the list, mop.py:832-858.  Attributes that are not set are shown as an empty text, here
`none`; `resTimer` as 0. -/
structure Entry where
  src : Bytes
  user : Option Bytes
  resTimer : Nat
  hwaddr : Option Bytes
  time : Option (Time × Option (Int × Int))
  device : Option Nat
  processor : Option Nat
  datalink : Option Nat
  bufsize : Option Nat
  software : Option Soft
  services : List String
  other : List (Nat × Bytes)
deriving DecidableEq, Repr

/-- mop.py:832-858, one station; `none` if it raises. A buffer size of 0 is not shown (mop.py:853-855). -/
def entry (src : Bytes) (m : SysId) : Option Entry :=
  match m.time, services m with
  | some t, some s =>
    if timeOk t then
      some { src := src, user := m.user, resTimer := m.resTimer.getD 0, hwaddr := m.hwaddr,
             time := some (t, zone t.tz), device := m.device, processor := m.processor,
             datalink := m.datalink, bufsize := m.bufsize.filter (· ≠ 0), software := m.software,
             services := s, other := m.other }
    else none
  | none, some s =>
    some { src := src, user := m.user, resTimer := m.resTimer.getD 0, hwaddr := m.hwaddr,
           time := none, device := m.device, processor := m.processor,
           datalink := m.datalink, bufsize := m.bufsize.filter (· ≠ 0), software := m.software,
           services := s, other := m.other }
  | _, none => none

/-- mop.py:828-860 `api`: all or an exception, of which node.py:219-222 makes an error reply. -/
def apiList : List (Bytes × SysId × Int) → Option (List Entry)
  | [] => some []
  | (k, m, _) :: l =>
    match entry k m, apiList l with
    | some e, some r => some (e :: r)
    | _, _ => none

/-! ## Console connections of applications -/

/-- States of `CarrierClientConnection`. -/
inductive CState where
  | s0 | reserve | closed
deriving DecidableEq, Repr

/-- A connection, mop.py:865-898. -/
structure CConn where
  dest : Bytes
  state : CState
  retries : Nat
  timer : Bool
  /-- the number under which answers are expected -/
  rnum : Option Nat
deriving DecidableEq, Repr

/-- All of a circuit, and whether the node has been stopped by an exception. -/
structure CNode where
  conns : List CConn := []
  stopped : Bool := false
deriving DecidableEq, Repr

/-- What the connections are given. -/
inductive CEv where
  /-- request `connect` of an application with valid arguments -/
  | connect (dest : Bytes)
  /-- the timer of the connection to this station -/
  | timeout (dest : Bytes)
  /-- a console response of this station, mop.py:648-654 -/
  | response (src : Bytes)
  /-- the answer to request `r`, mop.py:604-611 -/
  | answer (r : Nat) (m : SysId)
  /-- disconnect, data, or the end of the application (mop.py:921-924, 1084-1097) -/
  | post (dest : Bytes)
deriving DecidableEq, Repr

/-- mop.py:900-906 `sendmsg` for a request, which is made without receipt number: the timer is started
first.  The result is false if it raises. -/
def sendReq (c : CConn) (tries : Nat) : CConn × Bool :=
  match Mop.requestNumber none with
  | none => ({ c with retries := tries, timer := true }, false)
  | some r => ({ c with retries := tries, timer := true, rnum := some r }, true)

/-- Change of the connection to `dest`. -/
def upd (s : CNode) (dest : Bytes) (f : CConn → CConn × Bool) : CNode :=
  { conns := s.conns.map fun c => if c.dest = dest then (f c).1 else c
    stopped := s.stopped || s.conns.any fun c => decide (c.dest = dest) && !(f c).2 }

/-- mop.py:932-964 `s0`, for what is not the answer. -/
def s0Timeout (c : CConn) : CConn × Bool :=
  if c.retries - 1 ≠ 0 then sendReq { c with timer := false } (c.retries - 1)
  else ({ c with retries := 0, timer := false, state := .closed }, true)

/-- One event; nothing happens to a node that was stopped. -/
def cstep (s : CNode) : CEv → CNode
  | .connect dest =>
    if s.stopped then s
    else if dest ∈ s.conns.map (·.dest) then s                 -- mop.py:890-891
    -- an exception here is an error reply (node.py:219-222)
    else { s with conns := s.conns ++
            [(sendReq { dest := dest, state := .s0, retries := 0, timer := false, rnum := none } 5).1] }
  | .timeout dest =>
    if s.stopped then s
    else upd s dest fun c => if c.timer = true ∧ c.state = .s0 then s0Timeout c else (c, true)
  -- mop.py:932-964 has no case for these
  | .response _ => s
  | .post _ => s
  | .answer r m =>
    if s.stopped then s
    else
      { s with conns := s.conns.map fun c =>
          if c.rnum = some r ∧ c.state = .s0 then
            match m.funcs with
            | some f => if f.carrier && !f.reserved then { c with state := .reserve }
                        else { c with state := .closed, timer := false }
            | none => c
          else c }

/-- A history. -/
def crun (s : CNode) : List CEv → CNode
  | [] => s
  | e :: es => crun (cstep s e) es

end Verif.MopId
