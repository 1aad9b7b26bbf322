import Verif.Fields.Model

/-!
# Model of the Maintenance Operation Protocol, `decnet/mop.py`

Receipt numbers, matching of replies to requests, the loopback protocol on both sides and the
console carrier server.

Simplifications: byte strings are `List UInt8`; an exception is a value of the result; logging, the
web pages and the JSON texts are left out.  A reply time is a natural number.  A `Timeout` reaches
its owner only while the timer is running (`Verif.Timers`, theorem `delivered_fresh`), so a timer is
a flag here.  Timer periods are within the range of the timer wheel.
-/

namespace Verif.Mop

abbrev Bytes := List UInt8

open Verif.Fields (le fromLe)

/-! ## Receipt numbers -/

/-- `ReceiptGen.next`, mop.py 35-43: the number returned and the new value of `receipt`. -/
def next (r : Nat) : Nat × Nat := (r, if r = 0xffff then 1 else r + 1)

/-- The value of `receipt` after `n` calls. -/
def genAfter (r : Nat) : Nat → Nat
  | 0 => r
  | n + 1 => (next (genAfter r n)).2

/-! ## The loopback server -/

/-- What `LoopHandler.dispatch` does with a received packet. -/
inductive LoopOut where
  | raise
  | ignore
  | forward (dest : Bytes) (packet : Bytes)
  | reply (receipt : Nat) (payload : Bytes)
deriving DecidableEq, Repr

/-- `f.dest[0] & 1`, mop.py 1327. -/
def isMulti : Bytes → Bool
  | [] => false
  | a :: _ => a.toNat % 2 = 1

/-- `LoopHandler.dispatch`, mop.py 1313-1335.  `LoopSkip (buf)` needs two bytes (an empty buffer
makes a packet without a `skip` attribute, so that `top.skip` raises); `LoopFwd` needs eight and
`LoopReply` four bytes (279-289), their `function` field is the value just tested; re-encoding
`top.skip` needs it below 65536; `EthPort.send` refuses a packet of more than 1500 bytes
(ethernet.py 70-71). -/
def loopDispatch (buf : Bytes) : LoopOut :=
  if buf.length < 2 then .raise
  else
    let skip := fromLe (buf.take 2)
    if skip % 2 = 1 ∨ skip + 4 > buf.length then .ignore
    else
      let rest := buf.drop (skip + 2)
      let fn := fromLe (rest.take 2)
      if fn = 2 then
        if rest.length < 8 then .raise
        else
          let dest := (rest.drop 2).take 6
          if isMulti dest = true then .ignore
          else if skip + 8 ≥ 65536 ∨ buf.length > 1500 then .raise
          else .forward dest (le 2 (skip + 8) ++ buf.drop 2)
      else if fn = 1 then
        if rest.length < 4 then .raise
        else .reply (fromLe ((rest.drop 2).take 2)) (rest.drop 4)
      else .ignore

/-- `LoopConnection.buildloop` without the skip count, mop.py 1295-1298, encoded. -/
def loopBody (rnum : Nat) (payload : Bytes) : List Bytes → Bytes
  | [] => le 2 1 ++ le 2 rnum ++ payload
  | d :: ds => le 2 2 ++ d ++ loopBody rnum payload ds

/-- `LoopConnection.buildloop`, mop.py 1294-1300, encoded. -/
def loopMsg (dests : List Bytes) (rnum : Nat) (payload : Bytes) : Bytes :=
  le 2 0 ++ loopBody rnum payload dests

/-- What the receiver gets of a packet sent on a port without length field: the packet and the
filling up to 46 bytes, ethernet.py 56-86 (theorem `Verif.Framing.Eth.eth_plain_roundtrip`). -/
def onWire (b : Bytes) : Bytes := b ++ List.replicate (46 - b.length) 0x42

/-- The way of a loop packet through stations which all run `LoopHandler.dispatch`: `Path at b l o`
means that packet `b`, sent to station `at`, visits the stations `l` in this order (`at` first), and
that the last of them does `o`, which is not to forward it. -/
inductive Path : Bytes → Bytes → List Bytes → LoopOut → Prop
  | stop {at_ b o} : loopDispatch (onWire b) = o → (∀ d p, o ≠ .forward d p) → Path at_ b [at_] o
  | hop {at_ b d p l o} : loopDispatch (onWire b) = .forward d p → Path d p l o →
      Path at_ b (at_ :: l) o

/-! ## Requests and replies, the loopback client -/

/-- `LoopConnection` and `MopConnection` attributes, mop.py 470-497 and 1206-1300. -/
structure Conn where
  packets : Nat
  fast : Bool
  nml : Bool
  client : Nat
  delays : List (Option Nat)
  waiting : Bool
  rnum : Option Nat
  timer : Bool
  registered : Bool
deriving DecidableEq, Repr

/-- A circuit: the receipt generator (global in the code), `MopCircuit.requests` (mop.py 552) and the
connection objects, by number. -/
structure State where
  gen : Nat
  reqs : Nat → Option Nat
  conns : Nat → Option Conn
  /-- the numbers of all connection objects made, in order -/
  ids : List Nat

/-- What can happen.  `start` is `LoopHandler.api` with valid arguments (mop.py 1337-1362,
1235-1276), which makes a new object. -/
inductive Ev where
  | start (id : Nat) (packets : Nat) (fast nml : Bool) (client : Nat)
  /-- a `LoopReply` reaches `MopCircuit.deliver`, `elapsed` after its request -/
  | reply (receipt elapsed : Nat)
  | timeout (id : Nat)
  /-- `Mop.end_api`, mop.py 393-395 -/
  | endApi (client : Nat)
deriving DecidableEq, Repr

/-- What is seen outside. -/
inductive Out where
  /-- a loop request sent -/
  | sent (id receipt : Nat)
  /-- `send_dict` with the delays, mop.py 1289-1292; `none` is -1 -/
  | result (id : Nat) (delays : List (Option Nat))
  /-- `mop_loop_done` after a timeout: the number of packets not looped, mop.py 1213-1216 -/
  | failed (id notLooped : Nat)
  /-- `mop_loop_done` after the last packet, mop.py 1286-1287 -/
  | looped (id : Nat)
deriving DecidableEq, Repr

def setConn (s : State) (id : Nat) (c : Conn) : State :=
  { s with conns := fun i => if i = id then some c else s.conns i }

/-- `self.requests.pop (rnum, None)`. -/
def popReq (s : State) (r : Nat) : State :=
  { s with reqs := fun k => if k = r then none else s.reqs k }

/-- `MopConnection.cancel`, mop.py 485-493. -/
def cancel (s : State) (id : Nat) (c : Conn) : State × Conn :=
  match c.rnum with
  | some r =>
    let c := { c with registered := false, timer := false, rnum := none }
    (setConn (popReq s r) id c, c)
  | none =>
    let c := { c with registered := false }
    (setConn s id c, c)

/-- `LoopConnection.send_req` with `MopConnection.request` and `MopCircuit.request` for a given
receipt, mop.py 1278-1283, 481-483 and 579-602. -/
def sendReq (s : State) (id : Nat) (c : Conn) : State × List Out :=
  let r := s.gen
  let s := { s with gen := (next s.gen).2, reqs := fun k => if k = r then some id else s.reqs k }
  (setConn s id { c with waiting := false, rnum := some r, timer := true }, [.sent id r])

/-- `LoopConnection.finished`, mop.py 1285-1292. -/
def finished (id : Nat) (c : Conn) : List Out :=
  if c.nml then [.looped id] else [.result id c.delays]

/-- `LoopConnection.dispatch` of a timeout, mop.py 1208-1220 and 1232-1233. -/
def connTimeout (s : State) (id : Nat) (c : Conn) : State × List Out :=
  let (s, c) := cancel s id { c with timer := false }
  if c.waiting = false then
    if c.nml then (s, [.failed id (c.packets - c.delays.length)])
    else
      let c := { c with delays := c.delays ++ [none] }
      if c.delays.length = c.packets then (setConn s id c, finished id c)
      else sendReq s id c
  else sendReq s id c

/-- `LoopConnection.dispatch` of a reply, mop.py 1208 and 1221-1233. -/
def connReply (s : State) (id : Nat) (c : Conn) (elapsed : Nat) : State × List Out :=
  let (s, c) := cancel s id c
  let c := { c with delays := c.delays ++ [some elapsed] }
  if c.delays.length = c.packets then (setConn s id c, finished id c)
  else if c.fast = false then (setConn s id { c with waiting := true, timer := true }, [])
  else sendReq s id c

/-- `MopConnection.end_api` of one connection, mop.py 495-497; only those still in
`Mop.connections` are called. -/
def endOne (client : Nat) (s : State) (id : Nat) : State :=
  match s.conns id with
  | none => s
  | some c => if c.registered = true ∧ c.client = client then (cancel s id c).1 else s

/-- One event.  A `start` with the number of an existing object, a timeout of a timer that is not
running and a reply nobody waits for do nothing. -/
def step (s : State) : Ev → State × List Out
  -- mop.py 1235-1276; NML implies fast; 1271 uses up a receipt number to find the length
  | .start id packets fast nml client =>
    if (s.conns id).isSome = true ∨ packets = 0 then (s, [])
    else
      sendReq { s with ids := s.ids ++ [id], gen := (next s.gen).2 } id
        { packets, fast := fast || nml, nml, client, delays := [], waiting := false, rnum := none,
          timer := false, registered := true }
  -- `MopCircuit.deliver`, mop.py 604-611
  | .reply receipt elapsed =>
    if receipt = 0 then (s, [])
    else
      match s.reqs receipt with
      | none => (s, [])
      | some id =>
        match s.conns id with
        | none => (s, [])
        | some c => connReply (popReq s receipt) id c elapsed
  | .timeout id =>
    match s.conns id with
    | none => (s, [])
    | some c => if c.timer = true then connTimeout s id c else (s, [])
  -- mop.py 393-395: over a list of all connections
  | .endApi client => (s.ids.foldl (endOne client) s, [])

/-- No requests, no connections. -/
def init (gen : Nat) : State := { gen, reqs := fun _ => none, conns := fun _ => none, ids := [] }

/-- A history: every event with what it caused, and the final state. -/
def run (s : State) : List Ev → State × List (Ev × List Out)
  | [] => (s, [])
  | e :: es =>
    let r := step s e
    let r' := run r.1 es
    (r'.1, (e, r.2) :: r'.2)

/-! ## Requests without a receipt number -/

/-- `MopCircuit.request`, mop.py 595-599, the number used.  Called without one, the parameter
`receipt`, which is `None`, hides the generator of the same name, so `receipt.next ()` raises
AttributeError: `none`. -/
def requestNumber (receipt : Option Nat) : Option Nat :=
  match receipt with
  | none => none
  | some r => some r

/-- Answers of the console API call `connect`: `exception` is the answer node.py 219-222 makes of an
exception. -/
inductive Connect where
  | connecting (receipt : Nat) | busy | exception
deriving DecidableEq, Repr

/-- `CarrierClientConnection.start` for a valid address, mop.py 880-906; `dests` are the
keys of `carrier_client_dest`.  The request for identification is sent without a receipt number. -/
def consoleConnect (dests : List Bytes) (dest : Bytes) : List Bytes × Connect :=
  if dest ∈ dests then (dests, .busy)
  else
    match requestNumber none with
    | none => (dests ++ [dest], .exception)
    | some r => (dests ++ [dest], .connecting r)

/-- Answers of the API call `counters`. -/
inductive Counters where
  | pending (receipt : Nat) | badTimeout | exception
deriving DecidableEq, Repr

/-- `CounterConnection.start`, mop.py 500-508. -/
def counterRequest (timeout : Int) : Counters :=
  if timeout < 1 then .badTimeout
  else
    match requestNumber none with
    | none => .exception
    | some r => .pending r

end Verif.Mop
