/-!
# Model of a point-to-point circuit (`decnet/route_ptp.py`, class `PtpCircuit`)

The state machine from halted to running: init messages of Phase II, III and IV, verification, the
listen timer, restarts.

Conventions and simplifications.

* A received buffer is represented by what the packet classes make of it (`Buf`); the codecs are in
  `Verif.RoutPkt` and `Verif.RoutMsg`.
* An exception which leaves `Node.mainloop` and stops the node is the value `none`.
* Work items are processed in any order; timeouts may come at any moment while the timer runs
  (outdated ones are dropped, `Verif.Timers.delivered_fresh`).  This covers the queue of the
  code.
* Events, counters, intercept (`Verif.Intercept`) and the contents of data packets are left out.
* `log` is an output log: nothing reads it.
-/
namespace Verif.Ptp

abbrev Bytes := List UInt8

/-- Node types, routing_packets.py `PHASE2`, `L2ROUTER`, `L1ROUTER`, `ENDNODE`, `UNKNOWN`; the wire value
of the first four is their position. -/
inductive NT | phase2 | l2 | l1 | endnode | unknown
  deriving DecidableEq, Repr

/-- `in { L1ROUTER, L2ROUTER }`. -/
def NT.router : NT → Bool
  | .l1 | .l2 => true
  | _ => false

/-- Packet classes, routing_packets.py 111-236, 238-471, 539-605, with the attributes the circuit
looks at.  Addresses are 16 bit values (area * 1024 + node). -/
inductive Pkt
  /-- `PtpInit` -/
  | init4 (src : Nat) (ntype : NT) (verif blo : Bool) (blksize timer : Nat)
  /-- `PtpInit3` -/
  | init3 (src : Nat) (ntype : NT) (verif : Bool) (blksize : Nat)
  /-- `NodeInit` -/
  | nodeInit (src : Nat) (name : List Nat) (verif : Bool) (blksize : Nat)
  /-- `NodeVerify` -/
  | nodeVerify (password : Bytes)
  /-- `PtpVerify` -/
  | verify (src : Nat) (fcnval : Bytes)
  /-- `PtpHello`; whether the test data is good -/
  | hello (src : Nat) (good : Bool)
  /-- `PhaseIIIRouting`, `L1Routing`, `L2Routing` -/
  | routing3 (src : Nat) (n : Nat)
  | routing1 (src : Nat) (n : Nat)
  | routing2 (src : Nat) (n : Nat)
  /-- `ShortData` and `LongData` -/
  | short (n : Nat)
  | long (n : Nat)
  /-- `NopMsg` -/
  | nop
  /-- `P2BareNSP` and `RouteHdr` -/
  | p2 (n : Nat)
  /-- Ethernet hello messages -/
  | other
  deriving DecidableEq, Repr

/-- `isinstance (pkt, (NodeInit, PtpInit3, PtpInit))`. -/
def Pkt.isInit : Pkt → Bool
  | .init4 .. | .init3 .. | .nodeInit .. => true
  | _ => false

/-- `pkt.srcnode`, for the packets that have it as a number. -/
def Pkt.src? : Pkt → Option Nat
  | .init4 s .. | .init3 s .. | .nodeInit s .. | .verify s _ | .hello s _ => some s
  | .routing3 s _ | .routing1 s _ | .routing2 s _ => some s
  | _ => none

/-- `isinstance (pkt, CtlHdr)`. -/
def Pkt.isCtl : Pkt → Bool
  | .init4 .. | .init3 .. | .verify .. | .hello .. | .routing3 .. | .routing1 .. | .routing2 .. => true
  | _ => false

/-- A received buffer (after padding was removed). -/
inductive Buf
  /-- decodes as this packet -/
  | pkt (p : Pkt)
  /-- as this packet, with bytes left over -/
  | extra (p : Pkt)
  /-- a routing message with a wrong checksum -/
  | checksum
  /-- `DecodeError` -/
  | bad
  /-- decoding raises another exception (`Verif.RoutMsg.stray_word_raises_indexError`) -/
  | crash
  /-- empty buffer, bad length of padding, padding in padding -/
  | null
  deriving DecidableEq, Repr

/-- States, route_ptp.py 362-921. -/
inductive State | ha | ds | ri | rv | rv2 | ru2 | ru4l2 | ru4l1 | ru4e | ru3r | ru3e
  deriving DecidableEq, Repr

/-- `isrustate`, route_ptp.py 138-139: the states with `setcode (None)`. -/
def State.isRu : State → Bool
  | .ha | .ds | .ri | .rv | .rv2 => false
  | _ => true

/-- The packet classes a state accepts: the `setpackets` decorators, route_ptp.py 363-921.  What shares
the first byte with a listed class but cannot be decoded as it counts as not listed. -/
def State.accepts : State → Pkt → Bool
  | .ri, .init4 .. | .ri, .init3 .. | .ri, .nodeInit .. | .ri, .nodeVerify _ => true
  | .rv, .verify .. => true
  | .rv2, .nodeVerify _ => true
  | .ru2, .nop | .ru2, .p2 _ => true
  | .ru4l2, .short _ | .ru4l2, .long _ | .ru4l2, .hello .. | .ru4l2, .routing1 .. | .ru4l2, .routing2 .. => true
  | .ru4l1, .short _ | .ru4l1, .long _ | .ru4l1, .hello .. | .ru4l1, .routing1 .. => true
  | .ru4e, .short _ | .ru4e, .long _ | .ru4e, .hello .. => true
  | .ru3r, .short _ | .ru3r, .hello .. | .ru3r, .routing3 .. => true
  | .ru3e, .short _ | .ru3e, .hello .. => true
  | _, _ => false

/-- What the circuit uses of the configuration: the node's phase, type and address, `maxnodes`,
`maxarea`, `homearea`, `--verify` of the circuit, whether the datalink reports restarts of
the other end (datalink.py 273, multinet.py 27), and the node database: passwords by address
(`nodeinfo (id)`, node.py 242-268, `iverif` and `overif`, 73-83) and addresses by name. -/
structure Cfg where
  phase : Nat
  ntype : NT
  own : Nat
  maxnodes : Nat
  maxarea : Nat
  homearea : Nat
  verify : Bool
  startWorks : Bool
  iverif : Nat → Option Bytes
  overif : Nat → Option Bytes
  names : List Nat → Option Nat

/-- What the circuit does. -/
inductive Out
  /-- `routing.adj_up`: address, type and block size -/
  | adjUp (id : Nat) (ntype : NT) (blksize : Nat)
  /-- `routing.adj_down` -/
  | adjDown (id : Nat)
  /-- init message of the given phase sent, with the verification flag -/
  | sendInit (phase : Nat) (verif : Bool)
  /-- verification message sent (Phase II: `NodeVerify`) -/
  | sendVerify (phase : Nat) (password : Bytes)
  | sendHello
  /-- packet passed to the routing layer -/
  | toRouting (p : Pkt)
  /-- packet passed to intercept -/
  | toIntercept (p : Pkt)
  | dlOpen | dlClose | dlRestart
  /-- `DlStatus` UP queued by `restart` -/
  | selfUp
  deriving DecidableEq, Repr

/-- Attributes.  `lastInit` says if `lastsend` is an init message and is `none` before the first
`dlsend`; `nrec` is `none` before the first `up`: neither attribute exists then.  `timer` is the
circuit's own timer, `listen` the listen timer of the adjacency object with that address.  `requeued`
are the packets put in the work queue by `validate`. -/
structure St where
  state : State
  adj : Option Nat
  rphase : Nat
  ntype : NT
  id : Nat
  blksize : Nat
  verif : Option Bytes
  lastInit : Option Bool
  nrec : Option Nat
  timer : Bool
  listen : Option Nat
  requeued : List Pkt
  log : List Out
  deriving DecidableEq, Repr

def MTU : Nat := 576

/-- `__init__`, route_ptp.py 87-124. -/
def St.init : St :=
  { state := .ha
    adj := none
    rphase := 0
    ntype := .unknown
    id := 0
    blksize := MTU
    verif := none
    lastInit := none
    nrec := none
    timer := false
    listen := none
    requeued := []
    log := [] }

def emit (o : Out) (s : St) : St := { s with log := s.log ++ [o] }

/-- `r_neigh`, route_ptp.py 379-387. -/
def rNeigh (s : St) : St := { s with adj := none, rphase := 0, ntype := .unknown, id := 0, blksize := MTU }

/-- `dlsend` of an init message, route_ptp.py 165-168. -/
def sendInit (phase : Nat) (verif : Bool) (s : St) : St :=
  emit (.sendInit phase verif) { s with lastInit := some true }

/-- `dlsend` of a verification message.  The password field of `NodeVerify` has 8 bytes, that of
`PtpVerify` at most 64: a longer one raises `FieldOverflow`. -/
def sendVerify (phase : Nat) (pw : Bytes) (s : St) : Option St :=
  if pw.length > (if phase = 2 then 8 else 64) then none
  else some (emit (.sendVerify phase pw) { s with lastInit := some false })

/-- `adj.down ()`, adjacency.py 104-107. -/
def adjDown (id : Nat) (s : St) : St := emit (.adjDown id) { s with listen := none }

/-- `restart`, route_ptp.py 141-157, without the return value. -/
def restart0 (c : Cfg) (s : St) : St :=
  let s := if s.state.isRu then (match s.adj with | some a => adjDown a s | none => s) else s
  emit (if c.startWorks then .dlRestart else .selfUp) s

/-- `return self.restart (...)`: go to state `ds`. -/
def restart (c : Cfg) (s : St) : St := { restart0 c s with state := .ds }

/-- `up`, route_ptp.py 950-962, with `adj.up ()`, adjacency.py 92-98.  (`self.adj` was just created.) -/
def up (s : St) : St :=
  match s.adj with
  | none => s
  | some a =>
    emit (.adjUp a s.ntype s.blksize)
      { s with
        listen := if s.ntype = .phase2 then none else some a
        nrec := some 0
        timer := true }

/-- `rustate`, route_ptp.py 819-837. -/
def rustate (c : Cfg) (s : St) : State :=
  if s.rphase = 4 then
    if c.ntype = .l2 then
      if s.ntype = .l2 then .ru4l2 else if s.ntype = .l1 then .ru4l1 else .ru4e
    else if c.ntype = .l1 ∧ s.ntype.router = true then .ru4l1
    else .ru4e
  else if c.ntype.router = true ∧ s.ntype = .l1 then .ru3r
  else .ru3e

/-- `checksrc`, route_ptp.py 429-439. -/
def checksrc (s : St) (src : Nat) : Bool := src = (if s.rphase = 4 then s.id else s.id % 1024)

/-- What `validate` hands to the state's method. -/
inductive Work
  | start | stop | dlUp | dlDown | timeout | circuitDown
  | pkt (p : Pkt)
  deriving DecidableEq, Repr

/-- `ha`, route_ptp.py 362-375. -/
def ha (s : St) : Work → St
  | .start | .timeout => { rNeigh (emit .dlOpen s) with state := .ds }
  | _ => s

/-- `datalink.close ()` and back to `ha`. -/
def halt (s : St) : St := { emit .dlClose s with state := .ha }

/-- `ds`, route_ptp.py 391-418. -/
def ds (c : Cfg) (s : St) : Work → St
  | .dlUp => { sendInit c.phase c.verify (rNeigh s) with timer := true, state := .ri }
  | .dlDown | .circuitDown => restart c (rNeigh s)
  | .stop => halt (rNeigh s)
  | _ => rNeigh s

/-- The rest of `ri` for Phase III and IV, route_ptp.py 642-671. -/
def riEnd (c : Cfg) (s : St) (ntype : NT) (verif : Bool) (blksize : Nat) : Option St :=
  let s := { s with ntype := ntype, blksize := min blksize MTU }
  let s1 := if verif = true then sendVerify s.rphase ((c.overif s.id).getD []) s else some s
  s1.map fun s =>
    let s := { s with adj := some s.id }
    if c.verify then { s with verif := c.iverif s.id, timer := true, state := .rv }
    else { up s with state := rustate c s }

/-- `ri` on a received packet, route_ptp.py 450-682. -/
def riPkt (c : Cfg) (s : St) : Pkt → Option St
  | .nodeInit src name verif blksize =>
    if src = 0 ∨ (c.ntype.router = true ∧ src > c.maxnodes) then some (restart c s)
    else
      let s := if c.phase > 2 then sendInit 2 c.verify s else s
      let s := { s with rphase := 2, ntype := .phase2, blksize := min blksize MTU }
      match c.names name with
      | none => some (restart c s)
      | some a =>
        let s := { s with id := a, adj := some a }
        let s1 := if verif = true then sendVerify 2 ((c.overif a).getD []) s else some s
        s1.map fun s =>
          if c.verify then { s with verif := c.iverif a, timer := true, state := .rv2 }
          else { up s with state := .ru2 }
  | .init4 src ntype verif blo blksize _ =>
    if c.phase < 4 then some s
    else if (ntype ≠ .endnode ∧ ntype ≠ .l1 ∧ ntype ≠ .l2) ∨ blo = true then some (restart c s)
    else if src % 1024 = 0 ∨ (c.ntype.router = true ∧ src % 1024 > c.maxnodes) ∨
        (ntype = .l2 ∧ c.ntype = .l2 ∧ ¬ (1 ≤ src / 1024 ∧ src / 1024 ≤ c.maxarea)) ∨
        ((ntype ≠ .l2 ∨ c.ntype ≠ .l2) ∧ src / 1024 ≠ c.homearea) then some (restart c s)
    else riEnd c { s with rphase := 4, id := src } ntype verif blksize
  | .init3 src ntype verif blksize =>
    if c.phase < 3 then some s
    else if ntype ≠ .endnode ∧ ntype ≠ .l1 then some (restart c s)
    else if src = 0 ∨ (c.ntype.router = true ∧ src > c.maxnodes) then some (restart c s)
    else if ntype = .l1 ∧ c.ntype.router = true ∧ blksize < c.maxnodes * 2 + 6 then some (restart c s)
    else
      let s := { s with rphase := 3 }
      let s := if c.phase > 3 then sendInit 3 c.verify s else s
      let id := if c.phase = 4 then c.homearea * 1024 + src % 1024 else src % 1024
      riEnd c { s with id := id } ntype verif blksize
  | .nodeVerify _ => some (restart c s)
  | _ => some s

/-- `ri`, route_ptp.py 441-693. -/
def ri (c : Cfg) (s : St) : Work → Option St
  | .timeout | .dlDown | .circuitDown => some (restart c s)
  | .stop => some (halt s)
  | .pkt p => riPkt c s p
  | _ => some s

/-- `rvcommon`, route_ptp.py 751-776. -/
def rvcommon (c : Cfg) (s : St) : Work → St
  | .timeout | .dlDown | .circuitDown => restart c s
  | .stop => halt s
  | _ => s

/-- `rv`, route_ptp.py 695-726.  A requeued init message has no `fcnval` attribute. -/
def rv (c : Cfg) (s : St) : Work → Option St
  | .pkt p =>
    match p.src? with
    | none => none
    | some src =>
      if checksrc s src = false then some (restart c s)
      else
        match p with
        | .verify _ f =>
          if some f ≠ s.verif then some (restart c s)
          else some { up s with state := rustate c s }
        | _ => none
  | w => some (rvcommon c s w)

/-- `(self.verif + bytes (7))[:8]`, route_ptp.py 739. -/
def pad8 (b : Bytes) : Bytes := (b ++ List.replicate 7 0).take 8

/-- `rv2`, route_ptp.py 728-749.  Without a password in the database `self.verif` is `None` and
the sum raises TypeError. -/
def rv2 (c : Cfg) (s : St) : Work → Option St
  | .pkt p =>
    match s.verif, p with
    | some v, .nodeVerify pw =>
      if pw ≠ pad8 v then some (restart c s) else some { up s with state := .ru2 }
    | _, _ => none
  | w => some (rvcommon c s w)

/-- `rucommon`, route_ptp.py 923-941, with `sendhello` (943-948) and `down` (964-969). -/
def rucommon (c : Cfg) (s : St) : Work → St
  | .timeout => emit .sendHello { s with lastInit := some false, timer := true }
  | .dlDown | .circuitDown => restart c s
  | .stop =>
    let s := match s.adj with | some a => adjDown a s | none => s
    halt { s with adj := none }
  | _ => s

/-- `checksrc (pkt.srcnode)` for a packet. -/
def srcOk (s : St) (p : Pkt) : Bool :=
  match p.src? with
  | some src => checksrc s src
  | none => false

/-- `ru`, route_ptp.py 839-884.  (`nrec` exists and `adj` is set in these states, see `Inv`; else
AttributeError.)  What is passed up is not changed here; the area filled into addresses from a Phase
III neighbour is in `Verif.Forward`. -/
def ru (c : Cfg) (s : St) : Work → Option St
  | .pkt p =>
    match s.nrec, s.adj with
    | some n, some a =>
      let s := { s with nrec := some (n + 1), listen := if s.ntype = .phase2 then s.listen else some a }
      if p.isCtl = true ∧ srcOk s p = false then
        some (restart c s)
      else
        match p with
        | .hello _ good => if good then some s else some (restart c s)
        | p => some (emit (.toRouting p) s)
    | _, _ => none
  | w => some (rucommon c s w)

/-- `ru2`, route_ptp.py 889-917. -/
def ru2 (c : Cfg) (s : St) : Work → Option St
  | .pkt p =>
    match s.nrec with
    | none => none
    | some n =>
      let s := { s with nrec := some (n + 1) }
      if p = .nop then some s else some (emit (.toIntercept p) s)
  | w => some (rucommon c s w)

/-- The state's method. -/
def action (c : Cfg) (s : St) (w : Work) : Option St :=
  match s.state with
  | .ha => some (ha s w)
  | .ds => some (ds c s w)
  | .ri => ri c s w
  | .rv => rv c s w
  | .rv2 => rv2 c s w
  | .ru2 => ru2 c s w
  | _ => ru c s w

/-- Results of `validate`: the item is skipped, or the method called, or an exception. -/
inductive Res
  | skip (s : St)
  | go (w : Work)
  | exc

/-- `validate` when the packet is not acceptable in this state but is a routing packet `p`,
route_ptp.py 291-339. -/
def reject (c : Cfg) (s : St) (p : Pkt) : Res :=
  if c.startWorks = false ∧ p.isInit = true then
    match s.lastInit with
    | none => .exc
    | some true =>
      match s.nrec with
      | none => .exc
      | some 0 => .skip { s with lastInit := some false }
      | some _ => .skip { restart c s with requeued := s.requeued ++ [p] }
    | some false => .skip { restart c s with requeued := s.requeued ++ [p] }
  else .go .circuitDown

/-- Items the circuit gets. -/
inductive Item
  | start | stop | dlUp | dlDown
  /-- received buffer, with valid padding in front or not -/
  | recv (padded : Bool) (b : Buf)
  /-- a packet requeued by `validate` -/
  | again (p : Pkt)
  /-- the circuit's timer -/
  | timeout
  /-- the adjacency's listen timer -/
  | listen
  deriving DecidableEq, Repr

/-- `validate`, route_ptp.py 217-360. -/
def validate (c : Cfg) (s : St) (padded : Bool) (b : Buf) : Res :=
  if b = .null ∨ (padded = true ∧ s.rphase < 4) then .skip s
  else
    match b with
    | .pkt p => if s.state.accepts p then .go (.pkt p) else reject c s p
    | .extra p => reject c s p
    | .checksum | .bad => .go .circuitDown
    | .crash => .exc
    | .null => .skip s

/-- Adjacency timeout: adjacency.py 90-95 and `adj_timeout`, route_ptp.py 971-981. -/
def adjTimeout (c : Cfg) (s : St) : St :=
  match s.listen with
  | none => s
  | some a => { restart0 c { adjDown a s with adj := none } with state := .ds }

/-- One work item: `dispatch`, statemachine.py 52-68. -/
def step (c : Cfg) (s : St) : Item → Option St
  | .start => action c s .start
  | .stop => action c s .stop
  | .dlUp => action c s .dlUp
  | .dlDown => action c s .dlDown
  | .timeout => action c { s with timer := false } .timeout
  | .listen => some (adjTimeout c s)
  | .again p => action c { s with requeued := s.requeued.erase p } (.pkt p)
  | .recv padded b =>
    match validate c s padded b with
    | .skip s => some s
    | .go w => action c s w
    | .exc => none

/-- When an item can come: timeouts of running timers only, requeued packets only if requeued. -/
def Valid (s : St) : Item → Prop
  | .timeout => s.timer = true
  | .listen => s.listen ≠ none
  | .again p => p ∈ s.requeued
  | _ => True

/-- Executions. -/
inductive Steps (c : Cfg) : List Item → St → Prop
  | nil : Steps c [] St.init
  | snoc {h : List Item} {s s' : St} {i : Item} : Steps c h s → Valid s i → step c s i = some s' →
      Steps c (h ++ [i]) s'

end Verif.Ptp
