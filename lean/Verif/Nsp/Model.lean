import Verif.Modulo.Model

/-!
# Model of one NSP connection (`decnet/nsp.py`, classes `txqentry`, `Subchannel`,
`Data_Subchannel`, `Other_Subchannel`, `Connection`)

Conventions.

* Sequence numbers (`Seq`, nsp_packets.py 21-30) are kept as unbounded *labels*; the number the
  code sees is the label modulo 4096.  Every decision below looks at labels only through
  `seqLt`/`seqLe`/`seqGt`/`wire`, which are defined modulo 4096.  The label of
  a number produced locally is the count it stands for (`nextseg` is an unbounded integer in the
  code as well); the label of a received number is arbitrary.
* Exceptions are `Except.error`.  An exception raised while processing a received packet or a
  timeout leaves `Node.mainloop` (node.py 299-329) and stops the node.
* `log` is the list of everything the connection did that is visible outside: packets handed to
  routing, items handed to session control, link addresses released.  It also records which
  items the subchannel passed up and which link service messages were accepted.
* Timers are represented by whether they are armed; the timeout events may occur at any moment
  while the timer is armed.  Round trip time estimation (`txtime`, `update_delay`,
  `acktimeout`, nsp.py 1332-1357) only chooses the moment and is left out, as are counters,
  tracing and the HTML/NICE reports.
-/
namespace Verif.Nsp

abbrev Bytes := List UInt8

/-- Python exceptions that can leave the functions modelled here. -/
inductive Err
  | typeError | indexError | wrongState | rangeError | intLength | cantSend | valueError
  | internalError
  deriving DecidableEq, Repr

/-- `AckNum`, nsp_packets.py 43-100: number and QUAL (0 ACK, 1 NAK, 2 XACK, 3 XNAK). -/
structure AckNum where
  num : Nat
  qual : Nat
  deriving DecidableEq, Repr

/-- `AckNum.is_cross`, nsp_packets.py 93-94. -/
def AckNum.isCross (a : AckNum) : Bool := a.qual == 2 || a.qual == 3

/-- The NSP message classes, nsp_packets.py 155-345, without link addresses and ack fields. -/
inductive Body
  | dataSeg (seg : Nat) (dly bom eom : Bool) (payload : Bytes)
  | intMsg (seg : Nat) (payload : Bytes)
  | linkSvc (seg fcmod fcvalInt : Nat) (fcval : Int)
  | ackData | ackOther | ackConn
  | connInit (retry : Bool) (fcopt info segsize : Nat) (payload : Bytes)
  | connConf (fcopt info segsize : Nat) (dataCtl : Bytes)
  | discInit (reason : Nat) (dataCtl : Bytes)
  | discConf (reason : Nat)
  deriving DecidableEq, Repr

/-- A message: link addresses, the two optional ack fields (`AckHdr` classes only), body.
`ConnAck` has no source address; `src` is 0 then. -/
structure Msg where
  dst : Nat
  src : Nat
  ack : Option AckNum := none
  ack2 : Option AckNum := none
  body : Body
  deriving DecidableEq, Repr

/-- `isinstance (pkt, AckHdr)`, nsp_packets.py 155, 186-242. -/
def Body.isAckHdr : Body → Bool
  | .dataSeg .. | .intMsg .. | .linkSvc .. | .ackData | .ackOther => true
  | _ => false

/-- `isinstance (pkt, DataSeg)`. -/
def Body.isData : Body → Bool
  | .dataSeg .. => true
  | _ => false

/-- The two subchannels. -/
inductive Chan | data | other
  deriving DecidableEq, Repr

/-- `Subchannel.cross`, nsp.py 1028-1029. -/
def Chan.cross : Chan → Chan | .data => .other | .other => .data

/-- What the connection does that can be seen from outside. -/
inductive Out
  /-- packet handed to routing (`sendmsg`) -/
  | tx (m : Msg)
  /-- a subchannel found this item next in sequence (`process_data` call) -/
  | up (ch : Chan) (m : Msg)
  /-- to session control: a data message -/
  | scData (b : Bytes)
  /-- an interrupt message -/
  | scInt (b : Bytes)
  /-- an incoming connect -/
  | scConn (b : Bytes)
  /-- connect accepted by the other end -/
  | scAccept (b : Bytes)
  /-- disconnect or reject -/
  | scDisc (reason : Nat) (b : Bytes) (reject : Bool)
  /-- the CC to RUN report -/
  | scRun
  /-- a link service message acted on (`true`) or logged as invalid (`false`) -/
  | ls (fcmod fcvalInt : Nat) (fcval : Int) (ok : Bool)
  /-- the local link address was returned to the pool (`close`) -/
  | released (id : Nat)
  /-- the RSTS compatibility option was set or reset (`setsockopt`) -/
  | opt (rsts : Bool)
  deriving DecidableEq, Repr

/-- `txqentry`, nsp.py 538-556. -/
structure QEnt where
  msg : Msg
  segnum : Nat := 0
  msgnum : Nat := 0
  tries : Nat := 0
  sent : Bool := false
  timer : Bool := false
  deriving DecidableEq, Repr

/-- `Subchannel` attributes, nsp.py 629-647, plus `Other_Subchannel.seqnum` (905). -/
structure Sub where
  pending : List QEnt := []
  nextseg : Nat := 1
  nextmsg : Nat := 1
  maxseg : Int := 0
  maxmsg : Int := 0
  maxseqsent : Nat := 0
  maxackseg : Nat := 0
  acknum : Nat := 0
  ackpending : Bool := false
  hold : Bool := false
  xon : Bool := true
  flow : Nat := 0
  /-- out of order cache, keyed by the number modulo 4096 -/
  ooo : List (Nat × Msg) := []
  seqnum : Nat := 1
  deriving DecidableEq, Repr

/-- Connection states, nsp.py 1111-1115 and 1381-1535. -/
inductive State | ci | cd | cr | cc | run | di | closed
  deriving DecidableEq, Repr

/-- The configuration values used: config.py `qmax`, `retransmits`, and the node's phase. -/
structure Cfg where
  qmax : Nat
  retransmits : Nat
  phase : Nat
  deriving DecidableEq, Repr

/-- `Connection` attributes, nsp.py 994-1098. -/
structure Conn where
  cfg : Cfg
  state : State
  srcaddr : Nat
  dstaddr : Nat := 0
  shutdown : Bool := false
  pendingDisc : Int × Bytes := (0, [])
  cphase : Nat := 0
  segsize : Nat := 0
  asm : List Bytes := []
  rsts : Bool := false
  data : Sub := {}
  /-- nsp.py 903-909: one interrupt allowed, message flow control -/
  other : Sub := { maxmsg := 1, flow := 2 }
  timer : Bool := false
  log : List Out := []
  deriving DecidableEq, Repr

namespace Conn

def sub (c : Conn) : Chan → Sub
  | .data => c.data
  | .other => c.other

def setSub (c : Conn) : Chan → Sub → Conn
  | .data, s => { c with data := s }
  | .other, s => { c with other := s }

def emit (c : Conn) (o : Out) : Conn := { c with log := c.log ++ [o] }

end Conn

/-- The number on the wire: `Seq.__new__` masks to 12 bits, nsp_packets.py 26-27. -/
def wire (k : Nat) : Nat := k % 4096

/-- `NotImplemented` from both operands becomes `TypeError`. -/
def cmp (r : Option Bool) : Except Err Bool :=
  match r with
  | some b => .ok b
  | none => .error .typeError

/-- `Seq.__lt__` (modulo.py 62-70); exactly half the modulus apart raises `TypeError`. -/
def seqLt (a b : Nat) : Except Err Bool := cmp (Modulo.lt 4096 (wire a) (wire b))
/-- `Seq.__le__`. -/
def seqLe (a b : Nat) : Except Err Bool := cmp (Modulo.le 4096 (wire a) (wire b))
/-- `Seq.__gt__`. -/
def seqGt (a b : Nat) : Except Err Bool := cmp (Modulo.gt 4096 (wire a) (wire b))
/-- `int (acknum - segnum + 1)` on `Seq` values, modulo.py 102-106. -/
def seqCount (a b : Nat) : Nat := (((wire a : Int) - (wire b : Int) + 1) % 4096).toNat

/-- `Connection.makepacket`, nsp.py 1359-1366. -/
def mk (c : Conn) (b : Body) : Msg := { dst := c.dstaddr, src := c.srcaddr, body := b }

/-- `Subchannel.set_acks`, first part, nsp.py 716-719. -/
def setAcks1 (c : Conn) (ch : Chan) (m : Msg) (explicit : Bool) : Conn × Msg :=
  if explicit || (c.sub ch).ackpending then
    (c.setSub ch { c.sub ch with ackpending := false, hold := false },
      { m with ack := some ⟨(c.sub ch).acknum, 0⟩ })
  else (c, m)

/-- `Subchannel.set_acks`, cross-subchannel part, nsp.py 720-726. -/
def setAcks2 (c : Conn) (ch : Chan) (m : Msg) : Conn × Msg :=
  if c.cphase = 4 ∧ (c.sub ch.cross).ackpending = true then
    (c.setSub ch.cross { c.sub ch.cross with ackpending := false, hold := false },
      { m with ack2 := some ⟨(c.sub ch.cross).acknum, 2⟩ })
  else (c, m)

/-- `Subchannel.set_acks`, nsp.py 715-726. -/
def setAcks (c : Conn) (ch : Chan) (m : Msg) (explicit : Bool) : Conn × Msg :=
  setAcks2 (setAcks1 c ch m explicit).1 ch (setAcks1 c ch m explicit).2

/-- First part of `txqentry.send`, nsp.py 559-566: mark a retransmitted Connect Initiate, fill in
the ack fields of other packets. -/
def prep (c : Conn) (ch : Chan) (qe : QEnt) : Conn × Msg :=
  match qe.msg.body with
  | .connInit _ f i s p =>
      (c, { qe.msg with body := .connInit (decide (qe.tries ≠ 0)) f i s p })
  | b => if b.isAckHdr then setAcks c ch qe.msg false else (c, qe.msg)

/-- `txqentry.send`, nsp.py 556-573.  Returns the connection and the updated entry. -/
def qsend (c : Conn) (ch : Chan) (qe : QEnt) : Conn × QEnt :=
  ((prep c ch qe).1.emit (.tx (prep c ch qe).2),
    { qe with msg := (prep c ch qe).2, tries := qe.tries + 1, sent := true, timer := true })

/-- `Data_Subchannel.flow_ok`, nsp.py 797-820; `head` is the `segnum` of the first entry of the
transmit queue (the queue is never empty when this is called: the entry asked about is in it). -/
def flowOk (c : Conn) (head : Nat) (qe : QEnt) : Bool :=
  decide ((qe.segnum : Int) ≤ (head : Int) + c.cfg.qmax - 1) && c.data.xon &&
    (c.data.flow == 0 ||
      (c.data.flow == 1 && decide ((qe.segnum : Int) ≤ c.data.maxseg)) ||
      (c.data.flow == 2 && decide ((qe.msgnum : Int) ≤ c.data.maxmsg)))

/-- `self.maxseqsent = max (self.maxseqsent, pkt.segnum)`, nsp.py 845, 896, 956. -/
def maxUpd (c : Conn) (ch : Chan) (k : Nat) : Except Err Conn := do
  let b ← seqGt k (c.sub ch).maxseqsent
  if b then .ok (c.setSub ch { c.sub ch with maxseqsent := k }) else .ok c

/-- The `segnum` of the first queue entry. -/
def headSeg : List QEnt → Nat
  | q :: _ => q.segnum
  | [] => 0

/-- `send_qe` for a control packet together with the queueing in `Data_Subchannel.send`,
nsp.py 840-845 and 861-862. -/
def sendCtl (c : Conn) (b : Body) : Conn :=
  let r := qsend c .data { msg := mk c b }
  { r.1 with data := { r.1.data with pending := c.data.pending ++ [r.2] } }

/-- The queue entry built by `Data_Subchannel.send` for a data segment, nsp.py 829-836. -/
def dataEnt (c : Conn) (bom eom : Bool) (p : Bytes) : QEnt :=
  { msg := mk c (.dataSeg c.data.nextseg
      (decide (c.cphase ≥ 4 ∧ c.data.pending.length ≤ c.cfg.qmax / 2)) bom eom p)
    segnum := c.data.nextseg
    msgnum := c.data.nextmsg }

/-- `Data_Subchannel.send` for a data segment, nsp.py 822-845. -/
def sendSeg (c : Conn) (bom eom : Bool) (p : Bytes) : Except Err Conn :=
  let qe := dataEnt c bom eom p
  let q := c.data.pending
  let c := { c with data := { c.data with
    nextseg := c.data.nextseg + 1, nextmsg := if eom then c.data.nextmsg + 1 else c.data.nextmsg } }
  if flowOk c (headSeg (q ++ [qe])) qe then
    let r := qsend c .data qe
    maxUpd { r.1 with data := { r.1.data with pending := q ++ [r.2] } } .data qe.segnum
  else .ok { c with data := { c.data with pending := q ++ [qe] } }

/-- The loop of `Data_Subchannel.send_blocked`, nsp.py 891-896: `done` are the entries already
visited. -/
def blockedLoop (head : Nat) (c : Conn) : List QEnt → List QEnt → Except Err (Conn × List QEnt)
  | done, [] => .ok (c, done)
  | done, qe :: rest =>
    if qe.sent then
      match qe.msg.body with
      | .dataSeg k .. => do
        let c ← maxUpd c .data k
        blockedLoop head c (done ++ [qe]) rest
      | _ => blockedLoop head c (done ++ [qe]) rest
    else
      match qe.msg.body with
      | .dataSeg k .. =>
        if flowOk c head qe then do
          let c' ← maxUpd (qsend c .data qe).1 .data k
          blockedLoop head c' (done ++ [(qsend c .data qe).2]) rest
        else .ok (c, done ++ qe :: rest)
      | _ => blockedLoop head (qsend c .data qe).1 (done ++ [(qsend c .data qe).2]) rest

/-- `Data_Subchannel.send_blocked`, nsp.py 887-896. -/
def sendBlocked (c : Conn) : Except Err Conn := do
  let r ← blockedLoop (headSeg c.data.pending) c [] c.data.pending
  .ok { r.1 with data := { r.1.data with pending := r.2 } }

/-- `popleft` `n` times; `maxackseg` becomes the `segnum` of the last one, nsp.py 756-760. -/
def popN (s : Sub) : Nat → Except Err Sub
  | 0 => .ok s
  | n + 1 =>
    match s.pending with
    | [] => .error .indexError
    | q :: rest => popN { s with pending := rest, maxackseg := q.segnum } n

/-- The segment number if `isinstance (pkt, (IntMsg, DataSeg))`, nsp.py 745. -/
def Body.ackable : Body → Option Nat
  | .dataSeg k .. => some k
  | .intMsg k _ => some k
  | _ => none

/-- `Subchannel.ack` when the first entry is a data segment or interrupt numbered `k`,
nsp.py 746-760. -/
def ackSeg (c : Conn) (ch : Chan) (a k : Nat) : Except Err Conn := do
  if ← seqLt a k then .ok c
  else if ← seqGt a (c.sub ch).maxseqsent then .ok c
  else
    let s ← popN (c.sub ch) (seqCount a k)
    .ok (c.setSub ch s)

/-- `Subchannel.ack` when the first entry is any other packet, nsp.py 754-760. -/
def ackOne (c : Conn) (ch : Chan) : Except Err Conn := do
  let s ← popN (c.sub ch) 1
  .ok (c.setSub ch s)

/-- `Subchannel.ack`, nsp.py 738-760. -/
def ack (c : Conn) (ch : Chan) (a : Nat) : Except Err Conn :=
  match (c.sub ch).pending with
  | [] => .ok c
  | q :: _ =>
    match q.msg.body.ackable with
    | some k => ackSeg c ch a k
    | none => ackOne c ch

/-- `Subchannel.process_ack`, nsp.py 728-736. -/
def procAckBase (c : Conn) (ch : Chan) : Option AckNum → Except Err Conn
  | none => .ok c
  | some a => if a.isCross then ack c ch.cross a.num else ack c ch a.num

/-- `Subchannel.close`, nsp.py 762-771: stop the timers, drop the queues. -/
def closeSub (s : Sub) : Sub := { s with pending := [], hold := false, ooo := [] }

/-- The reason codes session control may not use, nsp.py 93. -/
def reservedReason (r : Int) : Bool := r == 1 || r == 42 || r == 41

/-- `Connection.disc_rej`, nsp.py 1192-1204. -/
def discRej (c : Conn) (reason : Int) (payload : Bytes) : Except Err Conn :=
  if reason < 0 ∨ reason > 255 ∨ reservedReason reason = true then .error .rangeError
  else
    let c := { c with timer := false, data := closeSub c.data, other := closeSub c.other }
    .ok (sendCtl c (.discInit reason.toNat payload))

/-- The deferred disconnect of `Data_Subchannel.process_ack`, nsp.py 793-795. -/
def shutdownCheck (c : Conn) : Except Err Conn :=
  if c.shutdown = true ∧ c.data.pending = [] then do
    let c ← discRej c c.pendingDisc.1 c.pendingDisc.2
    .ok { c with state := .di }
  else .ok c

/-- `process_ack` of the subchannel: the base class version for the other-data subchannel,
`Data_Subchannel.process_ack` (nsp.py 788-795) for the data subchannel. -/
def procAck (c : Conn) (ch : Chan) (a : Option AckNum) : Except Err Conn :=
  match ch with
  | .other => procAckBase c .other a
  | .data => do
    let c ← procAckBase c .data a
    let c ← sendBlocked c
    shutdownCheck c

/-- The `Ack` class attribute of the subchannel, nsp.py 775 and 900. -/
def ackBody : Chan → Body | .data => .ackData | .other => .ackOther

/-- `Subchannel.send_ack`, nsp.py 709-713. -/
def sendAck (c : Conn) (ch : Chan) : Conn :=
  (setAcks c ch (mk c (ackBody ch)) true).1.emit (.tx (setAcks c ch (mk c (ackBody ch)) true).2)

/-- The data segment part of `Connection.to_sc`, nsp.py 1290-1323. -/
def toScData (c : Conn) (bom eom : Bool) (p : Bytes) : Conn :=
  if c.asm ≠ [] then
    if eom then { c with asm := [] }.emit (.scData (c.asm ++ [p]).flatten)
    else { c with asm := c.asm ++ [p] }
  else
    let eom := if !bom && c.rsts then true else eom
    if eom then c.emit (.scData p)
    else { c with asm := [p] }

/-- `Data_Subchannel.process_ls`, nsp.py 864-885. -/
def dataLs (c : Conn) (fcmod : Nat) (fcval : Int) : Except Err Conn :=
  if c.data.flow = 2 then
    if 0 ≤ fcval ∧ c.data.maxmsg + fcval < c.data.maxackseg + 128 then
      finish { c with data := { c.data with maxmsg := c.data.maxmsg + fcval } }
    else .ok (c.emit (.ls fcmod 0 fcval false))
  else if c.data.flow = 1 then
    if (c.data.maxackseg : Int) ≤ c.data.maxseg + fcval ∧
        c.data.maxseg + fcval < c.data.maxackseg + 128 then
      finish { c with data := { c.data with maxseg := c.data.maxseg + fcval } }
    else .ok (c.emit (.ls fcmod 0 fcval false))
  else finish c
where
  /-- nsp.py 883-885 -/
  finish (c : Conn) : Except Err Conn :=
    let c := c.emit (.ls fcmod 0 fcval true)
    sendBlocked (if fcmod ≠ 0 then { c with data := { c.data with xon := fcmod == 2 } } else c)

/-- `Other_Subchannel.process_ls`, nsp.py 925-935. -/
def otherLs (c : Conn) (fcmod fcvalInt : Nat) (fcval : Int) : Conn :=
  if 0 ≤ fcval then
    { c with other := { c.other with maxmsg := c.other.maxmsg + fcval } }.emit
      (.ls fcmod fcvalInt fcval true)
  else c.emit (.ls fcmod fcvalInt fcval false)

/-- `process_data` of the subchannel, nsp.py 783-786 and 911-923. -/
def procData (c : Conn) (m : Msg) : Except Err Conn :=
  match m.body with
  | .dataSeg _ _ bom eom p => .ok (toScData c bom eom p)
  | .intMsg _ p => .ok (c.emit (.scInt p))
  | .linkSvc _ fcmod fcvalInt fcval =>
    if fcvalInt = 0 then dataLs c fcmod fcval else .ok (otherLs c fcmod fcvalInt fcval)
  | _ => .ok c

/-- `dict.pop (num, None)` on the out of order cache. -/
def oooFind (l : List (Nat × Msg)) (w : Nat) : Option Msg := (l.find? (·.1 == w)).map (·.2)
/-- removal of a key -/
def oooErase (l : List (Nat × Msg)) (w : Nat) : List (Nat × Msg) := l.filter (·.1 != w)

/-- One round of the `while item` loop: `self.acknum = num` etc., nsp.py 679-681. -/
def accept1 (c : Conn) (ch : Chan) (m : Msg) : Except Err Conn :=
  let s := c.sub ch
  procData ((c.setSub ch { s with acknum := s.acknum + 1, ackpending := true }).emit (.up ch m)) m

/-- The `while item` loop, nsp.py 678-686.  `fuel` bounds the number of rounds; every round but
the first removes an entry from the cache, so its length plus one is enough. -/
def acceptLoop : Nat → Conn → Chan → Msg → Except Err Conn
  | 0, c, _, _ => .ok c
  | fuel + 1, c, ch, m => do
    let c ← accept1 c ch m
    let w := wire ((c.sub ch).acknum + 1)
    match oooFind (c.sub ch).ooo w with
    | none => .ok c
    | some m' =>
      acceptLoop fuel (c.setSub ch { c.sub ch with ooo := oooErase (c.sub ch).ooo w }) ch m'

/-- The acknowledgment decision after in-sequence data, nsp.py 694-707. -/
def ackPolicy (c : Conn) (ch : Chan) (dly : Bool) : Conn :=
  if dly = true ∧ c.cphase = 4 ∧ c.shutdown = false then
    if (c.sub ch).ackpending = true ∧ (c.sub ch).hold = false then
      c.setSub ch { c.sub ch with hold := true }
    else c
  else if (c.sub ch).ackpending = true then sendAck c ch
  else c

/-- `Subchannel.dispatch` from the sequence number check on, nsp.py 662-707. -/
def recvSeq (c : Conn) (ch : Chan) (m : Msg) (k : Nat) (dly : Bool) : Except Err Conn := do
  if ← seqLe k (c.sub ch).acknum then .ok (sendAck c ch)
  else if wire k ≠ wire ((c.sub ch).acknum + 1) then
    .ok (c.setSub ch { c.sub ch with ooo := oooErase (c.sub ch).ooo (wire k) ++ [(wire k, m)] })
  else
    let c ← acceptLoop ((c.sub ch).ooo.length + 1) c ch m
    .ok (ackPolicy c ch dly)

/-- `Subchannel.dispatch` of a received packet, nsp.py 653-707. -/
def subRecv (c : Conn) (ch : Chan) (m : Msg) : Except Err Conn := do
  let c ← procAck c ch m.ack
  let c ← procAck c ch m.ack2
  match m.body with
  | .dataSeg k dly .. => recvSeq c ch m k dly
  | .intMsg k _ => recvSeq c ch m k false
  | .linkSvc k .. => recvSeq c ch m k false
  | _ => .ok c

/-- `Connection.close`, nsp.py 1125-1146 (the table entries are part of `Verif.NspMap`);
`return self.closed`. -/
def close (c : Conn) : Conn :=
  { c with
    timer := false, data := closeSub c.data, other := closeSub c.other,
    state := .closed }.emit (.released c.srcaddr)

/-- `nspphase[pkt.info & 3]`, nsp_packets.py 299-300. -/
def nspPhase (info : Nat) : Nat :=
  match info % 4 with
  | 0 => 3
  | 1 => 2
  | _ => 4

/-- `Connection.setphase`, nsp.py 1101-1109. -/
def setPhase (c : Conn) (info : Nat) : Conn := { c with cphase := min (nspPhase info) c.cfg.phase }

/-- `MSS`, common.py. -/
def MSS : Nat := 563

/-- `nspver`, nsp.py 126-128 (`VER_PH2` = 1, `VER_PH3` = 0, `VER_PH4` = 2). -/
def nspVer (phase : Nat) : Nat := match phase with | 2 => 1 | 3 => 0 | _ => 2

/-- `Connection.run` on a received packet, nsp.py 1492-1516. -/
def runRecv (c : Conn) (m : Msg) : Except Err Conn :=
  let c := if c.cphase > 2 then { c with timer := true } else c
  match m.body with
  | .dataSeg .. | .ackData => subRecv c .data m
  | .intMsg .. | .linkSvc .. | .ackOther => subRecv c .other m
  | .discInit r b =>
    .ok (close ((c.emit (.scDisc r b false)).emit (.tx (mk c (.discConf 42)))))
  | .discConf r => .ok (close (c.emit (.scDisc r [] false)))
  | .connConf .. => .ok (if c.cphase > 2 then sendAck c .data else c)
  | _ => .ok c

/-- `Other_Subchannel.send`, nsp.py 937-956. -/
def otherSend (c : Conn) (b : Body) (k : Nat) : Except Err Conn :=
  let isLs := match b with | .linkSvc .. => true | _ => false
  if isLs = false ∧ c.other.maxmsg < c.other.nextmsg then .error .cantSend
  else
    let qe : QEnt := { msg := mk c b, msgnum := c.other.nextmsg }
    let q := c.other.pending
    let c := { c with other := { c.other with nextmsg := c.other.nextmsg + 1 } }
    let r := qsend c .other qe
    maxUpd { r.1 with other := { r.1.other with pending := q ++ [r.2] } } .other k

/-- `Connection.run` on the inactivity timeout, nsp.py 1517-1525. -/
def runTimeout (c : Conn) : Except Err Conn :=
  let k := c.other.seqnum
  otherSend { c with other := { c.other with seqnum := k + 1 } } (.linkSvc k 0 0 0) k

/-- `Connection.cd`/`ci` on a received packet, nsp.py 1400-1462; `MSS` caps the segment size. -/
def cdRecv (c : Conn) (m : Msg) : Except Err Conn :=
  match m.body with
  | .connConf fcopt info segsize b => do
    let c := setPhase { c with dstaddr := m.src } info
    let c := { c with data := { c.data with flow := fcopt }, segsize := min segsize MSS }
    let c ← ack c .data 0
    let c := if c.cphase > 2 then { sendAck c .data with timer := true } else c
    .ok { c.emit (.scAccept b) with state := .run }
  | .discInit r b =>
    let c := { c with dstaddr := m.src }
    .ok (close ((c.emit (.scDisc r b true)).emit (.tx (mk c (.discConf 42)))))
  | .discConf r => .ok (close (c.emit (.scDisc r [] true)))
  | _ => .ok c

/-- `Connection.ci` on a received packet, nsp.py 1400-1420. -/
def ciRecv (c : Conn) (m : Msg) : Except Err Conn :=
  match m.body with
  | .ackConn =>
    if c.cfg.phase > 2 then do
      let c ← ack c .data 0
      .ok { c with state := .cd }
    else cdRecv c m
  | .connInit .. => .ok (close (c.emit (.scDisc 39 [] true)))
  | _ => cdRecv c m

/-- `Connection.cr` on a received packet, nsp.py 1386-1391. -/
def crRecv (c : Conn) (m : Msg) : Conn :=
  match m.body with
  | .connInit .. =>
    if c.cphase > 2 then c.emit (.tx { dst := c.dstaddr, src := 0, body := .ackConn }) else c
  | _ => c

/-- The implied acknowledgment of the Connect Confirm, nsp.py 1480-1484. -/
def ccAck (c : Conn) (m : Msg) : Except Err Conn :=
  if m.body.isAckHdr then ack c .data 0 else .ok c

/-- `Connection.cc` on a received packet, nsp.py 1478-1490. -/
def ccRecv (c : Conn) (m : Msg) : Except Err Conn := do
  let c ← ccAck c m
  runRecv ({ c with state := .run }.emit .scRun) m

/-- `Connection.di` on a received packet, nsp.py 1527-1535. -/
def diRecv (c : Conn) (m : Msg) : Conn :=
  match m.body with
  | .discInit .. => close (c.emit (.tx (mk c (.discConf 42))))
  | .discConf _ => close c
  | _ => c

/-- `Connection.dispatch` of a received packet: the state function, statemachine.py 52-68. -/
def recv (c : Conn) (m : Msg) : Except Err Conn :=
  match c.state with
  | .ci => ciRecv c m
  | .cd => cdRecv c m
  | .cr => .ok (crRecv c m)
  | .cc => ccRecv c m
  | .run => runRecv c m
  | .di => .ok (diRecv c m)
  | .closed => .error .internalError

/-- `Connection.dispatch` of the connection's own timeout. -/
def connTimeout (c : Conn) : Except Err Conn :=
  let c := { c with timer := false }
  match c.state with
  | .ci | .cd => .ok (close (c.emit (.scDisc 38 [] true)))
  | .cr => do
    let c ← discRej { c with state := .di } 38 []
    .ok (c.emit (.scDisc 38 [] false))
  | .cc | .run => runTimeout c
  | .di => .ok c
  | .closed => .error .internalError

/-- Replace the queue entry at a position. -/
def setPending (c : Conn) (ch : Chan) (q : List QEnt) : Conn :=
  c.setSub ch { c.sub ch with pending := q }

/-- `txqentry.dispatch`, nsp.py 586-616: the retransmission timeout of entry `i`. -/
def qeTimeout (c : Conn) (ch : Chan) (i : Nat) : Conn :=
  match (c.sub ch).pending[i]? with
  | none => c
  | some qe =>
    if qe.tries ≥ c.cfg.retransmits then
      match qe.msg.body with
      | .connInit .. => setPending c ch ((c.sub ch).pending.set i { qe with timer := false })
      | _ => close (c.emit (.scDisc 39 [] false))
    else
      if qe.msg.body.isData = true ∧ flowOk c (headSeg (c.sub ch).pending) qe = false then
        setPending c ch ((c.sub ch).pending.set i { qe with sent := false, timer := false })
      else
        let r := qsend c ch qe
        setPending r.1 ch ((c.sub ch).pending.set i r.2)

/-- The slices `send_data` cuts a message into, nsp.py 1247-1257: for every
`i in range (0, dl, segsize)` the BOM and EOM flags and `data[i:i + segsize]`. -/
def slices (size : Nat) (d : Bytes) : List (Bool × Bool × Bytes) :=
  (List.range ((d.length + size - 1) / size)).map fun j =>
    (decide (j = 0), decide (d.length - j * size ≤ size), (d.drop (j * size)).take size)

/-- Hand the slices to the data subchannel in turn. -/
def sendAll (c : Conn) : List (Bool × Bool × Bytes) → Except Err Conn
  | [] => .ok c
  | (bom, eom, p) :: rest => do
    let c ← sendSeg c bom eom p
    sendAll c rest

/-- `Connection.send_data`, nsp.py 1238-1258.  A zero segment size (the peer chose it) makes
`range` raise `ValueError`. -/
def sendData (c : Conn) (d : Bytes) : Except Err Conn :=
  if c.state ≠ .run ∨ c.shutdown = true then .error .wrongState
  else if c.segsize = 0 then .error .valueError
  else sendAll c (slices c.segsize d)

/-- `Connection.interrupt`, nsp.py 1260-1283. -/
def interrupt (c : Conn) (d : Bytes) : Except Err Conn :=
  if c.state ≠ .run ∨ c.shutdown = true then .error .wrongState
  else if d.length > 16 then .error .intLength
  else do
    let c ← otherSend c (.intMsg c.other.seqnum d) c.other.seqnum
    .ok { c with other := { c.other with seqnum := c.other.seqnum + 1 } }

/-- `Connection.accept`, nsp.py 1154-1176. -/
def accept (c : Conn) (payload : Bytes) : Except Err Conn :=
  if c.state ≠ .cr then .error .wrongState
  else
    let b := Body.connConf 0 (nspVer c.cfg.phase) MSS payload
    if c.cphase = 2 then
      .ok ({ c with state := .run, timer := false }.emit (.tx (mk c b)))
    else .ok (sendCtl { c with state := .cc } b)

/-- What the events of a connection are: a received packet, the timeouts, the calls made by
session control. -/
inductive Ev
  | recv (m : Msg)
  | connTimeout
  | holdTimeout (ch : Chan)
  | qeTimeout (ch : Chan) (i : Nat)
  | accept (payload : Bytes)
  | reject (reason : Int) (payload : Bytes)
  | disconnect (reason : Int) (payload : Bytes)
  | abort (reason : Int) (payload : Bytes)
  | sendData (d : Bytes)
  | interrupt (d : Bytes)
  | setsockopt (rsts : Bool)
  /-- `NSP.dispatch` notes the remote link address, nsp.py 225-234 -/
  | learn (a : Nat)
  deriving DecidableEq, Repr

/-- One event.  For a call from session control that raises, the state the exception leaves
behind is returned with it (nsp.py 1154-1283: `reject` and `disconnect` change the state before
`disc_rej` validates the reason); otherwise an exception stops the node. -/
def step (c : Conn) : Ev → Conn × Option Err
  | .recv m => fin c (recv c m)
  | .connTimeout => fin c (connTimeout c)
  | .holdTimeout ch =>
    -- nsp.py 650-652; the timer has fired, so it is no longer armed
    (sendAck c ch, none)
  | .qeTimeout ch i => (qeTimeout c ch i, none)
  | .accept p => fin c (accept c p)
  | .reject r p =>
    -- nsp.py 1178-1190
    if c.state ≠ .cr then (c, some .wrongState)
    else
      let c := { c with timer := false, state := .di }
      fin c (discRej c r p)
  | .disconnect r p =>
    -- nsp.py 1206-1224
    if c.state ≠ .run then (c, some .wrongState)
    else if c.data.pending ≠ [] then ({ c with shutdown := true, pendingDisc := (r, p) }, none)
    else
      let c := { c with state := .di }
      fin c (discRej c r p)
  | .abort r p =>
    -- nsp.py 1226-1236
    if c.state ≠ .run then (c, some .wrongState)
    else fin c ((discRej c r p).map fun c => { c with state := .di })
  | .sendData d => fin c (sendData c d)
  | .interrupt d => fin c (interrupt c d)
  | .setsockopt b => ({ c with rsts := b }.emit (.opt b), none)
  | .learn a => ({ c with dstaddr := a }, none)
where
  fin (c : Conn) : Except Err Conn → Conn × Option Err
    | .ok c' => (c', none)
    | .error e => (c, some e)

/-- Which events can occur: timeouts only for armed timers; packets are never mapped to a closed
connection (`Verif.NspMap`). -/
def Enabled (c : Conn) : Ev → Prop
  | .recv _ => c.state ≠ .closed
  | .connTimeout => c.timer = true
  | .holdTimeout ch => (c.sub ch).hold = true
  | .qeTimeout ch i => ∃ qe, (c.sub ch).pending[i]? = some qe ∧ qe.timer = true
  | .learn _ => (c.state = .ci ∨ c.state = .cd) ∧ c.dstaddr = 0
  | _ => True

/-- `Connection.__init__` for an outgoing connection, nsp.py 1062-1098. -/
def newOut (cfg : Cfg) (id : Nat) (payload : Bytes) : Conn :=
  { sendCtl { cfg := cfg, state := .ci, srcaddr := id }
      (.connInit false 0 (nspVer cfg.phase) MSS payload) with timer := true }

/-- `Connection.__init__` for an arriving Connect Initiate, nsp.py 1035-1061. -/
def newIn (cfg : Cfg) (id : Nat) (remote fcopt info segsize : Nat) (payload : Bytes) : Conn :=
  let c := setPhase { cfg := cfg, state := .cr, srcaddr := id, dstaddr := remote,
                      data := { flow := fcopt }, segsize := min segsize MSS } info
  let c := if c.cphase > 2 then c.emit (.tx { dst := remote, src := 0, body := .ackConn }) else c
  { c.emit (.scConn payload) with timer := true }

end Verif.Nsp
