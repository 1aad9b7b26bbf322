import Verif.Nice.Model

/-!
# Lines shown by network management

datalink.py 93-108, 175-187, 298-303, 599-631 and 735-835 (`DatalinkLayer.nice_read`, `Datalink.nice_read_line`, the
counters, the tables of ports of a LAN), ethernet.py 188-192, ddcmp.py 104-111, common.py 731-751,
nicepackets.py 711-765, nice_coding.py 915-972, modules/nml.py 150-210, with the coding of `Nice`.

Left out: decoding of the request (`Nml`, `NiceEnt`); the fields of a reply before its parameters except the name of the
line; requests of the monitor's API.  `str.upper` is a function that is given.
-/

namespace Verif.Lines

open Nice (Simple Val Item Width)

abbrev Bytes := List UInt8

/-- Text; characters are numbers. -/
abbrev Str := List Nat

/-! ## Ports of a LAN and their counters -/

/-- datalink.py:727-728, and 302-303 for point to point lines. -/
structure Ctrs where
  bytesRecv : Nat := 0
  bytesSent : Nat := 0
  pktsRecv : Nat := 0
  pktsSent : Nat := 0
deriving DecidableEq, Repr

def Ctrs.add (a b : Ctrs) : Ctrs :=
  ⟨a.bytesRecv + b.bytesRecv, a.bytesSent + b.bytesSent, a.pktsRecv + b.pktsRecv, a.pktsSent + b.pktsSent⟩

/-- A key of the table of ports: a protocol type or a SAP, datalink.py:809 and 829. -/
inductive Key where
  | proto (n : Nat)
  | sap (n : Nat)
deriving DecidableEq, Repr

/-- A port: its primary protocol type (datalink.py:741, 807-808), its counters. -/
structure Port where
  proto : Option Nat := none
  ctrs : Ctrs := {}
deriving DecidableEq, Repr

/-- The ports made so far, by number, and the table `ports`. -/
structure Ports where
  made : List Port := []
  table : List (Key × Nat) := []
deriving DecidableEq, Repr

/-- What happens to them. -/
inductive Op where
  /-- `create_port`, datalink.py:745-753 -/
  | create (k : Key)
  /-- `add_proto`, `add_sap` of a port, datalink.py:801-812 and 821-832 -/
  | add (i : Nat) (k : Key)
  /-- frames sent or received by a port -/
  | traffic (i : Nat) (c : Ctrs)
deriving DecidableEq, Repr

/-- datalink.py:807-808: the first protocol type is the primary one. -/
def Port.named (p : Port) : Key → Port
  | .proto n => if p.proto = none then { p with proto := some n } else p
  | .sap _ => p

/-- One operation; a key in use raises (datalink.py:803-806, 823-826), which leaves no trace.  `remove_proto` and
`remove_sap` never get as far as the table (`self.parents`, datalink.py:817, 837). -/
def Ports.step (s : Ports) : Op → Ports
  | .create k =>
    if k ∈ s.table.map (·.1) then s
    else { made := s.made ++ [Port.named {} k], table := s.table ++ [(k, s.made.length)] }
  | .add i k =>
    if k ∈ s.table.map (·.1) ∨ s.made.length ≤ i then s
    else { made := s.made.modify i (·.named k), table := s.table ++ [(k, i)] }
  | .traffic i c => { s with made := s.made.modify i fun p => { p with ctrs := p.ctrs.add c } }

/-- datalink.py:626-631 `combine`: `v.proto == k`; a SAP is no protocol type. -/
def Ports.combine (s : Ports) (attr : Ctrs → Nat) : Nat :=
  (s.table.map fun x => match s.made[x.2]? with
    | some p => if p.proto.map Key.proto = some x.1 then attr p.ctrs else 0
    | none => 0).sum

/-! ## Lines -/

/-- A kind of line and its counters.  Counters with bits are pairs of value and bits. -/
inductive Kind where
  /-- GRE and Ethernet with its hardware address (ethernet.py:188-192); datalink.py:599-631 -/
  | lan (hw : Option Bytes) (since unkDest mcBytes mcPkts : Nat) (ports : Ports)
  /-- datalink.py:298-303 -/
  | ptp (since : Nat) (c : Ctrs)
  /-- ddcmp.py:104-111 -/
  | ddcmp (since : Nat) (c : Ctrs) (dataIn dataOut : Nat × Nat) (remoteReply localReply : Nat) (remoteBuf : Nat × Nat)
deriving DecidableEq, Repr

/-- A line: its name in upper case (common.py:679-684). -/
structure Line where
  name : Str
  kind : Kind
deriving DecidableEq, Repr

/-- The attributes that a reply about a line may have (nicepackets.py:714-765, nice_coding.py:915-972); only those
that the code sets. -/
structure Rec where
  name : Str
  state : Option Nat := none
  duplex : Option Nat := none
  protocol : Option Nat := none
  hw : Option Bytes := none
  since : Option Nat := none
  bytesRecv : Option Nat := none
  bytesSent : Option Nat := none
  mcBytes : Option Nat := none
  pktsRecv : Option Nat := none
  pktsSent : Option Nat := none
  mcPkts : Option Nat := none
  dataIn : Option (Nat × Nat) := none
  dataOut : Option (Nat × Nat) := none
  remoteReply : Option Nat := none
  localReply : Option Nat := none
  remoteBuf : Option (Nat × Nat) := none
  unkDest : Option Nat := none
deriving DecidableEq, Repr

/-- common.py:731-751 `copy`: every counter that is an attribute of the reply. -/
def Rec.counters (r : Rec) : Kind → Rec
  | .lan _ since unk mcb mcp ports =>
    { r with
      since := some since, unkDest := some unk, mcBytes := some mcb, mcPkts := some mcp,
      bytesRecv := some (ports.combine Ctrs.bytesRecv), bytesSent := some (ports.combine Ctrs.bytesSent),
      pktsRecv := some (ports.combine Ctrs.pktsRecv), pktsSent := some (ports.combine Ctrs.pktsSent) }
  | .ptp since c =>
    { r with
      since := some since, bytesRecv := some c.bytesRecv, bytesSent := some c.bytesSent,
      pktsRecv := some c.pktsRecv, pktsSent := some c.pktsSent }
  | .ddcmp since c din dout rr lr rb =>
    { r with
      since := some since, bytesRecv := some c.bytesRecv, bytesSent := some c.bytesSent,
      pktsRecv := some c.pktsRecv, pktsSent := some c.pktsSent,
      dataIn := some din, dataOut := some dout, remoteReply := some rr, localReply := some lr, remoteBuf := some rb }

/-- `nice_protocol`, datalink.py:311 and 638. -/
def Kind.protocol : Kind → Nat
  | .lan .. => 6
  | _ => 0

/-- The hardware address, ethernet.py:191-192. -/
def Kind.hw : Kind → Option Bytes
  | .lan hw .. => hw
  | _ => none

/-- datalink.py:175-187 `nice_read_line`, and ethernet.py:188-192. -/
def Line.read (l : Line) (info : Nat) : Rec :=
  let r : Rec := { name := l.name }
  if info < 2 then { r with state := some 0 }
  else if info = 2 then { r with duplex := some 0, protocol := some l.kind.protocol, hw := l.kind.hw }
  else if info = 3 then r.counters l.kind
  else r

/-! ## Coding -/

def par {α : Type} (p : Nat) (f : α → Simple) : Option α → List Item
  | none => []
  | some x => [.par p (.one (f x))]

def ctr (p : Nat) (w : Width) : Option Nat → List Item
  | none => []
  | some v => [.ctr p w v]

/-- CTM1, nice_coding.py:517. -/
def ctm (p : Nat) : Option (Nat × Nat) → List Item
  | none => []
  | some (v, m) => [.ctm p .w1 m v]

/-- nice_coding.py:641-656 with the table of nicepackets.py:714-765, in the order of the numbers
(nice_coding.py:560). -/
def Rec.items (r : Rec) : List Item :=
  par 0 (fun (v : Nat) => .num .c 1 v) r.state
  ++ ctr 0 .w2 r.since
  ++ ctr 1000 .w4 r.bytesRecv
  ++ ctr 1001 .w4 r.bytesSent
  ++ ctr 1002 .w4 r.mcBytes
  ++ ctr 1010 .w4 r.pktsRecv
  ++ ctr 1011 .w4 r.pktsSent
  ++ ctr 1012 .w4 r.mcPkts
  ++ ctm 1020 r.dataIn
  ++ ctm 1021 r.dataOut
  ++ ctr 1030 .w1 r.remoteReply
  ++ ctr 1031 .w1 r.localReply
  ++ ctm 1040 r.remoteBuf
  ++ ctr 1063 .w2 r.unkDest
  ++ par 1111 (fun (v : Nat) => .num .c 1 v) r.duplex
  ++ par 1112 (fun (v : Nat) => .num .c 1 v) r.protocol
  ++ par 1160 (fun v => .hi v) r.hw

/-! ## Requests and answers -/

/-- The entity of the request, nicepackets.py:850-882: a plural or a name. -/
inductive Ent where
  | plural (code : Int)
  | one (name : Str)
deriving DecidableEq, Repr

/-- nicepackets.py:1109-1112 and 1186. -/
structure Req where
  permanent : Bool := false
  info : Nat
  ent : Ent
deriving DecidableEq, Repr

/-- Order of names, `sorted` of nicepackets.py:337-339. -/
def before : Str → Str → Bool
  | [], _ => true
  | _ :: _, [] => false
  | a :: s, b :: t => if a < b then true else if b < a then false else before s t

/-- One step of sorting. -/
def insert (x : Line) : List Line → List Line
  | [] => [x]
  | y :: r => if before x.name y.name then x :: y :: r else y :: insert x r

def sorted (l : List Line) : List Line := l.foldr insert []

/-- datalink.py:93-108: the lines of the reply, sorted (modules/nml.py:173); other layers add none. -/
def select (up : Str → Str) (ls : List Line) : Ent → List Line
  | .one n => (ls.find? fun l => l.name = up n).toList
  | .plural _ => sorted ls

/-- A message of the answer: a code only; or code 1, the name of a line and the rest. -/
inductive Rep where
  | code (c : Int)
  | line (name : Str) (data : Bytes)
deriving DecidableEq, Repr

/-- The messages up to one that cannot be encoded, and whether there was one. -/
def send (info : Nat) : List Line → List Rep × Bool
  | [] => ([], false)
  | l :: ls =>
    match Nice.encode (l.read info).items with
    | .error _ => ([], true)
    | .ok b => (.line l.name b :: (send info ls).1, (send info ls).2)

/-- modules/nml.py:150-210 and node.py:467-469 (events). -/
def answer (up : Str → Str) (ls : List Line) (q : Req) : List Rep × Bool :=
  if q.permanent then ([.code (-1)], false)
  else if q.info = 4 then ([.code (-1)], false)
  else match select up ls q.ent with
    | [] => match q.ent with
      | .one _ => ([.code (-8)], false)
      | .plural _ => ([.code 2, .code (-128)], false)
    | [l] => send q.info [l]
    | l =>
      let s := send q.info l
      (.code 2 :: s.1 ++ (if s.2 then [] else [.code (-128)]), s.2)

end Verif.Lines
