import Verif.NspPkt.Model

/-!
# Phase II intercept (`decnet/intercept.py`)

One intercept object belongs to one circuit with a Phase II neighbour and lives as long as the
neighbour is the same (route_ptp.py 525), so the neighbour is a parameter, and the connection
table, keyed by (neighbour, link address) in the code, is keyed by link address here.

Node identifiers are numbers; node names are `Name`s.  `nodeinfo_byname` gives a node identifier;
names of loop nodes, for which `get_dest` gives a circuit, are left out.
-/
namespace Verif.Intercept

open Verif.Fields (Bytes)
open Verif.Nsp (Msg Body)
open Verif.NspPkt (decode Dec)

/-- A Python string. -/
abbrev Name := List Nat

/-- The three behaviours: `NoIntercept`, `FullIntercept` (`P2Intercept` and `P4Intercept` add
nothing, intercept.py 343-353), `EndnodeIntercept`. -/
inductive Kind
  | no | full | endnode
  deriving DecidableEq, Repr

/-- What the object can see: this node, the neighbour (`adj.rnodeid`, equal to `adj.id`, route_ptp.py
506 and 517; `adj.rnodename`; whether it asked for intercept, `adj.rint`) and the node database. -/
structure Env where
  self : Nat
  name : Name
  rid : Nat
  rname : Name
  rint : Bool
  /-- `nodeinfo_byname[n].get_dest ()`; `none` is KeyError -/
  byName : Name → Option Nat
  /-- `nodeinfo_byid[id].nodename`: outer `none` is KeyError, inner `none` an entry without name -/
  byId : Nat → Option (Option Name)

/-- A packet of the Phase II side: `P2BareNSP` (routing_packets.py 538-547) or `RouteHdr` (595-605). -/
inductive P2
  | bare (payload : Bytes)
  | hdr (dst src : Name) (payload : Bytes)
  deriving DecidableEq, Repr

/-- A packet of the Phase III/IV side, `ShortData` or `LongData`. -/
structure Data where
  src : Nat
  dst : Nat
  rts : Bool
  payload : Bytes
  deriving DecidableEq, Repr

/-- `DiscConf (dstaddr, srcaddr, reason = UNREACH)` with the names of the route header if it has one,
intercept.py 214-222. -/
structure Reply where
  dstaddr : Nat
  srcaddr : Nat
  header : Option (Name × Name)      -- (dstnode, srcnode)
  deriving DecidableEq, Repr

/-- `conndb`, by link address of the neighbour. -/
abbrev Conns := Nat → Option Nat

/-- A Python exception leaving the method; it ends the node. -/
inductive Exc
  | attributeError | keyError
  deriving DecidableEq, Repr

/-! ## makedc -/

/-- `buf.srcaddr`, `buf.dstaddr` of a decoded NSP packet (intercept.py 215-216): a bare `NspHdr`
object has neither, an `AckConn` has no `srcaddr` (nsp_packets.py 206-218). -/
def linkAddrs : Dec → Except Exc (Nat × Nat)
  | .bare => .error .attributeError
  | .msg _ m => if m.body = .ackConn then .error .attributeError else .ok (m.src, m.dst)

/-- `isinstance (buf, DiscConf)`. -/
def isDiscConf : Dec → Bool
  | .msg _ ⟨_, _, _, _, .discConf _⟩ => true
  | _ => false

/-- intercept.py 201-223 with the names taken from the route header (191-194), `rts` false. -/
def makedcHdr (e : Env) (dst src : Name) (payload : Bytes) : Except Exc (Option Reply) :=
  match decode payload with
  | .error _ => .ok none
  | .ok d =>
    if isDiscConf d then .ok none
    else match linkAddrs d with
      | .error x => .error x
      | .ok (s, t) => .ok (some ⟨s, t, if e.rint then some (src, dst) else none⟩)

/-- `makedc` for a `ShortData` or `LongData`, intercept.py 182-190: `self.nodeinfo_byid` is set in
`start` (67), which nothing calls: the object is made in route_ptp.py 525 and used from then on. -/
def makedcData : Except Exc (Option Reply) := .error .attributeError

/-! ## recv -/

/-- `mapsrc`, intercept.py 78-82 and 368-378. -/
def mapsrc (k : Kind) (e : Env) (src : Name) : Option Nat :=
  match k with
  | .endnode => if src = [] then some e.rid else e.byName src
  | _ => if src = [] ∨ src = e.rname then some e.rid else none

/-- `mapdst`, intercept.py 84-88 and 232-242. -/
def mapdst (k : Kind) (e : Env) (dst : Name) : Option Nat :=
  match k with
  | .full => if dst = [] then some e.self else e.byName dst
  | _ => if dst = [] ∨ dst = e.name then some e.self else none

/-- `noroutehdr`, intercept.py 90-92 and 244-272. -/
def noroutehdr (k : Kind) (e : Env) (db : Conns) (payload : Bytes) : Nat :=
  match k with
  | .full =>
    match decode payload with
    | .ok (.msg _ m) => if m.body.isAckHdr then (db m.src).getD e.self else e.self
    | _ => e.self
  | _ => e.self

/-- `ConnInit` or `ConnConf`. -/
def isConn : Body → Bool
  | .connInit .. | .connConf .. => true
  | _ => false

/-- `DiscInit` or `DiscConf`. -/
def isDisc : Body → Bool
  | .discInit .. | .discConf .. => true
  | _ => false

def Conns.set (db : Conns) (a : Nat) (x : Option Nat) : Conns := fun b => if b = a then x else db b

/-- `routehdr`, intercept.py 94-96 and 274-294. -/
def routehdr (k : Kind) (db : Conns) (dstid : Nat) (payload : Bytes) : Conns :=
  match k with
  | .full =>
    match decode payload with
    | .ok (.msg _ m) =>
      if isConn m.body then db.set m.src (some dstid)
      else if isDisc m.body then db.set m.src none
      else db
    | _ => db
  | _ => db

/-- Outcome of `recv`. -/
inductive Recv
  /-- (True, ShortData): goes to routing, with return requested -/
  | up (d : Data)
  /-- (False, packet or None): sent back to the neighbour, or dropped -/
  | back (r : Option Reply)
  | raises (x : Exc)
  deriving DecidableEq, Repr

/-- `if not srcid or not dstid`, intercept.py 117: node identifier 0 does not count either. -/
def usable (x : Option Nat) : Option Nat := x.filter (· ≠ 0)

/-- `recv`, intercept.py 98-133. -/
def recv (k : Kind) (e : Env) (db : Conns) : P2 → Conns × Recv
  | .bare payload => (db, .up ⟨e.rid, noroutehdr k e db payload, false, payload⟩)
  | .hdr dst src payload =>
    match usable (mapsrc k e src), usable (mapdst k e dst) with
    | some s, some d => (routehdr k db d payload, .up ⟨s, d, false, payload⟩)
    | _, _ =>
      match makedcHdr e dst src payload with
      | .ok r => (db, .back r)
      | .error x => (db, .raises x)

/-! ## send -/

/-- Outcome of `send`: sent on the circuit, nothing to send (`not pkt`, route_ptp.py 199-201),
refused (`False`, then handled as unreachable), exception. -/
inductive Send
  | sent (p : P2)
  | reply (r : Reply)
  | nothing
  | refused
  | raises (x : Exc)
  deriving DecidableEq, Repr

/-- `RouteHdr (srcnode = nodeinfo_byid[src].nodename, dstnode = …)`, intercept.py 333-336 and
400-403; a missing name is sent as an empty one (packet.py 1013-1017). -/
def withHdr (e : Env) (d : Data) : Send :=
  match e.byId d.src, e.byId d.dst with
  | some s, some t => .sent (.hdr (t.getD []) (s.getD []) d.payload)
  | _, _ => .raises .keyError

/-- The reply of `makedc`, or nothing. -/
def replySend : Except Exc (Option Reply) → Send
  | .ok none => .nothing
  | .ok (some r) => .reply r
  | .error x => .raises x

/-- `conndb` after sending a packet to the neighbour, intercept.py 325-330. -/
def forget (db : Conns) (m : Msg) : Conns :=
  if isDisc m.body then (db.set m.src none).set m.dst none else db

/-- The decoded payload counts as `AckHdr`. -/
def isAck : Dec → Bool
  | .bare => false
  | .msg _ m => m.body.isAckHdr

/-- `conndb` after sending a decoded payload. -/
def forgetDec (db : Conns) : Dec → Conns
  | .bare => db
  | .msg _ m => forget db m

/-- `send`, intercept.py 135-155 (`no`), 296-341 (`full`), 380-407 (`endnode`). -/
def send (k : Kind) (e : Env) (db : Conns) (d : Data) : Conns × Send :=
  if d.rts then (db, replySend makedcData)
  else match k with
  | .no => if d.dst ≠ e.rid ∨ d.src ≠ e.self then (db, .refused) else (db, .sent (.bare d.payload))
  | .endnode =>
    if d.src ≠ e.self then (db, .refused)
    else if d.dst ≠ e.rid then (db, withHdr e d)
    else (db, .sent (.bare d.payload))
  | .full =>
    if d.dst ≠ e.rid then (db, .refused)
    else match decode d.payload with
    | .error _ => (db, .nothing)                     -- `False, None`: dropped
    | .ok x =>
      if d.src ≠ e.self ∧ isAck x = false then (forgetDec db x, withHdr e d)
      else (forgetDec db x, .sent (.bare d.payload))

/-! ## The life of one intercept object -/

inductive Act
  | recv (p : P2)
  | send (d : Data)
  deriving DecidableEq, Repr

def step (k : Kind) (e : Env) (db : Conns) : Act → Conns
  | .recv p => (recv k e db p).1
  | .send d => (send k e db d).1

/-- The connection table after a history; it starts empty (intercept.py 230). -/
def run (k : Kind) (e : Env) (as : List Act) : Conns := as.foldl (step k e) (fun _ => none)

/-- `Intercept`, intercept.py 425-438: our flags combined with the neighbour's (`pkt.rint`: it asks,
`pkt.int`: it offers). -/
def choose (offer request : Bool) (asks offers : Bool) : Kind :=
  if request && offers then .endnode
  else if offer && asks then .full
  else .no

end Verif.Intercept
