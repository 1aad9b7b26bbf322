import Verif.Nsp.Run

/-!
# Model of the NSP entity (`decnet/nsp.py`, classes `NSP` and `ReservedPort`)

The table of connections, the pool of link addresses and the mapping of received messages to
connections.  The connections themselves are those of `Verif.Nsp`.

* A remote node is a node address or, for loop nodes, a circuit (nsp.py 1037-1045, 1081-1083).
* The keys of the dictionaries are as in the code.  `rconnections` refers to `Connection` objects,
  which may already be closed; they are identified here by a serial number `uid`.
* Random choices of `init_id` are arbitrary (`Init`).
* Counters, event logging and the reports are left out.  An undecodable packet (nsp.py 170-177)
  changes nothing and is left out.
-/
namespace Verif.NspMap
open Verif.Nsp

/-- Address of the other end: `Nodeid` or circuit. -/
inductive Peer
  | node (n : Nat)
  | circuit (n : Nat)
  deriving DecidableEq, Repr

/-- `isinstance (dest, Nodeid)`. -/
def Peer.isNode : Peer → Bool
  | .node _ => true
  | .circuit _ => false

/-- A `Connection` object in the table: its identity, `dest` and the rest. -/
structure CEnt where
  uid : Nat
  dest : Peer
  conn : Conn
  deriving DecidableEq, Repr

/-- What happens to link addresses. -/
inductive Use
  | get (i : Nat)
  | ret (i : Nat)
  deriving DecidableEq, Repr

/-- `NSP` attributes, nsp.py 108-124.  `out` are the packets sent by the reserved port, `hist` the
history of the pool of link addresses. -/
structure Ent where
  cfg : Cfg
  me : Nat
  maxconns : Nat
  free : List Nat
  conns : List CEnt := []
  rconns : List ((Peer × Nat) × Nat) := []
  nextUid : Nat := 0
  out : List (Peer × Msg) := []
  hist : List Use := []
  deriving DecidableEq, Repr

/-- `dict.__getitem__`. -/
def dget (d : List ((Peer × Nat) × Nat)) (k : Peer × Nat) : Option Nat :=
  (d.find? fun x => x.1 == k).map (·.2)

/-- `dict.pop (k, None)`. -/
def dpop (d : List ((Peer × Nat) × Nat)) (k : Peer × Nat) : List ((Peer × Nat) × Nat) :=
  d.filter fun x => !(x.1 == k)

/-- `dict.__setitem__`. -/
def dput (d : List ((Peer × Nat) × Nat)) (k : Peer × Nat) (v : Nat) : List ((Peer × Nat) × Nat) :=
  (k, v) :: dpop d k

/-- `self.connections.get (i)`. -/
def Ent.find (e : Ent) (i : Nat) : Option CEnt := e.conns.find? fun x => x.conn.srcaddr == i

/-- The `Connection` object with that identity, if it is still open. -/
def Ent.byUid (e : Ent) (u : Nat) : Option CEnt := e.conns.find? fun x => x.uid == u

/-- `NSP.init_id`, nsp.py 276-297: `i + random.randrange (0, 65536, c)` for `i` from 1 to `c - 1`,
shuffled; `c = maxconns + 1` is a power of two between 256 and 32768 (config.py). -/
structure Init (e : Ent) : Prop where
  pow : ∃ n, 8 ≤ n ∧ n ≤ 15 ∧ e.maxconns + 1 = 2 ^ n
  free : ∃ r : Nat → Nat, (∀ i, r i * (e.maxconns + 1) < 65536) ∧
    List.Perm e.free ((List.range e.maxconns).map fun i => (i + 1) + r (i + 1) * (e.maxconns + 1))
  conns : e.conns = []
  rconns : e.rconns = []
  out : e.out = []
  hist : e.hist = []

/-- `NSP.get_id`, nsp.py 299-302. -/
def Ent.getId (e : Ent) : Option (Nat × Ent) :=
  match e.free with
  | [] => none
  | i :: rest => some (i, { e with free := rest, hist := e.hist ++ [.get i] })

/-- `NSP.ret_id`, nsp.py 303-305. -/
def Ent.retId (e : Ent) (i : Nat) : Ent :=
  { e with free := e.free ++ [(i + e.maxconns + 1) % 65536], hist := e.hist ++ [.ret i] }

/-- The part of `Connection.close` that concerns the entity, nsp.py 1130-1141. -/
def Ent.drop (e : Ent) (x : CEnt) : Ent :=
  let r := if x.conn.dstaddr = 0 then e.rconns
    else dpop (dpop e.rconns (x.dest, x.conn.dstaddr)) (.node e.me, x.conn.dstaddr)
  { e with conns := e.conns.filter (fun y => !(y.conn.srcaddr == x.conn.srcaddr)), rconns := r }.retId
    x.conn.srcaddr

/-- Replace a connection by its new state; a connection that was closed on the way has left the
tables (`Connection.close` is the only place where the state becomes `closed`). -/
def Ent.update (e : Ent) (x : CEnt) (c : Conn) : Ent :=
  let e := { e with conns := e.conns.map fun y => if y.uid = x.uid then { y with conn := c } else y }
  if c.state = .closed then e.drop { x with conn := c } else e

/-- An event of an open connection. -/
def Ent.run (e : Ent) (x : CEnt) (v : Ev) : Ent × Option Err :=
  let r := Nsp.step x.conn v
  (e.update x r.1, r.2)

/-- `ReservedPort.dispatch`, nsp.py 1543-1558: No Resources (reason 1) for a Connect Initiate, else No
Link (reason 41), to the sender, with the link addresses swapped. -/
def Ent.reserved (e : Ent) (src : Peer) (m : Msg) : Ent :=
  let r := match m.body with | .connInit .. => 1 | _ => 41
  { e with out := e.out ++ [(src, { dst := m.src, src := m.dst, body := .discConf r })] }

/-- `Connection.__init__` for an arriving Connect Initiate, nsp.py 1003-1061. -/
def Ent.inbound (e : Ent) (src : Peer) (m : Msg) (f i s : Nat) (p : Bytes) : Ent :=
  match e.getId with
  | none => e.reserved src m
  | some (id, e) =>
    { e with
      conns := e.conns ++ [⟨e.nextUid, src, newIn e.cfg id m.src f i s p⟩]
      rconns := dput e.rconns (src, m.src) e.nextUid
      nextUid := e.nextUid + 1 }

/-- `t in (NoRes, ConnConf, DiscInit, DiscConf)`, nsp.py 228.  A received Disconnect Confirm is
always of class `DiscConf`, whatever its reason: see `Verif.NspPkt.discConf_class`. -/
def isReply : Body → Bool
  | .connConf .. | .discInit .. | .discConf _ => true
  | _ => false

/-- `t in (AckConn, NoRes, DiscConf, DiscComp, NoLink, AckData, AckOther)`, nsp.py 258-259. -/
def isSilent : Body → Bool
  | .ackConn | .discConf _ | .ackData | .ackOther => true
  | _ => false

/-- Note the remote link address of an outgoing connection, nsp.py 223-231. -/
def Ent.learn (e : Ent) (src : Peer) (m : Msg) : Ent :=
  match e.find m.dst with
  | none => e
  | some x =>
    if (x.conn.state = .ci ∨ x.conn.state = .cd) ∧ isReply m.body = true ∧ x.conn.dstaddr = 0 then
      { (e.run x (.learn m.src)).1 with rconns := dput e.rconns (src, m.src) x.uid }
    else e

/-- The mapping checks, nsp.py 216-254, after `learn`. -/
def Ent.mapped (e : Ent) (src : Peer) (m : Msg) : Option CEnt :=
  match e.find m.dst with
  | none => none
  | some x =>
    let ok := if x.conn.state = .ci ∨ x.conn.state = .cd then isReply m.body || m.body == .ackConn
      else m.body != .ackConn
    if ok = true ∧ ¬ (src ≠ x.dest ∧ x.dest.isNode = true) ∧
        (m.body = .ackConn ∨ m.src = x.conn.dstaddr) then some x
    else none

/-- `NSP.dispatch`, nsp.py 155-274. -/
def Ent.dispatch (e : Ent) (src : Peer) (rts : Bool) (m : Msg) : Ent × Option Err :=
  match m.body with
  | .connInit _ f i s p =>
    if rts = true then
      match e.find m.src with
      | none => (e, none)
      | some x => if x.conn.state = .ci then e.run x (.recv m) else (e, none)
    else
      match dget e.rconns (src, m.src) with
      | none => (e.inbound src m f i s p, none)
      | some u =>
        match e.byUid u with
        | none => (e, none)
        | some x =>
          if x.conn.state = .cr ∨ x.conn.state = .cc then e.run x (.recv m) else (e, none)
  | _ =>
    match (e.learn src m).mapped src m with
    | some x => (e.learn src m).run x (.recv m)
    | none =>
      if isSilent m.body = true then (e.learn src m, none)
      else ((e.learn src m).reserved src m, none)

/-- Why `NSP.connect` fails. -/
inductive ConnErr | connectionLimit | unknownNode
  deriving DecidableEq, Repr

/-- `NSP.connect` and `Connection.__init__` for an outgoing connection, nsp.py 149-154, 1003-1008
and 1062-1098.  `dest` is `none` if the name is not in the node database: the exception comes
after the link address was taken. -/
def Ent.connect (e : Ent) (dest : Option Peer) (p : Bytes) : Ent × Option ConnErr :=
  match e.getId with
  | none => (e, some .connectionLimit)
  | some (id, e) =>
    match dest with
    | none => (e, some .unknownNode)
    | some d =>
      ({ e with
          conns := e.conns ++ [⟨e.nextUid, d, newOut e.cfg id p⟩]
          nextUid := e.nextUid + 1 }, none)

/-- Events of the entity. -/
inductive EEv
  | connect (dest : Option Peer) (p : Bytes)
  | packet (src : Peer) (rts : Bool) (m : Msg)
  /-- a timeout or call of an open connection -/
  | conn (u : Nat) (v : Ev)
  deriving DecidableEq, Repr

/-- A step of the entity that does not stop the node. -/
inductive EStep (e : Ent) : EEv → Ent → Prop
  | connect (dest : Option Peer) (p : Bytes) : EStep e (.connect dest p) (e.connect dest p).1
  | packet (src : Peer) (rts : Bool) (m : Msg) (h : (e.dispatch src rts m).2 = none) :
      EStep e (.packet src rts m) (e.dispatch src rts m).1
  | conn (u : Nat) (v : Ev) (x : CEnt) (hx : e.byUid u = some x) (hv : Enabled x.conn v)
      (hr : ∀ m, v ≠ .recv m) (hl : ∀ a, v ≠ .learn a)
      (h : (Nsp.step x.conn v).2 = none ∨ v.isCall = true) :
      EStep e (.conn u v) (e.run x v).1

/-- Executions of the entity. -/
inductive EReach (e0 : Ent) : List EEv → Ent → Prop
  | nil : EReach e0 [] e0
  | snoc {es : List EEv} {e e' : Ent} {v : EEv} : EReach e0 es e → EStep e v e' →
      EReach e0 (es ++ [v]) e'

end Verif.NspMap
