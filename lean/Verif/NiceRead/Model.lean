/-!
# Reading the nodes

Model of the answer of a node to a NICE read request for nodes: `Node.nice_read` (node.py 444-502), the parts of NSP
(nsp.py 450-536), Routing (routing.py 509-619, 1303-1322), the circuits (route_eth.py 168-188, route_ptp.py
1008-1028) that handle such a request, and the dictionary of replies (nicepackets.py 316-374).

Simplifications: a node address is a number; names are lists of code points.  A set of counters is a number.  A delay
is given in thousandths of a second.  The characteristics of the executor are one flag, except for the ones the layers
set under a condition.  A request that raises an exception has no result: what it left in the node database is not
modelled.
-/

namespace Verif.NiceRead

abbrev Str := List Nat

/-- An entry of the node database, node.py 61-124 and nsp.py 64-79.  `loop` is the circuit, for a loop node. -/
structure Node where
  addr : Nat
  name : Str
  loop : Option Str := none
  delay : Nat := 0
  used : Bool := false
  counters : Nat := 0
  deriving DecidableEq, Repr

/-- The node database, node.py 145-146: the values of `nodeinfo_byid` in order, and `nodeinfo_byname`.  The key of a
loop node in `nodeinfo_byid` is its circuit (node.py 239), that of another node its address (node.py 234, 267). -/
structure Db where
  byid : List Node
  byname : List (Str × Node)
  deriving DecidableEq, Repr

/-- `nodeinfo_byid[a]` for an address. -/
def Db.find (db : Db) (a : Nat) : Option Node :=
  db.byid.find? fun n => n.loop.isNone && n.addr == a

/-- `nodeinfo_byname[s]`. -/
def Db.named (db : Db) (s : Str) : Option Node :=
  (db.byname.find? fun p => p.1 == s).map (·.2)

/-- Exceptions that are not caught before the session control layer. -/
inductive Err where
  /-- `ValueError` of `Nodeid`, common.py 321-322. -/
  | badAddr
  /-- `IndexError`. -/
  | index
  /-- `AttributeError`. -/
  | attribute
  /-- `UnboundLocalError`. -/
  | unbound
  /-- No neighbour: `None` as a node address. -/
  | noNode
  deriving DecidableEq, Repr

/-- Acceptable to `Nodeid` as an integer, common.py 303-322. -/
def validAddr (a : Nat) : Bool :=
  a < 65536 && (a % 1024 != 0 || a / 1024 == 0)

/-- `Node.nodeinfo` for an address, node.py 242-268, with `add`.  `name` is the name of the argument, if it has one
(common.py 368-369). -/
def Db.nodeinfo (db : Db) (a : Nat) (name : Str := []) : Except Err (Node × Db) :=
  match db.find a with
  | some n => .ok (n, db)
  | none =>
    if validAddr a then
      .ok (⟨a, name, none, 0, false, 0⟩, { db with byid := db.byid ++ [⟨a, name, none, 0, false, 0⟩] })
    else
      .error .badAddr

/-- A reply record for a node: the entity (address, name, executor flag) and the parameters. -/
structure Rec where
  addr : Nat
  name : Str
  executor : Bool := false
  state : Option Nat := none
  links : Option Nat := none
  delay : Option Nat := none
  adjCircuit : Option Str := none
  nextNode : Option Nat := none
  hops : Option Nat := none
  cost : Option Nat := none
  adjType : Option Nat := none
  /-- The circuit of a loop node. -/
  circuit : Option Str := none
  counters : Option Nat := none
  /-- Characteristics from NSP. -/
  eclChar : Bool := false
  /-- Characteristics from Routing. -/
  routChar : Bool := false
  ident : Bool := false
  swIdent : Bool := false
  physAddr : Option Nat := none
  mgmtVersion : Bool := false
  deriving DecidableEq, Repr

/-- The dictionary of replies, in the order of insertion.  Node addresses are integers and the integer is the key,
whatever the class (common.py 276, node.py 99-105). -/
abbrev Resp := List (Nat × Rec)

structure St where
  db : Db
  resp : Resp
  deriving DecidableEq, Repr

/-- `k in resp`. -/
def Resp.has (r : Resp) (k : Nat) : Bool := r.any fun p => p.1 == k

/-- The record of `k`. -/
def Resp.get (r : Resp) (k : Nat) : Option Rec := (r.find? fun p => p.1 == k).map (·.2)

/-- Set attributes of the record of `k`. -/
def Resp.upd (r : Resp) (k : Nat) (f : Rec → Rec) : Resp :=
  r.map fun p => if p.1 == k then (p.1, f p.2) else p

/-- `resp[k]`: `KPdict.__getitem__` and `NodeReplyDict.makeitem`, nicepackets.py 317-323 and 331-350; then attributes
are set.  `name` is the name of `k`. -/
def St.set (s : St) (k : Nat) (name : Str) (f : Rec → Rec) : Except Err St :=
  if s.resp.has k then
    .ok { s with resp := s.resp.upd k f }
  else if validAddr k then
    (s.db.nodeinfo k name).map fun p =>
      { db := p.2, resp := s.resp ++ [(k, f { addr := p.1.addr, name := p.1.name })] }
  else
    .error .badAddr

/-- An adjacency: the neighbour, its circuit, and the phase and type of the neighbour, adjacency.py 17-42. -/
structure Adj where
  node : Nat
  circuit : Str
  phase : Nat := 4
  ntype : Nat := 3
  deriving DecidableEq, Repr

/-- An element of the output adjacency vector that is not "unreachable". -/
inductive Hop where
  | self
  | via (a : Adj)
  deriving DecidableEq, Repr

/-- A neighbour on a LAN. -/
structure LanAdj where
  node : Nat
  up : Bool
  ntype : Nat := 3
  blksize : Nat := 576
  t4 : Nat := 0
  deriving DecidableEq, Repr

/-- A circuit.  `ptp`: whether it runs, the address of the neighbour (zero if there is none), its phase and type.
`lan`: the adjacencies, in the order of the dictionary, and the cost. -/
inductive Circ where
  | ptp (running : Bool) (id phase ntype : Nat)
  | lan (adjs : List LanAdj) (cost : Nat)
  deriving DecidableEq, Repr

/-- The type of node, routing_packets.py 16-19. -/
inductive Kind where
  | phase2
  | l2router
  | l1router
  | endnode
  deriving DecidableEq, Repr

/-- What the layers know.  `conns` has, for every connection of NSP, the address of the remote node (zero for a loop
node, node.py 110).  The routing vectors are functions; `maxnodes` and `maxarea` are their last indices. -/
structure World where
  kind : Kind
  exec : Nat
  maxnodes : Nat
  maxarea : Nat
  oadj : Nat → Option Hop
  minhops : Nat → Nat
  mincost : Nat → Nat
  aoadj : Nat → Option Hop
  aminhops : Nat → Nat
  amincost : Nat → Nat
  circuits : List (Str × Circ)
  conns : List Nat

/-- A read request for nodes after `node.nice_read` has dealt with names: code of the entity, value of the entity (for
one node and for a wildcard) with its name, type of information, and circuit qualifier (code and name). -/
structure Req where
  code : Int
  value : Nat
  vname : Str
  info : Nat
  qual : Option (Int × Str)
  deriving DecidableEq, Repr

-- Predicates of requests, nicepackets.py 1118-1164.
def Req.sumstat (q : Req) : Bool := q.info < 2
def Req.summary (q : Req) : Bool := q.info == 0
def Req.stat (q : Req) : Bool := q.info == 1
def Req.char (q : Req) : Bool := q.info == 2
def Req.counters (q : Req) : Bool := q.info == 3
def Req.mult (q : Req) : Bool := q.code < 0
def Req.known (q : Req) : Bool := q.code == -1 || q.code == -6 || q.code == -7
def Req.loop (q : Req) : Bool := q.code == -3
def Req.adj (q : Req) : Bool := q.code == -4
def Req.sig (q : Req) : Bool := q.code == -5

/-- Number of connections to a node, nsp.py 463-466 and 523-526. -/
def World.links (w : World) (a : Nat) : Nat := w.conns.countP (· == a)

/-- What `NSP.read_node` sets, nsp.py 455-487. -/
def World.eclSet (w : World) (q : Req) (n : Node) (r : Rec) : Rec :=
  if q.sumstat then
    { r with
      addr := n.addr, name := n.name, executor := false,
      links := if w.links n.addr ≠ 0 then some (w.links n.addr) else r.links,
      delay := if n.delay ≠ 0 then some (if n.delay / 1000 = 0 then 1 else n.delay / 1000) else r.delay }
  else if q.char then
    { r with
      addr := n.addr, name := n.name, executor := false,
      circuit := if n.loop.isSome then n.loop else r.circuit,
      eclChar := r.eclChar || n.addr == w.exec }
  else
    { r with addr := n.addr, name := n.name, executor := false, counters := some n.counters }

/-- `NSP.read_node`, nsp.py 450-487. -/
def World.eclNode (w : World) (q : Req) (n : Node) (s : St) : Except Err St :=
  s.set n.addr n.name (w.eclSet q n)

/-- Whether NSP includes a node in the answer to a plural request, nsp.py 507-528. -/
def World.eclWants (w : World) (q : Req) (n : Node) : Bool :=
  if q.known || (n.addr == w.exec && !q.loop) then true
  else if q.loop then n.loop.isSome
  else if q.sig && ((q.counters && n.used) || (q.sumstat && n.delay != 0)) then true
  else w.links n.addr != 0

/-- The loop over the node table, nsp.py 503-528. -/
def World.eclAll (w : World) (q : Req) : List Node → St → Except Err St
  | [], s => .ok s
  | n :: ns, s =>
    if w.eclWants q n then
      match w.eclNode q n s with
      | .ok s' => w.eclAll q ns s'
      | .error e => .error e
    else
      w.eclAll q ns s

/-- The node NSP uses for a request for one node, nsp.py 532-535.  The keys of `nodeinfo_byname` are strings: a node
is not found there (equal hashes of a string and a number are left out). -/
def eclOne (db : Db) (q : Req) : Except Err Node :=
  match (if q.value = 0 then none else db.find q.value) with
  | some n => .ok n
  | none => (db.nodeinfo q.value q.vname).map (·.1)

/-- `NSP.nice_read` for a node request, nsp.py 497-536. -/
def World.ecl (w : World) (q : Req) (s : St) : Except Err St :=
  if q.adj then .ok s
  else if q.mult then w.eclAll q s.db.byid s
  else
    match eclOne s.db q with
    | .ok n => w.eclNode q n s
    | .error e => .error e

/-- NICE node type from phase and type, routing.py 552-557, route_ptp.py 1021-1026. -/
def niceType (phase ntype : Nat) : Nat :=
  if phase = 4 then ntype + 2
  else if phase = 3 then if ntype = 3 then 1 else 0
  else 2

/-- What a point to point circuit sets for its neighbour, route_ptp.py 1017-1028. -/
def ptpSet (name : Str) (id phase ntype : Nat) (q : Req) (r : Rec) : Rec :=
  if q.stat then { r with adjCircuit := some name, adjType := some (niceType phase ntype) }
  else { r with adjCircuit := some name, nextNode := some id }

/-- What a LAN circuit sets for a neighbour, route_eth.py 178-188. -/
def lanSet (name : Str) (cost : Nat) (a : LanAdj) (q : Req) (r : Rec) : Rec :=
  if q.stat then
    { r with adjCircuit := some name, adjType := some (a.ntype + 2), hops := some 1, cost := some cost }
  else { r with adjCircuit := some name, nextNode := some a.node }

/-- `adjnode` for every adjacency (the sort keys), route_eth.py 171-172, adjacency.py 51-53. -/
def adjnodes : List LanAdj → Db → Except Err Db
  | [], db => .ok db
  | a :: as, db =>
    match db.nodeinfo a.node with
    | .ok p => adjnodes as p.2
    | .error e => .error e

/-- The loop over the adjacencies of a LAN, route_eth.py 171-188. -/
def lanLoop (name : Str) (cost : Nat) (q : Req) : List LanAdj → St → Except Err St
  | [], s => .ok s
  | a :: as, s =>
    if a.up && (q.mult || q.value == a.node) then
      match s.set a.node [] (lanSet name cost a q) with
      | .ok s' => lanLoop name cost q as s'
      | .error e => .error e
    else
      lanLoop name cost q as s

/-- `nice_read` of a circuit for a node request, route_eth.py 169-188, route_ptp.py 1009-1028.  The neighbour is
looked up first, so the record always finds it in the database and takes its name from there. -/
def Circ.read (name : Str) (q : Req) : Circ → St → Except Err St
  | .ptp running id phase ntype, s =>
    if q.sumstat && !q.loop && running then
      if id = 0 then
        if q.mult then .error .noNode else .ok s
      else
        match s.db.nodeinfo id with
        | .error e => .error e
        | .ok p =>
          if q.mult || q.value == id then { s with db := p.2 }.set id [] (ptpSet name id phase ntype q)
          else .ok { s with db := p.2 }
    else .ok s
  | .lan adjs cost, s =>
    if q.sumstat && !q.loop then
      match adjnodes adjs s.db with
      | .error e => .error e
      | .ok db => lanLoop name cost q (adjs.mergeSort fun a b => a.node ≤ b.node) { s with db := db }
    else .ok s

/-- The loop over the circuits, routing.py 612-614. -/
def circLoop (q : Req) (qual : Option Str) : List (Str × Circ) → St → Except Err St
  | [], s => .ok s
  | c :: cs, s =>
    if qual.isNone || qual == some c.1 then
      match c.2.read c.1 q s with
      | .ok s' => circLoop q qual cs s'
      | .error e => .error e
    else
      circLoop q qual cs s

/-- What `L1Router.reach` sets for a reachable node, routing.py 1312-1319. -/
def World.reachSet (w : World) (q : Req) (i : Nat) (a : Adj) (r : Rec) : Rec :=
  if q.stat then
    { r with state := some 4, adjCircuit := some a.circuit, hops := some (w.minhops i), cost := some (w.mincost i) }
  else { r with state := some 4, adjCircuit := some a.circuit, nextNode := some a.node }

/-- `node.nodeinfo` for the next hop, without use of the result, routing.py 563 and 1319. -/
def St.know (s : St) (a : Nat) : Except Err St :=
  (s.db.nodeinfo a).map fun p => { s with db := p.2 }

/-- One turn of the loop of `L1Router.reach`, routing.py 1305-1322.  `qual` is a circuit name; an empty one is no
qualifier. -/
def World.reachStep (w : World) (q : Req) (qual : Option Str) (i : Nat) (s : St) : Except Err St :=
  match w.oadj i with
  | some .self => .ok s
  | some (.via a) =>
    if qual.isSome && qual != some [] && qual != some a.circuit then .ok s
    else
      match s.set (w.exec / 1024 * 1024 + i) [] (w.reachSet q i a) with
      | .error e => .error e
      | .ok s' => if q.stat then .ok s' else s'.know a.node
  | none =>
    if q.code == -1 || s.resp.has (w.exec / 1024 * 1024 + i) then
      s.set (w.exec / 1024 * 1024 + i) [] fun r => { r with state := some 5 }
    else .ok s

/-- The loop of `L1Router.reach`, routing.py 1304-1322. -/
def World.reachLoop (w : World) (q : Req) (qual : Option Str) : List Nat → St → Except Err St
  | [], s => .ok s
  | i :: is, s =>
    match w.reachStep q qual i s with
    | .ok s' => w.reachLoop q qual is s'
    | .error e => .error e

/-- `reach`, routing.py 654-655 and 1303-1322. -/
def World.reach (w : World) (q : Req) (qual : Option Str) (s : St) : Except Err St :=
  match w.kind with
  | .l1router | .l2router => w.reachLoop q qual (List.range' 1 w.maxnodes) s
  | _ => .ok s

/-- The output adjacency for one node, routing.py 528-539, and the index of the distance if it is shown. -/
def World.hopOf (w : World) (a : Nat) : Except Err (Nat × Option Hop) :=
  if w.kind = .phase2 then .error .attribute
  else if a / 1024 = w.exec / 1024 then
    if a % 1024 ≤ w.maxnodes then .ok (a % 1024, w.oadj (a % 1024)) else .error .index
  else if w.kind = .l2router then
    if a / 1024 ≤ w.maxarea then .ok (0, w.aoadj (a / 1024)) else .error .index
  else .ok (0, w.oadj 0)

/-- What `BaseRouter.read_node` sets for a reachable node, routing.py 543-563. -/
def World.routSet (w : World) (q : Req) (tid : Nat) (a : Adj) (r : Rec) : Rec :=
  if q.stat then
    { r with
      state := some 4, adjCircuit := some a.circuit,
      hops := if tid ≠ 0 then some (w.minhops tid) else r.hops,
      cost := if tid ≠ 0 then some (w.mincost tid) else r.cost,
      adjType := if q.value = a.node then some (niceType a.phase a.ntype) else r.adjType }
  else { r with state := some 4, adjCircuit := some a.circuit, nextNode := some a.node }

/-- `BaseRouter.read_node` for summary and status, routing.py 526-566. -/
def World.routOne (w : World) (q : Req) (s : St) : Except Err St :=
  if q.sumstat && w.kind != .endnode then
    match w.hopOf q.value with
    | .error e => .error e
    | .ok (_, some .self) => .ok s
    | .ok (tid, some (.via a)) =>
      match s.set q.value q.vname (w.routSet q tid a) with
      | .error e => .error e
      | .ok s' => if q.stat then .ok s' else s'.know a.node
    | .ok (_, none) => s.set q.value q.vname fun r => { r with state := some 5 }
  else .ok s

/-- The one circuit of an endnode, routing.py 672-674 and 608-609. -/
def World.endCirc (w : World) (q : Req) (s : St) : Except Err St :=
  if w.kind = .endnode then
    match w.circuits.getLast? with
    | some c => c.2.read c.1 q s
    | none => .ok s
  else .ok s

/-- The circuit qualifier, routing.py 581-592 (the two codes for it are one here): `none` if it is another plural, for
which the method returns; else the name, or none. -/
def Req.pick (q : Req) : Option (Option Str) :=
  match q.qual with
  | none => some none
  | some (c, v) => if c = -1 then some none else if c < 0 then none else some (some v)

/-- `BaseRouter.nice_read` for a node request, routing.py 579-618. -/
def World.rout (w : World) (q : Req) (s : St) : Except Err St :=
  match q.pick with
  | none => .ok s
  | some qual =>
    if q.counters then .ok s
    else if q.char then
      if (!q.mult && q.value == w.exec) || (q.mult && !q.adj && !q.loop) then
        s.set w.exec [] fun r => { r with routChar := true }
      else .ok s
    else if !q.mult then
      match w.routOne q s with
      | .ok s' => w.endCirc q s'
      | .error e => .error e
    else
      match circLoop q qual w.circuits s with
      | .error e => .error e
      | .ok s' => if !q.adj && !q.loop then w.reach q qual s' else .ok s'

/-- What `Node.nice_read` sets for the executor, node.py 487-501. -/
def execSet (w : World) (q : Req) (r : Rec) : Rec :=
  { r with
    executor := true,
    ident := r.ident || q.summary || q.char,
    swIdent := r.swIdent || q.char,
    physAddr := if q.stat then some w.exec else r.physAddr,
    state := if q.sumstat then some 0 else r.state,
    mgmtVersion := r.mgmtVersion || q.char }

/-- The layers in order and the executor, node.py 472-502 (session control, the data link layer and MOP have nothing to
say about nodes: session.py 720-721, datalink.py 93-120, mop.py 397-400). -/
def World.layers (w : World) (q : Req) (db : Db) : Except Err St :=
  match w.ecl q ⟨db, []⟩ with
  | .error e => .error e
  | .ok s =>
    match w.rout q s with
    | .error e => .error e
    | .ok s' => .ok { s' with resp := s'.resp.upd w.exec (execSet w q) }

/-- The entity of a request as it is decoded, nicepackets.py 903-933: an address, a name, a plural code, or a wildcard
with an address. -/
inductive Ent where
  | addr (a : Nat)
  | name (s : Str)
  | plural (code : Int)
  | wild (code : Int) (a : Nat)
  deriving DecidableEq, Repr

/-- The executor and names, node.py 445-462. -/
def World.resolve (w : World) (db : Db) (info : Nat) (qual : Option (Int × Str)) : Ent → Option Req
  | .addr a => some ⟨0, if a = 0 then w.exec else a, [], info, qual⟩
  | .wild c a => some ⟨c, if a = 0 then w.exec else a, [], info, qual⟩
  | .plural c => some ⟨c, 0, [], info, qual⟩
  | .name s => (db.named s).map fun n => ⟨0, n.addr, n.name, info, qual⟩

/-- `NodeReqEntity.match`, nicepackets.py 945-948. -/
def Req.matches (q : Req) (k : Nat) : Bool :=
  q.code ≥ -5 || (q.code == -6 && k / 1024 == q.value / 1024) || (q.code == -7 && k % 1024 == q.value % 1024)

/-- `NodeReplyDict.sorted`, nicepackets.py 352-374.  All keys are addresses, so the last loop has nothing to do. -/
def World.sorted (w : World) (q : Req) (r : Resp) : List (Nat × Rec) :=
  (r.filter fun p => p.1 == w.exec && q.matches p.1) ++
    ((r.mergeSort fun a b => a.1 ≤ b.1).filter fun p => p.1 != w.exec && q.matches p.1)

/-- What is sent: an error code or the records, in order. -/
inductive Reply where
  | code (c : Int)
  | recs (rs : List Rec)
  deriving DecidableEq, Repr

/-- The reply to a read request for nodes: `Node.nice_read`, node.py 444-502, as it is used by modules/nml.py 155-173. -/
def World.answer (w : World) (db : Db) (e : Ent) (info : Nat) (qual : Option (Int × Str)) : Except Err Reply :=
  match w.resolve db info qual e with
  | none => .ok (.code (-8))
  | some q =>
    if info = 4 then .ok (.code (-1))
    else
      match w.layers q db with
      | .error e => .error e
      | .ok s =>
        if s.resp.isEmpty && !q.mult then .ok (.code (-8))
        else .ok (.recs ((w.sorted q s.resp).map (·.2)))

end Verif.NiceRead
