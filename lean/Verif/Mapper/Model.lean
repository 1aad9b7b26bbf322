/-!
# The network mapper: `decnet/mapper.py`

The data of the map, the poller of one node and the state machine that runs
scans.  Drawing of the map is in `Verif.MapDraw`; the location tables and the text of the node
database are left out.
-/

namespace Verif.Mapper

/-- A node address. -/
abbrev Id := Nat

/-! ## Dictionaries -/

/-- `d[k]`: look up a key (mapper.py:694-697 and the other uses of
dictionaries). -/
def get {α β : Type} [DecidableEq α] (d : List (α × β)) (k : α) : Option β :=
  match d with
  | [] => none
  | (a, b) :: r => if a = k then some b else get r k

/-- `d[k] = v`: an entry that is there keeps its place (mapper.py:707). -/
def put {α β : Type} [DecidableEq α] (d : List (α × β)) (k : α) (v : β) :
    List (α × β) :=
  match d with
  | [] => [(k, v)]
  | (a, b) :: r => if a = k then (a, v) :: r else (a, b) :: put r k v

/-- `del d[k]` (mapper.py:716). -/
def del {α β : Type} [DecidableEq α] (d : List (α × β)) (k : α) : List (α × β) :=
  d.filter fun e => e.1 ≠ k

/-! ## Map items -/

/-- mapper.py:535-537 `MapItem`: times in seconds. -/
structure Item where
  seen : Nat := 0
  down : Nat := 0
  up : Nat := 0
  deriving DecidableEq, Repr

/-- mapper.py:539-561 `MapItem.update`. -/
def Item.update (i : Item) (up : Bool) (ts : Nat) : Item × Bool :=
  if up then
    let i := { i with seen := ts }
    if i.up ≤ i.down then ({ i with up := ts }, true) else (i, false)
  else if i.up > i.down then ({ i with down := ts }, false)
  else (i, false)

/-- mapper.py:64-67, the health codes. -/
inductive Health where
  | gone | fade | down | up
  deriving DecidableEq, Repr

/-- mapper.py:563-572 `MapItem.health`; 14 and 60 days. -/
def Item.health (lastscan : Nat) (i : Item) : Health :=
  if i.up > i.down then .up
  else
    let dtime : Int := (lastscan : Int) - (i.down : Int)
    if dtime > 60 * 86400 then .gone
    else if dtime > 14 * 86400 then .fade
    else .down

/-- mapper.py:574-577 `MapItem.testdown`. -/
def Item.testdown (i : Item) (ts : Nat) : Item :=
  if i.seen < ts then (i.update false ts).1 else i

/-- mapper.py:610-618 `MapNode`, and the attributes `dbupdate` adds
(mapper.py:1684-1687).  Keys of `adj` are the circuit and the neighbour. -/
structure MNode where
  id : Id
  name : String
  typ : Option Nat := none
  ident : String := ""
  loc : String := ""
  owner : Option String := none
  time : Option Nat := none
  latlong : Option (Int × Int) := none
  it : Item := {}
  adj : List ((String × Id) × Item) := []
  deriving DecidableEq, Repr

/-- mapper.py:640-645 `MapNode.testdown`. -/
def MNode.testdown (n : MNode) (ts : Nat) : MNode :=
  { n with it := n.it.testdown ts, adj := n.adj.map fun e => (e.1, e.2.testdown ts) }

/-- mapper.py:675-682 `Mapdata`.  Node objects are numbered in the order in
which they are made; the tables refer to them by number. -/
structure Map where
  obj : Nat → MNode
  next : Nat
  nodes : List (Id × Nat)
  names : List (String × Nat)

/-- Change an object (attribute assignments such as mapper.py:1012-1013). -/
def Map.mod (m : Map) (r : Nat) (f : MNode → MNode) : Map :=
  { m with obj := fun k => if k = r then f (m.obj r) else m.obj k }

/-- The attributes of a new object that are copied to an old one
(mapper.py:698-700): all but `id` and those that are `None`. -/
def MNode.over (n old : MNode) : MNode :=
  { id := old.id
    name := n.name
    typ := n.typ.orElse fun _ => old.typ
    ident := n.ident
    loc := n.loc
    owner := n.owner.orElse fun _ => old.owner
    time := n.time.orElse fun _ => old.time
    latlong := n.latlong.orElse fun _ => old.latlong
    it := n.it
    adj := n.adj }

/-- mapper.py:706-718, the `except KeyError` branch of `addnode`, for object
`r`. -/
def Map.enter (m : Map) (r : Nat) : Map :=
  let n := m.obj r
  let m := { m with nodes := put m.nodes n.id r }
  if n.name = "" then m
  else
    let m := match get m.names n.name with
      | none => m
      | some o =>
        -- KeyError if the old entry is not in the table (ignored)
        { m with nodes := del m.nodes (m.obj o).id }
    { m with names := put m.names n.name r }

/-- mapper.py:694-718 `Mapdata.addnode`.  If the name changes and the old name
is not in the table of names, `del` raises KeyError and the new object takes
the place of the old. -/
def Map.addnode (m : Map) (n : MNode) : Map × Nat :=
  let r := m.next
  let m := { m with obj := (fun k => if k = r then n else m.obj k), next := r + 1 }
  match get m.nodes n.id with
  | none => (m.enter r, r)
  | some o =>
    let oldname := (m.obj o).name
    let m := m.mod o fun old => n.over old
    if oldname = (m.obj o).name then (m, r)
    else match get m.names oldname with
      | none => (m.enter r, r)
      | some _ => ({ m with names := put (del m.names oldname) (m.obj o).name o }, r)

/-- mapper.py:1488-1498 `Mapper.mapnode`: the entry of a node, made if there
is none.  What it returns in the latter case is the object it made. -/
def Map.mapnode (m : Map) (i : Id) (name : String) : Map × Nat :=
  match get m.nodes i with
  | some r => (m, r)
  | none => m.addnode { id := i, name := name }

/-- mapper.py:1500-1508 `Mapper.mapadj`, followed by `update` (the two are
always used together). -/
def Map.adjUpdate (m : Map) (r : Nat) (circ : String) (j : Id) (up : Bool)
    (ts : Nat) : Map × Bool :=
  let a := ((get (m.obj r).adj (circ, j)).getD {}).update up ts
  (m.mod r fun n => { n with adj := put n.adj (circ, j) a.1 }, a.2)

/-- `update` of a node object (mapper.py:1139). -/
def Map.nodeUpdate (m : Map) (r : Nat) (up : Bool) (ts : Nat) : Map :=
  m.mod r fun n => { n with it := (n.it.update up ts).1 }

/-- mapper.py:1518-1570 `update_map`: as far as the map is concerned, the
neighbours of all nodes are entered. -/
def Map.updateMap (m : Map) : Map :=
  (m.nodes.flatMap fun e => (m.obj e.2).adj.map fun a => a.1.2).foldl
    (fun m j => (m.mapnode j "").1) m

/-! ## Pollers -/

/-- What a reply says, as far as it is used (mapper.py:1003-1174); one record
for all reply classes.  Addresses are valid ones. -/
structure Reply where
  /-- `str (r.entity)` of a circuit or line -/
  circ : String := ""
  /-- `Nodeid (r.entity)` and its name -/
  node : Id := 0
  nodename : String := ""
  /-- `adjacent_node` of a circuit -/
  adjacent : Option Id := none
  /-- `adjacent_node` of a Phase II line: a name -/
  adjName : String := ""
  typ : Option Nat := none
  /-- `identification`, or `system` of a Phase II executor -/
  ident : String := ""
  adjType : Option Nat := none
  links : Nat := 0
  hops : Option Nat := none
  deriving DecidableEq, Repr

/-- The requests (mapper.py:774-794), each with its handler. -/
inductive Req where
  | exec | p2exec | knocirc | p2line | actnode
  deriving DecidableEq, Repr

/-- Decoding of replies: an arbitrary function of the request and the message
(mapper.py:911, 954), and the count of a first Phase II message
(mapper.py:899). -/
structure Dec where
  reply : Req → List UInt8 → Option Reply
  count : List UInt8 → Option Nat

/-- States of a poller (mapper.py:817, 838, 877). -/
inductive PSt where
  | s0 | connecting | polling
  deriving DecidableEq, Repr

/-- mapper.py:803-815 `NodePoller`.  `live`: Session Control still knows the
connection, so that items for it are delivered; `dones`: how many `PollDone`
have been sent. -/
structure Poller where
  ts : Nat
  cur : Nat
  id : Id
  st : PSt := .s0
  conn : Bool := false
  live : Bool := false
  todo : List Id := []
  phase2 : Bool := false
  req : Req := .exec
  replies : List Reply := []
  mult : Bool := false
  resp : Option Int := none
  timer : Bool := false
  dones : Nat := 0
  deriving DecidableEq, Repr

/-- What can be seen of the mapper from outside. -/
inductive Out where
  /-- a scan begins (mapper.py:1363, 1389) -/
  | scan (full : Bool) (ts : Nat)
  /-- a poll is started (mapper.py:1435) -/
  | polled (i : Id)
  /-- the executor answered, or a node was reported (objects, mapper.py:842,
  870, 1139) -/
  | saw (r : Nat)
  /-- a circuit was reported up (mapper.py:1060, 1113) -/
  | sawAdj (r : Nat) (circ : String) (j : Id)
  /-- a scan ends (mapper.py:1449) -/
  | ended (full : Bool)
  deriving DecidableEq, Repr

/-- A `PollDone` work item (mapper.py:998). -/
abbrev Done := Id × List Id

/-- One poller at work: the map, the poller, what is seen, and what is queued
for the mapper. -/
structure W where
  m : Map
  p : Poller
  out : List Out := []
  q : List Done := []

/-- What the session layer does with the calls made: the outcome of
`send_data` and `disconnect`. -/
structure Env where
  sendOk : Bool := true
  discOk : Bool := true

/-- Items of Session Control (session.py:683-706). -/
inductive Itm where
  | accept (data : List UInt8)
  | reject (reason : Nat)
  | data (msg : List UInt8)
  | disconnect
  | other
  deriving DecidableEq, Repr

/-- mapper.py:990-1001 `finished`.  The state of the poller is left as it is. -/
def W.finished (e : Env) (w : W) : W :=
  let p := w.p
  let p := if p.conn && p.live && e.discOk then { p with live := false } else p
  { w with
    p := { p with timer := false, dones := p.dones + 1 }
    q := w.q ++ [(p.id, p.todo)] }

/-- mapper.py:972-988 `next_request`. -/
def W.next (e : Env) (r : Req) (w : W) : W :=
  if e.sendOk then
    { w with p := { w.p with
        req := r, replies := [], mult := false, resp := none, timer := true, st := .polling } }
  else w.finished e

/-- `self.curnode.update (True, self.pollts)` (mapper.py:842, 870). -/
def W.seen (w : W) : W :=
  { w with m := w.m.nodeUpdate w.p.cur true w.p.ts, out := w.out ++ [.saw w.p.cur] }

/-- mapper.py:1003-1022 `procexec`. -/
def W.procexec (e : Env) (rs : List Reply) (w : W) : W :=
  let w := match rs with
    | [r] => { w with m := w.m.mod w.p.cur fun n =>
        { n with typ := r.typ, ident := r.ident, name := if n.name = "" then r.nodename else n.name } }
    | _ => w
  w.next e .knocirc

/-- mapper.py:1024-1047 `procp2exec`; 2 is `nicepackets.PHASE2`
(nicepackets.py:435). -/
def W.procp2exec (e : Env) (rs : List Reply) (w : W) : W :=
  let w := match rs with
    | [r] => { w with m := w.m.mod w.p.cur fun n =>
        { n with typ := some 2, ident := r.ident, name := if n.name = "" then r.nodename else n.name } }
    | _ => w
  w.next e .p2line

/-- mapper.py:1060-1078: a neighbour `j` on circuit `circ`. -/
def W.neighbour (full : Bool) (area : Bool) (circ : String) (j : Id) (w : W) : W :=
  let a := w.m.adjUpdate w.p.cur circ j true w.p.ts
  let m := if area && decide (j / 1024 ≠ w.p.id / 1024)
    then a.1.mod w.p.cur fun n => { n with typ := some 3 } else a.1
  { w with
    m := m
    p := if full || a.2 then { w.p with todo := w.p.todo ++ [j] } else w.p
    out := w.out ++ [.sawAdj w.p.cur circ j] }

/-- mapper.py:1049-1094 `procknocirc`.  `own` is the mapper's address. -/
def W.procknocirc (e : Env) (full : Bool) (own : Id) (rs : List Reply) (w : W) : W :=
  let w := rs.foldl (fun w r => match r.adjacent with
    | none => w
    | some j => w.neighbour full true r.circ j) w
  let w := { w with m := w.m.mod w.p.cur fun n =>
    { n with adj := n.adj.filter fun a => (rs.map Reply.circ).contains a.1.1 } }
  if w.p.id = own then w.finished e else w.next e .actnode

/-- mapper.py:1096-1119 `procp2line`: neighbours are names, address 0 stands
for a name that is not known. -/
def W.procp2line (e : Env) (full : Bool) (rs : List Reply) (w : W) : W :=
  let w := rs.foldl (fun w r =>
    if r.adjName = "" then w
    else w.neighbour full false r.circ
      (((get w.m.names r.adjName).map fun o => (w.m.obj o).id).getD 0)) w
  w.finished e

/-- mapper.py:1121-1174 `procactnode`. -/
def W.procactnode (e : Env) (full : Bool) (rs : List Reply) (w : W) : W :=
  let w := rs.foldl (fun w r =>
    if r.adjType = none ∧ r.links = 0 ∧ r.hops = none then w
    else
      let a := w.m.mapnode r.node r.nodename
      { w with
        m := a.1.nodeUpdate a.2 true w.p.ts
        p := if full then { w.p with todo := w.p.todo ++ [r.node] } else w.p
        out := w.out ++ [.saw a.2] }) w
  w.finished e

/-- `self.handler (self.replies)` (mapper.py:925, 963). -/
def W.handle (e : Env) (full : Bool) (own : Id) (w : W) : W :=
  let rs := w.p.replies
  match w.p.req with
  | .exec => w.procexec e rs
  | .p2exec => w.procp2exec e rs
  | .knocirc => w.procknocirc e full own rs
  | .p2line => w.procp2line e full rs
  | .actnode => w.procactnode e full rs

/-- An exception: `BaseConnector.dispatch` aborts the connection
(session.py:769-786); the poller is left as it is, with its timer. -/
def W.raise (w : W) : W := { w with p := { w.p with live := false } }

/-- mapper.py:838-875 `connecting`; 39 and 38 are UNREACH and OBJ_FAIL
(session.py:47-48). -/
def W.connecting (e : Env) (w : W) : Itm → W
  | .accept d =>
    let w := w.seen
    let w := { w with p := { w.p with phase2 := d.isEmpty } }
    w.next e (if d.isEmpty then .p2exec else .exec)
  | .reject reason =>
    let w := if reason = 39 ∨ reason = 38 then w else w.seen
    { w with p := { w.p with conn := false } }.finished e
  | _ => w

/-- mapper.py:878-925, the data of a Phase II node. -/
def W.data2 (c : Dec) (e : Env) (full : Bool) (own : Id) (msg : List UInt8) (w : W) : W :=
  let go (n : Int) (w : W) : W :=
    let w := { w with p := { w.p with resp := some n } }
    if n ≠ 0 then { w with p := { w.p with timer := true } } else w.handle e full own
  match w.p.resp with
  | none => match msg with
    | [] => w.raise
    | b :: _ =>
      if b ≠ 1 then w.finished e
      else match c.count msg with
        | none => w.finished e
        | some n => go n w
  | some n => match c.reply w.p.req msg with
    | none => w.finished e
    | some r => go (n - 1) { w with p := { w.p with replies := w.p.replies ++ [r] } }

/-- mapper.py:926-963, the data of a later node. -/
def W.data4 (c : Dec) (e : Env) (full : Bool) (own : Id) (msg : List UInt8) (w : W) : W :=
  match msg with
  | [] => w.raise
  | b :: _ =>
    if b = 128 then w.handle e full own
    else if b > 127 then w.finished e
    else if b = 2 then
      if w.p.replies ≠ [] then w.raise
      else { w with p := { w.p with mult := true, timer := true } }
    else match c.reply w.p.req msg with
      | none => w.finished e
      | some r =>
        let w := { w with p := { w.p with replies := w.p.replies ++ [r] } }
        if w.p.mult then { w with p := { w.p with timer := true } } else w.handle e full own

/-- mapper.py:877-970 `polling`, without the timeout. -/
def W.polling (c : Dec) (e : Env) (full : Bool) (own : Id) (w : W) : Itm → W
  | .data msg => if w.p.phase2 then w.data2 c e full own msg else w.data4 c e full own msg
  | .disconnect => { w with p := { w.p with conn := false } }.finished e
  | _ => w.finished e

/-- An item of Session Control reaches the poller, if the connection is still
known; a closing item removes it (session.py:683-707, 753-766). -/
def W.item (c : Dec) (e : Env) (full : Bool) (own : Id) (i : Itm) (w : W) : W :=
  if !w.p.live then w
  else
    let w := match i with
      | .reject _ | .disconnect => { w with p := { w.p with live := false } }
      | _ => w
    match w.p.st with
    | .s0 => w
    | .connecting => w.connecting e i
    | .polling => w.polling c e full own i

/-- mapper.py:817-836 `s0`: the connection is made.  Exceptions of `connect`
are not modelled (they stop the node). -/
def W.start (w : W) : W :=
  { w with p := { w.p with st := .connecting, conn := true, live := true } }

/-- The timer of the poller: a timeout is an item like others
(mapper.py:967-970).  In the other states it runs never. -/
def W.timeout (e : Env) (w : W) : W :=
  if !w.p.timer then w
  else
    let w := { w with p := { w.p with timer := false } }
    match w.p.st with
    | .polling => w.finished e
    | _ => w

/-! ## The mapper -/

/-- States of the mapper (mapper.py:1327, 1346, 1398). -/
inductive St where
  | s0 | dbupdating | polling
  deriving DecidableEq, Repr

/-- mapper.py:1182-1214 `Mapper`.  `queue`: `PollDone` items on their way;
`thread`: the thread of the database update runs. -/
structure S where
  own : Id
  m : Map
  pollers : List Poller := []
  queue : List Done := []
  todo : List Id := []
  done : List Id := []
  polls : List Id := []
  st : St := .s0
  full : Bool := false
  inc : Bool := false
  first : Bool := false
  forceDb : Bool := true
  forceScan : Bool := true
  pollts : Nat := 0
  lastscan : Nat := 0
  lastupdate : Nat := 0
  timer : Bool := true
  thread : Bool := false
  out : List Out := []

/-- mapper.py:1424-1435, the loop of `nextnode`, over the set in the order in
which it is popped; at most 20 at a time (mapper.py:51-52). -/
def S.pop : List Id → S → S
  | [], s => { s with todo := [] }
  | n :: r, s =>
    if s.polls.length < 20 then
      if n ∈ s.done then S.pop r s
      else
        let a := s.m.mapnode n ""
        S.pop r { s with
          m := a.1
          done := s.done ++ [n]
          polls := s.polls ++ [n]
          pollers := s.pollers ++ [{ ts := s.pollts, cur := a.2, id := n }]
          out := s.out ++ [.polled n] }
    else { s with todo := n :: r }

/-- mapper.py:1455-1486 `finish_poll`, and what follows in `nextnode`
(mapper.py:1449-1453).  If saving fails the timer is stopped, but it is
started again just after. -/
def S.finish (s : S) : S :=
  let m := if s.full then
      { s.m with obj := fun k => if s.m.nodes.any (fun e => e.2 = k)
          then (s.m.obj k).testdown s.pollts else s.m.obj k }
    else s.m
  { s with
    todo := [], done := [], polls := []
    m := m.updateMap
    full := false, inc := false
    timer := true, st := .s0
    out := s.out ++ [.ended s.full] }

/-- mapper.py:1416-1453 `nextnode`.  `pick` is the order in which a set is
popped. -/
def S.nextnode (pick : List Id → List Id) (s : S) : S :=
  let s := s.pop (pick s.todo)
  if s.polls ≠ [] then { s with st := .polling }
  else if s.first then
    let s := { s with first := false, todo := s.m.nodes.map Prod.fst }
    let s := s.pop (pick s.todo)
    if s.polls ≠ [] then { s with st := .polling } else s.finish
  else s.finish

/-- mapper.py:1353-1396 `checkmapscan`. -/
def S.check (now : Nat) (isolated : Bool) (pick : List Id → List Id) (s : S) : S :=
  if isolated then { s with timer := true, st := .s0 }
  else if s.forceScan || decide (s.lastscan + 86400 < now) then
    let todo := s.own :: (s.m.nodes.filter fun e =>
      let n := s.m.obj e.2
      !(((n.typ = some 0 || n.typ = some 1) && decide (n.id / 1024 ≠ s.own / 1024)) || n.typ = some 2)).map Prod.fst
    S.nextnode pick { s with
      forceScan := false, first := true, todo := todo, full := true, inc := false
      lastscan := now, pollts := now, out := s.out ++ [.scan true now] }
  else if s.inc then
    S.nextnode pick { s with first := false, pollts := now, out := s.out ++ [.scan false now] }
  else { s with timer := true, st := .s0 }

/-- mapper.py:1327-1351 `s0`, `startdbupdate`, `dbupdating`. -/
def S.idle (now : Nat) (isolated : Bool) (pick : List Id → List Id) (s : S) : S :=
  match s.st with
  | .s0 =>
    if s.forceDb || decide (s.lastupdate + 86400 < now) then
      { s with forceDb := false, thread := true, st := .dbupdating }
    else s.check now isolated pick
  | .dbupdating => { s with m := s.m.updateMap }.check now isolated pick
  | .polling => s

/-- mapper.py:1398-1414 `polling`, and the other states, given a `PollDone`. -/
def S.polldone (d : Done) (now : Nat) (isolated : Bool) (pick : List Id → List Id)
    (s : S) : S :=
  match s.st with
  | .polling =>
    { s with polls := s.polls.filter (· ≠ d.1), todo := s.todo ++ d.2 }.nextnode pick
  | _ => s.idle now isolated pick

/-- What happens to the mapper.  Times are the clock at the moment. -/
inductive Ev where
  /-- the mapper's timer -/
  | timeout (now : Nat) (isolated : Bool) (pick : List Id → List Id)
  /-- the next `PollDone` is delivered -/
  | deliver (now : Nat) (isolated : Bool) (pick : List Id → List Id)
  /-- the first work item of a poller -/
  | start (k : Nat)
  /-- an item for a poller -/
  | item (k : Nat) (e : Env) (i : Itm)
  /-- the timer of a poller -/
  | ptimeout (k : Nat) (e : Env)
  /-- a circuit or adjacency event -/
  | circ (up : Bool) (src : Id) (c : String) (adj : Id) (now : Nat)
  /-- a reachability event -/
  | reach (node : Id) (ok : Bool) (now : Nat)
  /-- the update thread has a record -/
  | record (n : MNode)
  /-- the update thread ends -/
  | dbEnd (upd : Option Nat)

/-- Run a poller (the work queue calls its `dispatch`, mapper.py:803). -/
def S.withPoller (s : S) (k : Nat) (f : W → W) : S :=
  match s.pollers[k]? with
  | none => s
  | some p =>
    let w := f { m := s.m, p := p }
    { s with
      m := w.m, pollers := s.pollers.set k w.p
      queue := s.queue ++ w.q, out := s.out ++ w.out }

/-- One step.  Events: mapper.py:1235-1325 `handleEvent`, `circ_down`,
`circ_up`, `reach_chg`; thread: mapper.py:1634-1729 `dbupdate`. -/
def S.step (c : Dec) (s : S) : Ev → S
  | .timeout now iso pick =>
    if s.timer then { s with timer := false }.idle now iso pick else s
  | .deliver now iso pick => match s.queue with
    | [] => s
    | d :: q => { s with queue := q }.polldone d now iso pick
  | .start k => s.withPoller k fun w => if w.p.st = .s0 then w.start else w
  | .item k e i => s.withPoller k fun w => w.item c e s.full s.own i
  | .ptimeout k e => s.withPoller k fun w => w.timeout e
  | .circ up src circ adj now =>
    if s.full then s
    else
      let a := s.m.mapnode src ""
      let b := a.1.mapnode adj ""
      { s with
        m := (b.1.adjUpdate a.2 circ adj up now).1
        todo := s.todo ++ [src, adj]
        inc := true, timer := true }
  | .reach n ok now =>
    if s.full then s
    else
      let a := s.m.mapnode n ""
      if ok then { s with m := a.1, todo := s.todo ++ [n], inc := true, timer := true }
      else { s with m := a.1.nodeUpdate a.2 false now, inc := true, timer := true }
  | .record n => if s.thread then { s with m := (s.m.addnode n).1 } else s
  | .dbEnd upd =>
    if s.thread then { s with thread := false, timer := true, lastupdate := upd.getD s.lastupdate }
    else s

/-- A history. -/
def S.run (c : Dec) (s : S) (es : List Ev) : S := es.foldl (S.step c) s

end Verif.Mapper
