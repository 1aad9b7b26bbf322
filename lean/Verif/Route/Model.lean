/-!
# The routing decision and the routing tables (`decnet/routing.py`)

`RouteInfo`, `EndnodesRouteInfo`, `L1Router` and `L2Router`: adjacencies coming up and going down,
received routing messages, and the decision process `doroute`.

Vectors (`bytearray`, `array`, lists indexed by node number or area) are functions on `Nat`; the
index ranges are the `maxnodes` and `maxarea` of the configuration.  Event logging and counters are
left out.  `setsrm` (telling the update process of each circuit what changed) is in `Verif.RUpdate`.
-/
namespace Verif.Route

/-- Adjacencies: the pseudo adjacency to this node (routing.py 106-155 `SelfAdj`), and neighbours;
adjacency objects are dictionary keys by (circuit, node) (adjacency.py 80-88), here numbered. -/
inductive Adj
  | self
  | nbr (k : Nat)
  deriving DecidableEq, Repr

/-- common.py `INFHOPS`, `INFCOST`. -/
def INFHOPS : Nat := 31
def INFCOST : Nat := 1023

/-- A hops and cost vector, routing.py 95-104. -/
abbrev Vec := Nat → Nat × Nat

/-- `allocvecs`, routing.py 95-99: all infinite. -/
def infVec : Vec := fun _ => (INFHOPS, INFCOST)

/-- What one column of the routing matrix offers for one destination: `r.hops[i]`, `r.cost[i]`,
`r.adjacency (i)` (routing.py 811-832); `none` is Python's `None`. -/
structure Col where
  hops : Nat
  cost : Nat
  adj : Option Adj
  deriving DecidableEq, Repr

/-- The result for one destination; `adj = none` is `UNREACHABLE` (a falsy value). -/
structure Best where
  hops : Nat
  cost : Nat
  adj : Option Adj
  deriving DecidableEq, Repr

def unreachable : Best := ⟨INFHOPS, INFCOST, none⟩

/-- One turn of the inner loop of `doroute`, routing.py 990-997.  `r.nodeid` is always `None`
(routing.py 820), so the third alternative of the condition never holds. -/
def stepCol (b : Best) (r : Col) : Best :=
  if r.cost < b.cost ∨ (r.cost = b.cost ∧ b.adj = none) then ⟨r.hops, r.cost, r.adj⟩ else b

/-- `maxcost`, `maxhops`. -/
structure Lim where
  maxcost : Nat
  maxhops : Nat

/-- `doroute` for one destination, routing.py 989-1000. -/
def decision (lim : Lim) (cols : List Col) : Best :=
  let b := cols.foldl stepCol unreachable
  if b.cost > lim.maxcost ∨ b.hops > lim.maxhops then unreachable else b

/-! ## Dictionaries -/

/-- `d[k] = v`: an existing key keeps its position. -/
def dput {V : Type} : List (Adj × V) → Adj → V → List (Adj × V)
  | [], k, v => [(k, v)]
  | (a, x) :: l, k, v => if a = k then (a, v) :: l else (a, x) :: dput l k v

/-- `del d[k]` in a `try`. -/
def ddel {V : Type} (l : List (Adj × V)) (k : Adj) : List (Adj × V) := l.filter (fun p => p.1 ≠ k)

/-- `f[k] = v`. -/
def set {V : Type} (f : Nat → V) (k : Nat) (v : V) : Nat → V := fun i => if i = k then v else f i

/-! ## Routers -/

/-- The configuration of a router; `isL2` distinguishes `L2Router` from `L1Router`. -/
structure Cfg where
  area : Nat
  tid : Nat
  maxnodes : Nat
  maxarea : Nat
  lim : Lim
  /-- `amaxcost`, `amaxhops`, routing.py 1361-1362 -/
  alim : Lim
  isL2 : Bool
  /-- `tiver == tiver_ph4` -/
  ph4 : Bool

/-- One routing matrix with its results. `ends` is the column for end nodes, which keeps an adjacency
for each destination (routing.py 825-832); only level 1 has it.  `cols` are the columns for this node
and for router adjacencies, in dictionary order.  `tbl` is `minhops`, `mincost` and `oadj`. -/
structure Level where
  ends : Nat → Col
  hasEnds : Bool
  cols : List (Adj × Vec)
  tbl : Nat → Best

/-- `routeinfodict.values ()` at index `i`; the end node column was entered first (routing.py 859). -/
def Level.columns (L : Level) (i : Nat) : List Col :=
  (if L.hasEnds then [L.ends i] else []) ++ L.cols.map (fun p => ⟨(p.2 i).1, (p.2 i).2, some p.1⟩)

/-- `doroute (start, end)`, routing.py 972-1012.  The destinations are independent of each other. -/
def Level.route (L : Level) (lim : Lim) (s e : Nat) : Level :=
  { L with tbl := fun i => if s ≤ i ∧ i ≤ e then decision lim (L.columns i) else L.tbl i }

structure Router where
  cfg : Cfg
  l1 : Level
  l2 : Level
  attached : Bool

def noEnds : Nat → Col := fun _ => ⟨INFHOPS, INFCOST, none⟩

/-- `L1Router.__init__` (routing.py 844-859), `L2Router.__init__` (1358-1368) and the adjacency to
this node coming up in `up` (927-931, 877-885, 1374-1383).  No decision is made yet. -/
def init (c : Cfg) : Router :=
  { cfg := c
    l1 :=
      { ends := noEnds
        hasEnds := true
        cols := [(.self, set infVec c.tid (0, 0))]
        tbl := set (fun _ => unreachable) c.tid ⟨INFHOPS, INFCOST, some .self⟩ }
    l2 :=
      { ends := noEnds
        hasEnds := false
        cols := if c.isL2 then [(.self, set infVec c.area (0, 0))] else []
        tbl := set (fun _ => unreachable) c.area
          (if c.isL2 then ⟨INFHOPS, INFCOST, some .self⟩ else unreachable) }
    attached := false }

/-- The column of an adjacency. -/
def Level.col (L : Level) (a : Adj) : Option Vec := L.cols.lookup a

/-- `check`, routing.py 1110-1122 and 1464-1477; failure is `sys.exit`. -/
def Router.check (r : Router) : Prop :=
  (∃ v, r.l1.col .self = some v ∧ ∀ i, i ≤ r.cfg.maxnodes →
    v i = if i = r.cfg.tid ∨ (r.attached = true ∧ i = 0) then (0, 0) else (INFHOPS, INFCOST)) ∧
  (r.cfg.isL2 = true → ∃ v, r.l2.col .self = some v ∧ ∀ i, 1 ≤ i → i ≤ r.cfg.maxarea →
    v i = if i = r.cfg.area then (0, 0) else (INFHOPS, INFCOST))

/-- `L1Router.route`, routing.py 1104-1105. -/
def Router.route (r : Router) (s e : Nat) : Router :=
  { r with l1 := r.l1.route r.cfg.lim s e }

/-- routing.py 1433-1437: some area other than our own is reachable. -/
def Router.anyArea (r : Router) : Bool :=
  (List.range (r.cfg.maxarea + 1)).any fun i => (r.l2.tbl i).adj.isSome && i != r.cfg.area

/-- `L2Router.aroute`, routing.py 1416-1451.  Note that `doroute` uses the level 1 limits
`self.maxcost` and `self.maxhops` here too (routing.py 999). -/
def Router.aroute (r : Router) (s e : Nat) : Router :=
  let r := { r with l2 := r.l2.route r.cfg.lim s e }
  let att := r.anyArea
  if att ≠ r.attached then
    let v := (r.l1.col .self).getD infVec
    let r := { r with
      attached := att
      l1 := { r.l1 with cols := dput r.l1.cols .self (set v 0 (if att then (0, 0) else (INFHOPS, INFCOST))) } }
    r.route 0 0
  else r

/-- Node types of an adjacency: `L1ROUTER`, `L2ROUTER`; `ENDNODE` and `PHASE2` are `other`. -/
inductive NType | l1 | l2 | other
  deriving DecidableEq, Repr

/-- An adjacency as far as routing looks at it: key, type, address of the neighbour, circuit cost. -/
structure AdjInfo where
  key : Nat
  ntype : NType
  area : Nat
  tid : Nat
  cost : Nat
  deriving DecidableEq, Repr

/-- `L1Router.adj_up`, routing.py 861-904.  `none`: IndexError (`ri.hops[tid]` beyond `maxnodes`). -/
def Router.adjUp1 (r : Router) (a : AdjInfo) : Option Router :=
  if a.ntype = .l1 ∨ a.ntype = .l2 then
    if a.area ≠ r.cfg.area then some r
    else some { r with l1 := { r.l1 with cols := dput r.l1.cols (.nbr a.key) infVec } }
  else if a.tid ≤ r.cfg.maxnodes then
    let r := { r with l1 := { r.l1 with ends := set r.l1.ends a.tid ⟨1, a.cost, some (.nbr a.key)⟩ } }
    some (r.route a.tid a.tid)
  else none

/-- `adj_up`, routing.py 861-904, 1369-1391. -/
def Router.adjUp (r : Router) (a : AdjInfo) : Option Router :=
  let r := if r.cfg.isL2 = true ∧ a.ntype = .l2 then
    { r with l2 := { r.l2 with cols := dput r.l2.cols (.nbr a.key) infVec } } else r
  r.adjUp1 a

/-- `L1Router.adj_down`, routing.py 906-925. -/
def Router.adjDown1 (r : Router) (a : AdjInfo) : Option Router :=
  if a.ntype = .l1 ∨ a.ntype = .l2 then
    let r := { r with l1 := { r.l1 with cols := ddel r.l1.cols (.nbr a.key) } }
    some (r.route 0 r.cfg.maxnodes)
  else if a.tid ≤ r.cfg.maxnodes then
    let r := { r with l1 := { r.l1 with ends := set r.l1.ends a.tid ⟨INFHOPS, INFCOST, none⟩ } }
    some (r.route a.tid a.tid)
  else none

/-- `adj_down`, routing.py 906-925, 1393-1403. -/
def Router.adjDown (r : Router) (a : AdjInfo) : Option Router :=
  match r.adjDown1 a with
  | none => none
  | some r =>
    if r.cfg.isL2 = true ∧ a.ntype = .l2 then
      let r := { r with l2 := { r.l2 with cols := ddel r.l2.cols (.nbr a.key) } }
      some (r.aroute 1 r.cfg.maxarea)
    else some r

/-- `routemsg` for level 1, routing.py 937-946: entries (id, hops, cost) with the circuit already
included (`Verif.RoutMsg.entries`).  `none`: AttributeError, the adjacency has no column
(`adj.routeinfo` is `None`).  Simplification: an adjacency which is no longer up still has its old
column object in the code, which is not in the matrix any more; no message is passed up for such an
adjacency (route_eth.py 648-668, route_ptp.py 839-890), so the model treats it as having none. -/
def Router.routemsg1 (r : Router) (a : Nat) : List (Nat × Nat × Nat) → Option Router
  | [] => some r
  | (k, v) :: es =>
    if k > r.cfg.maxnodes then r.routemsg1 a es
    else
      match r.l1.col (.nbr a) with
      | none => none
      | some w =>
        if w k ≠ v then
          let r := { r with l1 := { r.l1 with cols := dput r.l1.cols (.nbr a) (set w k v) } }
          (r.route k k).routemsg1 a es
        else r.routemsg1 a es

/-- `routemsg` for level 2, routing.py 937-946, 1405-1408. -/
def Router.routemsg2 (r : Router) (a : Nat) : List (Nat × Nat × Nat) → Option Router
  | [] => some r
  | (k, v) :: es =>
    if k > r.cfg.maxarea then r.routemsg2 a es
    else
      match r.l2.col (.nbr a) with
      | none => none
      | some w =>
        if w k ≠ v then
          let r := { r with l2 := { r.l2 with cols := dput r.l2.cols (.nbr a) (set w k v) } }
          (r.aroute k k).routemsg2 a es
        else r.routemsg2 a es

/-- What happens to a router. -/
inductive Ev
  | up (a : AdjInfo)
  | down (a : AdjInfo)
  /-- a level 1 routing message from an adjacency of the given area -/
  | msg1 (a : AdjInfo) (es : List (Nat × Nat × Nat))
  /-- a level 2 routing message -/
  | msg2 (a : AdjInfo) (es : List (Nat × Nat × Nat))

/-- `dispatch` and the adjacency calls; `none` means that an exception leaves the main loop. -/
def Router.step (r : Router) : Ev → Option Router
  | .up a => r.adjUp a
  | .down a => r.adjDown a
  | .msg1 a es => if a.area = r.cfg.area then r.routemsg1 a.key es else some r
  | .msg2 a es => if r.cfg.isL2 then r.routemsg2 a.key es else some r

/-! ## Output -/

/-- `findoadj`'s results: an adjacency, `UNREACHABLE`, `OUT_OF_RANGE`; both of the latter are falsy. -/
inductive Out
  | via (a : Adj)
  | unreach
  | outOfRange
  deriving DecidableEq, Repr

def Best.out (b : Best) : Out :=
  match b.adj with
  | some a => .via a
  | none => .unreach

/-- `L1Router.findoadj`, routing.py 1124-1139. -/
def Router.find1 (r : Router) (area tid : Nat) : Out :=
  if area ≠ r.cfg.area ∧ r.cfg.ph4 = false then .unreach
  else
    let t := if area ≠ r.cfg.area then 0 else tid
    if t ≤ r.cfg.maxnodes then (r.l1.tbl t).out else .outOfRange

/-- `findoadj`, routing.py 1124-1139, 1453-1462 (`False` counts as unreachable). -/
def Router.findoadj (r : Router) (area tid : Nat) : Out :=
  if r.attached = true ∧ area ≠ r.cfg.area then
    if area ≤ r.cfg.maxarea then (r.l2.tbl area).out else .unreach
  else r.find1 area tid

end Verif.Route
