/-!
# Sending in a Phase II node (`Phase2Routing`, routing.py:733-793)

Nodes and circuits are numbers.  A circuit is up while it is in one of the states that may send (`isrustate`,
route_ptp.py:138-139); a Phase II node ignores the start of neighbours of later phases (route_ptp.py:547-550 and
586-589), so every circuit that is up has an intercept object (route_ptp.py:525), and an adjacency to the node found
under the name of the neighbour (route_ptp.py:505-506, 517).

Left out: names that stand for a loop node in the message of the neighbour; tracing; what the circuit does with the
packet (route_ptp.py:170-214, see `Verif.Intercept` for the conversion).
-/
namespace Verif.P2Send

/-- A value of `adjacencies`: the pseudo adjacency of the node itself, whose circuit has no data link
(`SelfAdj`, routing.py:106-130), or one of a circuit, with whether that circuit has an `EndnodeIntercept`, that is,
the neighbour offers to pass packets on. -/
inductive Adj where
  | own
  | circ (c : Nat) (offers : Bool)
deriving DecidableEq, Repr

/-- A dictionary, in the order in which keys came. -/
abbrev Dict := List (Nat × Adj)

/-- `adjacencies.get (k, None)` -/
def Dict.get (d : Dict) (k : Nat) : Option Adj := (List.find? (fun x => x.1 == k) d).map (·.2)

/-- `adjacencies[k] = a`: a key in use keeps its place. -/
def Dict.set (d : Dict) (k : Nat) (a : Adj) : Dict :=
  if (d.get k).isSome then List.map (fun x => if x.1 = k then (k, a) else x) d else d ++ [(k, a)]

/-- `del adjacencies[k]`, without the KeyError, which is ignored (routing.py:419-422). -/
def Dict.del (d : Dict) (k : Nat) : Dict := List.filter (fun x => x.1 ≠ k) d

/-- The routing layer: its node, the adjacencies, and the circuits that are up with the node at the other end and whether
it offers intercept. -/
structure S where
  self : Nat
  adjs : Dict
  up : Nat → Option (Nat × Bool) := fun _ => none

/-- routing.py:354-355 -/
def init (self : Nat) : S := { self := self, adjs := [(self, .own)] }

/-- What happens to circuits: `up` and `down` of the circuit, route_ptp.py:950-969 and 146-147; adjacency.py:97-107. -/
inductive Op where
  | up (c node : Nat) (offers : Bool)
  | down (c : Nat)
deriving DecidableEq, Repr

/-- routing.py:415-422 `adj_up`, `adj_down`.  A circuit that is up does not come up, one that is down does not go down. -/
def S.step (s : S) : Op → S
  | .up c n o =>
    match s.up c with
    | some _ => s
    | none => { s with adjs := s.adjs.set n (.circ c o), up := fun d => if d = c then some (n, o) else s.up d }
  | .down c =>
    match s.up c with
    | some (n, _) => { s with adjs := s.adjs.del n, up := fun d => if d = c then none else s.up d }
    | none => s

/-- A node number, or the circuit of a loop node (node.py:122-124). -/
inductive Dest where
  | node (n : Nat)
  | loop (c : Nat)
deriving DecidableEq, Repr

/-- What becomes of the packet. -/
inductive Out where
  /-- handed to the circuit, with this destination in the header -/
  | sent (c dst : Nat)
  /-- given back to NSP as returned to its sender -/
  | returned
  /-- not sent; the value is False, which NSP does not look at (nsp.py:1373-1374, 1558) -/
  | dropped
  /-- AttributeError -/
  | raises
deriving DecidableEq, Repr

/-- `loopadj` of a circuit, route_ptp.py:381 and 955-957, with the test for it in routing.py:767: there are no routers
among Phase II neighbours. -/
def S.loops (s : S) (c : Nat) : Bool :=
  match s.up c with
  | some (n, _) => n == s.self
  | none => false

/-- routing.py:781-784 -/
def Adj.out (dst : Nat) : Adj → Out
  | .own => .raises
  | .circ c _ => .sent c dst

/-- routing.py:755 -/
def Adj.offers : Adj → Bool
  | .own => false
  | .circ _ o => o

/-- routing.py:742-784 `send` -/
def S.send (s : S) (dest : Dest) (rqr : Bool) : Out :=
  match dest with
  | .node n =>
    match s.adjs.get n with
    | some a => a.out n
    | none =>
      match List.find? (fun x => x.2.offers) s.adjs with
      | some x => x.2.out n
      | none => .dropped
  | .loop c =>
    if s.loops c then .sent c s.self
    else if rqr then .returned
    else .dropped

/-- routing.py:424-425 -/
def S.isolated (s : S) : Bool := s.adjs.length == 1

/-- The state after a history. -/
def run (self : Nat) (ops : List Op) : S := ops.foldl S.step (init self)

end Verif.P2Send
