import Verif.NiceRead.Model

/-!
# What a read of nodes should show

Stated on the tables of the node and on the fields of the request, without the functions of the model.
-/

namespace Verif.NiceRead

/-- An address that a node can have: area at most 63, and a node number unless it is zero. -/
def Address (a : Nat) : Prop := a < 65536 ∧ (a % 1024 = 0 → a = 0)

/-- The state in which a node is after it is built, and stays: the executor is in the node database, loop nodes have
address zero, no two other nodes have the same address, neighbours have addresses.  For a router, the vector has the
node itself at the place of its own number and nowhere else. -/
structure World.Good (w : World) (db : Db) : Prop where
  exec : Address w.exec ∧ w.exec ≠ 0
  execIn : ∃ n ∈ db.byid, n.loop = none ∧ n.addr = w.exec
  address : ∀ n ∈ db.byid, Address n.addr
  loop : ∀ n ∈ db.byid, n.loop ≠ none → n.addr = 0
  unique : ∀ n ∈ db.byid, ∀ m ∈ db.byid, n.loop = none → m.loop = none → n.addr = m.addr → n = m
  named : ∀ p ∈ db.byname, p.2 ∈ db.byid
  ptp : ∀ name id ph ty, (name, Circ.ptp true id ph ty) ∈ w.circuits → Address id ∧ id ≠ 0
  lan : ∀ name adjs cost, (name, Circ.lan adjs cost) ∈ w.circuits → ∀ a ∈ adjs, Address a.node ∧ a.node ≠ 0
  size : w.maxnodes ≤ 1023
  hop : ∀ i a, w.oadj i = some (.via a) → Address a.node ∧ a.node ≠ 0
  areaHop : ∀ i a, w.aoadj i = some (.via a) → Address a.node ∧ a.node ≠ 0
  here : ∀ i, 1 ≤ i → i ≤ w.maxnodes → (w.oadj i = some .self ↔ i = w.exec % 1024)

/-- Routers have a routing table. -/
def World.Router (w : World) : Prop := w.kind = .l1router ∨ w.kind = .l2router

/-- `a` is a neighbour on the circuit. -/
def Neighbour (a : Nat) : Circ → Prop
  | .ptp running id _ _ => running = true ∧ id = a
  | .lan adjs _ => ∃ x ∈ adjs, x.up = true ∧ x.node = a

/-- The type under which a node is shown: 0 and 1 are routers and end nodes of Phase III, 2 is Phase II, and Phase IV
has area routers, routers and end nodes (of types 1, 2 and 3) as 3, 4 and 5. -/
def TypeShown (phase ntype t : Nat) : Prop :=
  (phase = 4 → t = ntype + 2) ∧ (phase = 3 → t = if ntype = 3 then 1 else 0) ∧ (phase = 2 → t = 2)

/-- `a` is a neighbour on the circuit, of the type `t`.  Neighbours on a LAN are all Phase IV. -/
def NeighbourType (a t : Nat) : Circ → Prop
  | .ptp running id phase ntype => running = true ∧ id = a ∧ TypeShown phase ntype t
  | .lan adjs _ => ∃ x ∈ adjs, x.up = true ∧ x.node = a ∧ TypeShown 4 x.ntype t

/-- The circuit qualifier of a request admits a circuit: there is none, it says "known circuits", or it is the name of
that circuit. -/
def Admits (qual : Option (Int × Str)) (c : Str) : Prop :=
  ∀ code v, qual = some (code, v) → code = -1 ∨ (0 ≤ code ∧ v = c)

/-- A circuit qualifier as it comes from a message: a name is not empty. -/
def Decoded (qual : Option (Int × Str)) : Prop := ∀ c v, qual = some (c, v) → 0 ≤ c → v ≠ []

/-- The node in the database that NSP has to show.  Plural codes: -1 known, -2 active, -3 loop, -5 significant, -6 and
-7 wildcards.  Information: 0 summary, 1 status, 3 counters. -/
def Shown (w : World) (code : Int) (info : Nat) (n : Node) : Prop :=
  code ≠ -4 ∧
    (code = -1 ∨ code = -6 ∨ code = -7 ∨
      (code = -3 ∧ n.loop ≠ none) ∨
      (code ≠ -3 ∧
        (n.addr = w.exec ∨ n.addr ∈ w.conns ∨
          (code = -5 ∧ ((info = 3 ∧ n.used = true) ∨ (info ≤ 1 ∧ n.delay ≠ 0))))))

/-- A node of the own area that the routing table has to show: it can be reached, through a circuit that the qualifier
admits, or all known nodes are asked for. -/
def Routed (w : World) (code : Int) (qual : Option (Int × Str)) (k : Nat) : Prop :=
  w.Router ∧ k / 1024 = w.exec / 1024 ∧ 1 ≤ k % 1024 ∧ k % 1024 ≤ w.maxnodes ∧ k ≠ w.exec ∧
    ((∃ a, w.oadj (k % 1024) = some (.via a) ∧ Admits qual a.circuit) ∨
      (w.oadj (k % 1024) = none ∧ code = -1 ∧ ∀ c v, qual = some (c, v) → c = -1 ∨ 0 ≤ c))

/-- The nodes to show in answer to a plural summary or status request. -/
def Listed (w : World) (db : Db) (code : Int) (info : Nat) (qual : Option (Int × Str)) (k : Nat) : Prop :=
  (∃ n ∈ db.byid, n.addr = k ∧ Shown w code info n) ∨
  (code ≠ -3 ∧ ∃ c ∈ w.circuits, Admits qual c.1 ∧ Neighbour k c.2) ∨
  (code ≠ -3 ∧ code ≠ -4 ∧ Routed w code qual k)

/-- A wildcard admits an address: -6 with the area, -7 with the number in the area. -/
def Fits (code : Int) (value k : Nat) : Prop :=
  -5 ≤ code ∨ (code = -6 ∧ k / 1024 = value / 1024) ∨ (code = -7 ∧ k % 1024 = value % 1024)

/-- A plural request: its entity, code and value.  A wildcard with the value zero is for the area or the number of the
executor. -/
inductive Asks (w : World) : Ent → Int → Nat → Prop where
  | plural (code : Int) : -5 ≤ code → code < 0 → Asks w (.plural code) code 0
  | wild (code : Int) (a : Nat) : code < -5 → a ≠ 0 → Asks w (.wild code a) code a
  | here (code : Int) : code < -5 → Asks w (.wild code 0) code w.exec

/-- The executor first, the others in order of their addresses, nothing twice. -/
def InOrder (exec : Nat) (l : List Nat) : Prop :=
  ∃ tl : List Nat, (l = tl ∨ l = exec :: tl) ∧ exec ∉ tl ∧ tl.Pairwise (· < ·)

/-- The routing table has something to say about `k`. -/
def InTable (w : World) (code : Int) (qual : Option (Int × Str)) (k : Nat) : Prop :=
  w.Router ∧ code ≠ -3 ∧ code ≠ -4 ∧ k / 1024 = w.exec / 1024 ∧ 1 ≤ k % 1024 ∧ k % 1024 ≤ w.maxnodes ∧ k ≠ w.exec ∧
    ∀ c v, qual = some (c, v) → c = -1 ∨ 0 ≤ c

/-- The name of an address in the node database. -/
def nameIn (db : Db) (a : Nat) (s : Str) : Prop :=
  (∃ n ∈ db.byid, n.loop = none ∧ n.addr = a ∧ s = n.name) ∨
  ((∀ n ∈ db.byid, n.loop = none → n.addr ≠ a) ∧ s = [])

/-! ## One node -/

/-- The node that a request is for: an address, zero for the executor, or a name in the node database that is not that
of a loop node. -/
inductive Means (w : World) (db : Db) : Ent → Nat → Prop where
  | addr (a : Nat) : a ≠ 0 → Means w db (.addr a) a
  | exec : Means w db (.addr 0) w.exec
  | name (s : Str) (n : Node) : (s, n) ∈ db.byname → (∀ p ∈ db.byname, p.1 = s → p = (s, n)) → n.loop = none →
      n.addr ≠ 0 → Means w db (.name s) n.addr

/-- A circuit qualifier that the request can have: a name or "known circuits". -/
def Plain (qual : Option (Int × Str)) : Prop := ∀ c v, qual = some (c, v) → c = -1 ∨ 0 ≤ c

/-- Where the routing tables send packets for `k`. -/
inductive Route (w : World) (k : Nat) : Option Hop → Prop where
  | here : k / 1024 = w.exec / 1024 → k % 1024 ≤ w.maxnodes → Route w k (w.oadj (k % 1024))
  | out : w.kind = .l1router → k / 1024 ≠ w.exec / 1024 → Route w k (w.oadj 0)
  | area : w.kind = .l2router → k / 1024 ≠ w.exec / 1024 → k / 1024 ≤ w.maxarea → Route w k (w.aoadj (k / 1024))

/-- The address is beyond the size of the tables. -/
def Beyond (w : World) (k : Nat) : Prop :=
  (k / 1024 = w.exec / 1024 ∧ w.maxnodes < k % 1024) ∨
  (w.kind = .l2router ∧ k / 1024 ≠ w.exec / 1024 ∧ w.maxarea < k / 1024)

/-- What NSP and the node database know of one node. -/
structure Facts (w : World) (db : Db) (k : Nat) (r : Rec) : Prop where
  addr : r.addr = k
  name : nameIn db k r.name
  executor : r.executor = true ↔ k = w.exec
  links : ∀ m, r.links = some m ↔ m = w.conns.count k ∧ m ≠ 0
  delay : ∀ m, r.delay = some m ↔ ∃ n ∈ db.byid, n.loop = none ∧ n.addr = k ∧ n.delay ≠ 0 ∧ m = max 1 (n.delay / 1000)

end Verif.NiceRead
