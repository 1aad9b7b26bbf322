/-!
# Routers on a LAN

Model of `RoutingLanCircuit`, pydecnet/decnet/route_eth.py:429-768, with
`Adjacency`, pydecnet/decnet/adjacency.py:21-120, as far as it is used there.

Node addresses are natural numbers (area * 1024 + id).  Node types are the
numbers of routing_packets.py:16-20.  Times are in milliseconds.  `int (timer *
3.1)` is computed exactly, not in floating point.  What the routing layer does
with an adjacency that goes up or down is in `Verif.Route`; here the calls are
recorded.  A step that raises an exception gives `none`; the main loop of the
node then stops it (node.py:299-329).  Events that are logged and counters are
left out.
-/

namespace Verif.Lan

/-- routing_packets.py:16-19. -/
abbrev PHASE2 : Nat := 0
abbrev L2ROUTER : Nat := 1
abbrev L1ROUTER : Nat := 2
abbrev ENDNODE : Nat := 3

/-- An `Adjacency` object.  `uid` is its identity; `up` is `state == UP`;
`timer` is the time its listen timer expires, if it runs. -/
structure Obj where
  uid : Nat
  id : Nat
  nt : Nat
  prio : Nat
  blk : Nat
  t4 : Nat
  up : Bool
  timer : Option Nat
deriving DecidableEq, Repr

/-- Who is designated router (`self.dr`). -/
inductive Dr
  | none
  | me
  | adj (uid id : Nat)
deriving DecidableEq, Repr

/-- What the circuit does that others see. -/
inductive Out
  /-- `routing.adj_up`, `routing.adj_down`: object and node. -/
  | up (uid id : Nat)
  | down (uid id : Nat)
  /-- A hello message: its router list (node, priority, two-way), and whether
  it was sent to the end nodes as well. -/
  | hello (rs : List (Nat × Nat × Bool)) (endnodes : Bool)
deriving DecidableEq, Repr

/-- Configuration: own address, priority, whether this is an area router,
limit of router adjacencies, hello timer. -/
structure Cfg where
  own : Nat
  prio : Nat
  l2 : Bool
  nr : Nat
  t3 : Nat
deriving Repr

structure St where
  /-- `self.adjacencies`, in the order of insertion. -/
  adjs : List Obj
  /-- Objects that are not in `adjacencies` any more, whose timer may run. -/
  gone : List Obj
  isdr : Bool
  dr : Dr
  drtimer : Option Nat
  lasthello : Nat
  holdoff : Bool
  htimer : Option Nat
  now : Nat
  fresh : Nat
  out : List Out

/-- Longest time the timers take: timers.py:139, 155 and node.py:178. -/
def maxTimer : Nat := 3601000

/-- adjacency.py:33-36. -/
def t4of (t3 timer : Nat) : Nat :=
  let t := timer * 31 / 10
  1000 * (if t = 0 then t3 * 31 / 10 / 1000 else t)

/-- `timers.start (adjacency, t4)`, adjacency.py:96-98, 110-112: not for
Phase II; OverflowError if the time is too long. -/
def Obj.listen (now : Nat) (o : Obj) : Option Obj :=
  if o.nt = PHASE2 then some o
  else if maxTimer ≤ o.t4 then none
  else some { o with timer := some (now + o.t4) }

/-- route_eth.py:487-490 `routers`. -/
def isRouter (o : Obj) : Bool := o.nt ≠ ENDNODE

def routers (st : St) : List Obj := st.adjs.filter isRouter

/-- `sortkey`, route_eth.py:29, compared as Python compares tuples. -/
def keyLt (a b : Nat × Nat) : Bool := a.1 < b.1 || (a.1 == b.1 && a.2 < b.2)

def Obj.key (o : Obj) : Nat × Nat := (o.prio, o.id)

/-- `max (l, key = sortkey)`: the first greatest one. -/
def maxObj : Obj → List Obj → Obj
  | m, [] => m
  | m, o :: l => maxObj (if keyLt m.key o.key then o else m) l

/-- `min (l, key = sortkey)`. -/
def minObj : Obj → List Obj → Obj
  | m, [] => m
  | m, o :: l => minObj (if keyLt o.key m.key then o else m) l

/-- route_eth.py:668-681 `findbestdr`: `none` is `self`. -/
def findbestdr (c : Cfg) (st : St) : Option Obj :=
  match (routers st).filter fun o => o.id / 1024 = c.own / 1024 with
  | [] => none
  | o :: l =>
    let m := maxObj o l
    if keyLt m.key (c.prio, c.own) then none else some m

/-- The router list of a hello, route_eth.py:498-501. -/
def rslist (st : St) : List (Nat × Nat × Bool) := (routers st).map fun o => (o.id, o.prio, o.up)

/-- route_eth.py:492-507 `sendhello`; FieldOverflow for a priority that does
not fit the 7 bits of an entry (packet.py:294-297). -/
def sendhello (c : Cfg) (st : St) : Option St :=
  if (routers st).any fun o => o.prio ≥ 128 then none
  else some
    { st with
      lasthello := st.now, holdoff := false, htimer := some (st.now + c.t3)
      out := st.out ++ [.hello (rslist st) st.isdr] }

/-- `T2` and `DRDELAY`, common.py:31, 40. -/
def T2 : Nat := 1000
def DRDELAY : Nat := 5000

/-- route_eth.py:719-734 `newhello`. -/
def newhello (c : Cfg) (st : St) : Option St :=
  let delta := st.now - st.lasthello
  if delta < T2 then
    if st.holdoff then some st else some { st with holdoff := true, htimer := some (st.now + delta) }
  else sendhello c st

def Dr.isId : Dr → Nat → Bool
  | .adj _ j, i => i = j
  | _, _ => false

def Dr.isUid : Dr → Nat → Bool
  | .adj u _, i => i = u
  | _, _ => false

/-- route_eth.py:683-705 `calcdr`. -/
def calcdr (c : Cfg) (st : St) : Option St :=
  match findbestdr c st with
  | none =>
    if st.isdr = false ∧ st.drtimer = none then some { st with drtimer := some (st.now + DRDELAY) } else some st
  | some o =>
    (if st.isdr then newhello c { st with isdr := false } else some st).map fun st =>
      -- Adjacency objects are equal if they are for the same node
      if st.dr.isId o.id then st else { st with drtimer := none, dr := .adj o.uid o.id }

/-- route_eth.py:707-718 `becomedr`. -/
def becomedr (c : Cfg) (st : St) : Option St :=
  let st := { st with isdr := true, drtimer := none }
  match findbestdr c st with
  | none => newhello c { st with dr := .me }
  | some _ => calcdr c st

/-- `Adjacency.down`, adjacency.py:101-104: stops the timer and tells routing. -/
def downOut (o : Obj) (st : St) : St := { st with out := st.out ++ [.down o.uid o.id] }

/-- Remove the entry for a node from `adjacencies`; the object may live on. -/
def remove (id : Nat) (st : St) : St :=
  { st with adjs := st.adjs.filter (fun o => o.id ≠ id), gone := st.gone ++ st.adjs.filter (fun o => o.id = id) }

/-- Change an object, wherever it is. -/
def upd (uid : Nat) (f : Obj → Obj) (st : St) : St :=
  { st with
    adjs := st.adjs.map fun o => if o.uid = uid then f o else o
    gone := st.gone.map fun o => if o.uid = uid then f o else o }

/-- route_eth.py:741-760 `deladj`. -/
def deladj (c : Cfg) (o : Obj) (st : St) : Option St :=
  let st := if o.up then downOut o (upd o.uid (fun o => { o with up := false, timer := none }) st) else st
  let st := remove o.id st
  let st := if st.dr.isUid o.uid then { st with dr := .none } else st
  if o.nt ≠ ENDNODE then (calcdr c st).bind (newhello c) else some st

/-- A router hello.  The router list is what can be decoded of the list in the
message; `bad` if bytes follow which can not (or the list is missing): decoding
those raises an exception that is not handled here. -/
structure RHello where
  id : Nat
  nt : Nat
  prio : Nat
  blk : Nat
  timer : Nat
  rs : List (Nat × Nat)   -- node, priority
  bad : Bool
deriving Repr

/-- An end node hello; `ok` if the test data is right. -/
structure EHello where
  id : Nat
  blk : Nat
  timer : Nat
  ok : Bool
deriving Repr

def lookup (id : Nat) (st : St) : Option Obj := st.adjs.find? fun o => o.id = id

/-- Out of area hellos are ignored unless both are area routers: route_eth.py:523-528. -/
def ignored (c : Cfg) (id nt : Nat) : Bool := id / 1024 ≠ c.own / 1024 && !(c.l2 && nt = L2ROUTER)

/-- route_eth.py:531-555. -/
def endHello (c : Cfg) (h : EHello) (st : St) : Option St :=
  if ignored c h.id ENDNODE then some st
  else
    match lookup h.id st with
    | some a =>
      if h.ok = false then deladj c a st
      else if a.nt = ENDNODE then (a.listen st.now).map fun a' => upd a.uid (fun _ => a') st
      else deladj c a st
    | none =>
      if h.ok = false then some st
      else
        let a : Obj := ⟨st.fresh, h.id, ENDNODE, 0, h.blk, t4of c.t3 h.timer, true, none⟩
        (a.listen st.now).map fun a' =>
          { st with adjs := st.adjs ++ [a'], fresh := st.fresh + 1, out := st.out ++ [.up a.uid a.id] }

/-- Election, and a new hello if something changed: route_eth.py:636-641. -/
def elect (c : Cfg) (change : Bool) (st : St) : Option St :=
  (calcdr c st).bind fun st => if change then newhello c st else some st

/-- route_eth.py:597-641: the router list of the hello, then the election. -/
def twoway (c : Cfg) (h : RHello) (a : Obj) (change : Bool) (st : St) : Option St :=
  match h.rs.find? fun e => e.1 = c.own with
  | some e =>
    -- 602-606: `self,prio` is a NameError
    if e.2 ≠ c.prio then none
    else if a.up then elect c change st
    else
      (Obj.listen st.now { a with up := true }).bind fun a' =>
        let st := upd a.uid (fun _ => a') st
        elect c true { st with out := st.out ++ [.up a.uid a.id] }
  | none =>
    if h.bad then none
    else if a.up then elect c true (downOut a (upd a.uid (fun o => { o with up := false, timer := none }) st))
    else elect c change st

/-- route_eth.py:556-641: a router hello. -/
def routerHello (c : Cfg) (h : RHello) (st : St) : Option St :=
  if ignored c h.id h.nt then some st
  else
    match lookup h.id st with
    | none =>
      let a : Obj := ⟨st.fresh, h.id, h.nt, h.prio, h.blk, t4of c.t3 h.timer, false, none⟩
      let st := { st with adjs := st.adjs ++ [a], fresh := st.fresh + 1 }
      match routers st with
      | [] => checkType a true st
      | o :: l =>
        if (routers st).length > c.nr then
          let a2 := minObj o l
          (deladj c a2 st).bind fun st => if a2.id = a.id then some st else checkType a true st
        else checkType a true st
    | some a =>
      match a.listen st.now with
      | none => none
      | some a' => checkType a' false (upd a.uid (fun _ => a') st)
where
  /-- 588-594 -/
  checkType (a : Obj) (change : Bool) (st : St) : Option St :=
    if a.nt = ENDNODE ∨ a.nt ≠ h.nt ∨ a.prio ≠ h.prio then deladj c a st
    else twoway c h a change st

/-- adjacency.py:90-94: the listen timer of an object expires; then
route_eth.py:736-739. -/
def expire (c : Cfg) (uid : Nat) (st : St) : Option St :=
  match (st.adjs ++ st.gone).find? fun o => o.uid = uid with
  | none => some st
  | some o =>
    let st := downOut o (upd uid (fun o => { o with timer := none }) st)
    deladj c { o with timer := none } st

/-- Events. -/
inductive Ev
  | tick (d : Nat)
  | router (h : RHello)
  | endnode (h : EHello)
  /-- The listen timer of an adjacency object expires. -/
  | expire (uid : Nat)
  /-- The hello timer, route_eth.py:514-516. -/
  | hellotime
  /-- The designated router delay timer. -/
  | drtime

def step (c : Cfg) (st : St) : Ev → Option St
  | .tick d => some { st with now := st.now + d }
  | .router h => routerHello c h st
  | .endnode h => endHello c h st
  | .expire uid => expire c uid st
  | .hellotime => (calcdr c { st with htimer := none }).bind (sendhello c)
  | .drtime => becomedr c st

/-- route_eth.py:432-452, 84-86: the circuit is started (with the first hello sent). -/
def start (c : Cfg) (now : Nat) : St :=
  ⟨[], [], false, .none, none, now, false, some (now + c.t3), now, 0, [.hello [] false]⟩

end Verif.Lan
