import Verif.NiceRead.Model

/-!
# Reading areas and circuits

Model of `L2Router.nice_read` (routing.py 1503-1545) for areas, of the part of `BaseRouter.nice_read` for circuits
(routing.py 621-641), and of `nice_read` of the circuits for such a request (route_eth.py 189-238, route_ptp.py
1029-1062).

Simplifications: as in `Model.lean`.  The characteristics that a subclass adds to those of a LAN circuit
(`extrachar`), and what the data link adds (datalink.py 202-208), are one flag.
-/

namespace Verif.NiceRead

/-! ## Areas -/

/-- A reply record for an area. -/
structure AreaRec where
  area : Nat
  state : Option Nat := none
  adjCircuit : Option Str := none
  nextNode : Option Nat := none
  hops : Option Nat := none
  cost : Option Nat := none
  deriving DecidableEq, Repr

/-- What is set for a reachable area, routing.py 1513-1524 and 1531-1541. -/
def World.areaSet (w : World) (info i : Nat) (h : Hop) : AreaRec :=
  { area := i, state := some 4,
    adjCircuit := (match h with | .self => none | .via a => some a.circuit),
    nextNode := some (match h with | .self => w.exec | .via a => a.node),
    hops := if info = 1 then some (w.aminhops i) else none,
    cost := if info = 1 then some (w.amincost i) else none }

/-- One turn of the loop over the areas, routing.py 1512-1524. -/
def World.areaStep (w : World) (info i : Nat) : List AreaRec :=
  match w.aoadj i with
  | some h => [w.areaSet info i h]
  | none => []

/-- What is sent for a request for areas. -/
inductive AreaReply where
  | code (c : Int)
  | recs (rs : List AreaRec)
  deriving DecidableEq, Repr

/-- An empty result: an error for one entity, modules/nml.py 156-161. -/
def areaFinish (one : Bool) (rs : List AreaRec) : AreaReply :=
  if rs = [] ∧ one then .code (-8) else .recs rs

/-- The reply to a read request for areas: node.py 467-469, routing.py 1503-1543, modules/nml.py 155-173.  Keys are made
in increasing order, so sorting changes nothing (nicepackets.py 337-339).  `ent` is the area, or none for a plural. -/
def World.areas (w : World) (info : Nat) (ent : Option Nat) : AreaReply :=
  if info = 4 then .code (-1)
  else if w.kind ≠ .l2router ∨ ¬info < 2 then areaFinish ent.isSome []
  else
    match ent with
    | none => areaFinish false ((List.range' 1 (w.maxarea - 1)).flatMap (w.areaStep info))
    | some i =>
      if 0 < i ∧ i ≤ w.maxarea then
        match w.aoadj i with
        | some h => areaFinish true [w.areaSet info i h]
        | none => areaFinish true [{ area := i, state := some 5 }]
      else areaFinish true []

/-! ## Circuits -/

/-- A reply record for a circuit. -/
structure CRec where
  circuit : Str
  state : Option Nat := none
  substate : Option Nat := none
  adjacent : Option Nat := none
  block : Option Nat := none
  cost : Option Nat := none
  hello : Option Nat := none
  listen : Option Nat := none
  router : Option Nat := none
  loopName : Option Str := none
  /-- Set by the data link and by `extrachar`. -/
  extra : Bool := false
  deriving DecidableEq, Repr

/-- What a circuit knows.  `ptp`: NICE code of its state (none if it runs), the address of the neighbour or zero, the
block size, cost, hello and listen timers and the name of the loop node.  `lan`: the adjacencies, cost, hello timer and
the designated router. -/
inductive CInfo where
  | ptp (sub : Option Nat) (id blk cost hello listen : Nat) (loopName : Option Str)
  | lan (adjs : List LanAdj) (cost hello : Nat) (dr : Option Nat)
  deriving DecidableEq, Repr

/-- The data link sets something for characteristics and counters, datalink.py 202-208. -/
def portExtra (info : Nat) : Bool := info == 2 || info == 3

/-- The record of a point to point circuit, route_ptp.py 1035-1062. -/
def ptpRec (name : Str) (info : Nat) (sub : Option Nat) (id blk cost hello listen : Nat) (loopName : Option Str) : CRec :=
  if info < 2 then
    { circuit := name, state := some 0, substate := sub,
      adjacent := if sub = none ∧ id ≠ 0 then some id else none,
      block := if sub = none ∧ info = 1 then some blk else none,
      loopName := loopName }
  else if info = 2 then
    { circuit := name, cost := some cost, hello := some hello, listen := if sub = none then some listen else none,
      extra := true }
  else { circuit := name, extra := portExtra info }

/-- Whether a LAN circuit shows an adjacency, route_eth.py 204-206. -/
def lanShows (all : Bool) (qual : Option Nat) (a : LanAdj) : Bool :=
  (all || a.ntype != 3) && a.up && (qual.isNone || qual == some a.node)

/-- The record of an adjacency, route_eth.py 207-212. -/
def lanRec (name : Str) (info : Nat) (a : LanAdj) : CRec :=
  { circuit := name, adjacent := some a.node, block := if info = 1 then some a.blksize else none,
    listen := if info = 2 then some a.t4 else none }

/-- What the first record of a LAN circuit has in addition, route_eth.py 221-237. -/
def lanHead (info cost hello : Nat) (dr : Option Nat) (r : CRec) : CRec :=
  if info < 2 then { r with state := some 0 }
  else if info = 2 then { r with hello := some hello, cost := some cost, router := dr, extra := true }
  else { r with extra := portExtra info }

/-- `nice_read` of a circuit for a circuit request: the records, none if there is nothing to say, route_eth.py 190-238
and route_ptp.py 1031-1062.  A qualifier makes a point to point circuit use a variable before it is set (1032). -/
def CInfo.read (name : Str) (info : Nat) (qual : Option Nat) : CInfo → Except Err (List CRec)
  | .ptp sub id blk cost hello listen loopName =>
    if qual.isSome && qual != some 0 then .error .unbound
    else .ok [ptpRec name info sub id blk cost hello listen loopName]
  | .lan adjs cost hello dr =>
    if info = 3 then .ok [{ circuit := name, extra := true }]
    else
      match (adjs.filter (lanShows (info == 1 || info == 2 || (qual.isNone && adjs.length == 1)) qual)).map
          (lanRec name info) with
      | r :: rs => .ok (lanHead info cost hello dr r :: rs)
      | [] =>
        if qual.isSome && qual != some 0 then .ok []
        else .ok [lanHead info cost hello dr { circuit := name }]

/-- The loop over the circuits, routing.py 639-640. -/
def circuitsLoop (info : Nat) (qual : Option Nat) : List (Str × CInfo) → Except Err (List (Str × List CRec))
  | [] => .ok []
  | (n, c) :: cs =>
    match c.read n info qual with
    | .error e => .error e
    | .ok rs =>
      match circuitsLoop info qual cs with
      | .error e => .error e
      | .ok l => .ok (if rs = [] then l else (n, rs) :: l)

/-- What is sent for a request for circuits: entries in order, each with its records. -/
inductive CircReply where
  | code (c : Int)
  | recs (l : List (Str × List CRec))
  deriving DecidableEq, Repr

/-- The reply to a read request for circuits: node.py 467-469, routing.py 621-641, nicepackets.py 337-339, modules/nml.py
155-173.  `ent` is the name in capitals, or none for a plural.  The qualifier has its code and its value; a name in it
is a number above 65535 here, because a node is not equal to a string. -/
def circuitsAnswer (cs : List (Str × CInfo)) (info : Nat) (ent : Option Str) (qual : Option (Int × Nat)) :
    Except Err CircReply :=
  if info = 4 then .ok (.code (-1))
  else if (qual.any fun q => q.1 < 0) then
    if ent.isSome then .ok (.code (-8)) else .ok (.recs [])
  else
    match ent with
    | none =>
      match circuitsLoop info (qual.map (·.2)) cs with
      | .error e => .error e
      | .ok l => .ok (.recs (l.mergeSort fun a b => decide (a.1 ≤ b.1)))
    | some n =>
      match cs.find? fun p => p.1 == n with
      | none => .ok (.code (-8))
      | some p =>
        match p.2.read p.1 info (qual.map (·.2)) with
        | .error e => .error e
        | .ok [] => .ok (.code (-8))
        | .ok rs => .ok (.recs [(p.1, rs)])

/-! ## Zeroing counters -/

/-- A request to zero counters, node.py 451-467: the class of these requests has no `events` (nicepackets.py 1290-1331),
so that the call at 467 raises, except for a name of a node that is not known.  `name` is the name, for a node named. -/
def zeroAnswer (db : Db) (name : Option Str) : Except Err Reply :=
  match name with
  | some s => if (db.named s).isSome then .error .attribute else .ok (.code (-8))
  | none => .error .attribute

end Verif.NiceRead
