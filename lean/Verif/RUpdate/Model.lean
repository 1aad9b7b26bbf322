import Verif.RoutMsg.Props

/-!
# The update process of a circuit

Model of `Update`, pydecnet/decnet/routing.py:1547-1704, and of the calls of
`setsrm` and `setasrm` by the router (routing.py:885, 1001, 1392, 1450).

A table is a pair of functions (hops, cost) of the id together with the number
of entries.  Segments are kept as in `RoutMsg.Vectors`: first id and a list of
(hops, cost); `RouteSegEntry` is `RoutMsg.entry`.  Times are natural numbers of
milliseconds.
-/

namespace Verif.RUpdate

open Verif.RoutMsg (Vectors)

/-- `minhops` and `mincost`: entry of an id. -/
abbrev Table := Nat → Nat × Nat

/-- The locals of `buildupdates` in its loop.  `p = none` is `p = None`: then
`seg` is the class object (before the first entry), here `none`; using it in
that state is an AttributeError (1667, 1691: `p.segments` with `p` None). -/
structure Loop where
  ret : List Vectors
  p : Option Vectors
  seg : Option (Nat × List (Nat × Nat))
  previd : Nat
  curlen : Nat
  srm : Nat → Bool

/-- routing.py:1648-1651. -/
def Loop.init (srm : Nat → Bool) : Loop := ⟨[], none, none, 0, 0, srm⟩

/-- routing.py:1655-1661: finish the packet if it is at the limit. -/
def flush (mtu : Int) (st : Loop) : Option Loop :=
  if (st.curlen : Int) > mtu then
    match st.p with
    | none => none
    | some p => some { st with ret := st.ret ++ [p ++ st.seg.toList], p := none }
  else some st

/-- routing.py:1662-1690: add entry `i`. -/
def addEntry (t : Table) (i : Nat) (st : Loop) : Loop :=
  -- 1663-1667
  let p := st.p.getD []
  let seg := if st.p.isSome then st.seg else none
  let curlen := if st.p.isSome then st.curlen else 6
  let srm := fun j => if j = i then false else st.srm j
  match seg with
  | some s =>
    if i - st.previd > 2 then
      { st with p := some (p ++ [s]), seg := some (i, [t i]), previd := i, curlen := curlen + 6, srm := srm }
    else
      let fill := (List.range' (st.previd + 1) (i - (st.previd + 1))).map t
      { st with p := some p, seg := some (s.1, s.2 ++ fill ++ [t i]), previd := i,
                curlen := curlen + 2 * fill.length + 2, srm := srm }
  | none =>
    { st with p := some p, seg := some (i, [t i]), previd := i, curlen := curlen + 6, srm := srm }

/-- One turn of the loop of routing.py:1653. -/
def turn (complete : Bool) (t : Table) (mtu : Int) (i : Nat) (st : Loop) : Option Loop :=
  if complete || st.srm i then (flush mtu st).map (addEntry t i) else some st

/-- The loop over `n` ids from `i`. -/
def loop (complete : Bool) (t : Table) (mtu : Int) : Nat → Nat → Loop → Option Loop
  | _, 0, st => some st
  | i, n + 1, st => (turn complete t mtu i st).bind (loop complete t mtu (i + 1) n)

/-- routing.py:1634-1694 `buildupdates`, Phase IV format: the packets and the
flags afterwards; `none` is an AttributeError.  `blk` is `minrouterblk`, `len`
is `len (minhops)`. -/
def build (complete : Bool) (t : Table) (blk : Nat) (lowid len : Nat) (srm : Nat → Bool) :
    Option (List Vectors × (Nat → Bool)) :=
  match loop complete t ((blk : Int) - 16) lowid (len - lowid) (Loop.init srm) with
  | none => none
  | some st =>
    match st.p with
    | none => none
    | some p => some (st.ret ++ [p ++ st.seg.toList], st.srm)

/-- routing.py:1695-1703: Phase III format, the whole vector from 1. -/
def build3 (t : Table) (len : Nat) (srm : Nat → Bool) : List (Nat × Nat) × (Nat → Bool) :=
  ((List.range' 1 (len - 1)).map t, fun j => if 1 ≤ j ∧ j < len then false else srm j)

/-! ## The process -/

/-- Type of the neighbour (`ntype` of the circuit; for a LAN circuit the type
of this router). -/
inductive NType
  | unknown | endnode | phase2 | l1 | l2
deriving DecidableEq, Repr

/-- What the process looks at besides its own state. -/
structure Circ where
  lan : Bool
  l2 : Bool          -- this is the level 2 update process
  ntype : NType
  sameArea : Bool    -- the neighbour is in this node's area
  ph3 : Bool         -- this node or the neighbour is Phase III
  blk : Nat          -- minrouterblk
deriving DecidableEq, Repr

/-- `T2`, common.py:31. -/
def T2 : Nat := 1000

/-- What is sent. -/
inductive Sent
  | ph4 (pkts : List Vectors)
  | ph3 (v : List (Nat × Nat))
deriving Repr

/-- State of an `Update` with what it can see: table, circuit, time. -/
structure St where
  c : Circ
  t : Table
  len : Nat
  srm : Nat → Bool
  anysrm : Bool
  holdoff : Bool
  timer : Option Nat    -- absolute time at which it expires
  lastupdate : Nat
  lastfull : Nat
  now : Nat
  startpos : Nat

/-- routing.py:1581-1587 `update_soon`. -/
def updateSoon (s : St) : St :=
  if s.holdoff then s
  else { s with holdoff := true, timer := some (s.now + (T2 - (s.now - s.lastupdate))) }

/-- routing.py:1565-1579 `setsrm`, for the ids of a range (`endtid or tid`: a
range that ends in 0 is the single id). -/
def setsrm (a b : Nat) (s : St) : St :=
  if s.c.ntype ≠ .endnode ∧ s.c.ntype ≠ .phase2 then
    let b' := if b = 0 then a else b
    updateSoon { s with srm := fun j => if a ≤ j ∧ j ≤ b' then true else s.srm j, anysrm := true }
  else s

/-- routing.py:1597-1612: whether and in which format an update is sent. -/
inductive Want
  | no | ph4 | ph3
deriving DecidableEq, Repr

def want (c : Circ) : Want :=
  if c.ntype = .unknown ∨ c.ntype = .endnode ∨ c.ntype = .phase2 then .no
  else if c.lan then .ph4
  else if c.l2 then (if c.ntype = .l2 then .ph4 else .no)
  else if c.ntype = .l2 ∧ c.sameArea = false then .no
  else if c.ph3 then .ph3
  else .ph4

/-- `lowid`, routing_packets.py:447, 469. -/
def lowid (c : Circ) : Nat := if c.l2 then 1 else 0

/-- `pkts[startpos:] + pkts[:startpos]`. -/
def rotate {α : Type} (k : Nat) (l : List α) : List α := l.drop (k % l.length) ++ l.take (k % l.length)

/-- routing.py:1589-1632 `dispatch` of a timeout.  `none`: an exception. -/
def timeout (t1 : Nat) (s : St) : Option (St × Option Sent) :=
  let s := { s with holdoff := false, timer := none }
  match want s.c with
  | .no => some (s, none)
  | w =>
    let r : Option (Sent × (Nat → Bool)) :=
      if w = .ph3 then some (.ph3 (build3 s.t s.len s.srm).1, (build3 s.t s.len s.srm).2)
      else (build (!s.anysrm) s.t s.c.blk (lowid s.c) s.len s.srm).map
        fun x => (.ph4 (rotate (s.startpos + 1) x.1), x.2)
    r.map fun x =>
      let delta := if s.anysrm then min (s.now - s.lastfull) t1 else t1
      ({ s with
          srm := x.2, anysrm := false, startpos := s.startpos + 1, lastupdate := s.now
          lastfull := if s.anysrm then s.lastfull else s.now
          timer := some (s.now + delta) }, some x.1)

end Verif.RUpdate
