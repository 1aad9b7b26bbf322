import Verif.Mapper.Model

/-!
# Markers and paths of the map (`MapLocation`, `MapPath`, mapper.py:299-533)

The health of nodes and connections is that of `Verif.Mapper`, and is the same while the map is made (it changes with
the time of the last scan, mapper.py:567).  Nodes are numbers.  Left out: coordinates and copies for other longitudes,
names, the text around.
-/
namespace Verif.MapDraw

open Verif.Mapper (Health)

/-- mapper.py:65-68 -/
def code : Health → Nat
  | .gone => 0 | .fade => 1 | .down => 2 | .up => 3

inductive Color where
  | gray | red | yellow | green
deriving DecidableEq, Repr

/-- `collections.Counter`, mapper.py:328-330 -/
def count (h : Health) (l : List Health) : Nat := (l.filter (· = h)).length

/-- `max (c)`, mapper.py:331; `none` is ValueError -/
def top (l : List Health) : Option Nat := (l.map code).max?

/-- mapper.py:332-337 and 459-464: the colour if something is up and something down -/
def mixed (l : List Health) : Option Color :=
  if count .down l ≠ 0 then (if count .down l < count .up l then some .yellow else some .red) else none

/-- mapper.py:340-342 `h2color` -/
def h2color : Nat → Color
  | 0 => .gray | 1 => .gray | 2 => .red | _ => .green

/-- mapper.py:327-338 `MapLocation.color`; `none` is ValueError -/
def locColor (l : List Health) : Option Color :=
  match top l with
  | none => none
  | some t => some (if t = code .up then (mixed l).getD (h2color t) else h2color t)

/-- mapper.py:346-353: nodes with their health, very old ones as faded. -/
def shownAs (h : Health) : Health := if h = .gone then .fade else h

/-- mapper.py:344-371 `actnodes`: nodes in the tool tip and in the popup, in order. -/
def actnodes (l : List (Nat × Health)) : List Nat × List Nat :=
  let d (h : Health) := (l.filter fun x => shownAs x.2 = h).map (·.1)
  (d .up ++ d .down, d .up ++ d .down ++ d .fade)

/-- mapper.py:373-387 `marker`: the nodes in the tool tip (if there is one), and those in the popup.  `dflt` is whether
this is the place of nodes without known place. -/
def marker (dflt : Bool) (l : List (Nat × Health)) : List Nat × List Nat :=
  let (tip, pop) := actnodes l
  if tip ≠ [] ∧ dflt = true then (tip, tip) else (tip, pop)

/-- A connection seen by one end, and its health. -/
structure Seen where
  a : Nat
  b : Nat
  h : Health
deriving DecidableEq, Repr

/-- mapper.py:440-442 -/
def key (a b : Nat) : Nat × Nat := if a > b then (b, a) else (a, b)

/-- The connections of a path, `conns`. -/
abbrev Conns := List ((Nat × Nat) × Health)

/-- mapper.py:438-452 `MapPath.add` -/
def Conns.add (c : Conns) (s : Seen) : Conns :=
  let k := key s.a s.b
  let old := (Mapper.get c k).getD .gone
  if code old < code s.h then Mapper.put c k s.h else c

/-- mapper.py:454-468 `MapPath.color`: outer `none` is ValueError, inner `none` is None. -/
def pathColor (l : List Health) : Option (Option Color) :=
  match top l with
  | none => none
  | some t => some (if t = code .up then (match mixed l with | some c => some c | none => some .green)
      else if t = 0 then none else if t = 1 then some .gray else some .red)

/-- What is drawn of a path: an exception, nothing, or an arc with a colour. -/
inductive Arc where
  | raises | nothing | arc (c : Color)
deriving DecidableEq, Repr

/-- mapper.py:470-518 `actconns`, `draw`: nothing without text for the popup (mapper.py:478, 508-509), nothing without colour. -/
def draw (seen : List Seen) : Arc :=
  let c : Conns := seen.foldl Conns.add []
  if c.filter (fun x => x.2 ≠ .gone) = [] then .nothing
  else match pathColor (c.map (·.2)) with
    | none => .raises
    | some none => .nothing
    | some (some k) => .arc k

end Verif.MapDraw
