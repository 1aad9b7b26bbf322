/-!
# Model of the node table of the configuration and the node database

* `checkdict.__setitem__` (`/repo/pydecnet/decnet/config.py` 90-104) and `Nodes.add` (124-132);
* `Config.scanconfig` (510-552): entries are added one after the other; after a
  `ConflictingEntry` the entry is reported, scanning goes on, and at the end the process exits
  (552-553), so only a history without any conflict gives a running node;
* `Node.__init__` (`node.py` 163-166), `addnodeinfo` (230-234), `addloopnodeinfo` (236-240),
  `nodeinfo` (242-268).

Simplifications: the parser that turns a line into an entry is left out; names are already in upper
case and addresses are numbers 1..65535 (config.py 362-364); attributes that are the same for all
node entries (`collection`, `attr`) are left out, so the attributes are the four below.
A dictionary is an association list in insertion order with at most one pair per key.
-/

namespace Verif.Config

/-- A dictionary. -/
abbrev Dict (K V : Type) := List (K × V)

/-- `d[key]`; `none` is `KeyError`. -/
def get {K V : Type} [DecidableEq K] (d : Dict K V) (k : K) : Option V :=
  match d with
  | [] => none
  | (k', v) :: r => if k' = k then some v else get r k

/-- `dict.__setitem__`: an existing key keeps its place. -/
def put {K V : Type} [DecidableEq K] (d : Dict K V) (k : K) (v : V) : Dict K V :=
  match d with
  | [] => [(k, v)]
  | (k', v') :: r => if k' = k then (k', v) :: r else (k', v') :: put r k v

/-- A `node` entry of the configuration: config.py 361-368. -/
structure Ent where
  id : Nat
  name : String
  outv : Option String
  inv : Option String
deriving DecidableEq, Repr

/-- An attribute that is `None` in the earlier entry may be anything in the later one
(config.py 98-99: `ov != nv and ov is not None`). -/
def clash {A : Type} [DecidableEq A] (ov nv : Option A) : Bool :=
  ov.isSome && decide (ov ≠ nv)

/-- The loop over the attributes: config.py 94-102. -/
def conflict (prev val : Ent) : Bool :=
  clash (some prev.id) (some val.id) || clash prev.inv val.inv ||
  clash (some prev.name) (some val.name) || clash prev.outv val.outv

/-- `checkdict.__setitem__`: config.py 90-104; `none` is `ConflictingEntry`. -/
def setItem {K : Type} [DecidableEq K] (d : Dict K Ent) (k : K) (v : Ent) : Option (Dict K Ent) :=
  match get d k with
  | none => some (put d k v)
  | some prev =>
    if prev = v then some d
    else if conflict prev v then none
    else some (put d k v)

/-- The two dictionaries of `Nodes`: config.py 124-127. -/
structure Nodes where
  names : Dict String Ent
  ids : Dict Nat Ent

/-- `Nodes.add`: config.py 129-133 (and `Circuits.add` 112-113).  The address table is written
first and is not restored when the name table then refuses the entry.  The flag is true if no
exception was raised. -/
def add (s : Nodes) (v : Ent) : Nodes × Bool :=
  match setItem s.ids v.id v with
  | none => (s, false)
  | some ids =>
    match setItem s.names v.name v with
    | none => ({ s with ids := ids }, false)
    | some names => (⟨names, ids⟩, true)

/-- `Config.scanconfig`, node entries only: config.py 510-545.  `ok` as in line 511. -/
def scan (s : Nodes) (ok : Bool) : List Ent → Nodes × Bool
  | [] => (s, ok)
  | v :: vs =>
    let r := add s v
    scan r.1 (r.2 && ok) vs

/-- A `Nodeinfo` object: number, name (empty for an unknown node), verification values.  A loop node
(`node.py` 107-120) is an entry whose name is that of a circuit's loop node. -/
structure Info where
  num : Nat
  name : String
  overif : Option String
  iverif : Option String
  loop : Bool
deriving DecidableEq, Repr

/-- Default area: `Nodeid.__new__` line common.py 320: `a = a or area`. -/
def withArea (area id : Nat) : Nat :=
  (if id / 1024 = 0 then area else id / 1024) * 1024 + id % 1024

/-- `Nodeinfo (c, area)`: node.py 67-84.  An empty verification string counts as none. -/
def mkInfo (area : Nat) (e : Ent) : Info :=
  ⟨withArea area e.id, e.name, e.outv.filter (· ≠ ""), e.inv.filter (· ≠ ""), false⟩

/-- The node database: node.py 145-146.  The keys of `byid` are node numbers; the entries of loop
nodes, which are keyed by circuit (240), are left out of `byid`. -/
structure Db where
  byname : Dict String Info
  byid : Dict Nat Info

/-- `addnodeinfo`: node.py 230-234. -/
def addInfo (d : Db) (i : Info) : Db := ⟨put d.byname i.name i, put d.byid i.num i⟩

/-- `Node.__init__`: node.py 163-166. -/
def build (area : Nat) (s : Nodes) : Db :=
  s.names.foldl (fun d p => addInfo d (mkInfo area p.2)) ⟨[], []⟩

/-- `addloopnodeinfo`: node.py 236-240, called for each circuit with a loop node (routing.py 370).
No check against node names is made. -/
def addLoop (d : Db) (name : String) : Db := { d with byname := put d.byname name ⟨0, name, none, none, true⟩ }

/-- `nodeinfo` with a name that is not a number: node.py 256-260. -/
def lookupName (d : Db) (n : String) : Option Info := get d.byname n

/-- `nodeinfo` with a number: node.py 261-268.  An unknown number gets an entry without a name. -/
def lookupId (d : Db) (n : Nat) (add : Bool) : Db × Info :=
  match get d.byid n with
  | some i => (d, i)
  | none =>
    let i : Info := ⟨n, "", none, none, false⟩
    (if add then { d with byid := put d.byid n i } else d, i)

end Verif.Config
