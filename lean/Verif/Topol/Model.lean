/-!
# The topology server: `decnet/modules/topol.py`
-/

namespace Verif.Topol

abbrev Bytes := List UInt8

/-- A name; characters are numbers. -/
abbrev Name := List Nat

/-- `str.split (",")` (modules/topol.py:69); 44 is the comma. -/
def split : Name → List Name
  | [] => [[]]
  | c :: r =>
    if c = 44 then [] :: split r
    else match split r with
      | [] => [[c]]
      | a :: q => (c :: a) :: q

/-- Add to a set (modules/topol.py:84). -/
def add (s : List Name) (n : Name) : List Name := if n ∈ s then s else s ++ [n]

/-- modules/topol.py:67-84, the set of names.  `up` is `str.upper`; `arg` are
the arguments of the object, `active` the names of the active nodes, empty if a
node has none (C101 is about which these are). -/
def collect (up : Name → Name) (arg : List Name) (active : List Name) : List Name :=
  let s := match arg with
    | [] => []
    | a :: _ => (split a).foldl (fun s n => add s (up n)) []
  active.foldl (fun s n => if n = [] then s else add s (up n)) s

/-- modules/topol.py:85-89, the list that is sent; `order` is the order in
which Python lists the set. -/
def names (order : List Name → List Name) (s : List Name) : List Name := (order s).take 50

/-- `bytes (s, "latin1")` of packet.py:141; `none` is UnicodeEncodeError. -/
def latin1 : Name → Option Bytes
  | [] => some []
  | c :: r => if c < 256 then (latin1 r).map (UInt8.ofNat c :: ·) else none

/-- modules/topol.py:58-61 `NodeEntry`, packet.py:140-146: at most 6 bytes. -/
def entry (n : Name) : Option Bytes :=
  match latin1 n with
  | none => none
  | some b => if b.length ≤ 6 then some (1 :: UInt8.ofNat b.length :: b) else none

/-- modules/topol.py:102-103. -/
def entries : List Name → Option Bytes
  | [] => some []
  | n :: r => match entry n, entries r with
    | some a, some b => some (a ++ b)
    | _, _ => none

/-- modules/topol.py:41-56 and 101-104, the reply.  The attribute `node_count`
is set nowhere: a field without value is sent as 0 (common.py:186-191). -/
def reply (l : List Name) : Option Bytes :=
  (entries l).map fun p => [2, 6, 1, 0, 0, 7, 0] ++ p

/-- What the client gets for a message. -/
inductive Out where
  | data (b : Bytes)
  | accept
  | abort
  | nothing
  deriving DecidableEq, Repr

/-- Items of Session Control. -/
inductive Item where
  | data (b : Bytes)
  | connect
  | other
  deriving DecidableEq, Repr

/-- modules/topol.py:92-112 `dispatch`; an exception aborts the connection
(session.py:769-786). -/
def dispatch (l : List Name) : Item → Out
  | .data _ => match reply l with
    | some b => .data b
    | none => .abort
  | .connect => .accept
  | .other => .nothing

end Verif.Topol
