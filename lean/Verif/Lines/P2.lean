import Verif.Lines.Model

/-!
# Lines in requests of Phase II

nicepackets.py 1735-1820 (`P2LineEntity`), 1832-1892 (`P2CTR2`, `P2NICE`, the reply), 1949-1962; datalink.py 50-66, 109-120
and 186-187; modules/nml.py 156-181.

Bytes and characters are numbers.  Left out: characters other than ASCII; the byte before the line in a reply.
-/

namespace Verif.Lines.P2

open Verif.Lines

abbrev Bytes := List Nat

/-! ## Identification of lines -/

def isLetter (c : Nat) : Bool := (65 ≤ c && c ≤ 90) || (97 ≤ c && c ≤ 122)
def isOct (c : Nat) : Bool := 48 ≤ c && c ≤ 55
def isSep (c : Nat) : Bool := c = 45 || c = 95
def upper (c : Nat) : Nat := if 97 ≤ c ∧ c ≤ 122 then c - 32 else c

/-- `int (s, 8)`, nicepackets.py:1765, 1767. -/
def oct (s : Str) : Nat := s.foldl (fun a c => 8 * a + (c - 48)) 0

/-- nicepackets.py:1739-1753 `devnames`. -/
def devnames : List (Nat × Str) :=
  [(0, "DP"), (2, "DU"), (4, "DL"), (6, "DQ"), (8, "DA"), (10, "DUP"), (12, "DMC"), (14, "DLV"), (16, "DL"), (20, "DTE"),
    (22, "DV"), (28, "KDP"), (30, "KDZ")].map fun x => (x.1, x.2.toList.map Char.toNat)

/-- nicepackets.py:1754 `devcodes`: of two codes with the same name the last. -/
def devcode (s : Str) : Option Nat := (devnames.reverse.find? fun x => x.2 = s).map (·.1)

/-- nicepackets.py:1735 `_line_re`: the parts of a name. -/
def parse (s : Str) : Option (Str × Str × Str) :=
  match s.dropWhile isLetter with
  | [] => none
  | x :: r =>
    if isSep x = false ∨ s.takeWhile isLetter = [] ∨ r.takeWhile isOct = [] then none
    else match r.dropWhile isOct with
      | [] => some (s.takeWhile isLetter, r.takeWhile isOct, [])
      | y :: u =>
        if isSep y = true ∧ u ≠ [] ∧ u.all isOct = true then some (s.takeWhile isLetter, r.takeWhile isOct, u) else none

/-- nicepackets.py:1760-1773: a name of the standard form. -/
def standard (s : Str) : Option Bytes :=
  match parse s with
  | none => none
  | some (d, c, u) =>
    match devcode (d.map upper) with
    | none => none
    | some d => if oct c ≤ 255 ∧ oct u ≤ 255 then some [1, d, oct c, oct u, 0] else none

/-- nicepackets.py:1756-1785 with `alt`, and for a name other than `*`; `none` is ValueError. -/
def lineId (s : Str) (alt : Nat) : Option Bytes :=
  match standard s with
  | some b => some b
  | none => if alt ≤ 255 then some [1, 20, 0, alt, 0] else none

/-- `{:o}`. -/
def digits (n : Nat) : Str := (Nat.toDigits 8 n).map Char.toNat

/-- nicepackets.py:1790-1798; `none` is KeyError or IndexError. -/
def text : Bytes → Option Str
  | 0 :: _ => some [42]
  | 1 :: d :: c :: u :: _ =>
    (devnames.find? fun x => x.1 = d).map fun x => x.2 ++ 95 :: digits c ++ (if u = 0 then [] else 95 :: digits u)
  | [] => none
  | [1] => none
  | [1, _] => none
  | [1, _, _] => none
  | _ :: r => some (r.drop 1)

/-- `dict[k] = v`. -/
def put (t : List (Bytes × Str)) (k : Bytes) (v : Str) : List (Bytes × Str) :=
  if k ∈ t.map (·.1) then t.map fun x => if x.1 = k then (k, v) else x else t ++ [(k, v)]

/-- datalink.py:50-66, for one circuit: `p2lines`.  An exception leaves the table as it is. -/
def enter (t : List (Bytes × Str)) (name : Str) : List (Bytes × Str) :=
  match lineId name t.length with
  | none => t
  | some k => put t k name

/-- The table for the circuits of a configuration, in order. -/
def table (names : List Str) : List (Bytes × Str) := names.foldl enter []

/-! ## Requests and answers -/

/-- The answer: an exception (which aborts the connection), or a count and records; each has a line and data. -/
inductive Ans where
  | abort
  | recs (count : Nat) (rs : List (Bytes × Bytes))
deriving DecidableEq, Repr

/-- nicepackets.py:1838-1841: the number of the counter, and two bytes. -/
def ctr2 (p : Nat) : Option Nat → Bytes
  | none => []
  | some v => [p, min v 65535 % 256, min v 65535 / 256]

/-- nicepackets.py:1882-1892, of the counters that are set.  (`bytes_recv` and others are no attributes of this
reply, common.py:742.) -/
def counters (k : Kind) : Bytes :=
  let r := (({ name := [] } : Rec).counters k)
  ctr2 0 r.since ++ ctr2 1 r.pktsRecv ++ ctr2 2 r.pktsSent ++ ctr2 3 (r.dataOut.map (·.1)) ++ ctr2 4 (r.dataIn.map (·.1))
    ++ ctr2 5 r.remoteReply ++ ctr2 6 r.localReply

/-- datalink.py:109-120 and 186-187; modules/nml.py:156-181.  Without lines in the reply, `req.mult` raises
AttributeError (modules/nml.py:157). -/
def answer (ls : List Line) (id : Bytes) : Ans :=
  let found := if id.head? = some 0 then sorted ls
    else match (table (ls.map (·.name))).find? (fun x => x.1 = id) with
      | none => []
      | some x => ls.filter fun l => l.name = x.2
  if found = [] then .abort else .recs found.length (found.map fun l => (id, counters l.kind))

/-! ## The client of this package -/

/-- What a reply may say, nicepackets.py:1884-1892. -/
inductive Attr where
  | since | pktsRecv | pktsSent | dataOut | dataIn | remoteReply | localReply | selection | buffer
deriving DecidableEq, Repr

/-- The layout. -/
def layout : List (Nat × Attr) :=
  [(0, .since), (1, .pktsRecv), (2, .pktsSent), (3, .dataOut), (4, .dataIn), (5, .remoteReply), (6, .localReply),
    (6, .selection), (8, .buffer)]

/-- nice_coding.py:557-564: a dictionary, so that of two with the same number the last is found. -/
def attrOf (p : Nat) : Option Attr := (layout.reverse.find? fun x => x.1 = p).map (·.2)

/-- nicepackets.py:1857-1877 and the loop of `NICE.decode`; `none` is an exception. -/
def readCounters : Bytes → Option (List (Attr × Nat))
  | [] => some []
  | p :: a :: b :: r =>
    match attrOf p, readCounters r with
    | some x, some l => some ((x, a + 256 * b) :: l)
    | _, _ => none
  | _ => none

end Verif.Lines.P2
