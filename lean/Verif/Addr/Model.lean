import Verif.Fields.Model

/-!
# Node and Ethernet addresses

Model of `Nodeid` and `Macaddr`, pydecnet/decnet/common.py:275-478.
A `Nodeid` is a Python `int`, here an `Int`; a `Macaddr` is a `bytes` object of
length 6.  Text is a `List Char`.
-/

namespace Verif.Addr

open Verif.Fields (Bytes Err le fromLe toBytes)

/-- common.py `HIORD`. -/
def HIORD : Bytes := [0xaa, 0x00, 0x04, 0x00]

/-- common.py:325-329: the final checks of `Nodeid.__new__` and the value it
builds.  `wild` allows a zero node number, `area` is the default area. -/
def mk (a n : Int) (wild : Bool) (area : Int) : Except Err Int :=
  if a > 63 ∨ n > 1023 ∨ (n = 0 ∧ a ≠ 0 ∧ wild = false) then .error .valueError
  else .ok ((if a = 0 then area else a) * 1024 + n)

/-- `Nodeid (s)` for an integer: common.py:306-308, `divmod (s, 1024)`. -/
def ofInt (s : Int) (wild : Bool := false) (area : Int := 0) : Except Err Int :=
  mk (s / 1024) (s % 1024) wild area

/-- `Nodeid (a, n)`: common.py:309-310. -/
def ofPair (a n : Int) (wild : Bool := false) (area : Int := 0) : Except Err Int :=
  mk a n wild area

/-- `Nodeid (mac)` for a `Macaddr`: common.py:311-316. -/
def ofMac (m : Bytes) : Except Err Int :=
  if m.take 4 ≠ HIORD then .error .valueError
  else
    let v : Int := fromLe (m.drop 4)
    if v % 1024 = 0 ∨ v / 1024 = 0 then .error .valueError
    else mk (v / 1024) (v % 1024) false 0

/-- `Nodeid (b)` for a byte string: common.py:317-323 (`DecodeError` is
reported as `other`). -/
def ofBytes (b : Bytes) (wild : Bool := false) (area : Int := 0) : Except Err Int :=
  if b.length ≠ 2 then .error .other
  else
    let v : Int := fromLe b
    if v % 1024 = 0 ∧ wild = false then .error .other
    else mk (v / 1024) (v % 1024) wild area

/-- common.py:331-334 `Nodeid.decode`. -/
def decode (buf : Bytes) : Except Err (Int × Bytes) := do
  Verif.Fields.require buf 2
  let v ← ofBytes (buf.take 2)
  return (v, buf.drop 2)

/-- common.py:336-337 `Nodeid.encode` (also `__bytes__`, 361-362). -/
def encode (x : Int) : Except Err Bytes := toBytes 2 x

/-- common.py:339-341 `area`: `int (self) >> 10`. -/
def area (x : Int) : Int := x / 1024

/-- common.py:343-345 `tid`: `int (self) & 1023`. -/
def tid (x : Int) : Int := x % 1024

/-! ## Text -/

/-- A decimal digit character. -/
def digitVal (c : Char) : Option Nat :=
  if '0' ≤ c ∧ c ≤ '9' then some (c.toNat - '0'.toNat) else none

def addDigit (acc : Option Nat) (c : Char) : Option Nat :=
  match acc, digitVal c with
  | some a, some d => some (10 * a + d)
  | _, _ => none

/-- `int (s)` for a string of digits matched by `\d+` (ASCII digits; the
Unicode digits Python's `\d` also matches are not modelled). -/
def parseNat (s : List Char) : Option Nat :=
  if s = [] then none
  else s.foldl addDigit (some 0)

/-- `_nodeid_re`, common.py:275: `^(?:(\d+)\.)?(\d+)$`. -/
def parseId (s : List Char) : Option (Option Nat × Nat) :=
  match s.span (· ≠ '.') with
  | (n, []) => (parseNat n).map fun n => (none, n)
  | (a, _ :: n) =>
    match parseNat a, parseNat n with
    | some a, some n => some (some a, n)
    | _, _ => none

/-- `Nodeid (text)`: common.py:292-310. -/
def ofText (s : List Char) (wild : Bool := false) (area : Int := 0) : Except Err Int :=
  match parseId s with
  | none => .error .valueError
  | some (none, n) => ofInt n wild area
  | some (some a, n) => ofPair a n wild area

/-- Python's decimal form of a natural number (`"{}".format (n)`), digits
accumulated in front of `acc`. -/
def natText (n : Nat) : List Char :=
  if h : n < 10 then [Char.ofNat ('0'.toNat + n)]
  else natText (n / 10) ++ [Char.ofNat ('0'.toNat + n % 10)]
termination_by n
decreasing_by omega

/-- `"{}".format (i)` of an integer. -/
def intText (i : Int) : List Char :=
  if i < 0 then '-' :: natText (-i).toNat else natText i.toNat

/-- common.py:353-358 `Nodeid.__str__`. -/
def text (x : Int) : List Char :=
  if x / 1024 ≠ 0 then intText (x / 1024) ++ '.' :: intText (x % 1024)
  else intText (x % 1024)

/-! ## Ethernet addresses -/

/-- `Macaddr (nodeid)`: common.py:434-435. -/
def macOf (x : Int) : Except Err Bytes := (encode x).map (HIORD ++ ·)

/-- `Macaddr (b)` for a byte string: common.py:436-439. -/
def macOfBytes (b : Bytes) : Except Err Bytes :=
  if b.length ≠ 6 then .error .valueError else .ok b

/-- common.py:442-448 `Macaddr.decode`, `Macaddr.encode`. -/
def macDecode (buf : Bytes) : Except Err (Bytes × Bytes) := do
  Verif.Fields.require buf 6
  let m ← macOfBytes (buf.take 6)
  return (m, buf.drop 6)

def hexChar (n : Nat) : Char :=
  if n < 10 then Char.ofNat ('0'.toNat + n) else Char.ofNat ('a'.toNat + (n - 10))

def hexVal (c : Char) : Option Nat :=
  if '0' ≤ c ∧ c ≤ '9' then some (c.toNat - '0'.toNat)
  else if 'a' ≤ c ∧ c ≤ 'f' then some (c.toNat - 'a'.toNat + 10)
  else if 'A' ≤ c ∧ c ≤ 'F' then some (c.toNat - 'A'.toNat + 10)
  else none

/-- `"{:02x}".format (b)`. -/
def hexByte (b : UInt8) : List Char := [hexChar (b.toNat / 16), hexChar (b.toNat % 16)]

/-- common.py:450-451 `Macaddr.__str__`: six hex bytes joined by dashes. -/
def macText (m : Bytes) : List Char := List.intercalate ['-'] (m.map hexByte)

/-- `int (f, 16)` of a piece of the text (hex digits only; the prefix,
underscore and blank forms Python also takes are not modelled). -/
def parseHex (s : List Char) : Option Nat :=
  if s = [] then none
  else s.foldl (fun acc c => match acc, hexVal c with
    | some a, some d => some (16 * a + d)
    | _, _ => none) (some 0)

/-- Pieces of `_mac_re.split` (common.py:412, 422). -/
def pieces : List Char → List (List Char)
  | [] => [[]]
  | c :: cs =>
    if c = '-' ∨ c = ':' then [] :: pieces cs
    else match pieces cs with
      | p :: ps => (c :: p) :: ps
      | [] => [[c]]

/-- `bytes (int (f, 16) for f in bl)`: each value must be below 256. -/
def hexBytes : List (List Char) → Except Err Bytes
  | [] => .ok []
  | f :: fs =>
    match parseHex f with
    | none => .error .valueError
    | some v => if v < 256 then (hexBytes fs).map (UInt8.ofNat v :: ·) else .error .valueError

/-- `Macaddr (text)`: common.py:421-433.  Without separators the text is one
hexadecimal number, big endian (`to_bytes` overflows from 2 ** 48 on). -/
def macOfText (s : List Char) : Except Err Bytes :=
  let bl := pieces s
  if bl.length = 1 then
    match parseHex s with
    | none => .error .valueError
    | some v => if v < 256 ^ 6 then .ok (le 6 v).reverse else .error .overflowError
  else if bl.length ≠ 6 then
    match parseId s with
    | none => .error .valueError
    | some _ => do
      let x ← ofText s
      if x / 1024 = 0 then throw Err.valueError
      macOf x
  else hexBytes bl

end Verif.Addr
