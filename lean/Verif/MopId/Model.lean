import Mathlib.Data.Nat.Notation

/-!
# MOP: identification of systems, counters, requests for a console connection

mop.py 52-112 (`C`), 115-160 (`TIME`), 162-273 (messages), 524-668 (`MopCircuit`), 705-774 and
828-860 (`SysIdHandler`), 865-964 (`CarrierClientConnection` up to its first answer).

Left out: the pages for a browser (mop.py 776-826); the names of devices, processors and data links in
the list for the API (mop.py 847-852; the codes are kept); the tables of requests that loop tests
keep (`Mop`); the console server's terminal (`Mop`).
-/

namespace Verif.MopId

abbrev Bytes := List UInt8

/-- common.py:120-122 `require`, and the two parts of the buffer. -/
def take? (n : Nat) (b : Bytes) : Option (Bytes × Bytes) :=
  if b.length < n then none else some (b.take n, b.drop n)

/-- `int.from_bytes (..., LE)`, packet.py:196-198. -/
def fromLe : Bytes → Nat
  | [] => 0
  | x :: xs => x.toNat + 256 * fromLe xs

/-- `int.to_bytes (n, LE)`, packet.py:192-193; `none` is OverflowError. -/
def le : Nat → Nat → Option Bytes
  | 0, v => if v = 0 then some [] else none
  | n + 1, v => (le n (v / 256)).map fun r => UInt8.ofNat (v % 256) :: r

/-- A byte read as a signed number, mop.py:89 and mop.py:150-155. -/
def signed (b : UInt8) : Int := if b.toNat < 128 then b.toNat else (b.toNat : Int) - 256

/-! ## Fields -/

/-- mop.py:52-112 `C`: a number from -2 to 0 or a text; a text is its latin1 coding. -/
inductive Soft where
  | code (n : Int)
  | text (t : Bytes)
deriving DecidableEq, Repr

/-- mop.py:59-72 `C.encode`; the field is always sent, without a value it has no bytes. -/
def encSoft : Option Soft → Option Bytes
  | none => some []
  | some (.code n) => if -2 ≤ n ∧ n ≤ 0 then some [UInt8.ofNat (n % 256).toNat] else none
  | some (.text t) => if t.length < 256 then some (UInt8.ofNat t.length :: t) else none

/-- mop.py:75-101 `C.decode` in a tolerant packet; `old` is the value of the attribute before.  The
maximum is 127 (mop.py:192), so that no positive count exceeds it. `packet.A.decode` is packet.py:149-160. -/
def decSoft (old : Option Soft) (b : Bytes) : Option (Option Soft) :=
  match b with
  | [] => some old
  | c :: r =>
    if signed c < -2 then none
    else if signed c ≤ 0 then some (some (.code (signed c)))
    else if b.length < c.toNat then some (some (.text b))
    else if r.length < c.toNat then none
    else some (some (.text (r.take c.toNat)))

/-- mop.py:115-160 `TIME`: what `struct_time` holds. -/
structure Time where
  year : Nat
  mon : Nat
  mday : Nat
  hour : Nat
  min : Nat
  sec : Nat
  /-- seconds east of Greenwich -/
  tz : Int
deriving DecidableEq, Repr

/-- mop.py:138-160 `TIME.decode`. -/
def decTime : Bytes → Option Time
  | t0 :: t1 :: t2 :: t3 :: t4 :: t5 :: t6 :: _ :: t8 :: t9 :: _ =>
    some { year := if t0.toNat ≠ 0 then t0.toNat * 100 + t1.toNat else 1900 + t1.toNat
           mon := t2.toNat, mday := t3.toNat, hour := t4.toNat, min := t5.toNat, sec := t6.toNat
           tz := (signed t8 * 60 + signed t9) * 60 }
  | _ => none

/-- mop.py:175-183, the bits of item 2. -/
structure Funcs where
  loop : Bool := false
  dump : Bool := false
  ploader : Bool := false
  sloader : Bool := false
  boot : Bool := false
  carrier : Bool := false
  counters : Bool := false
  reserved : Bool := false
deriving DecidableEq, Repr

/-- packet.py:280-299 `BM.encode`. -/
def encFuncs (f : Funcs) : Bytes :=
  [UInt8.ofNat (f.loop.toNat + 2 * f.dump.toNat + 4 * f.ploader.toNat + 8 * f.sloader.toNat
    + 16 * f.boot.toNat + 32 * f.carrier.toNat + 64 * f.counters.toNat + 128 * f.reserved.toNat)]

/-- packet.py:302-316 `BM.decode`. -/
def decFuncs : Bytes → Option Funcs
  | [] => none
  | b :: _ =>
    let bit := fun i => b.toNat / 2 ^ i % 2 == 1
    some { loop := bit 0, dump := bit 1, ploader := bit 2, sloader := bit 3, boot := bit 4,
           carrier := bit 5, counters := bit 6, reserved := bit 7 }

/-! ## System identification -/

/-- mop.py:167-199 `SysId`.  `none` is an attribute that was not set; the bits of item 2 are set
together.  `other` are the attributes `fieldN` (packet.py:529-532), in the order in which they were made. -/
structure SysId where
  receipt : Nat
  version : Option Bytes := none
  funcs : Option Funcs := none
  user : Option Bytes := none
  resTimer : Option Nat := none
  cmdSize : Option Nat := none
  respSize : Option Nat := none
  hwaddr : Option Bytes := none
  time : Option Time := none
  device : Option Nat := none
  software : Option Soft := none
  processor : Option Nat := none
  datalink : Option Nat := none
  bufsize : Option Nat := none
  other : List (Nat × Bytes) := []
deriving DecidableEq, Repr

/-- One item: tag of two bytes, length of one, value; packet.py:497-500 (`byte` of common.py:111-112
raises above 255). -/
def item (tag : Nat) (v : Bytes) : Option Bytes :=
  match le 2 tag, le 1 v.length with
  | some t, some l => some (t ++ l ++ v)
  | _, _ => none

/-- packet.py:487-500 for a simple field: nothing is sent for an attribute without value. -/
def optItem (tag : Nat) (enc : α → Option Bytes) : Option α → Option Bytes
  | none => some []
  | some x => (enc x).bind (item tag)

/-- Macaddr and Version, common.py:439-450 and common.py:590-601: the right length or ValueError. -/
def encFixed (n : Nat) (b : Bytes) : Option Bytes := if b.length = n then some b else none

/-- mop.py:118-135 `TIME.encode` uses a name that does not exist: NameError, always. -/
def encTime (_ : Time) : Option Bytes := none

/-- Append, unless one of the two raised. -/
def both (a b : Option Bytes) : Option Bytes :=
  match a, b with
  | some x, some y => some (x ++ y)
  | _, _ => none

/-- packet.py:484-501 `TLV.encode` for the table in mop.py:173-195.  A bit map is sent even if no bit
of it was set (packet.py:496). -/
def encItems (m : SysId) : Option Bytes :=
  both (optItem 1 (encFixed 3) m.version) <|
  both (item 2 (encFuncs (m.funcs.getD {}))) <|
  both (optItem 3 (encFixed 6) m.user) <|
  both (optItem 4 (le 2) m.resTimer) <|
  both (optItem 5 (le 2) m.cmdSize) <|
  both (optItem 6 (le 2) m.respSize) <|
  both (optItem 7 (encFixed 6) m.hwaddr) <|
  both (optItem 8 encTime m.time) <|
  both (optItem 100 (le 1) m.device) <|
  both ((encSoft m.software).bind (item 200)) <|
  both (optItem 300 (le 1) m.processor) <|
  both (optItem 400 (le 1) m.datalink) <|
  both (optItem 401 (le 2) m.bufsize) (some [])

/-- The whole message, packet.py:1006-1027 `Packet.encode`, mop.py:171-198. -/
def encSysId (m : SysId) : Option Bytes :=
  match le 2 m.receipt, encItems m with
  | some r, some t => some (7 :: 0 :: r ++ t)
  | _, _ => none

/-- `setattr` of `fieldN`: a new attribute comes last, an old one keeps its place. -/
def setOther (l : List (Nat × Bytes)) (tag : Nat) (v : Bytes) : List (Nat × Bytes) :=
  if tag ∈ l.map (·.1) then l.map fun x => if x.1 = tag then (tag, v) else x else l ++ [(tag, v)]

/-- Number of `n` bytes, packet.py:196-198; what is left over is ignored (packet.py:542-546, tolerant). -/
def decNum (n : Nat) (v : Bytes) : Option Nat := (take? n v).map fun x => fromLe x.1

/-- Fixed number of bytes, common.py:445-447 and common.py:596-598. -/
def decFixed (n : Nat) (v : Bytes) : Option Bytes := (take? n v).map (·.1)

/-- packet.py:526-546, one item of the table in mop.py:173-195. -/
def decItem (m : SysId) (tag : Nat) (v : Bytes) : Option SysId :=
  match tag with
  | 1 => (decFixed 3 v).map fun x => { m with version := some x }
  | 2 => (decFuncs v).map fun x => { m with funcs := some x }
  | 3 => (decFixed 6 v).map fun x => { m with user := some x }
  | 4 => (decNum 2 v).map fun x => { m with resTimer := some x }
  | 5 => (decNum 2 v).map fun x => { m with cmdSize := some x }
  | 6 => (decNum 2 v).map fun x => { m with respSize := some x }
  | 7 => (decFixed 6 v).map fun x => { m with hwaddr := some x }
  | 8 => (decTime v).map fun x => { m with time := some x }
  | 100 => (decNum 1 v).map fun x => { m with device := some x }
  | 200 => (decSoft m.software v).map fun x => { m with software := x }
  | 300 => (decNum 1 v).map fun x => { m with processor := some x }
  | 400 => (decNum 1 v).map fun x => { m with datalink := some x }
  | 401 => (decNum 2 v).map fun x => { m with bufsize := some x }
  | tag => some { m with other := setOther m.other tag v }

/-- packet.py:503-548 `TLV.decode`, tolerant: fewer than three bytes at the end are ignored. -/
def decItems (m : SysId) (b : Bytes) : Option SysId :=
  match b with
  | t0 :: t1 :: l :: r =>
    if r.length < l.toNat then none
    else
      match decItem m (t0.toNat + 256 * t1.toNat) (r.take l.toNat) with
      | none => none
      | some m' => decItems m' (r.drop l.toNat)
  | _ => some m
termination_by b.length
decreasing_by simp only [List.length_drop, List.length_cons]; omega

/-! ## Counters -/

/-- mop.py:217-240 `Counters` apart from the receipt number: seconds since zeroed, the nine counters
of four bytes, the eight fields of two bytes. -/
structure Counters where
  secs : Nat
  wide : List Nat
  narrow : List Nat
deriving DecidableEq, Repr

/-- packet.py:259-262 `CTR.encode`, common.py:638-639: the largest value there is, if need be. -/
def capped (n v : Nat) : Bytes := (le n (min v (256 ^ n - 1))).getD []

/-- What `send_ctrs` (mop.py:769-774) sends: `wide` and `narrow` are the values of the data link's
counters in the order of mop.py:221-239, zero for those that it does not have (datalink.py:599-631, which
has none of those that are no `CTR`). -/
def encCounters (receipt : Nat) (c : Counters) : Option Bytes :=
  (le 2 receipt).map fun r =>
    11 :: r ++ capped 2 c.secs ++ (c.wide.map (capped 4)).flatten ++ (c.narrow.map (capped 2)).flatten

/-- `n` numbers of `k` bytes and the rest. -/
def decNums (k : Nat) : Nat → Bytes → Option (List Nat × Bytes)
  | 0, b => some ([], b)
  | n + 1, b =>
    match take? k b with
    | none => none
    | some (x, r) => (decNums k n r).map fun y => (fromLe x :: y.1, y.2)

/-- Decoding of mop.py:217-240, after the code and the receipt number. -/
def decCounters (b : Bytes) : Option (Counters × Bytes) :=
  match decNum 2 b with
  | none => none
  | some s =>
    match decNums 4 9 (b.drop 2) with
    | none => none
    | some (w, r) => (decNums 2 8 r).map fun y => ({ secs := s, wide := w, narrow := y.1 }, y.2)

/-! ## All messages -/

/-- The messages of the console protocol, mop.py:162-273.  Contents of those that `Mop` is about are
left out, but for who sent them. -/
inductive Msg where
  | sysId (m : SysId)
  | requestId (receipt : Nat)
  | requestCounters (receipt : Nat)
  | counters (receipt : Nat) (c : Counters)
  | consoleRequest (ver : Bytes)
  | consoleRelease
  | consoleCommand (flags : UInt8) (payload : Bytes)
  | consoleResponse (flags : UInt8) (payload : Bytes)
deriving DecidableEq, Repr

/-- Nothing may be left over, packet.py:974-981. -/
def exact (x : α × Bytes) : Option α := if x.2 = [] then some x.1 else none

/-- mop.py:627-637: `none` if the message is ignored, because there is none, its code is not known
(packet.py:733-742) or its coding is wrong. -/
def parse (b : Bytes) : Option Msg :=
  match b with
  | [] => none
  | 7 :: r => (take? 1 r).bind fun x => (take? 2 x.2).bind fun y =>
      (decItems { receipt := fromLe y.1 } y.2).map .sysId
  | 5 :: r => (take? 1 r).bind fun x => (take? 2 x.2).bind fun y =>
      exact (.requestId (fromLe y.1), y.2)
  | 9 :: r => (take? 2 r).bind fun y => exact (.requestCounters (fromLe y.1), y.2)
  | 11 :: r => (take? 2 r).bind fun y => (decCounters y.2).bind fun z =>
      exact (.counters (fromLe y.1) z.1, z.2)
  | 13 :: r => (take? 8 r).bind fun y => exact (.consoleRequest y.1, y.2)
  | 15 :: r => exact (.consoleRelease, r)
  | 17 :: f :: r => some (.consoleCommand f r)
  | 19 :: f :: r => some (.consoleResponse f r)
  | _ => none

end Verif.MopId
