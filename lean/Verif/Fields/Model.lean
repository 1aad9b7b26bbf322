/-!
# Packet fields and packet layouts

Model of `pydecnet/decnet/packet.py`: the field classes `I`, `A`, `RES`, `B`,
`SIGNED`, `CTR`, `BM`, `EX`, `I_tlv`, `BV`, `PAYLOAD`, `TLV` and the generic
`Packet.encode` / `Packet.decode_data` machinery which walks a class's code
table.

Byte strings are `List UInt8`.  A Python exception is a value of `Err`; a
Python `int` is an `Int`, a `str` is the list of its code points.
-/

namespace Verif.Fields

abbrev Bytes := List UInt8

/-- The exceptions the codecs raise.  `missingData`, `fieldOverflow`,
`extraData`, `invalidTag`, `wrongValue` are the subclasses of `DecodeError` of
packet.py and common.py; `overflowError` is Python's `OverflowError` from
`int.to_bytes`, `valueError` is raised by `bytes((n,))` for `n > 255`,
by encoding a non-latin1 character and by value constructors, `typeError`
stands for a value of the wrong Python type, `other` for any other class
specific failure. -/
inductive Err
  | missingData | fieldOverflow | extraData | invalidTag | wrongValue
  | overflowError | valueError | typeError | other
deriving DecidableEq, Repr

/-- A field value: an `int` (and its subclasses), a `bytes`, or a `str`. -/
inductive Val
  | int (i : Int)
  | bytes (b : Bytes)
  | str (s : List Nat)
deriving DecidableEq, Repr

/-! ## Python integer conversions -/

/-- `int.to_bytes (k, "little")` for a value already known to fit. -/
def le : Nat → Nat → Bytes
  | 0, _ => []
  | k + 1, n => UInt8.ofNat (n % 256) :: le k (n / 256)

/-- `int.from_bytes (buf, "little")`. -/
def fromLe : Bytes → Nat
  | [] => 0
  | b :: bs => b.toNat + 256 * fromLe bs

/-- `int.to_bytes (k, LE)`: OverflowError for negative or oversized values. -/
def toBytes (k : Nat) (i : Int) : Except Err Bytes :=
  if 0 ≤ i ∧ i < 256 ^ k then .ok (le k i.toNat) else .error .overflowError

/-- common.py:120-122 `require`. -/
def require (buf : Bytes) (n : Nat) : Except Err Unit :=
  if buf.length < n then .error .missingData else .ok ()

/-- common.py:111-112 `byte`: `bytes ((n,))`. -/
def byte (n : Nat) : Except Err Bytes :=
  if n < 256 then .ok [UInt8.ofNat n] else .error .valueError

/-! ## Simple fields -/

/-- packet.py:114-120 `I.encode`. -/
def iEnc (maxlen : Nat) (v : Bytes) : Except Err Bytes :=
  if v.length > maxlen then .error .fieldOverflow
  else (byte v.length).map (· ++ v)

/-- packet.py:122-134 `I.decode`. -/
def iDec (maxlen : Nat) (buf : Bytes) : Except Err (Bytes × Bytes) :=
  match buf with
  | [] => .error .missingData
  | l :: tl =>
    let flen := l.toNat
    if flen > maxlen then .error .fieldOverflow
    else
      -- `v = buf[1:flen + 1]`
      let v := tl.take flen
      if v.length ≠ flen then .error .missingData
      else .ok (v, tl.drop flen)

/-- `bytes (s, encoding = "latin1")`: UnicodeEncodeError (a ValueError) for a
code point above 255. -/
def latin1Enc (s : List Nat) : Except Err Bytes :=
  if s.all (· < 256) then .ok (s.map UInt8.ofNat) else .error .valueError

/-- `str (b, encoding = "latin1")`. -/
def latin1Dec (b : Bytes) : List Nat := b.map UInt8.toNat

/-- packet.py:140-146 `A.encode`. -/
def aEnc (maxlen : Nat) (s : List Nat) : Except Err Bytes := do
  let v ← latin1Enc s
  if v.length > maxlen then .error .fieldOverflow
  else (byte v.length).map (· ++ v)

/-- packet.py:148-160 `A.decode`. -/
def aDec (maxlen : Nat) (buf : Bytes) : Except Err (List Nat × Bytes) :=
  (iDec maxlen buf).map fun (v, rest) => (latin1Dec v, rest)

/-- packet.py:192-193 `B.encode`. -/
def bEnc (flen : Nat) (i : Int) : Except Err Bytes := toBytes flen i

/-- packet.py:195-198 `B.decode`. -/
def bDec (flen : Nat) (buf : Bytes) : Except Err (Int × Bytes) := do
  require buf flen
  return ((fromLe (buf.take flen) : Int), buf.drop flen)

/-- packet.py:229-230 `SIGNED.encode`: `to_bytes (flen, LE, signed = True)`,
two's complement.  (`flen ≥ 1`; every layout uses 1, 2 or 4.) -/
def signedEnc (flen : Nat) (i : Int) : Except Err Bytes :=
  if -(2 ^ (8 * flen - 1)) ≤ i ∧ i < 2 ^ (8 * flen - 1) then
    .ok (le flen (i % 256 ^ flen).toNat)
  else .error .overflowError

/-- packet.py:232-235 `SIGNED.decode`. -/
def signedDec (flen : Nat) (buf : Bytes) : Except Err (Int × Bytes) := do
  require buf flen
  let u := fromLe (buf.take flen)
  let v : Int := if u < 2 ^ (8 * flen - 1) then u else (u : Int) - 256 ^ flen
  return (v, buf.drop flen)

/-- common.py:608 `maxint[i] = (1 << 8 * i) - 1`. -/
def maxint (n : Nat) : Int := 256 ^ n - 1

/-- packet.py:259-262 `CTR.encode`. -/
def ctrEnc (flen : Nat) (i : Int) : Except Err Bytes :=
  if i ≤ maxint flen then bEnc flen i else toBytes flen (maxint flen)

/-- packet.py:367-377 `EX.encode`, the loop: seven bits at a time, low first,
top bit set on all but the last.  For a negative value the Python loop does
not terminate; the model covers `0 ≤ val`. -/
def exGroups (val : Nat) : Bytes :=
  if h : val >>> 7 = 0 then [UInt8.ofNat val]
  else UInt8.ofNat ((val &&& 0x7f) ||| 0x80) :: exGroups (val >>> 7)
termination_by val
decreasing_by
  rw [Nat.shiftRight_eq_div_pow] at *
  omega

/-- packet.py:367-377 `EX.encode`. -/
def exEnc (maxlen : Nat) (val : Nat) : Except Err Bytes :=
  let r := exGroups val
  if r.length > maxlen then .error .fieldOverflow else .ok r

/-- packet.py:379-393 `EX.decode`, the loop from index `i` with accumulated
value `val`; `left` iterations of `range (maxlen)` remain.  The first equation
is only reached for `maxlen = 0`, where Python fails with UnboundLocalError. -/
def exLoop : (left i val : Nat) → Bytes → Except Err (Nat × Bytes)
  | 0, _, _, _ => .error .other
  | _ + 1, _, _, [] => .error .missingData
  | left + 1, i, val, b :: tl =>
    let val' := val ||| ((b.toNat &&& 0x7f) <<< (7 * i))
    if b.toNat < 0x80 then .ok (val', tl)
    else if left = 0 then .error .fieldOverflow
    else exLoop left (i + 1) val' tl

/-- packet.py:379-393 `EX.decode`. -/
def exDec (maxlen : Nat) (buf : Bytes) : Except Err (Nat × Bytes) :=
  exLoop maxlen 0 0 buf

/-- packet.py:410-418 `BV.encode`. -/
def bvEnc (flen : Nat) (v : Bytes) : Except Err Bytes :=
  if v.length > flen then .error .fieldOverflow
  else .ok (v ++ List.replicate (flen - v.length) 0)

/-- packet.py:420-423 `BV.decode`. -/
def bvDec (flen : Nat) (buf : Bytes) : Except Err (Bytes × Bytes) := do
  require buf flen
  return (buf.take flen, buf.drop flen)

/-! ## Field classes as codecs -/

/-- A field class with its layout arguments: `val.encode (*args)`,
`ftype.decode (buf, *args)` and the default `checktype` supplies when the
attribute was not set (`cls ()`, common.py:186-204). -/
structure Codec where
  enc : Val → Except Err Bytes
  dec : Bytes → Except Err (Val × Bytes)
  dflt : Val

def intCodec (enc : Int → Except Err Bytes)
    (dec : Bytes → Except Err (Int × Bytes)) : Codec where
  enc | .int i => enc i
      | _ => .error .typeError
  dec buf := (dec buf).map fun (v, r) => (.int v, r)
  dflt := .int 0

def bytesCodec (enc : Bytes → Except Err Bytes)
    (dec : Bytes → Except Err (Bytes × Bytes)) : Codec where
  enc | .bytes b => enc b
      | _ => .error .typeError
  dec buf := (dec buf).map fun (v, r) => (.bytes v, r)
  dflt := .bytes []

/-- packet.py:111-134. -/
def cI (maxlen : Nat) : Codec := bytesCodec (iEnc maxlen) (iDec maxlen)

/-- packet.py:137-160. -/
def cA (maxlen : Nat) : Codec where
  enc | .str s => aEnc maxlen s
      | _ => .error .typeError
  dec buf := (aDec maxlen buf).map fun (v, r) => (.str v, r)
  dflt := .str []

/-- packet.py:188-198. -/
def cB (flen : Nat) : Codec := intCodec (bEnc flen) (bDec flen)

/-- packet.py:225-235. -/
def cSigned (flen : Nat) : Codec := intCodec (signedEnc flen) (signedDec flen)

/-- packet.py:255-262. -/
def cCtr (flen : Nat) : Codec := intCodec (ctrEnc flen) (bDec flen)

/-- packet.py:363-393; a negative value (endless loop in Python) is reported
as `other`. -/
def cEX (maxlen : Nat) : Codec where
  enc | .int i => if 0 ≤ i then exEnc maxlen i.toNat else .error .other
      | _ => .error .typeError
  dec buf := (exDec maxlen buf).map fun (v, r) => (.int v, r)
  dflt := .int 0

/-- packet.py:406-423. -/
def cBV (flen : Nat) : Codec := bytesCodec (bvEnc flen) (bvDec flen)

/-- packet.py:395-404 `I_tlv` and packet.py:429-452 `PAYLOAD`: both take the
whole rest of the buffer. -/
def cRest : Codec := bytesCodec .ok (fun b => .ok (b, []))

/-! ## Packet classes -/

/-- One element of a `BM` row (packet.py:340-361): name, start bit, bit count.
Simplification: the optional element type is not modelled (all are subclasses
of `int` whose constructor accepts the extracted value). -/
structure Elem where
  name : String
  start : Nat
  bits : Nat
deriving DecidableEq, Repr

/-- A row inside a TLV group: a simple field or a bit map. -/
inductive TRow
  | simple (name : String) (c : Codec)
  | bm (es : List Elem)

/-- A row of a class's code table (packet.py:1011-1022). -/
inductive Row
  | simple (name : String) (c : Codec)
  | bm (es : List Elem)
  | res (flen : Nat)
  | tlv (tlen llen : Nat) (wild : Bool) (codedict : List (Nat × TRow))

/-- Instance attributes. -/
abbrev Attrs := String → Option Val

/-- A packet class: code table, class attributes with a fixed value (`true`
for the class index key, which accepts any assignment: `ROAnyField`,
packet.py:84-93), and the `tolerant` flag.  `check` is the class-specific
`check` method (packet.py:1083-1088). -/
structure PktClass where
  rows : List Row
  fixed : String → Option (Val × Bool) := fun _ => none
  tolerant : Bool := false
  check : Attrs → Except Err Unit := fun _ => .ok ()

/-- `getattr (packet, name, None)`: a fixed value wins (ROField.__get__,
packet.py:71-72). -/
def PktClass.get (c : PktClass) (p : Attrs) (n : String) : Option Val :=
  match c.fixed n with
  | some (w, _) => some w
  | none => p n

/-- `setattr (packet, name, val)`: packet.py:74-77 `ROField.__set__`, 92-93
`ROAnyField.__set__`. -/
def PktClass.set (c : PktClass) (p : Attrs) (n : String) (v : Val) :
    Except Err Attrs :=
  match c.fixed n with
  | some (w, any) => if any || v = w then .ok p else .error .wrongValue
  | none => .ok (fun m => if m = n then some v else p m)

/-- packet.py:357-360: `topbit` is the highest bit used, the field has
`(topbit + 8) // 8` bytes. -/
def bmLen (es : List Elem) : Nat :=
  (es.foldl (fun t e => max t (e.start + e.bits)) 0 + 7) / 8

/-- packet.py:280-298 `BM.encode`, the loop.  `val >> bits` is floor division
by `2 ** bits`, so it is nonzero for every negative value. -/
def bmField (c : PktClass) (p : Attrs) : List Elem → Nat → Except Err Nat
  | [], f => .ok f
  | e :: es, f =>
    match (c.get p e.name).getD (.int 0) with
    | .int v =>
      if v / 2 ^ e.bits ≠ 0 then .error .fieldOverflow
      else bmField c p es (f ||| (v.toNat <<< e.start))
    | _ => .error .typeError

/-- packet.py:280-299 `BM.encode`. -/
def bmEnc (c : PktClass) (p : Attrs) (es : List Elem) : Except Err Bytes := do
  let f ← bmField c p es 0
  toBytes (bmLen es) f

/-- packet.py:311-313, the value of one element. -/
def bmGet (field : Nat) (e : Elem) : Nat :=
  (field >>> e.start) &&& ((1 <<< e.bits) - 1)

/-- packet.py:311-313 `BM.decode`, the loop. -/
def bmSet (c : PktClass) (field : Nat) : List Elem → Attrs → Except Err Attrs
  | [], p => .ok p
  | e :: es, p => do
    let p ← c.set p e.name (.int (bmGet field e))
    bmSet c field es p

/-- packet.py:301-314 `BM.decode`. -/
def bmDec (c : PktClass) (es : List Elem) (buf : Bytes) (p : Attrs) :
    Except Err (Attrs × Bytes) := do
  require buf (bmLen es)
  let field := fromLe (buf.take (bmLen es))
  let p ← bmSet c field es p
  return (p, buf.drop (bmLen es))

/-- packet.py:487-500, the value of one TLV item, `none` when the attribute is
not set. -/
def tEnc (c : PktClass) (p : Attrs) : TRow → Except Err (Option Bytes)
  | .simple n cd =>
    match c.get p n with
    | none => .ok none
    | some v => (cd.enc v).map some
  | .bm es => (bmEnc c p es).map some

/-- packet.py:484-501 `TLV.encode`. -/
def tlvEnc (c : PktClass) (p : Attrs) (tlen llen : Nat) :
    List (Nat × TRow) → Except Err Bytes
  | [] => .ok []
  | (k, r) :: items => do
    match ← tEnc c p r with
    | none => tlvEnc c p tlen llen items
    | some v =>
      let t ← toBytes tlen k
      let l ← toBytes llen v.length
      let rest ← tlvEnc c p tlen llen items
      return t ++ l ++ v ++ rest

/-- packet.py:526-546: decode the value `v` of an item with tag `tag`. -/
def tDec (c : PktClass) (wild : Bool) (codedict : List (Nat × TRow))
    (tag : Nat) (v : Bytes) (p : Attrs) : Except Err Attrs := do
  let r ←
    match codedict.lookup tag with
    | some r => pure r
    | none =>
      if wild then pure (TRow.simple ("field" ++ toString tag) cRest)
      else throw Err.invalidTag
  let (p, buf2) ←
    match r with
    | .simple n cd => do
      let (x, buf2) ← cd.dec v
      let p ← c.set p n x
      pure (p, buf2)
    | .bm es => bmDec c es v p
  if buf2 ≠ [] ∧ c.tolerant = false then throw Err.extraData
  return p

/-- packet.py:503-548 `TLV.decode`, on the part of the buffer not consumed
yet.  With `tlen + llen = 0` (no class has that) the Python loop would not
terminate. -/
def tlvDec (c : PktClass) (tlen llen : Nat) (wild : Bool)
    (codedict : List (Nat × TRow)) (buf : Bytes) (p : Attrs) :
    Except Err Attrs :=
  if _h0 : tlen + llen = 0 then .error .other
  else if buf = [] then .ok p
  else if _h1 : buf.length < tlen + llen then
    if c.tolerant then .ok p else .error .missingData
  else
    let tag := fromLe (buf.take tlen)
    let vlen := fromLe ((buf.drop tlen).take llen)
    let rest := buf.drop (tlen + llen)
    if rest.length < vlen then .error .missingData
    else
      match tDec c wild codedict tag (rest.take vlen) p with
      | .error e => .error e
      | .ok p => tlvDec c tlen llen wild codedict (rest.drop vlen) p
termination_by buf.length
decreasing_by
  simp only [List.length_drop]
  omega

/-- packet.py:1011-1022: one row of `Packet.encode`. -/
def encRow (c : PktClass) (p : Attrs) : Row → Except Err Bytes
  | .simple n cd => cd.enc ((c.get p n).getD cd.dflt)
  | .bm es => bmEnc c p es
  | .res flen => .ok (List.replicate flen 0)
  | .tlv tlen llen _ items => tlvEnc c p tlen llen items

def encRows (c : PktClass) (p : Attrs) : List Row → Except Err Bytes
  | [] => .ok []
  | r :: rs => do
    let b ← encRow c p r
    let bs ← encRows c p rs
    return b ++ bs

/-- packet.py:1006-1027 `Packet.encode`. -/
def encode (c : PktClass) (p : Attrs) : Except Err Bytes := encRows c p c.rows

/-- packet.py:1053-1061: one row of `Packet.decode_data`.  (`AtField` only
wraps the exception.) -/
def decRow (c : PktClass) (buf : Bytes) (p : Attrs) :
    Row → Except Err (Attrs × Bytes)
  | .simple n cd => do
    let (v, buf) ← cd.dec buf
    let p ← c.set p n v
    return (p, buf)
  | .bm es => bmDec c es buf p
  | .res flen => do
    require buf flen
    return (p, buf.drop flen)
  | .tlv tlen llen wild items => do
    let p ← tlvDec c tlen llen wild items buf p
    return (p, [])

def decRows (c : PktClass) : List Row → Bytes → Attrs →
    Except Err (Attrs × Bytes)
  | [], buf, p => .ok (p, buf)
  | r :: rs, buf, p => do
    let (p, buf) ← decRow c buf p r
    decRows c rs buf p

/-- packet.py:1029-1064 `Packet.decode`: a new object, every row in order, then
the class's `check`. -/
def decode (c : PktClass) (buf : Bytes) : Except Err (Attrs × Bytes) := do
  let (p, buf) ← decRows c c.rows buf (fun _ => none)
  c.check p
  return (p, buf)

/-- packet.py:968-982 `Packet.__new__` called with a non-empty buffer: decode,
and reject data left over.  (An *empty* buffer builds an object with no
attributes instead of being decoded.) -/
def construct (c : PktClass) (buf : Bytes) : Except Err Attrs :=
  if buf = [] then .ok (fun _ => none)
  else do
    let (p, rest) ← decode c buf
    if rest ≠ [] then throw Err.extraData
    return p

end Verif.Fields
