import Verif.Fields.Layout

/-!
# DAP messages

Model of `pydecnet/decnet/dap_packets.py`: the field classes `IF`, `IFELSE`, `DEF`, `BMEX`, `I_int`, `AV`, the
message classes and `DapBase.decode`, with the encoder of `pydecnet/decnet/packet.py` 1006-1027.  Field classes
shared with the rest of the code are those of `Verif.Fields`.

Simplified: attribute values have the Python type of their field (no conversion by `checktype`); all exceptions
are alike as far as the theorems go, the wrapper `AtField` is left out; debug output is left out.
-/

namespace Verif.Dap

open Verif.Fields

/-! ## Fields -/

/-- `int.to_bytes (flen, LE)` where `flen` is `(self.bit_length () + 7) // 8`: as many bytes as the value
needs. -/
def leBytes (n : Nat) : Bytes :=
  if h : n = 0 then [] else UInt8.ofNat (n % 256) :: leBytes (n / 256)
termination_by n
decreasing_by omega

/-- `I_int.encode`, dap_packets.py 124-129. -/
def iintEnc (maxlen : Nat) (i : Int) : Except Err Bytes :=
  if i < 0 then .error .overflowError
  else if maxlen < (leBytes i.toNat).length then .error .fieldOverflow
  else (byte (leBytes i.toNat).length).map (· ++ leBytes i.toNat)

/-- `I_int.decode`, dap_packets.py 131-143. -/
def iintDec (maxlen : Nat) (buf : Bytes) : Except Err (Int × Bytes) :=
  (iDec maxlen buf).map fun r => ((fromLe r.1 : Int), r.2)

/-- `AV.encode`, dap_packets.py 149-157. -/
def avEnc (flen : Nat) (s : List Nat) : Except Err Bytes := do
  let v ← latin1Enc s
  bvEnc flen v

/-- `AV.decode`, dap_packets.py 159-162. -/
def avDec (flen : Nat) (buf : Bytes) : Except Err (List Nat × Bytes) :=
  (bvDec flen buf).map fun r => (latin1Dec r.1, r.2)

/-- dap_packets.py 120-143. -/
def cIint (n : Nat) : Codec := intCodec (iintEnc n) (iintDec n)

/-- dap_packets.py 145-166. -/
def cAV (n : Nat) : Codec where
  enc | .str s => avEnc n s
      | _ => .error .typeError
  dec buf := (avDec n buf).map fun r => (.str r.1, r.2)
  dflt := .str []

/-- The classes of simple fields in the layouts: `packet.B`, `I_int`, `packet.A`, `packet.I`, `AV`,
`DapVersion` (5 bytes, dap_packets.py 26-27), `packet.PAYLOAD`. -/
inductive Fld where
  | b (n : Nat)
  | iint (n : Nat)
  | a (n : Nat)
  | i (n : Nat)
  | av (n : Nat)
  | version
  | payload
  deriving DecidableEq, Repr

def Fld.codec : Fld → Codec
  | .b n => cB n
  | .iint n => cIint n
  | .a n => cA n
  | .i n => cI n
  | .av n => cAV n
  | .version => cFixed 5
  | .payload => cRest

/-! ## Rows -/

/-- What a row carries: a simple field, `packet.BM` or `BMEX`. -/
inductive Core where
  | fld (name : String) (f : Fld)
  | bm (es : List Elem)
  | bmex (max : Nat) (es : List Elem)
  deriving DecidableEq, Repr

/-- Whether a row stands by itself or inside `IF`, `IFELSE`, `DEF`. -/
inductive Guard where
  | always
  | when (flag : String)
  | whenElse (flag : String) (dflt : Bytes)
  | orElse (dflt : Bytes)
  deriving DecidableEq, Repr

structure Row where
  guard : Guard
  core : Core
  deriving DecidableEq, Repr

/-- The truth value of `getattr (msg, flag, 0)`. -/
def truthy : Option Val → Bool
  | none => false
  | some (.int i) => i ≠ 0
  | some (.bytes b) => b ≠ []
  | some (.str s) => s ≠ []

/-- A message class: its type and its rows, those of the header included. -/
structure Layout where
  type : Nat
  rows : List Row
  deriving DecidableEq, Repr

/-- Class attributes with fixed values: the type (dap_packets.py 198, any assignment is accepted) and the two
flags that are not supported (dap_packets.py 287-288). -/
def Layout.cls (L : Layout) : PktClass where
  rows := []
  fixed n :=
    if n = "type" then some (.int L.type, true)
    else if n = "m_syspec" then some (.int 0, false)
    else if n = "m_seg" then some (.int 0, false)
    else none

/-- `encode_row` for a field or a group, dap_packets.py 249-260; `BM.encode`, packet.py 279-299; `BMEX.valtobytes`,
dap_packets.py 100-103. -/
def encCore (c : PktClass) (p : Attrs) : Core → Except Err Bytes
  | .fld n f => f.codec.enc ((c.get p n).getD f.codec.dflt)
  | .bm es => bmEnc c p es
  | .bmex max es => do
    let f ← bmField c p es 0
    exEnc max f

/-- `IF.encode`, `IFELSE.encode`, `DEF.encode`, dap_packets.py 39-43, 61-63, 80-82. -/
def encRow (c : PktClass) (p : Attrs) (r : Row) : Except Err Bytes :=
  match r.guard with
  | .always => encCore c p r.core
  | .when f => if truthy (c.get p f) then encCore c p r.core else .ok []
  | .whenElse f _ => if truthy (c.get p f) then encCore c p r.core else .ok []
  | .orElse _ => encCore c p r.core

def encRows (c : PktClass) (p : Attrs) : List Row → Except Err Bytes
  | [] => .ok []
  | r :: rs => do
    let b ← encRow c p r
    let bs ← encRows c p rs
    return b ++ bs

/-- `Packet.encode`, packet.py 1006-1027. -/
def encode (L : Layout) (p : Attrs) : Except Err Bytes := encRows L.cls p L.rows

/-- What a field or group reads from the buffer, and the rest of the buffer: `ftype.decode`; `BM.decode`, packet.py
301-314; `BMEX.bytestoval`, dap_packets.py 105-107. -/
def readCore (buf : Bytes) : Core → Except Err (List (String × Val) × Bytes)
  | .fld n f => do
    let (v, rest) ← f.codec.dec buf
    return ([(n, v)], rest)
  | .bm es => do
    require buf (bmLen es)
    return (es.map fun e => (e.name, .int (bmGet (fromLe (buf.take (bmLen es))) e)), buf.drop (bmLen es))
  | .bmex max es => do
    let (f, rest) ← exDec max buf
    return (es.map fun e => (e.name, .int (bmGet f e)), rest)

/-- `setattr` for each of them. -/
def setAll (c : PktClass) : List (String × Val) → Attrs → Except Err Attrs
  | [], p => .ok p
  | w :: ws, p => do
    let p ← c.set p w.1 w.2
    setAll c ws p

/-- `decode_row` for a field or a group, dap_packets.py 262-271. -/
def decCore (c : PktClass) (buf : Bytes) (acc : Attrs) (k : Core) : Except Err (Attrs × Bytes) := do
  let (ws, rest) ← readCore buf k
  let acc ← setAll c ws acc
  return (acc, rest)

/-- `DAPDEFAULT`, dap_packets.py 33. -/
def dapDefault : Bytes := List.replicate 128 0

/-- `decode_row` with `IF.decode`, `IFELSE.decode`, `DEF.decode`, dap_packets.py 45-49, 65-71, 84-88.  `dfl` says that
the buffer is `DAPDEFAULT`. -/
def decRow (c : PktClass) (dfl : Bool) (buf : Bytes) (acc : Attrs) (r : Row) : Except Err (Attrs × Bytes) :=
  match r.guard with
  | .always => decCore c buf acc r.core
  | .when f => if truthy (c.get acc f) then decCore c buf acc r.core else .ok (acc, buf)
  | .whenElse f d =>
    if truthy (c.get acc f) then decCore c buf acc r.core
    else do
      let (acc, _) ← decCore c d acc r.core
      return (acc, buf)
  | .orElse d => decCore c (if dfl then d else buf) acc r.core

/-- The loop of `DapBase.decode`, dap_packets.py 235-244.  What is left over is printed and forgotten. -/
def decRows (c : PktClass) : List Row → (done : Bool) → Bytes → Attrs → Except Err Attrs
  | [], _, _, acc => .ok acc
  | r :: rs, done, buf, acc => do
    let (acc, buf) ← decRow c done (if done then dapDefault else buf) acc r
    decRows c rs (done || buf.isEmpty) buf acc

/-- The first message in a block and the rest, dap_packets.py 214-233. -/
def split (buf : Bytes) : Except Err (Bytes × Bytes) :=
  match buf with
  | t :: f :: b =>
    if f = 0 then .ok (t :: f :: b, [])
    else if f = 2 then
      match b with
      | n :: b =>
        if b.length < n.toNat then .error .other
        else .ok (t :: f :: n :: b.take n.toNat, b.drop n.toNat)
      | [] => .error .missingData
    else if f = 6 then
      match b with
      | n :: m :: b =>
        if b.length < n.toNat + m.toNat * 256 then .error .other
        else .ok (t :: f :: n :: m :: b.take (n.toNat + m.toNat * 256), b.drop (n.toNat + m.toNat * 256))
      | _ => .error .missingData
    else .ok (t :: f :: b, [])
  | b => .ok (b, [])

/-- `DapBase.decode`, dap_packets.py 200-245, for the class found. -/
def decode (L : Layout) (buf : Bytes) : Except Err (Attrs × Bytes) := do
  let (m, rest) ← split buf
  let q ← decRows L.cls L.rows false m (fun _ => none)
  return (q, rest)

end Verif.Dap
