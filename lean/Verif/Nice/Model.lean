import Verif.Fields.Model

/-!
# NICE parameters and counters (`decnet/nice_coding.py`)

The typed data items of network management messages and events.  Values are those of the wire
types; the classes that only differ in how a value is printed (`DUNode`, `CMNode`, `CState`, …) share
the type code and the coding of their base class (nice_coding.py 762-830; `findclass`, packet.py
684-704, picks the class of the parameter table if it has the code in the message, otherwise the
class of that code).  Label tables that are dictionaries without key 0 are left out: with those
`CM1.decode` (365) raises KeyError if the message has a multiple field where a simple one is expected.
`NICE.decode` stores each item as an attribute, a later item replacing an earlier one of the same
number; here the items are kept as a list in the order of the message.
-/
namespace Verif.Nice

open Verif.Fields (Bytes le fromLe toBytes signedEnc byte latin1Enc latin1Dec)

/-- Exceptions; `decodeError` stands for `DecodeError` and its subclasses. -/
inductive Err
  | decodeError
  | attributeError
  | typeError
  | encode (e : Fields.Err)
  deriving DecidableEq, Repr

def up {α} (x : Except Fields.Err α) : Except Err α := x.mapError .encode

/-! ## Types -/

/-- The integer types: `DU`, `DS`, `H`, `O`, `C` (nice_coding.py 230-330). -/
inductive Num
  | du | ds | h | o | c
  deriving DecidableEq, Repr

/-- The type code without the length. -/
def Num.base : Num → Nat
  | .du => 0x00 | .ds => 0x10 | .h => 0x20 | .o => 0x30 | .c => 0x80

/-- The lengths there are classes for (`defaultclass`, nice_coding.py 112-137). -/
def Num.maxLen : Num → Nat
  | .c => 31
  | _ => 15

inductive Ty
  | num (t : Num) (n : Nat)
  | ai | hi
  | cm (n : Nat)
  deriving DecidableEq, Repr

/-- `findclass (code)` for a one-byte code: the classes defined (codes 0x20, 0x40) and those made by
`defaultclass`, which needs a class of the same kind with length 1. -/
def classOf (code : Nat) : Except Err Ty :=
  if code = 0x20 then .ok .hi
  else if code = 0x40 then .ok .ai
  else
    let n := if code &&& 0x80 ≠ 0 then code &&& 0x1f else code &&& 0x0f
    if n = 0 then .error .decodeError
    else
      let base := code - n
      if base = 0x00 then .ok (.num .du n)
      else if base = 0x10 then .ok (.num .ds n)
      else if base = 0x20 then .ok (.num .h n)
      else if base = 0x30 then .ok (.num .o n)
      else if base = 0x80 then .ok (.num .c n)
      else if base = 0xc0 then .ok (.cm n)
      else .error .decodeError

/-! ## Simple values -/

inductive Simple
  | num (t : Num) (n : Nat) (v : Int)
  | ai (s : List Nat)
  | hi (b : Bytes)
  deriving DecidableEq, Repr

/-- The integer's bytes, nice_coding.py 238-239. -/
def numBytes (t : Num) (n : Nat) (v : Int) : Except Err Bytes :=
  up (if t = .ds then signedEnc n v else toBytes n v)

/-- A counted string, nice_coding.py 289-291, 315-316. -/
def counted (b : Bytes) : Except Err Bytes := up (do return (← byte b.length) ++ b)

/-- The value without the type code. -/
def Simple.body : Simple → Except Err Bytes
  | .num t n v => numBytes t n v
  | .ai s => do counted (← up (latin1Enc s))
  | .hi b => counted b

def Simple.code : Simple → Nat
  | .num t n _ => t.base + n
  | .ai _ => 0x40
  | .hi _ => 0x20

/-- `encode`: type code and value. -/
def Simple.enc (s : Simple) : Except Err Bytes := do
  return (← up (byte s.code)) ++ (← s.body)

/-- `int.from_bytes (f, "little", signed)`. -/
def toInt (t : Num) (n : Nat) (u : Nat) : Int :=
  if t = .ds then (if u < 2 ^ (8 * n - 1) then (u : Int) else (u : Int) - 256 ^ n) else u

/-- `DU1.decode`, nice_coding.py 237-246. -/
def decNum (t : Num) (n : Nat) (b : Bytes) : Except Err (Simple × Bytes) :=
  if b.length < n then .error .decodeError
  else .ok (.num t n (toInt t n (fromLe (b.take n))), b.drop n)

/-- The counted string of `AI.decode`, `HI.decode`, nice_coding.py 289-296, 312-319. -/
def decCounted : Bytes → Except Err (Bytes × Bytes)
  | [] => .error .decodeError
  | l :: b => if b.length < l.toNat then .error .decodeError
    else .ok (b.take l.toNat, b.drop l.toNat)

/-- `decode` of a simple class; a multiple inside a multiple lacks an argument (nice_coding.py 374):
TypeError. -/
def decSimple (ty : Ty) (b : Bytes) : Except Err (Simple × Bytes) :=
  match ty with
  | .num t n => decNum t n b
  | .ai => do
    let (s, r) ← decCounted b
    return (.ai (latin1Dec s), r)
  | .hi => do
    let (s, r) ← decCounted b
    return (.hi s, r)
  | .cm _ => .error .typeError

/-! ## Parameter values -/

inductive Val
  | one (s : Simple)
  | many (ss : List Simple)
  deriving DecidableEq, Repr

/-- The fields of a multiple, each with its code, nice_coding.py 379-383. -/
def encAll : List Simple → Except Err Bytes
  | [] => .ok []
  | s :: ss => do return (← s.enc) ++ (← encAll ss)

/-- `encode` including the type code. -/
def Val.enc : Val → Except Err Bytes
  | .one s => s.enc
  | .many ss => do
    let d ← encAll ss
    return (← up (byte (0xc0 + ss.length))) ++ d

/-- `CM1.decode`, nice_coding.py 370-376, `k` fields left. -/
def decAll : Nat → Bytes → Except Err (List Simple × Bytes)
  | 0, b => .ok ([], b)
  | _ + 1, [] => .error .decodeError
  | k + 1, c :: b => do
    let ty ← classOf c.toNat
    let (s, b) ← decSimple ty b
    let (ss, b) ← decAll k b
    return (s :: ss, b)

/-- `decode` of the class for a type code. -/
def decVal (ty : Ty) (b : Bytes) : Except Err (Val × Bytes) :=
  match ty with
  | .cm n => do
    let (ss, b) ← decAll n b
    return (.many ss, b)
  | _ => do
    let (s, b) ← decSimple ty b
    return (.one s, b)

/-! ## Counters -/

inductive Width
  | w1 | w2 | w4
  deriving DecidableEq, Repr

def Width.bytes : Width → Nat
  | .w1 => 1 | .w2 => 2 | .w4 => 4

/-- `maxval`, nice_coding.py 435, 509, 515. -/
def Width.max : Width → Int
  | .w1 => 255 | .w2 => 65535 | .w4 => 4294967295

/-- An item: a parameter; a counter (`CTR`); a counter with qualifier bits (`CTM`).  Numbers are
without the counter flag. -/
inductive Item
  | par (p : Nat) (v : Val)
  | ctr (p : Nat) (w : Width) (v : Int)
  | ctm (p : Nat) (w : Width) (map : Nat) (v : Int)
  deriving DecidableEq, Repr

/-- `code`, nice_coding.py 433, 507-518. -/
def ctrCode : Width → Nat
  | .w1 => 0xa000 | .w2 => 0xc000 | .w4 => 0xe000

def ctmCode : Width → Nat
  | .w1 => 0xb000 | .w2 => 0xd000 | .w4 => 0xf000

/-- `min (self, self.maxval).to_bytes (self.bytecnt, "little")`. -/
def ctrBytes (w : Width) (v : Int) : Except Err Bytes := up (toBytes w.bytes (min v w.max))

/-- One item of a response or event: `NICE.encode` with `resp` true (nice_coding.py 645-656),
`CTR1.encode` (441-443), `Map.encode` (474-477). -/
def Item.enc : Item → Except Err Bytes
  | .par p v => do return (← up (toBytes 2 (p : Int))) ++ (← v.enc)
  | .ctr p w v => do
    return (← up (toBytes 2 ((p ||| 0x8000 ||| ctrCode w : Nat) : Int))) ++ (← ctrBytes w v)
  | .ctm p w map v => do
    return (← up (toBytes 2 ((p ||| 0x8000 ||| ctmCode w : Nat) : Int))) ++
      ((← up (toBytes 2 (map : Int))) ++ (← ctrBytes w v))

/-- All items, in the order of the table (nice_coding.py 641-680). -/
def encode : List Item → Except Err Bytes
  | [] => .ok []
  | i :: is => do return (← i.enc) ++ (← encode is)

/-- The counter classes by the upper four bits; `defaultclass` raises for the others (120-122). -/
def counterClass (k : Nat) : Except Err (Bool × Width) :=
  if k = 0xa000 then .ok (false, .w1)
  else if k = 0xc000 then .ok (false, .w2)
  else if k = 0xe000 then .ok (false, .w4)
  else if k = 0xb000 then .ok (true, .w1)
  else if k = 0xd000 then .ok (true, .w2)
  else if k = 0xf000 then .ok (true, .w4)
  else .error .decodeError

/-- `DU1.decode` and `Map.decode` (479-487) for a counter class. -/
def decCounter (p : Nat) (mapped : Bool) (w : Width) (b : Bytes) : Except Err (Item × Bytes) :=
  if mapped then
    if b.length < w.bytes + 2 then .error .decodeError
    else .ok (.ctm p w (fromLe (b.take 2)) (fromLe ((b.drop 2).take w.bytes)), (b.drop 2).drop w.bytes)
  else
    if b.length < w.bytes then .error .decodeError
    else .ok (.ctr p w (fromLe (b.take w.bytes)), b.drop w.bytes)

/-- One round of `NICE.decode` for a response (nice_coding.py 709-760).  With less than three bytes
left, `cls.tolerant` (712) is looked up, which `NICE` does not have: AttributeError. -/
def decItem (buf : Bytes) : Except Err (Item × Bytes) :=
  match buf with
  | a :: b :: c :: tl =>
    let param := fromLe [a, b]
    if param &&& 0x8000 ≠ 0 then do
      let (mapped, w) ← counterClass (param &&& 0xf000)
      decCounter (param &&& 0x0fff) mapped w (c :: tl)
    else do
      let ty ← classOf c.toNat
      let (v, r) ← decVal ty tl
      return (.par (param &&& 0x8fff) v, r)
  | _ => .error .attributeError

/-- The loop of `NICE.decode`; every item takes at least three bytes, so the length is fuel enough. -/
def decLoop : Nat → Bytes → Except Err (List Item)
  | _, [] => .ok []
  | 0, _ :: _ => .error .decodeError
  | fuel + 1, b :: bs => do
    let (i, r) ← decItem (b :: bs)
    let is ← decLoop fuel r
    return i :: is

def decode (buf : Bytes) : Except Err (List Item) := decLoop buf.length buf

/-! ## Requests -/

/-- One parameter of a request: number and value without type code (nice_coding.py 657-659). -/
def encReq : List (Nat × Val) → Except Err Bytes
  | [] => .ok []
  | (p, v) :: is => do
    let e ← v.enc
    let n ← up (toBytes 2 (p : Int))
    return n ++ (e.drop 1 ++ (← encReq is))

/-- One round of `NICE.decode` for a request, with the parameter table (nice_coding.py 727-760).  The
tables of requests have no counters (nicepackets.py 1038-1287); a multiple fails, its count being the
missing type code. -/
def decReqItem (table : Nat → Option Ty) (buf : Bytes) : Except Err ((Nat × Val) × Bytes) :=
  match buf with
  | a :: b :: c :: tl =>
    let param := fromLe [a, b]
    match table (param &&& 0x8fff) with
    | none => .error .decodeError
    | some ty => do
      let (s, r) ← decSimple ty (c :: tl)
      return ((param &&& 0x8fff, .one s), r)
  | _ => .error .attributeError

def decReqLoop (table : Nat → Option Ty) : Nat → Bytes → Except Err (List (Nat × Val))
  | _, [] => .ok []
  | 0, _ :: _ => .error .decodeError
  | fuel + 1, b :: bs => do
    let (i, r) ← decReqItem table (b :: bs)
    let is ← decReqLoop table fuel r
    return i :: is

def decodeReq (table : Nat → Option Ty) (buf : Bytes) : Except Err (List (Nat × Val)) :=
  decReqLoop table buf.length buf

end Verif.Nice
