import Verif.Nice.Model
import Verif.Addr.Model

/-!
# Model of the management requests, `decnet/nicepackets.py`

Decoding of what NCP sends: `NiceRequestHeader (msg)` with its subclasses (nicepackets.py 1031-1370,
1560-1710, 1921-1969), by way of `IndexedPacket.decode` and `findclassb` (packet.py 699-746, 1137-1159).

Simplifications: a Python `str` is the list of its code points; the qualifiers of the read requests are
checked but not kept; the system-specific requests (function 22) are not taken apart: whether they decode
or not, the answer is the same (modules/nml.py 94-101, 121-126), and all their fields are of kinds whose
exceptions become `DecodeError`.
-/

namespace Verif.Nml

open Verif.Nice (Ty Simple decSimple)
open Verif.Fields (fromLe latin1Dec)

abbrev Bytes := List UInt8

/-- Python text. -/
abbrev Str := List Nat

/-- Exceptions of decoding: `DecodeError` and its subclasses, or any other. -/
inductive Err
  | decode
  | other
deriving DecidableEq, Repr

/-- The value of an entity. -/
inductive Value
  | none
  | num (n : Nat)
  | str (s : Str)
deriving DecidableEq, Repr

/-- An entity of a request: the code is the number of characters, 0 for a number, negative for several. -/
structure Ent where
  code : Int
  value : Value
deriving DecidableEq, Repr

/-- `code -= 256` if it is at least 128. -/
def signed (b : UInt8) : Int := if b.toNat < 128 then b.toNat else (b.toNat : Int) - 256

/-- `ReqEntityBase.decode`, nicepackets.py 868-882. -/
def decEnt : Bytes → Except Err (Ent × Bytes)
  | [] => .error .decode
  | c :: b =>
    if signed c < 0 then .ok (⟨signed c, .none⟩, b)
    else if c = 0 then .error .decode
    else if b.length < c.toNat then .error .decode
    else .ok (⟨c.toNat, .str (latin1Dec (b.take c.toNat))⟩, b.drop c.toNat)

/-- A name that reads as a node address is one, nicepackets.py 908-918. -/
def nodeEnt (e : Ent) : Ent :=
  match e.value with
  | .str s =>
    match Addr.ofText (s.map Char.ofNat) with
    | .ok n => ⟨0, .num n.toNat⟩
    | .error _ => e
  | _ => e

/-- `NodeReqEntity.decode`, nicepackets.py 918-933: number 0, and the wildcards below -5, have an address. -/
def decNodeEnt : Bytes → Except Err (Ent × Bytes)
  | [] => .error .decode
  | c :: b =>
    if c = 0 ∨ signed c < -5 then
      if b.length < 2 then .error .decode
      else .ok (⟨signed c, .num (fromLe (b.take 2))⟩, b.drop 2)
    else (decEnt (c :: b)).map fun x => (nodeEnt x.1, x.2)

/-- `AreaReqEntity.decode`, nicepackets.py 959-970. -/
def decAreaEnt : Bytes → Except Err (Ent × Bytes)
  | [] => .error .decode
  | c :: b =>
    if c = 0 then
      match b with
      | [] => .error .decode
      | n :: b => .ok (⟨0, .num n.toNat⟩, b)
    else if signed c > 0 then .error .decode
    else .ok (⟨signed c, .none⟩, b)

/-- `P2LineEntity.decode`, nicepackets.py 1806-1821: what is left; every exception becomes
`DecodeError` (packet.py 1057-1061).  The identification may be shorter than its code says. -/
def decLine : Bytes → Except Err Bytes
  | [] => .error .decode
  | c :: b =>
    if c = 0 then .ok b
    else if c = 1 then .ok (b.drop 4)
    else if c = 2 then
      match b with
      | [] => .error .decode
      | l :: b => .ok (b.drop l.toNat)
    else .error .decode

/-! ## Parameters -/

/-- The kinds of parameters in requests: NICE types, and entities as qualifiers. -/
inductive PTy
  | ty (t : Ty)
  | strQual
  | nodeQual
deriving DecidableEq, Repr

inductive PVal
  | simple (s : Simple)
  | ent (e : Ent)
deriving DecidableEq, Repr

def ofNice : Nice.Err → Err
  | .decodeError => .decode
  | _ => .other

/-- Value of one parameter. -/
def decPVal : PTy → Bytes → Except Err (PVal × Bytes)
  | .ty t, b => ((decSimple t b).mapError ofNice).map fun x => (.simple x.1, x.2)
  | .strQual, b => (decEnt b).map fun x => (.ent x.1, x.2)
  | .nodeQual, b => (decNodeEnt b).map fun x => (.ent x.1, x.2)

abbrev Table := Nat → Option PTy

/-- One round of `NICE.decode` with `resp` false, nice_coding.py 709-760: fewer than three bytes raise
`AttributeError` (712), which the caller does not convert (packet.py 1061). -/
def decParam (table : Table) : Bytes → Except Err ((Nat × PVal) × Bytes)
  | a :: b :: c :: tl =>
    match table (fromLe [a, b] &&& 0x8fff) with
    | none => .error .decode
    | some ty => (decPVal ty (c :: tl)).map fun x => ((fromLe [a, b] &&& 0x8fff, x.1), x.2)
  | _ => .error .other

/-- The loop; each round takes at least two bytes. -/
def decParams (table : Table) : Nat → Bytes → Except Err (List (Nat × PVal))
  | _, [] => .ok []
  | 0, _ :: _ => .error .decode
  | k + 1, b :: bs =>
    match decParam table (b :: bs) with
    | .error e => .error e
    | .ok (p, r) => (decParams table k r).map (p :: ·)

def params (table : Table) (b : Bytes) : Except Err (List (Nat × PVal)) := decParams table b.length b

def du (n : Nat) : Option PTy := some (.ty (.num .du n))
def c1 : Option PTy := some (.ty (.num .c 1))
def ai : Option PTy := some (.ty .ai)
def hi : Option PTy := some (.ty .hi)

/-- `loop_params`, nicepackets.py 1038-1043. -/
def loopParams : Table
  | 150 => du 2
  | 151 => du 2
  | 152 => c1
  | _ => none

/-- `loop_circ_params`, nicepackets.py 1045-1055. -/
def loopCircParams : Table
  | 150 => du 2
  | 151 => du 2
  | 152 => c1
  | 10 => hi
  | 153 => hi
  | 154 => c1
  | 155 => ai
  | 156 => ai
  | _ => none

/-- nicepackets.py 1173-1179. -/
def nodeQuals : Table
  | 501 => some .strQual
  | 822 => some .strQual
  | _ => none

/-- nicepackets.py 1202-1204. -/
def circQuals : Table
  | 800 => some .nodeQual
  | _ => none

/-- nicepackets.py 1211-1222. -/
def moduleQuals : Table
  | 100 => some .strQual
  | 120 => hi
  | 1110 => some .strQual
  | 1100 => some .strQual
  | 1101 => some .strQual
  | 300 => some .strQual
  | _ => none

/-- `circuit_set_params`, nicepackets.py 606-660; a multiple has no type code to give its count. -/
def circuitParams : Table := fun p =>
  if p ∈ [0, 100, 910, 1010, 1111, 1112] then c1
  else if p ∈ [110, 811, 906, 907, 921, 1121, 1122, 1141, 1142] then du 2
  else if p ∈ [900, 901, 902, 904, 920, 1123, 1140, 1145, 1146, 1150, 1151, 1152, 1153, 1154, 1155, 1156,
    1157, 1158] then du 1
  else if p ∈ [930, 1110, 1120] then ai
  else if p = 1100 then some (.ty (.cm 1))
  else none

/-! ## Requests -/

inductive Req
  | loopNode (e : Ent) (user pass acct : Str) (ps : List (Nat × PVal))
  | loopLine
  | loopCircuit (e : Ent) (ps : List (Nat × PVal))
  /-- Read information: entity type, kind of information, permanent. -/
  | read (type info : Nat) (permanent : Bool) (e : Ent)
  | zero (type : Nat) (e : Ent)
  /-- Phase II read information. -/
  | readOld (type : Nat)
  /-- Anything else that is decoded. -/
  | unsupported
deriving DecidableEq, Repr

/-- `packet.A` with at most 39 characters. -/
def decStr (b : Bytes) : Except Err (Str × Bytes) := (Fields.aDec 39 b).mapError fun _ => .decode

/-- Entity and parameters. -/
def withParams (table : Table) (f : Ent → List (Nat × PVal) → Req) (x : Except Err (Ent × Bytes)) :
    Except Err Req :=
  match x with
  | .error e => .error e
  | .ok (e, b) => (params table b).map (f e)

/-- Loop requests, nicepackets.py 1058-1101: type in the low three bits, access control in bit 7. -/
def decLoop : Bytes → Except Err Req
  | [] => .error .decode
  | t :: b =>
    if t.toNat % 8 = 0 then
      if t.toNat < 128 then withParams loopParams (fun e ps => .loopNode e [] [] [] ps) (decNodeEnt b)
      else
        match decNodeEnt b with
        | .error e => .error e
        | .ok (e, b) =>
          match decStr b with
          | .error e => .error e
          | .ok (u, b) =>
            match decStr b with
            | .error e => .error e
            | .ok (p, b) =>
              match decStr b with
              | .error e => .error e
              | .ok (a, b) => (params loopParams b).map (.loopNode e u p a)
    else if t.toNat % 8 = 1 then withParams loopParams (fun _ _ => .loopLine) (decEnt b)
    else if t.toNat % 8 = 3 then withParams loopCircParams (fun e ps => .loopCircuit e ps) (decEnt b)
    else .error .decode

/-- Read information, nicepackets.py 1103-1231; the rest is taken as payload for lines, logging and
areas. -/
def decRead : Bytes → Except Err Req
  | [] => .error .decode
  | t :: b =>
    let mk (e : Ent) : Req := .read (t.toNat % 8) (t.toNat / 16 % 8) (decide (128 ≤ t.toNat)) e
    if t.toNat % 8 = 0 then withParams nodeQuals (fun e _ => mk e) (decNodeEnt b)
    else if t.toNat % 8 = 1 ∨ t.toNat % 8 = 2 then (decEnt b).map fun x => mk x.1
    else if t.toNat % 8 = 3 then withParams circQuals (fun e _ => mk e) (decEnt b)
    else if t.toNat % 8 = 4 then withParams moduleQuals (fun e _ => mk e) (decEnt b)
    else if t.toNat % 8 = 5 then (decAreaEnt b).map fun x => mk x.1
    else .error .decode

/-- Zero counters, nicepackets.py 1290-1370. -/
def decZero : Bytes → Except Err Req
  | [] => .error .decode
  | t :: b =>
    if t.toNat % 8 = 0 then (decNodeEnt b).map fun x => .zero 0 x.1
    else if t.toNat % 8 = 1 ∨ t.toNat % 8 = 3 ∨ t.toNat % 8 = 4 then
      (decEnt b).map fun x => .zero (t.toNat % 8) x.1
    else .error .decode

/-- Change parameters, nicepackets.py 1233-1287. -/
def decSet : Bytes → Except Err Req
  | [] => .error .decode
  | t :: b =>
    if t.toNat % 8 = 3 then withParams circuitParams (fun _ _ => .unsupported) (decEnt b)
    else .error .decode

/-- Phase II read information, nicepackets.py 1921-1969. -/
def decOld : Bytes → Except Err Req
  | [] => .error .decode
  | t :: b =>
    if t = 1 then (if b = [] then .ok (.readOld 1) else .error .decode)
    else if t = 4 ∨ t = 5 then
      match decLine b with
      | .error e => .error e
      | .ok r => if r = [] then .ok (.readOld t.toNat) else .error .decode
    else .error .decode

/-- `NiceRequestHeader (msg)`.  No bytes at all give an empty header (packet.py 974-984). -/
def parse : Bytes → Except Err Req
  | [] => .ok .unsupported
  | f :: b =>
    if f = 18 then decLoop b
    else if f = 20 then decRead b
    else if f = 21 then decZero b
    else if f = 19 then decSet b
    else if f = 8 then decOld b
    else if f = 22 then .ok .unsupported
    else .error .decode

end Verif.Nml
