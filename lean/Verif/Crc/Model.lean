import Verif.Fields.Model

/-!
# CRC calculation

Model of pydecnet/crc.py.  Python integers are natural numbers here (no value
in this file is negative); `crctable` is the function computing its entries.
-/

namespace Verif.Crc

open Verif.Fields (Bytes le)

/-- crc.py:46-51 `_reverse`, the loop: `k` iterations remain. -/
def revLoop : (k ret value : Nat) → Nat
  | 0, ret, _ => ret
  | k + 1, ret, value => revLoop k ((ret <<< 1) ||| (value &&& 1)) (value >>> 1)

/-- crc.py:46-51 `_reverse`. -/
def reverse (value width : Nat) : Nat := revLoop width 0 value

/-- crc.py:63-67: shift one bit out of the bottom. -/
def shiftOne (poly i : Nat) : Nat :=
  if i &&& 1 ≠ 0 then (i >>> 1) ^^^ poly else i >>> 1

/-- crc.py:63: `for j in range (8)`. -/
def shifts : Nat → Nat → Nat → Nat
  | 0, _, i => i
  | k + 1, poly, i => shifts k poly (shiftOne poly i)

/-- crc.py:53-71 `_maketable`, entry `i`. -/
def tableEntry (poly width : Nat) (reflect : Bool) (i : Nat) : Nat :=
  let poly := reverse poly width
  let i := if reflect then i else reverse i 8
  let i := shifts 8 poly i
  if reflect then i else reverse i width

/-- The parameters of a CRC class, crc.py:76-104. -/
structure Params where
  width : Nat
  poly : Nat
  initial : Nat := 0
  final : Nat := 0
  reversed : Bool := true
deriving Repr

/-- crc.py:94 `crcmask`. -/
def Params.mask (K : Params) : Nat := (1 <<< K.width) - 1

/-- crc.py:106. -/
def Params.table (K : Params) (i : Nat) : Nat := tableEntry K.poly K.width K.reversed i

/-- One byte of the four `update` methods, crc.py:267-294, selected as in
crc.py:115-126. -/
def Params.byteStep (K : Params) (c : Nat) (b : UInt8) : Nat :=
  if K.reversed then
    if K.width ≤ 8 then K.table (c ^^^ b.toNat)
    else K.table ((c &&& 0xff) ^^^ b.toNat) ^^^ (c >>> 8)
  else
    if K.width ≤ 8 then K.table (((c <<< (8 - K.width)) &&& 0xff) ^^^ b.toNat)
    else K.table ((c >>> (K.width - 8)) ^^^ b.toNat) ^^^ ((c <<< 8) &&& K.mask)

/-- `update`: the register `_value` after more data. -/
def Params.update (K : Params) (c : Nat) (data : Bytes) : Nat := data.foldl K.byteStep c

/-- crc.py:169-181: the register after `CRC (data)`. -/
def Params.reg (K : Params) (data : Bytes) : Nat := K.update K.initial data

/-- crc.py:183-186 `value`. -/
def Params.value (K : Params) (data : Bytes) : Nat := K.reg data ^^^ K.final

/-- `int.to_bytes (k, "big")` for a value that fits. -/
def be (k n : Nat) : Bytes := (le k n).reverse

/-- crc.py:188-198 `__bytes__`, for a width that is a multiple of 8. -/
def Params.bytes (K : Params) (data : Bytes) : Bytes :=
  if K.reversed then le (K.width / 8) (K.value data) else be (K.width / 8) (K.value data)

/-- crc.py:238-246, the bit loop of `update_bits` when reversed: `k` iterations
remain. -/
def bitsRev : (k p b v : Nat) → Nat
  | 0, _, _, v => v
  | k + 1, p, b, v =>
    bitsRev k p (b >>> 1) (if (b ^^^ v) &&& 1 ≠ 0 then (v >>> 1) ^^^ p else v >>> 1)

/-- crc.py:247-256, the bit loop of `update_bits` when forward: `k` iterations
remain, the loop index is `i`. -/
def Params.bitsFwd (K : Params) : (k i b v : Nat) → Nat
  | 0, _, _, v => v
  | k + 1, i, b, v =>
    K.bitsFwd k (i + 1) b
      ((if ((b >>> (7 - i)) ^^^ (v >>> (K.width - 1))) &&& 1 ≠ 0 then (v <<< 1) ^^^ K.poly
        else v <<< 1) &&& K.mask)

/-- crc.py:209-256 `update_bits` with byte string data; `none` is the
ValueError for too little data. -/
def Params.updateBits (K : Params) (c : Nat) (data : Bytes) (bits : Nat) : Option Nat :=
  let by' := bits / 8
  let bi := bits % 8
  if data.length < (bits + 7) / 8 then none
  else if bi = 0 then some (K.update c data)
  else
    let v := K.update c (data.take by')
    let b := (data.getD by' 0).toNat
    some (if K.reversed then bitsRev bi (K.table 128) b v else K.bitsFwd bi 0 b v)

/-- crc.py:220-228: `update_bits` with integer data; the caller's value fits in
the given number of bits, so `to_bytes` does not raise. -/
def Params.updateInt (K : Params) (c n bits : Nat) : Option Nat :=
  let bi := bits % 8
  let tb := (bits + 7) / 8
  K.updateBits c
    (if K.reversed then le tb n else be tb (if bi = 0 then n else n <<< (8 - bi))) bits

/-- crc.py:127-131: the check value. -/
def Params.goodvalue (K : Params) : Option Nat :=
  (K.updateInt (K.reg [0]) (K.value [0]) K.width).map (· ^^^ K.final)

/-- crc.py:200-205 `good`. -/
def Params.good (K : Params) (data : Bytes) : Bool := some (K.value data) == K.goodvalue

/-- crc.py:132-136: the second check at class creation, which raises
RuntimeError if it fails. -/
def Params.confirmed (K : Params) : Bool :=
  (K.updateInt (K.reg [1, 0x42]) (K.value [1, 0x42]) K.width).map (· ^^^ K.final) == K.goodvalue

end Verif.Crc
