import Verif.Fields.Model

/-!
# Routing messages

Model of `RoutingMessage`, `PhaseIIIRouting`, `Ph4RoutingMessage`, `L1Routing`,
`L2Routing` and the segment classes, pydecnet/decnet/routing_packets.py:238-471.
An `array.array ("H")` is a list of 16 bit words.
-/

namespace Verif.RoutMsg

open Verif.Fields (Bytes le fromLe)

/-- Exceptions: `FormatError`, `ChecksumError`, `WrongValue` and `MissingData`
are `DecodeError`s, which the circuits catch; `indexError` and `overflow` are
Python's own and are not. -/
inductive Err
  | format | checksum | wrongValue | missing | indexError | overflow
deriving DecidableEq, Repr

/-- routing_packets.py:238-239 `RouteSegEntry`. -/
def entry (hops cost : Nat) : Nat := (hops <<< 10) + cost

/-- A segment: first id and entries (routing_packets.py:241-289; the count
sent is the number of entries, line 277). -/
structure Seg where
  startid : Nat
  entries : List Nat
deriving DecidableEq, Repr

/-- `array.array ("H", ...)` and `to_bytes (2, LE)`: OverflowError for a value
that is not a 16 bit word. -/
def wordBytes (w : Nat) : Except Err Bytes :=
  if w < 65536 then .ok (le 2 w) else .error .overflow

def wordsBytes : List Nat → Except Err Bytes
  | [] => .ok []
  | w :: ws => do
    let b ← wordBytes w
    let bs ← wordsBytes ws
    return b ++ bs

/-- `array.frombytes` after the check for an even length. -/
def toWords : Bytes → List Nat
  | a :: b :: tl => fromLe [a, b] :: toWords tl
  | _ => []

/-- routing_packets.py:276-289 `L1Segment.encode`. -/
def segWords (s : Seg) : List Nat := s.entries.length :: s.startid :: s.entries

/-- routing_packets.py:258-262 and 299-304 `validate`: Level 1 (`false`) and
Level 2 (`true`). -/
def segValid (l2 : Bool) (count startid : Nat) : Bool :=
  if l2 then !(count + startid > 64 || startid == 0 || count == 0)
  else !(count + startid > 1024 || count == 0)

/-- routing_packets.py:264-274 `L1Segment.decode` and packet.py:467-478
`LIST.decode` without count: segments until the words are used up.  `a[1]` on a
one word array is an IndexError; `a[2:c]` on a short array is just short. -/
def segsDec (l2 : Bool) (a : List Nat) : Except Err (List Seg) :=
  match a with
  | [] => .ok []
  | [_] => .error .indexError
  | c :: s :: tl =>
    if segValid l2 c s then
      match segsDec l2 (tl.drop c) with
      | .error e => .error e
      | .ok segs => .ok (⟨s, tl.take c⟩ :: segs)
    else .error .format
termination_by a.length
decreasing_by simp; omega

/-- End around carry, twice: routing_packets.py:337-338, 387-388, 424-425. -/
def fold (s : Nat) : Nat :=
  let s := (s &&& 0xffff) + (s >>> 16)
  (s &&& 0xffff) + (s >>> 16)

/-- The header, routing_packets.py:159-166 and 310-311: flags byte with the
control bit and the message type, source node, a reserved byte. -/
def hdr (type src : Nat) : Except Err Bytes :=
  if src < 65536 then .ok (UInt8.ofNat (1 + 2 * type) :: le 2 src ++ [0]) else .error .overflow

/-- routing_packets.py:373-390 `PhaseIIIRouting.encode` (little endian host;
on a big endian host line 381 assigns `seg` instead of `segs` and the method
fails). -/
def encode3 (src : Nat) (segments : List Nat) : Except Err Bytes := do
  let segs ← wordsBytes segments
  let ck ← wordBytes (fold segments.sum)
  let h ← hdr 3 src
  return h ++ (segs ++ ck)

/-- routing_packets.py:415-427 `Ph4RoutingMessage.encode`; `initchecksum` is 1. -/
def encode4 (l2 : Bool) (src : Nat) (segments : List Seg) : Except Err Bytes := do
  let segs ← wordsBytes (segments.flatMap segWords)
  let a := toWords segs
  let ck ← wordBytes (fold (a.sum + 1))
  let h ← hdr (if l2 then 4 else 3) src
  return h ++ (segs ++ ck)

/-- A decoded routing message. -/
inductive Msg
  | ph3 (src : Nat) (segments : List Nat)
  | ph4 (src : Nat) (segments : List Seg)
deriving DecidableEq, Repr

/-- The residue of the payload words, routing_packets.py:331-338: the last word
is complemented, then all are added. -/
def residue (a : List Nat) : Nat :=
  fold (a.dropLast.sum + (65535 - a.getLastD 0))

/-- routing_packets.py:314-355 `RoutingMessage.decode`, reached through the
packet index as `P34Routing` (type 3) or `L2Routing` (type 4). -/
def decode (l2 : Bool) (buf : Bytes) : Except Err Msg :=
  let segs := buf.drop 4
  if segs = [] ∨ segs.length % 2 = 1 then .error .format
  else
    let a := toWords segs
    let s := residue a
    -- `rdict`: 449, 458, 471
    if s = 0xfffe ∨ (s = 0xffff ∧ l2 = false) then
      -- `super ().decode (buf)`: CtlHdr and the RoutingMessage layout
      match buf with
      | f :: s0 :: s1 :: _ =>
        if f.toNat % 2 ≠ 1 ∨ f.toNat / 2 % 8 ≠ (if l2 then 4 else 3) ∨ f.toNat / 128 ≠ 0 then
          .error .wrongValue
        else
          let src := fromLe [s0, s1]
          if s = 0xffff then .ok (.ph3 src a.dropLast)
          else
            match segsDec l2 a.dropLast with
            | .error e => .error e
            | .ok segs => .ok (.ph4 src segs)
      | _ => .error .missing
    else .error .checksum

/-- The inner loop of `entries`: routing_packets.py:398-402, 437-440. -/
def walk (cost : Nat) : Nat → List Nat → List (Nat × Nat × Nat)
  | _, [] => []
  | i, e :: es => (i, (e >>> 10) + 1, (e &&& 1023) + cost) :: walk cost (i + 1) es

/-- routing_packets.py:392-402 and 429-440 `entries`: (id, hops, cost) seen
from the receiver, for circuit cost `cost`. -/
def entries (cost : Nat) : Msg → List (Nat × Nat × Nat)
  | .ph3 _ segs => walk cost 1 segs
  | .ph4 _ segs => segs.flatMap fun s => walk cost s.startid s.entries

end Verif.RoutMsg
