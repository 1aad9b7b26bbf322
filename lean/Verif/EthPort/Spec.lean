import Verif.EthPort.Model
/-!
# Histories of a data link

The specification looks at the history of calls only: which was the last one about an address, which was the first one
that asked for a protocol type.  The newest call is first in the list.
-/
namespace Verif.EthPort

open Verif.Framing (Bytes)
open Verif.Framing.Eth (bytesLe isMulti)

/-- What the users of a data link, its start and the network do. -/
inductive Op where
  | create (t : Option Bytes) (pad : Bool)
  | setMac (i : Nat) (a : Bytes)
  | promisc (i : Nat) (b : Bool)
  | addMc (i : Nat) (a : Bytes)
  | rmMc (i : Nat) (a : Bytes)
  | addProto (i : Nat) (t : Bytes)
  | rmProto (i : Nat) (t : Bytes)
  | addSap (i : Nat) (n : UInt8)
  | rmSap (i : Nat) (n : UInt8)
  | start (info : Option Bytes)
  | frame (packet : Bytes)
deriving DecidableEq, Repr

/-- The port a call is about. -/
def Op.port : Op → Option Nat
  | .setMac i _ | .promisc i _ | .addMc i _ | .rmMc i _ | .addProto i _ | .rmProto i _ | .addSap i _ | .rmSap i _ => some i
  | _ => none

def step (s : Dl) : Op → Dl
  | .create t pad => (create s t pad).1
  | .setMac i a => (setMac s i a).1
  | .promisc i b => (setPromisc s i b).1
  | .addMc i a => (addMc s i a).1
  | .rmMc i a => (rmMc s i a).1
  | .addProto i t => (addProto s i t).1
  | .rmProto i t => (rmProto s i t).1
  | .addSap i n => (addSap s i n).1
  | .rmSap i n => (rmSap s i n).1
  | .start info => openDl s info
  | .frame packet => (receive s packet).1

/-- The states of a data link that was made with these parameters, with their history.  A call needs a port that was
created before. -/
inductive Reach (single : Bool) (hwaddr : Bytes) : Dl → List Op → Prop
  | init : Reach single hwaddr { single, hwaddr } []
  | step {s h} (op : Op) : Reach single hwaddr s h → (∀ i, op.port = some i → i < s.ports.length) →
      Reach single hwaddr (step s op) (op :: h)

/-- The last call about group address `a` of port `i`: was it to add it? -/
def lastMc (i : Nat) (a : Bytes) : List Op → Option Bool
  | [] => none
  | .addMc j b :: h => if j = i ∧ b = a then some true else lastMc i a h
  | .rmMc j b :: h => if j = i ∧ b = a then some false else lastMc i a h
  | _ :: h => lastMc i a h

/-- The last call about promiscuous mode of port `i`. -/
def lastPromisc (i : Nat) : List Op → Bool
  | [] => false
  | .promisc j b :: h => if j = i then b else lastPromisc i h
  | _ :: h => lastPromisc i h

/-- The address that was last set by port `i`, or by any port in single address mode; an address that is not an
individual address does not count. -/
def lastMac (single : Bool) (i : Nat) : List Op → Option Bytes
  | [] => none
  | .setMac j a :: h =>
    if (single ∨ j = i) ∧ a.length = 6 ∧ isMulti a = false then some a else lastMac single i h
  | _ :: h => lastMac single i h

/-- The call asks for this key. -/
def Op.wants : Op → Key → Bool
  | .create (some t) _, .type u => t = u && t.length = 2
  | .addProto _ t, .type u => t = u && t.length = 2
  | .addSap _ n, .sap m => n = m
  | _, _ => false

/-- Somebody asked for the key. -/
def asked (k : Key) (h : List Op) : Bool := h.any (·.wants k)

/-- The hardware address: the configured one, or if that is zero what was found when the data link was started. -/
def hwAt (hw : Bytes) : List Op → Bytes
  | [] => hw
  | .start info :: h => if hwAt hw h = nullId then info.getD nullId else hwAt hw h
  | _ :: h => hwAt hw h

/-- The ports that were made, in order: one for each protocol type nobody asked for before.  With each the hardware
address at that time and whether its frames have a length. -/
def made (hw : Bytes) : List Op → List (Bytes × Bool)
  | [] => []
  | .create (some t) pad :: h =>
    if t.length = 2 ∧ asked (.type t) h = false then made hw h ++ [(hwAt hw h, pad)] else made hw h
  | _ :: h => made hw h

/-- The port a call is for: the one it is about, or the one that is made, when there are `n`. -/
def Op.asker (n : Nat) : Op → Nat
  | .addProto i _ | .addSap i _ => i
  | _ => n

/-- The port that has a key: the one that asked first. -/
def holder (hw : Bytes) (k : Key) : List Op → Option Nat
  | [] => none
  | op :: h => (holder hw k h).or (if op.wants k then some (op.asker (made hw h).length) else none)

/-- The address of port `i`: the one last set, if none was set the hardware address when the port was made; in single
address mode none at first. -/
def address (single : Bool) (hw : Bytes) (h : List Op) (i : Nat) : Option Bytes :=
  match lastMac single i h with
  | some a => some a
  | none => if single then none else ((made hw h)[i]?).map Prod.fst

/-- A group address. -/
def IsGroup (a : Bytes) : Prop := a.length = 6 ∧ isMulti a = true

/-- The parts of a frame. -/
structure Frame where
  dest : Bytes
  src : Bytes
  type : Bytes
  rest : Bytes

def Frame.bytes (f : Frame) : Bytes := f.dest ++ f.src ++ f.type ++ f.rest

def Frame.Ok (f : Frame) : Prop :=
  f.dest.length = 6 ∧ f.src.length = 6 ∧ f.type.length = 2

/-- The number in the type field. -/
def Frame.num (f : Frame) : Nat :=
  match f.type with
  | [a, b] => a.toNat * 256 + b.toNat
  | _ => 0

/-- By what the port is found: the type, or in a frame with a length the first byte after it. -/
def Frame.key (f : Frame) : Option Key :=
  if f.num ≤ 1500 then f.rest.head?.map .sap else some (.type f.type)

/-- The payload of a frame for a port whose frames have a length in front of it (`pad`) or not. -/
def PayloadOf (pad : Bool) (f : Frame) (pl : Bytes) : Prop :=
  if pad then ∃ a b fill, f.rest = a :: b :: (pl ++ fill) ∧ pl.length = a.toNat + b.toNat * 256
  else if f.num ≤ 1500 then pl = (f.rest.drop 3).take f.num
  else pl = f.rest

/-- Port `i` is to get frames with this destination. -/
def Listens (single : Bool) (hw : Bytes) (h : List Op) (i : Nat) (dest : Bytes) : Prop :=
  address single hw h i = some dest ∨ lastPromisc i h = true ∨ (lastMc i dest h = some true ∧ IsGroup dest)

end Verif.EthPort
