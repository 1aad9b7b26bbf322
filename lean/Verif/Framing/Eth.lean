/-!
# Model of the Ethernet framing, `decnet/ethernet.py`

`EthPort.__init__`, `EthPort.send` and `_Ethernet.receive`, with the parts of `datalink.BcPort`
they use. A frame is a list of bytes. The transmit buffer of a port is part of its state, because
the code builds every frame in the same buffer.

Simplifications: ports are found by a list lookup instead of a dictionary; a port has one protocol
type (`add_proto` of further ones only adds keys to the dictionary); counters and logging are left
out. A port with a SAP instead of a protocol type cannot be created in the code (`EthPort.__init__`
does not pass the `sap` argument on, so the assertion in `BcPort.__init__` fails), so transmission
has no SAP branch; reception has it, because `add_sap` registers one for receiving.
-/
namespace Verif.Framing

abbrev Bytes := List UInt8

/-- `f[i:i + len (b)] = b` on a bytearray. -/
def setSlice (f : Bytes) (i : Nat) (b : Bytes) : Bytes :=
  f.take i ++ b ++ f.drop (i + b.length)

namespace Eth

/-- `datalink.BcPort` (datalink.py 731-763) and `EthPort` (ethernet.py 27-44) attributes. -/
structure Port where
  proto : Bytes
  sap : Option UInt8
  pad : Bool
  macaddr : Bytes
  multicast : List Bytes
  promisc : Bool
  frame : Bytes
deriving DecidableEq, Repr

/-- `self.plstart`, ethernet.py 36-39. -/
def plstart (p : Port) : Nat := if p.pad then 16 else 14

/-- `EthPort.__init__`, ethernet.py 30-44. -/
def newPort (proto : Bytes) (pad : Bool) (macaddr : Bytes) : Port :=
  { proto, sap := none, pad, macaddr, multicast := [], promisc := false,
    frame := setSlice (List.replicate 1514 0) 12 proto }

/-- `FILL[l:60]`, ethernet.py 23 and 80. -/
def fill (l : Nat) : Bytes := List.replicate (60 - l) 0x42

/-- `EthPort.send`, ethernet.py 46-86. The result is the port with its changed buffer and the
frame handed to the device; `none` is `ValueError`. -/
def send (p : Port) (msg dest : Bytes) : Port × Option Bytes :=
  if dest.length ≠ 6 then (p, none)
  else
    let l := msg.length
    let f := setSlice (setSlice p.frame 0 dest) 6 p.macaddr
    if p.pad then
      if l > 1498 then ({ p with frame := f }, none)
      else
        let f := setSlice f 14 [UInt8.ofNat (l % 256), UInt8.ofNat (l / 256)]
        let f := setSlice f (plstart p) msg
        let f := if l + plstart p < 60 then setSlice f (l + plstart p) (fill (l + plstart p)) else f
        ({ p with frame := f }, some (f.take (max (l + plstart p) 60)))
    else
      if l > 1500 then ({ p with frame := f }, none)
      else
        let f := setSlice f (plstart p) msg
        let f := if l + plstart p < 60 then setSlice f (l + plstart p) (fill (l + plstart p)) else f
        ({ p with frame := f }, some (f.take (max (l + plstart p) 60)))

/-- What `_Ethernet.receive` does with a frame: hand a payload to the owner of a port, ignore it,
or raise an exception (which ends the receive thread). -/
inductive Rx where
  | deliver (port : Port) (src : Bytes) (payload : Bytes)
  | ignore
  | error
deriving DecidableEq, Repr

/-- `bytes <= bytes`. -/
def bytesLe : Bytes → Bytes → Bool
  | [], _ => true
  | _ :: _, [] => false
  | a :: as, b :: bs => if a < b then true else if a = b then bytesLe as bs else false

/-- `Macaddr.ismulti`, common.py 474-476. -/
def isMulti (m : Bytes) : Bool :=
  match m with
  | a :: _ => a.toNat % 2 = 1
  | [] => false

/-- `dest == port.macaddr or dest in port.destfilter`, ethernet.py 152, with `_update_filter`,
datalink.py 771-775. -/
def accepts (p : Port) (dest : Bytes) : Bool :=
  dest = p.macaddr || p.promisc || p.multicast.contains dest

/-- ethernet.py 133-143: the port, the payload length from the header and where the payload starts.
Outer `none` is an exception (`packet[14]` of a frame without one), inner `none` no such port. -/
def lookup (ports : List Port) (packet : Bytes) : Option (Option (Port × Nat × Nat)) :=
  let proto := (packet.drop 12).take 2
  if bytesLe proto [0x05, 0xdc] then
    match packet[14]? with
    | none => none
    | some dsap =>
      match ports.find? (fun p => p.sap = some dsap) with
      | none => some none
      | some p =>
        some (some (p, match proto with
                       | [a, b] => a.toNat * 256 + b.toNat
                       | _ => 0, 17))
  else
    match ports.find? (fun p => p.proto = proto) with
    | none => some none
    | some p => some (some (p, packet.length - 14, 14))

/-- `_Ethernet.receive`, ethernet.py 125-186; `plen` is the length of the frame, as all callers
pass it. -/
def receive (ports : List Port) (packet : Bytes) : Rx :=
  if packet = [] then .ignore
  else
    match lookup ports packet with
    | none => .error
    | some none => .ignore
    | some (some (p, plen2, pstart)) =>
      let dest := packet.take 6
      let src := (packet.drop 6).take 6
      if src.length ≠ 6 then .error
      else if isMulti src then .ignore
      else if accepts p dest then
        if p.pad then
          match packet[14]?, packet[15]? with
          | some a, some b =>
            let n := a.toNat + b.toNat * 256
            if packet.length < n + 16 then .ignore
            else .deliver p src ((packet.drop 16).take n)
          | _, _ => .error
        else .deliver p src ((packet.drop pstart).take plen2)
      else .ignore

end Eth
end Verif.Framing
