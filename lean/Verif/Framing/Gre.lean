import Verif.Framing.Eth
/-!
# Model of the GRE framing, `decnet/gre.py`

Simplifications: as for `Verif.Framing.Eth`; the check of the sender's IP address is
`Verif.Host`, here it is a Boolean of the datagram.
-/
namespace Verif.Framing.Gre
open Verif.Framing

/-- `GREPort`, gre.py 17-25. -/
structure Port where
  proto : Bytes
  pad : Bool
  frame : Bytes
deriving DecidableEq, Repr

/-- `GREPort.__init__`, gre.py 20-25. -/
def newPort (proto : Bytes) (pad : Bool) : Port :=
  { proto, pad, frame := setSlice (setSlice (List.replicate 1504 0) 0 [0, 0]) 2 proto }

/-- `GREPort.send`, gre.py 30-55; `none` is `ValueError`. -/
def send (p : Port) (msg : Bytes) : Port × Option Bytes :=
  let l := msg.length
  if p.pad then
    if l > 1498 then (p, none)
    else
      let f := setSlice p.frame 4 [UInt8.ofNat (l % 256), UInt8.ofNat (l / 256)]
      let f := setSlice f 6 msg
      ({ p with frame := f }, some (f.take (l + 6)))
  else
    if l > 1500 then (p, none)
    else
      let f := setSlice p.frame 4 msg
      ({ p with frame := f }, some (f.take (l + 4)))

/-- As for Ethernet; the error ends the receive thread. -/
inductive Rx where
  | deliver (port : Port) (payload : Bytes)
  | ignore
  | error
deriving DecidableEq, Repr

/-- gre.py 147-158: where the GRE header starts; `none` is an unknown IP version. -/
def hdrPos (skipIpHdr : Bool) (msg : Bytes) : Option Nat :=
  if skipIpHdr then
    match msg with
    | a :: _ => if a.toNat / 16 = 4 then some (4 * (a.toNat % 16)) else none
    | [] => none
  else some 0

/-- The body of the receive loop of `GRE.run`, gre.py 134-190. -/
def receive (skipIpHdr : Bool) (fromPeer : Bool) (ports : List Port) (msg : Bytes) : Rx :=
  if msg.length ≤ 4 then .ignore
  else if !fromPeer then .ignore
  else
    match hdrPos skipIpHdr msg with
    | none => .ignore
    | some pos =>
      if (msg.drop pos).take 2 ≠ [0, 0] then .ignore
      else
        match ports.find? (fun p => p.proto = (msg.drop (pos + 2)).take 2) with
        | none => .ignore
        | some p =>
          if p.pad then
            match msg[pos + 4]?, msg[pos + 5]? with
            | some a, some b =>
              let n := a.toNat + b.toNat * 256
              if (msg.length : Int) - (pos + 4) < n then .ignore
              else .deliver p ((msg.drop (pos + 6)).take n)
            | _, _ => .error
          else .deliver p (msg.drop (pos + 4))

end Verif.Framing.Gre
