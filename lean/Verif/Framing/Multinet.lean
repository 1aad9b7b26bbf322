import Verif.DdcmpFrame.Model
/-!
# Model of the Multinet framing, `decnet/multinet.py`

The TCP stream and the UDP datagrams. `recvall` and the way a TCP stream is cut into pieces come
from `Verif.DdcmpFrame`.

Simplifications: the socket either takes the bytes given to `send` or some prefix of them (the
code does not look at the count `socket.send` returns); logging and counters are left out.
-/
namespace Verif.Framing.Multinet
open Verif.DdcmpFrame (recvall)

abbrev Bytes := List UInt8

/-- multinet.py 146, `hdr + msg`; `none` is `OverflowError`. -/
def frame (msg : Bytes) : Option Bytes :=
  if msg.length < 65536 then
    some ([UInt8.ofNat (msg.length % 256), UInt8.ofNat (msg.length / 256), 0, 0] ++ msg)
  else none

/-- `_TcpMultinet.send`, multinet.py 135-153: what is added to the stream when the socket takes at
most `room` bytes. -/
def sendTcp (room : Nat) (msg : Bytes) : Option Bytes := (frame msg).map (·.take room)

/-- The stream made by a sequence of sends; `none` if one of them raises. -/
def stream : List (Nat × Bytes) → Option Bytes
  | [] => some []
  | (room, msg) :: l =>
    match sendTcp room msg, stream l with
    | some a, some b => some (a ++ b)
    | _, _ => none

/-- `_TcpMultinet.receive_loop`, multinet.py 120-133, for `fuel` messages at most: the messages
received and whether the loop has ended with `IOError`. -/
def receiveLoop : (fuel : Nat) → Bytes × List Nat → List Bytes × Bool
  | 0, _ => ([], false)
  | fuel + 1, st =>
    match recvall 4 st with
    | none => ([], true)
    | some (bc, st1) =>
      let n := match bc with
        | a :: b :: _ => a.toNat + b.toNat * 256
        | _ => 0
      match recvall n st1 with
      | none => ([], true)
      | some (msg, st2) =>
        let (out, fin) := receiveLoop fuel st2
        (msg :: out, fin)

/-- `_UdpMultinet.send`, multinet.py 351-369: the datagram for sequence number `seq` and the next
sequence number. -/
def sendUdp (seq : Nat) (msg : Bytes) : Bytes × Nat :=
  ([UInt8.ofNat (seq % 256), UInt8.ofNat (seq / 256), 0, 0] ++ msg, (seq + 1) % 65536)

/-- The body of `_UdpMultinet.receive_loop`, multinet.py 335-349: the message passed up, if any. -/
def receiveUdp (fromPeer : Bool) (msg : Bytes) : Option Bytes :=
  if msg.length ≤ 4 then none else if fromPeer then some (msg.drop 4) else none

end Verif.Framing.Multinet
