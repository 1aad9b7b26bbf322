import Verif.Crc.Props

/-!
# DDCMP frames on the line

Model of the frame encoding and of the receive side framing in
pydecnet/decnet/ddcmp.py: message classes (lines 130-308), `header_search`
(461-503), the TCP reader with its Telnet escapes (1111-1165, 1189-1196), the
UDP receive loop (1246-1293), and `recvall` of datalink.py:345-380.

Not modelled: the sockets themselves (a connection is the sequence of bytes
that will arrive, cut up in an arbitrary way), the KMC/framer variants which
leave the CRC to hardware (`addcrc = False`, `check = False` with a whole
packet), tracing.
-/

namespace Verif.DdcmpFrame

open Verif.Fields (Bytes le)
open Verif.Crc (CRC16)

/-- ddcmp.py:80-85. -/
def SOH : UInt8 := 0o201
def ENQ : UInt8 := 0o005
def DLE : UInt8 := 0o220
def SYN : UInt8 := 0o226
def DEL : UInt8 := 0o377

/-- ddcmp.py:308 `HDRLEN`. -/
def HDRLEN : Nat := 8

/-- The packet classes of ddcmp.py:243-306, with the attributes that are not
fixed by the class.  (`addr` is set to 1 by `encode`, line 160, and ignored on
receipt; `count` is set from the payload, line 229.) -/
inductive Msg
  | data (qsync select : Bool) (resp num : UInt8) (payload : Bytes)
  | maint (payload : Bytes)
  | ack (qsync select : Bool) (resp : UInt8)
  | nak (reason : Nat) (qsync select : Bool) (resp : UInt8)
  | rep (qsync select : Bool) (num : UInt8)
  | start
  | stack
deriving DecidableEq, Repr

/-- Bit map rows of two and one bytes, ddcmp.py:172-175 and 266-269, with
packet.py:280-299: a value too large for its bits raises FieldOverflow
(`none`). -/
def bits16 (count : Nat) (qsync select : Bool) : Option Bytes :=
  if count < 2 ^ 14 then some (le 2 (count + qsync.toNat * 2 ^ 14 + select.toNat * 2 ^ 15))
  else none

def bits8 (subtype : Nat) (qsync select : Bool) : Option UInt8 :=
  if subtype < 2 ^ 6 then some (UInt8.ofNat (subtype + qsync.toNat * 2 ^ 6 + select.toNat * 2 ^ 7))
  else none

/-- The layouts of ddcmp.py:167-306: the six header bytes before the CRC. -/
def Msg.header : Msg → Option Bytes
  | .data q s resp num p => (bits16 p.length q s).map fun b => SOH :: b ++ [resp, num, 1]
  | .maint p => (bits16 p.length true true).map fun b => DLE :: b ++ [0, 0, 1]
  | .ack q s resp => (bits8 0 q s).map fun b => [ENQ, 1, b, resp, 0, 1]
  | .nak r q s resp => (bits8 r q s).map fun b => [ENQ, 2, b, resp, 0, 1]
  | .rep q s num => (bits8 0 q s).map fun b => [ENQ, 3, b, 0, num, 1]
  | .start => (bits8 0 true true).map fun b => [ENQ, 6, b, 0, 0, 1]
  | .stack => (bits8 0 true true).map fun b => [ENQ, 7, b, 0, 0, 1]

/-- The data part, for the classes derived from `BaseDataMsg`. -/
def Msg.payload? : Msg → Option Bytes
  | .data _ _ _ _ p => some p
  | .maint p => some p
  | _ => none

/-- A byte string followed by its CRC. -/
def withCrc (b : Bytes) : Bytes := b ++ CRC16.bytes b

/-- ddcmp.py:153-165 and 223-241 `encode`. -/
def Msg.encode (m : Msg) : Option Bytes :=
  m.header.map fun h => withCrc h ++ (match m.payload? with
    | some p => withCrc p
    | none => [])

inductive Err
  /-- HdrCrcError -/
  | hdrCrc
  /-- any other DecodeError -/
  | decode
deriving DecidableEq, Repr

/-- A decoded header: a control message, or the header of a data or
maintenance message of the given length. -/
inductive Hdr
  | ctl (m : Msg)
  | data (qsync select : Bool) (resp num : UInt8) (count : Nat)
  | maint (count : Nat)
deriving DecidableEq, Repr

/-- packet.py:301-314 for the bit maps. -/
def count16 (a b : UInt8) : Nat := (a.toNat + 256 * b.toNat) % 2 ^ 14
def qsync16 (b : UInt8) : Bool := b.toNat / 2 ^ 6 % 2 = 1
def select16 (b : UInt8) : Bool := b.toNat / 2 ^ 7 = 1

/-- ddcmp.py:262-306: the control message classes; a class attribute with a
fixed value rejects any other value (WrongValue), type codes without a class
are DecodeErrors (packet.py:724-740). -/
def ctlMsg (type b resp num : UInt8) : Except Err Hdr :=
  let subtype := b.toNat % 2 ^ 6
  let q := qsync16 b
  let s := select16 b
  if type = 1 then
    if subtype = 0 ∧ num = 0 then .ok (.ctl (.ack q s resp)) else .error .decode
  else if type = 2 then
    if num = 0 then .ok (.ctl (.nak subtype q s resp)) else .error .decode
  else if type = 3 then
    if subtype = 0 ∧ resp = 0 then .ok (.ctl (.rep q s num)) else .error .decode
  else if type = 6 then
    if subtype = 0 ∧ q ∧ s ∧ resp = 0 ∧ num = 0 then .ok (.ctl .start) else .error .decode
  else if type = 7 then
    if subtype = 0 ∧ q ∧ s ∧ resp = 0 ∧ num = 0 then .ok (.ctl .stack) else .error .decode
  else .error .decode

/-- `Packet.decode` of the class found by the first byte (and by the second for
ENQ), after the CRC check; the sixth byte, the address, is not looked at. -/
def parseHdr : Bytes → Except Err Hdr
  | soh :: a :: b :: resp :: num :: _addr :: _ =>
    if soh = SOH then .ok (.data (qsync16 b) (select16 b) resp num (count16 a b))
    else if soh = DLE then
      if qsync16 b ∧ select16 b ∧ resp = 0 ∧ num = 0 then .ok (.maint (count16 a b))
      else .error .decode
    else if soh = ENQ then ctlMsg a b resp num
    else .error .decode
  | _ => .error .decode

/-- A received message, as handed to `handle_pkt`: with `crcok` for data and
maintenance messages. -/
structure Rx where
  msg : Msg
  crcok : Bool
deriving DecidableEq, Repr

def Hdr.withPayload : Hdr → Bytes → Msg
  | .ctl m, _ => m
  | .data q s r n _, p => .data q s r n p
  | .maint _, p => .maint p

def Hdr.count : Hdr → Option Nat
  | .ctl _ => none
  | .data _ _ _ _ c => some c
  | .maint c => some c

/-- ddcmp.py:193-221, the data part of a packet in a buffer; `buf` is what
follows the header. -/
def decodeBody (h : Hdr) (buf : Bytes) : Rx :=
  match h.count with
  | none => ⟨h.withPayload [], true⟩
  | some dl =>
    if buf.length < dl + 2 then ⟨h.withPayload [], false⟩
    else ⟨h.withPayload (buf.take dl), CRC16.good (buf.take (dl + 2))⟩

/-- ddcmp.py:145-151 and 181-221 without `recv`: a whole packet in a buffer.
(What is left over is not used by any caller and not modelled.) -/
def decode (buf : Bytes) : Except Err Rx :=
  if CRC16.good (buf.take HDRLEN) = false then .error .hdrCrc
  else (parseHdr buf).map fun h => decodeBody h (buf.drop HDRLEN)

/-! ## Reading from a connection -/

/-- Something `readbytes` can be called on: gives that many bytes, or raises
IOError (`none`). -/
abbrev Reader (σ : Type) := Nat → σ → Option (Bytes × σ)

/-- datalink.py:345-380 `recvall`: `ret` has been received so far.  The state
is the bytes that will arrive and, for each `sock.recv` call, how many are
available then.  Running out of either is IOError. -/
def recvallLoop (n : Nat) : (calls : List Nat) → (ret wire : Bytes) → Option (Bytes × (Bytes × List Nat))
  | [], ret, wire => if ret.length < n then none else some (ret, wire, [])
  | k :: calls, ret, wire =>
    if ret.length < n then
      let m := wire.take (min (k + 1) (n - ret.length))
      if m = [] then none else recvallLoop n calls (ret ++ m) (wire.drop m.length)
    else some (ret, wire, k :: calls)

def recvall : Reader (Bytes × List Nat) := fun n st => recvallLoop n st.2 [] st.1

/-- `bytes.count (DEL1)`. -/
def countDel (b : Bytes) : Nat := b.count DEL

/-- `bytes.replace (DEL1, DEL2)`. -/
def escape (b : Bytes) : Bytes := b.flatMap fun c => if c = DEL then [DEL, DEL] else [c]

/-- `bytes.replace (DEL2, DEL1)`: leftmost, not overlapping. -/
def unescape : Bytes → Bytes
  | a :: b :: r => if a = DEL ∧ b = DEL then DEL :: unescape r else a :: unescape (b :: r)
  | r => r

/-- ddcmp.py:1116-1129, the loop of `readbytes` in Telnet mode, at most `fuel`
times around (`none` when that is not enough, as for IOError). -/
def readTelnet {σ : Type} (rd : Reader σ) (sz : Nat) : (fuel : Nat) → Bytes → σ → Option (Bytes × σ)
  | fuel, p, st =>
    if p.length < sz then
      match fuel with
      | 0 => none
      | fuel + 1 => do
        let (b, st) ← rd (sz - p.length) st
        let e := countDel b
        let (b, st) ← if e % 2 = 1 then (rd 1 st).map fun x => (b ++ x.1, x.2) else some (b, st)
        let b := if e ≠ 0 then unescape b else b
        readTelnet rd sz fuel (p ++ b) st
    else some (p, st)

/-- ddcmp.py:1111-1131 `readbytes`.  Every turn of the Telnet loop gets at
least one byte, so `sz` turns are enough. -/
def readbytes {σ : Type} (telnet : Bool) (rd : Reader σ) : Reader σ := fun sz st =>
  if telnet then readTelnet rd sz sz [] st else rd sz st

/-- ddcmp.py:1189-1192: what goes to the socket. -/
def sendBytes (telnet : Bool) (frame : Bytes) : Bytes :=
  if telnet then escape frame ++ [DEL, DEL] else frame

/-- What the receive thread does. -/
inductive Out
  /-- `handle_pkt` -/
  | pkt (r : Rx)
  /-- `Err (R_HCRC)` to the node -/
  | hcrc
  /-- a good header with bad contents, logged only (ddcmp.py:1164) -/
  | invalid
deriving DecidableEq, Repr

def isStart (h : UInt8) : Bool := h = ENQ ∨ h = SOH ∨ h = DLE

/-- State of the receive thread: bytes already read in `header_search`, the
connection, the `insync` flag, and what has been done so far. -/
structure RxState (σ : Type) where
  c : Bytes
  conn : σ
  insync : Bool
  out : List Out

/-- ddcmp.py:1149-1165: header in hand, read the data and pass it up.
`BaseDataMsg.decode` turns IOError into a message with bad CRC and no payload
(lines 204-209). -/
def handleHdr {σ : Type} (rd : Reader σ) (hdr : Bytes) (st : RxState σ) : RxState σ × Bool :=
  match parseHdr hdr with
  | .error _ => ({ st with c := [], out := st.out ++ [.invalid] }, true)
  | .ok h =>
    match h.count with
    | none => ({ st with c := [], out := st.out ++ [.pkt ⟨h.withPayload [], true⟩] }, true)
    | some dl =>
      match rd dl st.conn with
      | none => ({ st with c := [], out := st.out ++ [.pkt ⟨h.withPayload [], false⟩] }, false)
      | some (p, conn) =>
        match rd 2 conn with
        | none => ({ st with c := [], conn, out := st.out ++ [.pkt ⟨h.withPayload [], false⟩] }, false)
        | some (x, conn) =>
          ({ st with c := [], conn, out := st.out ++ [.pkt ⟨h.withPayload p, CRC16.good (p ++ x)⟩] },
            true)

/-- One step of `header_search` (ddcmp.py:461-503) inside `receive_loop`
(1133-1165); the flag is false when the thread stops with IOError. -/
def rxStep {σ : Type} (rd : Reader σ) (st : RxState σ) : RxState σ × Bool :=
  match st.c with
  | [] =>
    match rd 1 st.conn with
    | none => (st, false)
    | some (c, conn) => ({ st with c, conn }, true)
  | h :: t =>
    if isStart h then
      match rd (HDRLEN - (h :: t).length) st.conn with
      | none => (st, false)
      | some (x, conn) =>
        let c := h :: t ++ x
        if CRC16.good c then handleHdr rd c { st with conn, insync := true }
        else if st.insync then
          ({ st with c := c.tail, conn, insync := false, out := st.out ++ [.hcrc] }, true)
        else ({ st with c := c.tail, conn }, true)
    else ({ st with c := t }, true)

/-- The receive thread for up to `n` steps. -/
def rxRun {σ : Type} (rd : Reader σ) : Nat → RxState σ → RxState σ × Bool
  | 0, st => (st, true)
  | n + 1, st =>
    match rxStep rd st with
    | (st, false) => (st, false)
    | (st, true) => rxRun rd n st

/-! ## UDP -/

/-- ddcmp.py:1262-1271: find the start of the packet in a datagram. -/
def udpSkip : Bytes → Bytes
  | [] => []
  | [h] => if h = SYN ∨ h = DEL then [h] else if isStart h then [h] else []
  | h :: t => if h = SYN ∨ h = DEL then udpSkip t else if isStart h then h :: t else []

inductive UdpOut
  | ignored
  | hcrc
  | fmt
  | pkt (r : Rx)
deriving DecidableEq, Repr

/-- ddcmp.py:1262-1293: a datagram is received. -/
def udpReceive (msg : Bytes) : UdpOut :=
  let c := udpSkip msg
  if c = [] then .ignored
  else if c.length < HDRLEN then .hcrc
  else
    match decode c with
    | .error .hdrCrc => .hcrc
    | .error .decode => .fmt
    | .ok r => .pkt r

end Verif.DdcmpFrame
