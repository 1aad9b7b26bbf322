import Verif.Fields.Model
import Verif.Nsp.Model

/-!
# NSP packet layouts (`decnet/nsp_packets.py`)

Encoding and decoding of the messages of `Verif.Nsp.Msg`.  The layout tables are written out as
functions; the field codecs are those of `Verif.Fields`.
-/
namespace Verif.NspPkt

open Verif.Fields (Bytes le toBytes iEnc iDec signedEnc exEnc)
open Verif.Nsp (Msg Body AckNum)

/-- Exceptions: the field level ones, and those of nsp_packets.py 16-19; `noClass` is the
`DecodeError` of packet.py 706-714 (`findclassb`).  All that `decode` can produce are subclasses of
`packet.DecodeError` (a failure in a simple field is wrapped in `AtField`, packet.py 1059). -/
inductive PErr
  | fld (e : Fields.Err)
  | invalidAck | invalidLS | noClass
  deriving DecidableEq, Repr

/-- A field level result. -/
def up {α} (x : Except Fields.Err α) : Except PErr α := x.mapError .fld

/-! ## Encoding -/

/-- The packet classes, nsp_packets.py 186-365. -/
inductive Cls
  | ackData | ackOther | ackConn | dataSeg | intMsg | linkSvc | connInit | connConf
  | discConf | noRes | discComp | noLink | discInit
  deriving DecidableEq, Repr

/-- The MSGFLG byte: the `BM` row of `NspHdr` (nsp_packets.py 126-134) applied to the attributes
each class or object has; fields that are not set are 0 (packet.py 286).  `retry` stands for
`subtype = RCI`. -/
def flag : Body → Nat
  | .dataSeg _ _ bom eom _ => (if bom then 1 <<< 5 else 0) ||| (if eom then 1 <<< 6 else 0)
  | .intMsg .. => (0 <<< 2) ||| (3 <<< 4) ||| (1 <<< 4) ||| (1 <<< 5)
  | .linkSvc .. => (0 <<< 2) ||| (1 <<< 4) ||| (1 <<< 4)
  | .ackData => 1 <<< 2
  | .ackOther => (1 <<< 2) ||| (1 <<< 4)
  | .ackConn => (1 <<< 2) ||| (2 <<< 4)
  | .connInit retry .. => (2 <<< 2) ||| ((if retry then 6 else 1) <<< 4)
  | .connConf .. => (2 <<< 2) ||| (2 <<< 4)
  | .discInit .. => (2 <<< 2) ||| (3 <<< 4)
  | .discConf _ => (2 <<< 2) ||| (4 <<< 4)

/-- `AckNum.encode`, nsp_packets.py 88-89, preceded by the check of the constructor (51-55); an
absent field (`None`) is not sent (packet.py 1018). -/
def ackEnc : Option AckNum → Except PErr Bytes
  | none => .ok []
  | some a =>
    if 3 < a.qual then .error (.fld .valueError)
    else up (toBytes 2 ((0x8000 + (a.qual <<< 12) + (a.num &&& 0o7777) : Nat)))

/-- `Seq.encode`, nsp_packets.py 37-38; the constructor drops the high bits. -/
def seqEnc (n : Nat) : Except PErr Bytes := up (toBytes 2 ((n &&& 0o7777 : Nat)))

/-- The `BM` row of `DataSeg`, nsp_packets.py 221-224. -/
def segEnc (n : Nat) (dly : Bool) : Except PErr Bytes :=
  up (toBytes 2 (((n &&& 0o7777) ||| ((if dly then 1 else 0) <<< 12) : Nat)))

/-- `AckHdr`, nsp_packets.py 162-165, after the first byte. -/
def ackHdrEnc (m : Msg) : Except PErr Bytes := do
  let d ← up (toBytes 2 m.dst)
  let s ← up (toBytes 2 m.src)
  let a ← ackEnc m.ack
  let a2 ← ackEnc m.ack2
  return d ++ s ++ a ++ a2

/-- The `BM` row of `LinkSvcMsg`, nsp_packets.py 242-244. -/
def lsFlags (fcmod fcvalInt : Nat) : Except PErr Bytes :=
  if fcmod / 4 ≠ 0 ∨ fcvalInt / 4 ≠ 0 then .error (.fld .fieldOverflow)
  else up (toBytes 1 ((fcmod ||| (fcvalInt <<< 2) : Nat)))

/-- `ConnMsg`, nsp_packets.py 274-284, after the first byte. -/
def connEnc (m : Msg) (fcopt info segsize : Nat) : Except PErr Bytes := do
  let d ← up (toBytes 2 m.dst)
  let s ← up (toBytes 2 m.src)
  let f ← (if fcopt / 4 ≠ 0 then .error (.fld .fieldOverflow)
    else up (toBytes 1 ((1 ||| (fcopt <<< 2) : Nat))) : Except PErr Bytes)
  let i ← up (exEnc 1 info)
  let z ← up (toBytes 2 segsize)
  return d ++ s ++ f ++ i ++ z

/-- `DiscConf` and `DiscInit`, nsp_packets.py 320-322, 356-358, up to the reason. -/
def discEnc (m : Msg) (reason : Nat) : Except PErr Bytes := do
  let d ← up (toBytes 2 m.dst)
  let s ← up (toBytes 2 m.src)
  let r ← up (toBytes 2 reason)
  return d ++ s ++ r

/-- The rest of a message, class by class. -/
def bodyEnc (m : Msg) : Except PErr Bytes :=
  match m.body with
  | .ackData | .ackOther => ackHdrEnc m
  | .dataSeg n dly _ _ p => do
    let h ← ackHdrEnc m
    let s ← segEnc n dly
    return h ++ s ++ p
  | .intMsg n p => do
    let h ← ackHdrEnc m
    let s ← seqEnc n
    return h ++ s ++ p
  | .linkSvc n fcmod fcvalInt fcval => do
    let h ← ackHdrEnc m
    let s ← seqEnc n
    let f ← lsFlags fcmod fcvalInt
    let v ← up (signedEnc 1 fcval)
    return h ++ s ++ f ++ v
  | .ackConn => up (toBytes 2 m.dst)
  | .connInit _ fcopt info segsize p =>
    -- `dstaddr = 0` is a class attribute, nsp_packets.py 306: no other value can be assigned
    if m.dst ≠ 0 then .error (.fld .wrongValue)
    else do
      let h ← connEnc m fcopt info segsize
      return h ++ p
  | .connConf fcopt info segsize d => do
    let h ← connEnc m fcopt info segsize
    let x ← up (iEnc 16 d)
    return h ++ x
  | .discConf r => discEnc m r
  | .discInit r d => do
    let h ← discEnc m r
    let x ← up (iEnc 16 d)
    return h ++ x

/-- packet.py 1006-1027 `Packet.encode` for the NSP classes. -/
def encode (m : Msg) : Except PErr Bytes := do
  let f ← up (toBytes 1 (flag m.body))
  let b ← bodyEnc m
  return f ++ b

/-! ## Decoding -/

/-- `NspHdr.classindex` (nsp_packets.py 119, `nlist (128)`): what the metaclass (packet.py
602-659) enters for each class, in order of definition.  `DataSeg` has `classindexmask = 0x9f`. -/
def index (k : Nat) : Option Cls :=
  if 128 ≤ k then none
  else if k = 0x38 then some .discInit
  else if k = 0x48 then some .discConf
  else if k = 0x28 then some .connConf
  else if k = 0x18 ∨ k = 0x68 then some .connInit
  else if k = 0x10 then some .linkSvc
  else if k = 0x30 then some .intMsg
  else if k &&& 0x9f = 0 then some .dataSeg
  else if k = 0x24 then some .ackConn
  else if k = 0x14 then some .ackOther
  else if k = 0x04 then some .ackData
  else none

/-- `DiscConf.classindex` (nsp_packets.py 339-352): the three subclasses under their reasons. -/
def discIndex (k : Nat) : Option Cls :=
  if k = 1 then some .noRes else if k = 42 then some .discComp else if k = 41 then some .noLink
  else none

/-- The class `NspHdr.decode` uses for a non-empty buffer: packet.py 684-716 `findclassb` on
`NspHdr`, and, since `DiscConf` is itself the root of an index, once more from
`DiscConf.decode` (packet.py 1146-1158).  Both look at `buf[0]`: `DiscConf` inherits
`instanceindexkey` (nsp_packets.py 122-124) although its index is by reason. -/
def findclass (b0 : UInt8) : Except PErr Cls :=
  match index b0.toNat with
  | none => .error .noClass
  | some .discConf => .ok ((discIndex b0.toNat).getD .discConf)
  | some c => .ok c

/-- `B.decode` with length 2. -/
def dec2 : Bytes → Except PErr (Nat × Bytes)
  | a :: b :: tl => .ok (a.toNat + 256 * b.toNat, tl)
  | _ => .error (.fld .missingData)

/-- One byte `BM`. -/
def dec1 : Bytes → Except PErr (Nat × Bytes)
  | a :: tl => .ok (a.toNat, tl)
  | _ => .error (.fld .missingData)

/-- `AckNum.decode`, nsp_packets.py 67-78. -/
def ackDec : Bytes → Option AckNum × Bytes
  | a :: b :: tl =>
    let v := a.toNat + 256 * b.toNat
    if v &&& 0x8000 ≠ 0 then
      let qual := (v >>> 12) &&& 7
      if qual ≤ 3 then (some ⟨v &&& 0o7777, qual⟩, tl) else (none, tl)
    else (none, a :: b :: tl)
  | buf => (none, buf)

/-- `tolerantI.decode`, nsp_packets.py 106-115. -/
def tolDec (maxlen : Nat) (buf : Bytes) : Except PErr (Bytes × Bytes) :=
  match buf with
  | [] => .ok ([], [])
  | l :: tl =>
    if l.toNat > maxlen ∨ l.toNat > (l :: tl).length + 1 then .ok ([], [])
    else up (iDec maxlen (l :: tl))

/-- The row `EX info 1` (packet.py 379-393). -/
def infoDec (buf : Bytes) : Except PErr (Nat × Bytes) := up (Fields.exDec 1 buf)

/-- `SIGNED.decode` with length 1. -/
def sDec : Bytes → Except PErr (Int × Bytes)
  | a :: tl => .ok (if a.toNat < 128 then (a.toNat : Int) else (a.toNat : Int) - 256, tl)
  | _ => .error (.fld .missingData)

/-- `AckHdr.check`, nsp_packets.py 167-173. -/
def ackCheck (m : Msg) : Except PErr Unit :=
  match m.ack, m.ack2 with
  | some a, some b => if a.isCross = b.isCross then .error .invalidAck else .ok ()
  | _, _ => .ok ()

/-- `AckData.check`, nsp_packets.py 194-198. -/
def ackCheck' (m : Msg) : Except PErr Unit := do
  ackCheck m
  if m.ack = none then .error .invalidAck else .ok ()

/-- `AckHdr` fields. -/
def ackHdrDec (buf : Bytes) : Except PErr ((Nat × Nat × Option AckNum × Option AckNum) × Bytes) := do
  let (d, buf) ← dec2 buf
  let (s, buf) ← dec2 buf
  let (a, buf) := ackDec buf
  let (a2, buf) := ackDec buf
  return ((d, s, a, a2), buf)

/-- `ConnMsg` fields; `mb1` and `mbz` have fixed values 1 and 0. -/
def connDec (buf : Bytes) : Except PErr ((Nat × Nat × Nat × Nat × Nat) × Bytes) := do
  let (d, buf) ← dec2 buf
  let (s, buf) ← dec2 buf
  let (f, buf) ← dec1 buf
  if f &&& 3 ≠ 1 ∨ f >>> 4 ≠ 0 then .error (.fld .wrongValue) else
  let (i, buf) ← infoDec buf
  let (z, buf) ← dec2 buf
  return ((d, s, (f >>> 2) &&& 3, i, z), buf)

/-- The rows of class `c` after the first, for a packet whose first byte is `k`, then the class's
`check`; the result is the object and what is left of the buffer.  The fixed values of the fields of
the first byte agree with `k` by the choice of the class, except for the overlapping ones of
`NspHdr`, which also agree (`flag_fixed` below). -/
def bodyDec (c : Cls) (k : Nat) (buf : Bytes) : Except PErr (Msg × Bytes) :=
  match c with
  | .ackData => do
    let ((d, s, a, a2), buf) ← ackHdrDec buf
    let m : Msg := ⟨d, s, a, a2, .ackData⟩
    ackCheck' m
    return (m, buf)
  | .ackOther => do
    let ((d, s, a, a2), buf) ← ackHdrDec buf
    let m : Msg := ⟨d, s, a, a2, .ackOther⟩
    ackCheck' m
    return (m, buf)
  | .ackConn => do
    let (d, _) ← dec2 buf
    return (⟨d, 0, none, none, .ackConn⟩, [])
  | .dataSeg => do
    let ((d, s, a, a2), buf) ← ackHdrDec buf
    let (v, buf) ← dec2 buf
    let m : Msg := ⟨d, s, a, a2,
      .dataSeg (v &&& 0o7777) ((v >>> 12) &&& 1 == 1) ((k >>> 5) &&& 1 == 1) ((k >>> 6) &&& 1 == 1) buf⟩
    ackCheck m
    return (m, [])
  | .intMsg => do
    let ((d, s, a, a2), buf) ← ackHdrDec buf
    let (v, buf) ← dec2 buf
    let m : Msg := ⟨d, s, a, a2, .intMsg (v &&& 0o7777) buf⟩
    ackCheck m
    return (m, [])
  | .linkSvc => do
    let ((d, s, a, a2), buf) ← ackHdrDec buf
    let (v, buf) ← dec2 buf
    let (f, buf) ← dec1 buf
    let (x, buf) ← sDec buf
    if (f >>> 2) &&& 3 > 1 ∨ f &&& 3 = 3 then .error .invalidLS else
    return (⟨d, s, a, a2, .linkSvc (v &&& 0o7777) (f &&& 3) ((f >>> 2) &&& 3) x⟩, buf)
  | .connInit => do
    let ((d, s, f, i, z), buf) ← connDec buf
    if d ≠ 0 then .error (.fld .wrongValue) else
    return (⟨d, s, none, none, .connInit ((k >>> 4) &&& 7 == 6) f i z buf⟩, [])
  | .connConf => do
    let ((d, s, f, i, z), buf) ← connDec buf
    let (x, buf) ← tolDec 16 buf
    return (⟨d, s, none, none, .connConf f i z x⟩, buf)
  | .discConf | .noRes | .discComp | .noLink => do
    let (d, buf) ← dec2 buf
    let (s, buf) ← dec2 buf
    let (r, buf) ← dec2 buf
    return (⟨d, s, none, none, .discConf r⟩, buf)
  | .discInit => do
    let (d, buf) ← dec2 buf
    let (s, buf) ← dec2 buf
    let (r, buf) ← dec2 buf
    let (x, buf) ← tolDec 16 buf
    return (⟨d, s, none, none, .discInit r x⟩, buf)

/-- What `NspHdr (buf)` returns (packet.py 968-982): a message of some class, or, for an empty
buffer, a bare `NspHdr` object without any attribute. -/
inductive Dec
  | bare
  | msg (c : Cls) (m : Msg)
  deriving DecidableEq, Repr

/-- `NspHdr (buf)`: packet.py 968-982, 1137-1158. -/
def decode : Bytes → Except PErr Dec
  | [] => .ok .bare
  | b :: tl => do
    let c ← findclass b
    let (m, rest) ← bodyDec c b.toNat tl
    if rest ≠ [] then .error (.fld .extraData) else
    return .msg c m

/-- Outcome of the beginning of `NSP.dispatch` (nsp.py 156-172) for a received buffer. -/
inductive Rx
  /-- counted and logged, nothing else happens -/
  | dropped
  /-- goes on to the port mapping -/
  | mapped (c : Cls) (m : Msg)
  /-- a Python exception other than `DecodeError`, which leaves `Node.mainloop` -/
  | stops
  deriving DecidableEq, Repr

/-- nsp.py 156-217: a `DecodeError` is logged; a bare `NspHdr` is not a `ConnInit`, so
`pkt.dstaddr` (nsp.py 217) is looked up next and fails with AttributeError. -/
def receive (buf : Bytes) : Rx :=
  match decode buf with
  | .error _ => .dropped
  | .ok .bare => .stops
  | .ok (.msg c m) => .mapped c m

end Verif.NspPkt
