import Verif.Framing.Eth
/-!
# Model of the ports of an Ethernet, `decnet/datalink.py` (`BcDatalink`, `BcPort`) and `decnet/ethernet.py`

The registration of protocol types and service access points, the addresses of the ports, the packet filter that is
handed to libpcap, the choice of the port for a received frame with its counters, and the receive thread of the UDP
bridge.

A port is its number in the order of creation.  A dictionary is a list of pairs in the order of insertion, a set a list.
Addresses and types are given as the bytes that `Macaddr` and `Ethertype` hold; their conversions from text are not part
of the model, except that a wrong length is a ValueError.
-/
namespace Verif.EthPort

open Verif.Framing (Bytes)
open Verif.Framing.Eth (bytesLe isMulti)

/-- The keys of `BcDatalink.ports`: `Ethertype` (bytes) or `DLSAP` (an integer), which are never equal. -/
inductive Key where
  | type (t : Bytes)
  | sap (n : UInt8)
deriving DecidableEq, Repr

/-- `BcPort` and `EthPort`, datalink.py 737-752, ethernet.py 30-32: `_macaddr`, `multicast`, `promisc`, `proto`,
`protoset`, `sapset`, `pad` and the receive counters. `destfilter` is `multicast` itself unless promiscuous
(`_update_filter`, datalink.py 771-776). -/
structure Port where
  mac : Bytes
  multicast : List Bytes := []
  promisc : Bool := false
  proto : Bytes
  protoset : List Bytes
  sapset : List UInt8 := []
  pad : Bool
  pkts : Nat := 0
  bytes : Nat := 0
deriving DecidableEq, Repr

/-- An element of `portfilter`, datalink.py 656-669: `(ether[14]==n)` or `(ether proto t)`. -/
inductive Test where
  | byte14 (n : UInt8)
  | proto (t : Bytes)
deriving DecidableEq, Repr

/-- An element of `filter`, datalink.py 690-693: the tests joined by `or`, and `ether dst` in front unless the filter is
for promiscuous mode (688). -/
structure Clause where
  dst : Option Bytes
  tests : List Test
deriving DecidableEq, Repr

/-- The filter: the clauses joined by `or`.  The empty list is the empty string.  The text itself is not modelled. -/
abbrev Filter := List Clause

/-- `BcDatalink` and `_PcapEth`: datalink.py 640-646, ethernet.py 97-103, 296-300. `installed` is the last filter given
to `pcap.setfilter`. -/
structure Dl where
  single : Bool
  hwaddr : Bytes
  mac : Option Bytes := none
  ports : List Port := []
  reg : List (Key × Nat) := []
  unk : Nat := 0
  mcPkts : Nat := 0
  filterStr : Option Filter := none
  opened : Bool := false
  installed : Option Filter := none
deriving DecidableEq, Repr

inductive Err where
  | value | key | runtime | assertion | attribute
deriving DecidableEq, Repr

/-- `NULLID`, common.py 478. -/
def nullId : Bytes := List.replicate 6 0

/-- `BcPort.macaddr`, datalink.py 754-758. -/
def macaddr (s : Dl) (p : Port) : Option Bytes := if s.single then s.mac else some p.mac

/-! ## Filter -/

/-- `portfilter`, datalink.py 653-670. -/
def tests (ks : List Key) : List Test :=
  ks.map fun
    | .sap n => .byte14 n
    | .type t => .proto t

/-- `protomap[a].add (p)`, datalink.py 684 and 686, on a `defaultdict (set)`. -/
def addTo (m : List (Option Bytes × List Key)) (a : Option Bytes) (k : Key) : List (Option Bytes × List Key) :=
  match m with
  | [] => [(a, [k])]
  | (b, ks) :: m => if b = a then (b, if ks.contains k then ks else ks ++ [k]) :: m else (b, ks) :: addTo m a k

/-- The loop of `filter`, datalink.py 680-686, when no port is promiscuous. -/
def protomap (s : Dl) : List (Key × Nat) → List (Option Bytes × List Key) → List (Option Bytes × List Key)
  | [], m => m
  | (k, i) :: r, m =>
    match s.ports[i]? with
    | none => protomap s r m
    | some p => protomap s r (p.multicast.foldl (fun m a => addTo m (some a) k) (addTo m (macaddr s p) k))

/-- `BcDatalink.filter`, datalink.py 672-694. -/
def mkFilter (s : Dl) : Filter :=
  if s.reg.any (fun e => ((s.ports[e.2]?).map (·.promisc)).getD false) then
    [⟨none, tests (s.reg.map Prod.fst)⟩]
  else
    (protomap s s.reg []).filterMap fun
      | (none, _) => none
      | (some a, ks) => if a = nullId then none else some ⟨some a, tests ks⟩

/-- `newfilter`, datalink.py 705-708, with `_PcapEth.update_filter`, ethernet.py 302-310. -/
def newfilter (s : Dl) : Dl :=
  { s with filterStr := some (mkFilter s), installed := if s.opened then some (mkFilter s) else s.installed }

/-- What libpcap makes of a test.  `ether proto` with a type above 1500 compares bytes 12 and 13; what it does with a
smaller number is left open (`small`). -/
def Test.passes (small : Bytes → Bytes → Bool) (frame : Bytes) : Test → Bool
  | .byte14 n => frame[14]? = some n
  | .proto t => if bytesLe t [0x05, 0xdc] then small t frame else (frame.drop 12).take 2 = t

/-- What libpcap makes of a filter; the empty one passes everything. -/
def Filter.passes (small : Bytes → Bytes → Bool) (f : Filter) (frame : Bytes) : Bool :=
  f.isEmpty || f.any fun c =>
    (match c.dst with
     | none => true
     | some a => frame.take 6 = a) && c.tests.any (Test.passes small frame)

/-! ## Operations on ports -/

def lookup (r : List (Key × Nat)) (k : Key) : Option Nat := (r.find? fun e => e.1 = k).map Prod.snd

/-- Change of a port. -/
def modify (s : Dl) (i : Nat) (f : Port → Port) : Dl := { s with ports := s.ports.modify i f }

/-- `BcDatalink.create_port`, datalink.py 648-651, with `EthPort.__init__`, ethernet.py 30-44, `BcPort.__init__`,
datalink.py 737-752, and `add_proto`, 801-812.  With a service access point instead of a type it fails, because
`EthPort.__init__` does not pass that on (line 31). -/
def create (s : Dl) (t : Option Bytes) (pad : Bool) : Dl × Option Err :=
  -- `_update_filter` in `BcPort.__init__`
  let s := newfilter s
  match t with
  | none => (s, some .assertion)
  | some t =>
    if t.length ≠ 2 then (s, some .value)
    else if (lookup s.reg (.type t)).isSome then (s, some .runtime)
    else
      let p : Port := { mac := s.hwaddr, proto := t, protoset := [t], pad }
      (newfilter { s with ports := s.ports ++ [p], reg := s.reg ++ [(.type t, s.ports.length)] }, none)

/-- The setter of `BcPort.macaddr`, datalink.py 760-769. -/
def setMac (s : Dl) (i : Nat) (a : Bytes) : Dl × Option Err :=
  if a.length ≠ 6 then (s, some .value)
  else if isMulti a then (s, some .value)
  else if s.single then (newfilter { s with mac := some a }, none)
  else (newfilter (modify s i fun p => { p with mac := a }), none)

/-- `set_promiscuous`, datalink.py 778-783. -/
def setPromisc (s : Dl) (i : Nat) (b : Bool) : Dl × Option Err :=
  (newfilter (modify s i fun p => { p with promisc := b }), none)

/-- `add_multicast`, datalink.py 785-793. -/
def addMc (s : Dl) (i : Nat) (a : Bytes) : Dl × Option Err :=
  if a.length ≠ 6 then (s, some .value)
  else if !isMulti a then (s, some .value)
  else if ((s.ports[i]?).map fun p => p.multicast.contains a).getD false then (s, some .key)
  else (newfilter (modify s i fun p => { p with multicast := p.multicast ++ [a] }), none)

/-- `remove_multicast`, datalink.py 795-799. -/
def rmMc (s : Dl) (i : Nat) (a : Bytes) : Dl × Option Err :=
  if a.length ≠ 6 then (s, some .value)
  else if ((s.ports[i]?).map fun p => p.multicast.contains a).getD false then
    (newfilter (modify s i fun p => { p with multicast := p.multicast.filter (· ≠ a) }), none)
  else (s, some .key)

/-- `add_proto`, datalink.py 801-812, of a port that has a type already. -/
def addProto (s : Dl) (i : Nat) (t : Bytes) : Dl × Option Err :=
  if t.length ≠ 2 then (s, some .value)
  else if ((s.ports[i]?).map fun p => p.protoset.contains t).getD false then (s, some .key)
  else if (lookup s.reg (.type t)).isSome then (s, some .runtime)
  else
    let s := modify s i fun p => { p with protoset := p.protoset ++ [t] }
    (newfilter { s with reg := s.reg ++ [(.type t, i)] }, none)

/-- `remove_proto`, datalink.py 814-819: there is no attribute `parents`. -/
def rmProto (s : Dl) (i : Nat) (t : Bytes) : Dl × Option Err :=
  if t.length ≠ 2 then (s, some .value)
  else if ((s.ports[i]?).map fun p => p.protoset.contains t).getD false then
    (modify s i fun p => { p with protoset := p.protoset.filter (· ≠ t) }, some .attribute)
  else (s, some .key)

/-- `add_sap`, datalink.py 821-832.  `self.sap` is not used for anything else than sending, which this does not allow. -/
def addSap (s : Dl) (i : Nat) (n : UInt8) : Dl × Option Err :=
  if ((s.ports[i]?).map fun p => p.sapset.contains n).getD false then (s, some .key)
  else if (lookup s.reg (.sap n)).isSome then (s, some .runtime)
  else
    let s := modify s i fun p => { p with sapset := p.sapset ++ [n] }
    (newfilter { s with reg := s.reg ++ [(.sap n, i)] }, none)

/-- `remove_sap`, datalink.py 834-839, with the same mistake. -/
def rmSap (s : Dl) (i : Nat) (n : UInt8) : Dl × Option Err :=
  if ((s.ports[i]?).map fun p => p.sapset.contains n).getD false then
    (modify s i fun p => { p with sapset := p.sapset.filter (· ≠ n) }, some .attribute)
  else (s, some .key)

/-- `_PcapEth.open`, ethernet.py 312-319, with `_Ethernet.open`, 105-117: `info` is the address of the device, if it
can be found. -/
def openDl (s : Dl) (info : Option Bytes) : Dl :=
  let s := if s.hwaddr = nullId then { s with hwaddr := info.getD nullId } else s
  { s with opened := true
           installed := match s.filterStr with
             | none => s.installed
             | some f => if f.isEmpty then s.installed else some f }

/-! ## Reception -/

/-- What `receive` does with a frame: hand a payload to the owner of port `i`, nothing, or raise an exception. -/
inductive Rx where
  | deliver (i : Nat) (src payload : Bytes)
  | ignore
  | error
deriving DecidableEq, Repr

/-- ethernet.py 129-138: the key that is looked up; `none` is IndexError, for `packet[14]`. -/
def frameKey (packet : Bytes) : Option Key :=
  let proto := (packet.drop 12).take 2
  if bytesLe proto [0x05, 0xdc] then packet[14]?.map .sap else some (.type proto)

/-- ethernet.py 131-140: length of the payload and where it starts. -/
def extent (packet : Bytes) : Nat × Nat :=
  let proto := (packet.drop 12).take 2
  if bytesLe proto [0x05, 0xdc] then
    (match proto with
     | [a, b] => a.toNat * 256 + b.toNat
     | _ => 0, 17)
  else (packet.length - 14, 14)

/-- ethernet.py 152: `dest == port.macaddr or dest in port.destfilter`. -/
def accepts (s : Dl) (p : Port) (dest : Bytes) : Bool :=
  some dest = macaddr s p || p.promisc || p.multicast.contains dest

/-- ethernet.py 158-162. -/
def count (s : Dl) (i : Nat) (packet : Bytes) : Dl :=
  let s := if isMulti (packet.take 6) then { s with mcPkts := s.mcPkts + 1 } else s
  modify s i fun p => { p with pkts := p.pkts + 1, bytes := p.bytes + packet.length }

/-- ethernet.py 163-179. -/
def payload (p : Port) (i : Nat) (packet : Bytes) : Rx :=
  let src := (packet.drop 6).take 6
  if p.pad then
    match packet[14]?, packet[15]? with
    | some a, some b =>
      let n := a.toNat + b.toNat * 256
      if packet.length < n + 16 then .ignore
      else .deliver i src ((packet.drop 16).take n)
    | _, _ => .error
  else .deliver i src ((packet.drop (extent packet).2).take (extent packet).1)

/-- `_Ethernet.receive`, ethernet.py 125-186.  Only the counters change; of the bytes of multicasts no count is kept
here. -/
def receive (s : Dl) (packet : Bytes) : Dl × Rx :=
  if packet = [] then (s, .ignore)
  else
    match frameKey packet with
    | none => (s, .error)
    | some k =>
      match (lookup s.reg k).bind fun i => (s.ports[i]?).map (i, ·) with
      | none => ({ s with unk := s.unk + 1 }, .ignore)
      | some (i, p) =>
        let src := (packet.drop 6).take 6
        if src.length ≠ 6 then (s, .error)
        else if isMulti src then (s, .ignore)
        else if accepts s p (packet.take 6) then (count s i packet, payload p i packet)
        else ({ s with unk := s.unk + 1 }, .ignore)

/-- `BcCounters.combine ("pkts_recv")`, datalink.py 625-630: each port once, under its primary type. -/
def linePkts (s : Dl) : Nat :=
  (s.reg.map fun e =>
    match s.ports[e.2]? with
    | some p => if e.1 = .type p.proto then p.pkts else 0
    | none => 0).sum

/-! ## The receive thread of the UDP bridge -/

/-- One datagram at the socket: its bytes and whether it comes from the peer (`host.valid`). -/
structure Dgram where
  fromPeer : Bool
  data : Bytes
deriving DecidableEq, Repr

/-- `_BridgeEth.run`, ethernet.py 376-398, for the datagrams in the order of arrival: what is delivered, the data link,
and whether the thread still runs.  `self.disconnected ()` (391) does not exist: an AttributeError, which ends the
thread as the `return` after it would.  So does an IndexError in `msg[6]` (396) and an exception in `receive`. -/
def bridgeRun (s : Dl) : List Dgram → Dl × List (Nat × Bytes × Bytes) × Bool
  | [] => (s, [], true)
  | d :: r =>
    if d.data.length ≤ 4 then (s, [], false)
    else if !d.fromPeer then bridgeRun s r
    else
      match d.data[6]? with
      | none => (s, [], false)
      | some b =>
        if b.toNat % 2 = 1 then bridgeRun s r
        else
          match receive s d.data with
          | (s, .error) => (s, [], false)
          | (s, .ignore) => bridgeRun s r
          | (s, .deliver i src p) =>
            let (s, out, alive) := bridgeRun s r
            (s, (i, src, p) :: out, alive)

end Verif.EthPort
