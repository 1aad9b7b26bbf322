import Verif.Fields.Layout

/-!
# Routing layer packets

The packet classes of pydecnet/decnet/routing_packets.py as layout tables, and
the class lookup by the first byte.  Routing messages proper (types 3 and 4)
have their own codec, `Verif.RoutMsg`.
-/

namespace Verif.RoutPkt

open Verif.Fields

/-- common.py `HIORD`. -/
def HIORD : Val := .bytes [0xaa, 0x00, 0x04, 0x00]

/-- routing_packets.py:111-131. -/
def ShortData : Layout where
  rows := [.bm [⟨"sfpd", 0, 3⟩, ⟨"rqr", 3, 1⟩, ⟨"rts", 4, 1⟩, ⟨"vers", 6, 1⟩, ⟨"pf", 7, 1⟩],
    .fld "dstnode" .nodeid, .fld "srcnode" .nodeid, .bm [⟨"visit", 0, 6⟩], .fld "payload" .payload]
  fixed := [("flags", .int 2, true), ("sfpd", .int 2, false), ("vers", .int 0, false),
    ("pf", .int 0, false), ("ie", .int 0, true)]

/-- routing_packets.py:133-157. -/
def LongData : Layout where
  rows := [.bm [⟨"lfpd", 0, 3⟩, ⟨"rqr", 3, 1⟩, ⟨"rts", 4, 1⟩, ⟨"ie", 5, 1⟩, ⟨"vers", 6, 1⟩,
      ⟨"pf", 7, 1⟩],
    .res 2, .fld "dsthi" (.bv 4), .fld "dstnode" .nodeid,
    .res 2, .fld "srchi" (.bv 4), .fld "srcnode" .nodeid,
    .res 1, .fld "visit" (.b 1), .res 2, .fld "payload" .payload]
  fixed := [("flags", .int 6, true), ("lfpd", .int 6, false), ("vers", .int 0, false),
    ("pf", .int 0, false), ("dsthi", HIORD, false), ("srchi", HIORD, false)]

/-- routing_packets.py:159-166 `CtlHdr`. -/
def ctlHdr : LRow := .bm [⟨"control", 0, 1⟩, ⟨"type", 1, 3⟩, ⟨"ext_type", 4, 3⟩, ⟨"pf", 7, 1⟩]

/-- Class attributes of a control packet class, routing_packets.py:165-166 and each class. -/
def ctlFixed (flags type : Int) : List (String × Val × Bool) :=
  [("flags", .int flags, true), ("type", .int type, false), ("control", .int 1, false),
    ("pf", .int 0, false)]

/-- routing_packets.py:168-190 `PtpInit34`, the common part. -/
def ptpInit34 : List LRow :=
  [ctlHdr, .fld "srcnode" .nodeid, .bm [⟨"ntype", 0, 2⟩, ⟨"verif", 2, 1⟩, ⟨"blo", 3, 1⟩],
    .fld "blksize" (.b 2), .fld "tiver" (.fixed 3)]

/-- `check` methods which compare `srcnode`. -/
def srcnodeIn (lo hi : Int) (g : String → Option Val) : Bool :=
  match g "srcnode" with
  | some (.int x) => decide (lo ≤ x ∧ x ≤ hi)
  | _ => false

/-- routing_packets.py:192-206. -/
def PtpInit3 : Layout where
  rows := ptpInit34 ++ [.fld "reserved" (.i 64)]
  fixed := ctlFixed 1 0 ++ [("blo", .int 0, false), ("timer", .int 0, false)]
  check := srcnodeIn 1 255

/-- routing_packets.py:208-222. -/
def PtpInit : Layout where
  rows := ptpInit34 ++ [.fld "timer" (.b 2), .fld "reserved" (.i 64)]
  fixed := ctlFixed 1 0 ++ [("blo", .int 0, false)]
  check := srcnodeIn 1 65535

/-- routing_packets.py:224-229. -/
def PtpVerify : Layout where
  rows := [ctlHdr, .fld "srcnode" .nodeid, .fld "fcnval" (.i 64)]
  fixed := ctlFixed 3 1

/-- routing_packets.py:231-236. -/
def PtpHello : Layout where
  rows := [ctlHdr, .fld "srcnode" .nodeid, .fld "testdata" (.i 128)]
  fixed := ctlFixed 5 2

/-- routing_packets.py:473-493. -/
def RouterHello : Layout where
  rows := [ctlHdr, .fld "tiver" (.fixed 3), .fld "hiid" (.bv 4), .fld "id" .nodeid,
    .bm [⟨"ntype", 0, 2⟩], .fld "blksize" (.b 2), .fld "prio" (.b 1), .res 1,
    .fld "timer" (.b 2), .res 1, .fld "elist" (.i 244)]
  fixed := ctlFixed 11 5 ++ [("hiid", HIORD, false)]

/-- routing_packets.py:495-497. -/
def Elist : Layout where
  rows := [.res 7, .fld "rslist" (.i 236)]

/-- routing_packets.py:499-505. -/
def RSent : Layout where
  rows := [.fld "hiid" (.bv 4), .fld "router" .nodeid, .bm [⟨"prio", 0, 7⟩, ⟨"twoway", 7, 1⟩]]
  fixed := [("hiid", HIORD, false)]

/-- routing_packets.py:507-526 `EndnodeHelloBase`. -/
def endnodeHello : List LRow :=
  [ctlHdr, .fld "tiver" (.fixed 3), .fld "hiid" (.bv 4), .fld "id" .nodeid,
    .bm [⟨"ntype", 0, 2⟩], .fld "blksize" (.b 2), .res 9, .fld "neighbor" (.bv 6),
    .fld "timer" (.b 2), .res 1, .fld "testdata" (.i 128)]

/-- routing_packets.py:528-531; `ENDNODE` is 3. -/
def EndnodeHello : Layout where
  rows := endnodeHello
  fixed := ctlFixed 13 6 ++ [("hiid", HIORD, false), ("ntype", .int 3, false), ("prio", .int 0, false)]

/-- routing_packets.py:533-537. -/
def EndnodeHelloPrime : Layout where
  rows := endnodeHello
  fixed := ctlFixed 15 7 ++ [("hiid", HIORD, false), ("ntype", .int 3, false), ("prio", .int 0, false),
    ("ext_type", .int 1, false)]

/-- routing_packets.py:539-547. -/
def P2BareNSP : Layout where
  rows := [.fld "payload" .payload]
  fixed := [("flags", .int 0, true)]

/-- routing_packets.py:556-579.  The fixed `ntype` and `tiver` are not sent;
only their names matter here, their values are left out. -/
def NodeInit : Layout where
  rows := [.fld "flags" (.b 1), .fld "starttype" (.b 1), .fld "srcnode" (.ex 2),
    .fld "nodename" (.a 6), .bm [⟨"int", 0, 3⟩], .bm [⟨"verif", 0, 1⟩, ⟨"rint", 1, 2⟩],
    .fld "blksize" (.b 2), .fld "nspsize" (.b 2), .fld "maxlnks" (.b 2),
    .fld "routver" (.fixed 3), .fld "commver" (.fixed 3), .fld "sysver" (.a 32)]
  fixed := [("flags", .int 0x58, true), ("starttype", .int 1, true)]
  check := srcnodeIn 1 255

/-- routing_packets.py:581-587. -/
def NodeVerify : Layout where
  rows := [.fld "flags" (.b 1), .fld "starttype" (.b 1), .fld "password" (.bv 8)]
  fixed := [("flags", .int 0x58, true), ("starttype", .int 2, true)]

/-- routing_packets.py:589-592. -/
def NopMsg : Layout where
  rows := [.fld "flags" (.b 1), .fld "payload" .payload]
  fixed := [("flags", .int 8, true)]

/-- routing_packets.py:595-605. -/
def RouteHdr : Layout where
  rows := [.fld "msgflag" (.b 1), .fld "dstnode" (.a 6), .fld "srcnode" (.a 6),
    .fld "payload" .payload]
  fixed := [("flags", .int 0x42, true)]

/-! ## Lookup by the first byte -/

/-- The classes with an index key at top level, in order of definition:
`flags`, `classindexmask` (0xff when there is none).  Keys are the first bytes
below 128 that agree with `flags` under the mask (packet.py:575-640 `indexer`,
`nlist (128)`). -/
def table : List (String × Nat × Nat) :=
  [("ShortData", 0x02, 0xc7), ("LongData", 0x06, 0xc7), ("PtpInit34", 0x01, 0x8f),
   ("PtpVerify", 0x03, 0x8f), ("PtpHello", 0x05, 0x8f), ("PhaseIIIRouting", 0x07, 0x8f),
   ("L1Routing", 0x07, 0x8f), ("P34Routing", 0x07, 0x8f), ("L2Routing", 0x09, 0x8f),
   ("RouterHello", 0x0b, 0x8f), ("EndnodeHello", 0x0d, 0x8f), ("EndnodeHelloPrime", 0x0f, 0x8f),
   ("P2BareNSP", 0x00, 0x83), ("P2StartBase", 0x58, 0xff), ("NopMsg", 0x08, 0xff),
   ("RouteHdr", 0x42, 0xf3)]

/-- packet.py:633-645: `i2 | (i & ~mask)` for some `i`. -/
def matches' (key : Nat) (e : String × Nat × Nat) : Bool := key &&& e.2.2 = e.2.1 &&& e.2.2

/-- routing_packets.py:615-629 `pktindex`: of the classes listed the last one
with the key wins; beyond 127 there is no entry. -/
def lookup (tbl : List (String × Nat × Nat)) (key : Nat) : Option String :=
  if key < 128 then ((tbl.filter (matches' key)).getLast?).map (·.1) else none

end Verif.RoutPkt
