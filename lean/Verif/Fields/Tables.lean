import Verif.Fields.Layout

/-!
# More packet classes as layout tables

MOP (pydecnet/decnet/mop.py), the synchronous framer (ddcmp.py) and the session
control end user names (session.py).  Left out: classes with the field types
`TIME`, `C` (mop.py), `Timestamp`, the NICE and DAP packet families.
-/

namespace Verif.Fields.Tables

open Verif.Fields

/-- mop.py:162-165 `MopHdr`. -/
def mopHdr : LRow := .fld "code" (.b 1)

/-- A class derived from `MopHdr` (mop.py:162-165) with its code. -/
def mop (code : Int) (rows : List LRow) : Layout where
  rows := mopHdr :: rows
  fixed := [("code", .int code, true)]

/-- mop.py:208-211. -/
def RequestId := mop 5 [.res 1, .fld "receipt" (.b 2)]
/-- mop.py:213-215. -/
def RequestCounters := mop 9 [.fld "receipt" (.b 2)]
/-- mop.py:253-255. -/
def ConsoleRequest := mop 13 [.fld "verification" (.bv 8)]
/-- mop.py:257-258. -/
def ConsoleRelease := mop 15 []
/-- mop.py:260-265. -/
def ConsoleCommand := mop 17 [.bm [⟨"seq", 0, 1⟩, ⟨"break", 1, 1⟩], .fld "payload" .payload]
/-- mop.py:267-273. -/
def ConsoleResponse := mop 19 [.bm [⟨"seq", 0, 1⟩, ⟨"cmd_lost", 1, 1⟩, ⟨"resp_lost", 2, 1⟩],
  .fld "payload" .payload]
/-- mop.py:275-277. -/
def LoopSkip : Layout := { rows := [.fld "skip" (.b 2), .fld "payload" .payload] }
/-- mop.py:279-283. -/
def LoopFwd : Layout where
  rows := [.fld "function" (.b 2), .fld "dest" (.fixed 6), .fld "payload" .payload]
  fixed := [("function", .int 2, false)]
/-- mop.py:285-289. -/
def LoopReply : Layout where
  rows := [.fld "function" (.b 2), .fld "receipt" (.b 2), .fld "payload" .payload]
  fixed := [("function", .int 1, false)]
/-- mop.py:167-197 `SysId`, without the items 8 (`TIME`) and 200 (`C`). -/
def SysId : Layout where
  rows := [mopHdr, .res 1, .fld "receipt" (.b 2), .tlv 2 1 true
    [(1, .fld "version" (.fixed 3)),
     (2, .bm [⟨"loop", 0, 1⟩, ⟨"dump", 1, 1⟩, ⟨"ploader", 2, 1⟩, ⟨"sloader", 3, 1⟩, ⟨"boot", 4, 1⟩,
        ⟨"carrier", 5, 1⟩, ⟨"counters", 6, 1⟩, ⟨"carrier_reserved", 7, 1⟩]),
     (3, .fld "console_user" (.fixed 6)), (4, .fld "reservation_timer" (.b 2)),
     (5, .fld "console_cmd_size" (.b 2)), (6, .fld "console_resp_size" (.b 2)),
     (7, .fld "hwaddr" (.fixed 6)), (100, .fld "device" (.b 1)),
     (300, .fld "processor" (.b 1)), (400, .fld "datalink" (.b 1)), (401, .fld "bufsize" (.b 2))]]
  fixed := [("code", .int 7, true)]
  tolerant := true

/-- ddcmp.py:1312-1316. -/
def framerHdr : List LRow :=
  [.fld "da" (.fixed 6), .fld "sa" (.fixed 6), .fld "prot" (.fixed 2), .fld "data_len" (.b 2)]
/-- ddcmp.py:1318-1320. -/
def FromFramer : Layout := { rows := framerHdr ++ [.fld "stat" (.b 2), .fld "payload" .payload] }
/-- ddcmp.py:1332-1336. -/
def ToFramer : Layout where
  rows := framerHdr ++ [.fld "payload" .payload]
  fixed := [("prot", .bytes [0x60, 0x06], false)]
/-- The mode bits, ddcmp.py:1344-1351 and 1409-1416. -/
def framerMode : LRow := .bm [⟨"mode", 0, 2⟩, ⟨"loop", 2, 1⟩, ⟨"bist", 3, 1⟩, ⟨"split", 4, 1⟩,
  ⟨"ddcmp_v3", 5, 1⟩, ⟨"raw_waveform", 6, 1⟩, ⟨"reserved", 7, 9⟩]
/-- ddcmp.py:1338-1366. -/
def FramerStatus : Layout where
  rows := [.fld "dc1" (.b 1), .bm [⟨"on", 0, 1⟩, ⟨"sync", 1, 1⟩, ⟨"clock_ok", 2, 1⟩], framerMode,
    .fld "sdusize" (.b 2), .fld "speed" (.b 4), .fld "txspeed" (.b 4), .fld "rxframes" (.b 4),
    .fld "rxbytes" (.b 4), .fld "txframes" (.b 4), .fld "txbytes" (.b 4), .fld "hcrc_err" (.b 4),
    .fld "crc_err" (.b 4), .fld "len_err" (.b 4), .fld "nobuf_err" (.b 4),
    .fld "last_cmd_sts" (.b 4), .fld "freq" (.b 4), .fld "payload" .payload]
  fixed := [("dc1", .int 0o21, false)]
/-- ddcmp.py:1400-1419. -/
def FramerOn : Layout where
  rows := framerHdr ++ [.fld "dc1" (.b 1), .fld "op" (.b 1), framerMode, .fld "speed" (.b 4),
    .fld "txspeed" (.b 4)]
  fixed := [("prot", .bytes [0x60, 0x06], false), ("dc1", .int 0o21, false), ("op", .int 1, false),
    ("data_len", .int 12, false)]
/-- ddcmp.py:1426-1428. -/
def FramerOff : Layout where
  rows := framerHdr ++ [.fld "dc1" (.b 1), .fld "op" (.b 1)]
  fixed := [("prot", .bytes [0x60, 0x06], false), ("dc1", .int 0o21, false), ("op", .int 2, false),
    ("data_len", .int 2, false)]

/-- The classes of this file. -/
def all : List Layout :=
  [RequestId, RequestCounters, ConsoleRequest, ConsoleRelease, ConsoleCommand, ConsoleResponse,
   LoopSkip, LoopFwd, LoopReply, SysId, FromFramer, ToFramer, FramerStatus, FramerOn, FramerOff]

/-- C60 for these classes. -/
theorem classes_roundtrip (L : Layout) (hL : L ∈ all) (p : Attrs)
    (hl : ∀ r ∈ L.rows, r.Legal L p) (b : Bytes) (h : encode L.cls p = .ok b) :
    ∃ q, decode L.cls b = .ok (q, []) ∧ ∀ n, L.cls.get q n = L.seen p n := by
  have hall : ∀ L ∈ all, L.ok = true := by decide
  refine class_roundtrip L (hall L hL) p hl ?_ b h
  have hchk : ∀ L ∈ all, L.check = fun _ => true := by
    intro L hL
    simp only [all, List.mem_cons, List.not_mem_nil, or_false] at hL
    rcases hL with rfl | rfl | rfl | rfl | rfl | rfl | rfl | rfl | rfl | rfl | rfl | rfl | rfl | rfl | rfl <;> rfl
  rw [hchk L hL]

example : encode LoopReply.cls (fun n => if n = "receipt" then some (.int 300) else
    if n = "payload" then some (.bytes [1, 2]) else none) = .ok [1, 0, 44, 1, 1, 2] := by rfl

end Verif.Fields.Tables
