import Verif.RoutPkt.Model

/-!
# C13: data packets and routing control packets survive the wire
-/

namespace Verif.RoutPkt

open Verif.Fields

/-- What a data packet says: return-to-sender request and mark, intra-Ethernet
flag, destination, source, visit count, payload. -/
structure DataPkt where
  rqr : Nat
  rts : Nat
  ie : Nat
  dst : Nat
  src : Nat
  visit : Nat
  payload : Bytes

/-- A node address with a node number that is not 0. -/
def goodNode (x : Nat) : Prop := x < 65536 ∧ x % 1024 ≠ 0

/-- The attributes of the packet object. -/
def DataPkt.attrs (d : DataPkt) : Attrs := fun n =>
  if n = "rqr" then some (.int d.rqr)
  else if n = "rts" then some (.int d.rts)
  else if n = "ie" then some (.int d.ie)
  else if n = "dstnode" then some (.int d.dst)
  else if n = "srcnode" then some (.int d.src)
  else if n = "visit" then some (.int d.visit)
  else if n = "payload" then some (.bytes d.payload)
  else none

/-- The header fields and the payload as received in an attribute function. -/
def carries (g : String → Option Val) (d : DataPkt) : Prop :=
  g "rqr" = some (.int d.rqr) ∧ g "rts" = some (.int d.rts) ∧ g "ie" = some (.int d.ie) ∧
  g "dstnode" = some (.int d.dst) ∧ g "srcnode" = some (.int d.src) ∧
  g "visit" = some (.int d.visit) ∧ g "payload" = some (.bytes d.payload)

theorem toBytes_nat {k n : Nat} (h : n < 256 ^ k) : toBytes k (n : Int) = .ok (le k n) :=
  toBytes_ok.2 ⟨by omega, by exact_mod_cast h, by simp⟩

theorem div_two_pow {v b : Nat} (h : v < 2 ^ b) : ((v : Int) / 2 ^ b) = 0 := by
  have : (v : Int) < 2 ^ b := by exact_mod_cast h
  exact Int.ediv_eq_zero_of_lt (by omega) this

theorem bmField_cons {c : PktClass} {p : Attrs} {e : Elem} {es : List Elem} {f v : Nat}
    (hg : (c.get p e.name).getD (.int 0) = .int v) (hv : v < 2 ^ e.bits) :
    bmField c p (e :: es) f = bmField c p es (f ||| (v <<< e.start)) := by
  rw [bmField, hg]
  simp only [div_two_pow hv, ne_eq, not_true_eq_false, if_false, Int.toNat_natCast]

theorem encRows_cons {c : PktClass} {p : Attrs} {r : Row} {rs : List Row} {b bs : Bytes}
    (h1 : encRow c p r = .ok b) (h2 : encRows c p rs = .ok bs) :
    encRows c p (r :: rs) = .ok (b ++ bs) := by
  rw [encRows, h1, h2]; rfl

theorem encRow_node {c : PktClass} {p : Attrs} {n : String} {x : Nat}
    (h : c.get p n = some (.int x)) (hx : x < 65536) :
    encRow c p (LRow.fld n .nodeid).row = .ok (le 2 x) := by
  simp only [LRow.row, encRow, h, Option.getD_some, Fld.codec, cNodeid, intCodec,
    Verif.Addr.encode]
  exact toBytes_nat (by omega)

theorem encRow_b {c : PktClass} {p : Attrs} {n : String} {k x : Nat}
    (h : c.get p n = some (.int x)) (hx : x < 256 ^ k) :
    encRow c p (LRow.fld n (.b k)).row = .ok (le k x) := by
  simp only [LRow.row, encRow, h, Option.getD_some, Fld.codec, cB, intCodec, bEnc]
  exact toBytes_nat hx

/-- C13, the wire image of a short format packet. -/
theorem short_wire (d : DataPkt) (h1 : d.rqr < 2) (h2 : d.rts < 2) (hd : d.dst < 65536)
    (hs : d.src < 65536) (hv : d.visit < 64) :
    encode ShortData.cls d.attrs = .ok (UInt8.ofNat (2 + 8 * d.rqr + 16 * d.rts) ::
      (le 2 d.dst ++ le 2 d.src ++ UInt8.ofNat d.visit :: d.payload)) := by
  have hb1 : bmEnc ShortData.cls d.attrs
      [⟨"sfpd", 0, 3⟩, ⟨"rqr", 3, 1⟩, ⟨"rts", 4, 1⟩, ⟨"vers", 6, 1⟩, ⟨"pf", 7, 1⟩] =
      .ok [UInt8.ofNat (2 + 8 * d.rqr + 16 * d.rts)] := by
    unfold bmEnc
    rw [bmField_cons (v := 2) rfl (by decide), bmField_cons (v := d.rqr) rfl (by simpa using h1),
      bmField_cons (v := d.rts) rfl (by simpa using h2), bmField_cons (v := 0) rfl (by decide),
      bmField_cons (v := 0) rfl (by decide)]
    have r : d.rqr = 0 ∨ d.rqr = 1 := by omega
    have t : d.rts = 0 ∨ d.rts = 1 := by omega
    rcases r with r | r <;> rcases t with t | t <;> rw [r, t] <;> rfl
  have hb2 : bmEnc ShortData.cls d.attrs [⟨"visit", 0, 6⟩] = .ok [UInt8.ofNat d.visit] := by
    unfold bmEnc
    rw [bmField_cons (v := d.visit) rfl (by simpa using hv)]
    simp only [bmField, ok_bind, Nat.zero_or, Nat.shiftLeft_zero]
    rw [show bmLen [⟨"visit", 0, 6⟩] = 1 from rfl, toBytes_nat (by omega)]
    simp [le, Nat.mod_eq_of_lt (show d.visit < 256 by omega)]
  have key := encRows_cons (c := ShortData.cls) (p := d.attrs) (r := .bm _) hb1
    (encRows_cons (encRow_node (n := "dstnode") (x := d.dst) rfl hd)
    (encRows_cons (encRow_node (n := "srcnode") (x := d.src) rfl hs)
    (encRows_cons (r := .bm _) hb2
    (encRows_cons (r := (LRow.fld "payload" .payload).row) (b := d.payload) rfl
      (rs := []) (bs := []) rfl))))
  refine Eq.trans key ?_
  simp

/-- C13, the wire image of a long format packet. -/
theorem long_wire (d : DataPkt) (h1 : d.rqr < 2) (h2 : d.rts < 2) (h3 : d.ie < 2)
    (hd : d.dst < 65536) (hs : d.src < 65536) (hv : d.visit < 256) :
    encode LongData.cls d.attrs = .ok (UInt8.ofNat (6 + 8 * d.rqr + 16 * d.rts + 32 * d.ie) ::
      ([0, 0, 0xaa, 0, 4, 0] ++ le 2 d.dst ++ [0, 0, 0xaa, 0, 4, 0] ++ le 2 d.src ++
        [0, UInt8.ofNat d.visit, 0, 0] ++ d.payload)) := by
  have hb1 : bmEnc LongData.cls d.attrs
      [⟨"lfpd", 0, 3⟩, ⟨"rqr", 3, 1⟩, ⟨"rts", 4, 1⟩, ⟨"ie", 5, 1⟩, ⟨"vers", 6, 1⟩, ⟨"pf", 7, 1⟩] =
      .ok [UInt8.ofNat (6 + 8 * d.rqr + 16 * d.rts + 32 * d.ie)] := by
    unfold bmEnc
    rw [bmField_cons (v := 6) rfl (by decide), bmField_cons (v := d.rqr) rfl (by simpa using h1),
      bmField_cons (v := d.rts) rfl (by simpa using h2),
      bmField_cons (v := d.ie) rfl (by simpa using h3), bmField_cons (v := 0) rfl (by decide),
      bmField_cons (v := 0) rfl (by decide)]
    have r : d.rqr = 0 ∨ d.rqr = 1 := by omega
    have t : d.rts = 0 ∨ d.rts = 1 := by omega
    have u : d.ie = 0 ∨ d.ie = 1 := by omega
    rcases r with r | r <;> rcases t with t | t <;> rcases u with u | u <;> rw [r, t, u] <;> rfl
  have key := encRows_cons (c := LongData.cls) (p := d.attrs) (r := .bm _) hb1
    (encRows_cons (r := .res 2) (b := [0, 0]) rfl
    (encRows_cons (r := (LRow.fld "dsthi" (.bv 4)).row) (b := [0xaa, 0, 4, 0]) rfl
    (encRows_cons (encRow_node (n := "dstnode") (x := d.dst) rfl hd)
    (encRows_cons (r := .res 2) (b := [0, 0]) rfl
    (encRows_cons (r := (LRow.fld "srchi" (.bv 4)).row) (b := [0xaa, 0, 4, 0]) rfl
    (encRows_cons (encRow_node (n := "srcnode") (x := d.src) rfl hs)
    (encRows_cons (r := .res 1) (b := [0]) rfl
    (encRows_cons (encRow_b (n := "visit") (k := 1) (x := d.visit) rfl (by simpa using hv))
    (encRows_cons (r := .res 2) (b := [0, 0]) rfl
    (encRows_cons (r := (LRow.fld "payload" .payload).row) (b := d.payload) rfl
      (rs := []) (bs := []) rfl))))))))))
  refine Eq.trans key ?_
  simp [le, Nat.mod_eq_of_lt hv]

theorem short_legal (d : DataPkt) (hd : d.dst % 1024 ≠ 0) (hs : d.src % 1024 ≠ 0) :
    ∀ r ∈ ShortData.rows, r.Legal ShortData d.attrs := by
  intro r hr
  simp only [ShortData, List.mem_cons, List.not_mem_nil, or_false] at hr
  rcases hr with rfl | rfl | rfl | rfl | rfl
  · trivial
  · exact ⟨d.dst, rfl, by omega⟩
  · exact ⟨d.src, rfl, by omega⟩
  · trivial
  · trivial

theorem long_legal (d : DataPkt) (hd : d.dst % 1024 ≠ 0) (hs : d.src % 1024 ≠ 0) :
    ∀ r ∈ LongData.rows, r.Legal LongData d.attrs := by
  intro r hr
  simp only [LongData, List.mem_cons, List.not_mem_nil, or_false] at hr
  rcases hr with rfl | rfl | rfl | rfl | rfl | rfl | rfl | rfl | rfl | rfl | rfl
  · trivial
  · trivial
  · exact ⟨_, rfl, rfl⟩
  · exact ⟨d.dst, rfl, by omega⟩
  · trivial
  · exact ⟨_, rfl, rfl⟩
  · exact ⟨d.src, rfl, by omega⟩
  · trivial
  · trivial
  · trivial
  · trivial

/-- C13, short format: for every setting of the flags, every pair of node
addresses, every visit count below 64 and every payload, the packet is encoded
to the documented bytes, the first byte selects the short format class, and
decoding restores every field.  (`ie` cannot be carried and reads as 0.) -/
theorem short_roundtrip (d : DataPkt) (h1 : d.rqr < 2) (h2 : d.rts < 2) (h3 : d.ie = 0)
    (hd : goodNode d.dst) (hs : goodNode d.src) (hv : d.visit < 64) :
    ∃ f rest q, encode ShortData.cls d.attrs = .ok (f :: rest) ∧
      f :: rest = UInt8.ofNat (2 + 8 * d.rqr + 16 * d.rts) ::
        (le 2 d.dst ++ le 2 d.src ++ UInt8.ofNat d.visit :: d.payload) ∧
      lookup table f.toNat = some "ShortData" ∧
      decode ShortData.cls (f :: rest) = .ok (q, []) ∧ carries (ShortData.cls.get q) d := by
  have he := short_wire d h1 h2 hd.1 hs.1 hv
  obtain ⟨q, hq, hg⟩ := class_roundtrip ShortData (by decide) d.attrs
    (short_legal d hd.2 hs.2) rfl _ he
  refine ⟨_, _, q, he, rfl, ?_, hq, ?_⟩
  · have r : d.rqr = 0 ∨ d.rqr = 1 := by omega
    have t : d.rts = 0 ∨ d.rts = 1 := by omega
    rcases r with r | r <;> rcases t with t | t <;> rw [r, t] <;> decide
  · refine ⟨?_, ?_, ?_, ?_, ?_, ?_, ?_⟩ <;> rw [hg]
    · rfl
    · rfl
    · rw [h3]; rfl
    · rfl
    · rfl
    · rfl
    · rfl

/-- C13, long format. -/
theorem long_roundtrip (d : DataPkt) (h1 : d.rqr < 2) (h2 : d.rts < 2) (h3 : d.ie < 2)
    (hd : goodNode d.dst) (hs : goodNode d.src) (hv : d.visit < 256) :
    ∃ f rest q, encode LongData.cls d.attrs = .ok (f :: rest) ∧
      f :: rest = UInt8.ofNat (6 + 8 * d.rqr + 16 * d.rts + 32 * d.ie) ::
        ([0, 0, 0xaa, 0, 4, 0] ++ le 2 d.dst ++ [0, 0, 0xaa, 0, 4, 0] ++ le 2 d.src ++
          [0, UInt8.ofNat d.visit, 0, 0] ++ d.payload) ∧
      lookup table f.toNat = some "LongData" ∧
      decode LongData.cls (f :: rest) = .ok (q, []) ∧ carries (LongData.cls.get q) d := by
  have he := long_wire d h1 h2 h3 hd.1 hs.1 hv
  obtain ⟨q, hq, hg⟩ := class_roundtrip LongData (by decide) d.attrs
    (long_legal d hd.2 hs.2) rfl _ he
  refine ⟨_, _, q, he, rfl, ?_, hq, ?_⟩
  · have r : d.rqr = 0 ∨ d.rqr = 1 := by omega
    have t : d.rts = 0 ∨ d.rts = 1 := by omega
    have u : d.ie = 0 ∨ d.ie = 1 := by omega
    rcases r with r | r <;> rcases t with t | t <;> rcases u with u | u <;> rw [r, t, u] <;> decide
  · refine ⟨?_, ?_, ?_, ?_, ?_, ?_, ?_⟩ <;> rw [hg] <;> rfl

example : encode ShortData.cls (DataPkt.attrs ⟨1, 0, 0, 1025, 2050, 5, [7, 8]⟩) =
    .ok [10, 1, 4, 2, 8, 5, 7, 8] :=
  short_wire ⟨1, 0, 0, 1025, 2050, 5, [7, 8]⟩ (by decide) (by decide) (by decide) (by decide)
    (by decide)

/-- All routing layer packet classes other than routing messages. -/
def all : List Layout :=
  [ShortData, LongData, PtpInit3, PtpInit, PtpVerify, PtpHello, RouterHello, Elist, RSent,
   EndnodeHello, EndnodeHelloPrime, P2BareNSP, NodeInit, NodeVerify, NopMsg, RouteHdr]

/-- C60 for the routing layer: every one of its packet classes restores, at the
receiver, every attribute of every packet that can be encoded. -/
theorem routing_classes_roundtrip (L : Layout) (hL : L ∈ all) (p : Attrs)
    (hl : ∀ r ∈ L.rows, r.Legal L p) (hc : L.check (L.seen p) = true) (b : Bytes)
    (h : encode L.cls p = .ok b) :
    ∃ q, decode L.cls b = .ok (q, []) ∧ ∀ n, L.cls.get q n = L.seen p n := by
  refine class_roundtrip L ?_ p hl hc b h
  have hall : ∀ L ∈ all, L.ok = true := by decide
  exact hall L hL

/-- The classes that share no first byte with another: no packet of one of
these kinds is taken for another.  `P34Routing` stands for its three, `RouteHdr`
takes its keys from `ShortData`'s neighbours. -/
theorem first_byte_decides :
    (∀ rqr < 2, ∀ rts < 2, ∀ pad < 2, lookup table (2 + 8 * rqr + 16 * rts + 32 * pad) =
      some "ShortData") ∧
    (∀ rqr < 2, ∀ rts < 2, ∀ ie < 2, lookup table (6 + 8 * rqr + 16 * rts + 32 * ie) =
      some "LongData") ∧
    (∀ ext < 8, ∀ type < 8, lookup table (1 + 2 * type + 16 * ext) =
      [some "PtpInit34", some "PtpVerify", some "PtpHello", some "P34Routing", some "L2Routing",
        some "RouterHello", some "EndnodeHello", some "EndnodeHelloPrime"][type]!) := by
  decide

end Verif.RoutPkt
