import Verif.LanEnd.Props
import Verif.RoutPkt.Props

/-!
# From the bytes of a frame to the message

Model of `LanCircuit.common_dispatch`, pydecnet/decnet/route_eth.py:96-141, with the
classes an end node asks for (route_eth.py:290), and of the step it leads to.
-/

namespace Verif.LanEnd

open Verif.Fields (Attrs Val PktClass Layout)
open Verif.RoutPkt (DataPkt goodNode)

/-- A number from the attributes of a decoded packet. -/
def num (g : String → Option Val) (n : String) : Nat :=
  match g n with
  | some (.int i) => i.toNat
  | _ => 0

/-- Bytes from the attributes. -/
def str (g : String → Option Val) (n : String) : Bytes :=
  match g n with
  | some (.bytes b) => b
  | _ => []

def toData (g : String → Option Val) : Msg :=
  .data (num g "srcnode") (num g "dstnode") (decide (num g "rts" ≠ 0)) (str g "payload")

def toHello (g : String → Option Val) : Msg := .hello (num g "id") (num g "ntype") (num g "timer")

/-- `pcls (buf, src = work.src)`, route_eth.py:133-141: a packet that does not
decode is ignored (an event is logged). -/
def decodeAs (L : Layout) (f : (String → Option Val) → Msg) (buf : Bytes) : Option Msg :=
  match Verif.Fields.decode L.cls buf with
  | .ok (q, _) => some (f (L.cls.get q))
  | .error _ => none

/-- route_eth.py:126-141, with `pktindex (ShortData, LongData, RouterHello)`
(routing_packets.py:615-629): the class by the first byte. -/
def parseMsg (buf : Bytes) : Option Msg :=
  match buf with
  | [] => none
  | b :: _ =>
    if b.toNat &&& 0xc7 = 2 then decodeAs RoutPkt.ShortData toData buf
    else if b.toNat &&& 0xc7 = 6 then decodeAs RoutPkt.LongData toData buf
    else if b.toNat &&& 0x8f = 0x0b then decodeAs RoutPkt.RouterHello toHello buf
    else none

/-- route_eth.py:109-125: padding is skipped, once. -/
def parse (buf : Bytes) : Option Msg :=
  match buf with
  | [] => none
  | b :: _ => if 128 ≤ b.toNat then parseMsg (buf.drop (b.toNat - 128)) else parseMsg buf

/-- A frame arrives. -/
def frame (c : Cfg) (st : St) (hop buf : Bytes) : Option (St × List Out) :=
  match parse buf with
  | some m => step c st (.recv hop m)
  | none => some (st, [])

/-- Padding of `k` bytes, 1 to 127: its length with the high bit set, then
anything; or none at all. -/
def IsPad (p : Bytes) : Prop :=
  p = [] ∨ ∃ b q, p = b :: q ∧ b.toNat = 128 + p.length

theorem parse_pad {p m : Bytes} (hp : IsPad p) {b : UInt8} {q : Bytes} (hm : m = b :: q)
    (hb : b.toNat < 128) : parse (p ++ m) = parseMsg m := by
  rcases hp with rfl | ⟨x, r, rfl, hx⟩
  · subst hm
    show (if 128 ≤ b.toNat then _ else _) = _
    rw [if_neg (by omega)]
    rfl
  · show (if 128 ≤ x.toNat then _ else _) = _
    rw [if_pos (by omega), show x.toNat - 128 = (x :: r).length by omega, List.drop_append_of_le_length (Nat.le_refl _),
      List.drop_length, List.nil_append]

theorem toData_of {g : String → Option Val} {d : DataPkt} (h : RoutPkt.carries g d) :
    toData g = .data d.src d.dst (decide (d.rts ≠ 0)) d.payload := by
  obtain ⟨-, h2, -, h4, h5, -, h7⟩ := h
  simp [toData, num, str, h2, h4, h5, h7]

/-- C77: every long format data packet, with or without padding before it, is
read as what its sender meant. -/
theorem long_frame {p : Bytes} (hp : IsPad p) (d : DataPkt) (h1 : d.rqr < 2) (h2 : d.rts < 2)
    (h3 : d.ie < 2) (hd : goodNode d.dst) (hs : goodNode d.src) (hv : d.visit < 256) :
    parse (p ++ UInt8.ofNat (6 + 8 * d.rqr + 16 * d.rts + 32 * d.ie) ::
        ([0, 0, 0xaa, 0, 4, 0] ++ Fields.le 2 d.dst ++ [0, 0, 0xaa, 0, 4, 0] ++ Fields.le 2 d.src ++
          [0, UInt8.ofNat d.visit, 0, 0] ++ d.payload)) =
      some (.data d.src d.dst (decide (d.rts ≠ 0)) d.payload) := by
  obtain ⟨f, rest, q, -, hw, -, hdec, hc⟩ := RoutPkt.long_roundtrip d h1 h2 h3 hd hs hv
  rw [← hw]
  have hf : f = UInt8.ofNat (6 + 8 * d.rqr + 16 * d.rts + 32 * d.ie) := (List.cons.inj hw).1
  have hb : f.toNat < 128 ∧ f.toNat &&& 0xc7 = 6 := by
    have r : d.rqr = 0 ∨ d.rqr = 1 := by omega
    have t : d.rts = 0 ∨ d.rts = 1 := by omega
    have u : d.ie = 0 ∨ d.ie = 1 := by omega
    rw [hf]
    rcases r with r | r <;> rcases t with t | t <;> rcases u with u | u <;> rw [r, t, u] <;> decide
  rw [parse_pad hp rfl hb.1]
  show (if f.toNat &&& 0xc7 = 2 then _ else if f.toNat &&& 0xc7 = 6 then _ else _) = _
  rw [if_neg (by omega), if_pos hb.2]
  unfold decodeAs
  rw [hdec]
  exact congrArg some (toData_of hc)

/-- C77: and every short format one. -/
theorem short_frame {p : Bytes} (hp : IsPad p) (d : DataPkt) (h1 : d.rqr < 2) (h2 : d.rts < 2)
    (h3 : d.ie = 0) (hd : goodNode d.dst) (hs : goodNode d.src) (hv : d.visit < 64) :
    parse (p ++ UInt8.ofNat (2 + 8 * d.rqr + 16 * d.rts) ::
        (Fields.le 2 d.dst ++ Fields.le 2 d.src ++ UInt8.ofNat d.visit :: d.payload)) =
      some (.data d.src d.dst (decide (d.rts ≠ 0)) d.payload) := by
  obtain ⟨f, rest, q, -, hw, -, hdec, hc⟩ := RoutPkt.short_roundtrip d h1 h2 h3 hd hs hv
  rw [← hw]
  have hf : f = UInt8.ofNat (2 + 8 * d.rqr + 16 * d.rts) := (List.cons.inj hw).1
  have hb : f.toNat < 128 ∧ f.toNat &&& 0xc7 = 2 := by
    have r : d.rqr = 0 ∨ d.rqr = 1 := by omega
    have t : d.rts = 0 ∨ d.rts = 1 := by omega
    rw [hf]
    rcases r with r | r <;> rcases t with t | t <;> rw [r, t] <;> decide
  rw [parse_pad hp rfl hb.1]
  show (if f.toNat &&& 0xc7 = 2 then _ else _) = _
  rw [if_pos hb.2]
  unfold decodeAs
  rw [hdec]
  exact congrArg some (toData_of hc)

/-- What a router hello says. -/
structure HelloPkt where
  tiver : Bytes
  id : Nat
  nt : Nat
  blk : Nat
  prio : Nat
  timer : Nat
  elist : Bytes

def HelloPkt.attrs (d : HelloPkt) : Attrs := fun n =>
  if n = "tiver" then some (.bytes d.tiver)
  else if n = "id" then some (.int d.id)
  else if n = "ntype" then some (.int d.nt)
  else if n = "blksize" then some (.int d.blk)
  else if n = "prio" then some (.int d.prio)
  else if n = "timer" then some (.int d.timer)
  else if n = "elist" then some (.bytes d.elist)
  else none

/-- C77: every router hello is read as what it says. -/
theorem hello_frame {p : Bytes} (hp : IsPad p) (d : HelloPkt) (hv : d.tiver.length = 3)
    (hid : goodNode d.id) (hnt : d.nt < 4) (hblk : d.blk < 65536) (hprio : d.prio < 256)
    (ht : d.timer < 65536) (he : d.elist.length ≤ 244) :
    parse (p ++ 0x0b :: (d.tiver ++ [0xaa, 0, 4, 0] ++ Fields.le 2 d.id ++ [UInt8.ofNat d.nt] ++
        Fields.le 2 d.blk ++ [UInt8.ofNat d.prio, 0] ++ Fields.le 2 d.timer ++
        [0, UInt8.ofNat d.elist.length] ++ d.elist)) =
      some (.hello d.id d.nt d.timer) := by
  have hb1 : Fields.bmEnc RoutPkt.RouterHello.cls d.attrs
      [⟨"control", 0, 1⟩, ⟨"type", 1, 3⟩, ⟨"ext_type", 4, 3⟩, ⟨"pf", 7, 1⟩] = .ok [0x0b] := by
    unfold Fields.bmEnc
    rw [RoutPkt.bmField_cons (v := 1) rfl (by decide), RoutPkt.bmField_cons (v := 5) rfl (by decide),
      RoutPkt.bmField_cons (v := 0) rfl (by decide), RoutPkt.bmField_cons (v := 0) rfl (by decide)]
    rfl
  have hb2 : Fields.bmEnc RoutPkt.RouterHello.cls d.attrs [⟨"ntype", 0, 2⟩] = .ok [UInt8.ofNat d.nt] := by
    unfold Fields.bmEnc
    rw [RoutPkt.bmField_cons (v := d.nt) rfl (by simpa using hnt)]
    simp only [Fields.bmField, Fields.ok_bind, Nat.zero_or, Nat.shiftLeft_zero]
    rw [show Fields.bmLen [⟨"ntype", 0, 2⟩] = 1 from rfl, RoutPkt.toBytes_nat (by omega)]
    simp [Fields.le, Nat.mod_eq_of_lt (show d.nt < 256 by omega)]
  have hv' : Fields.encRow RoutPkt.RouterHello.cls d.attrs (Fields.LRow.fld "tiver" (.fixed 3)).row = .ok d.tiver := by
    show (if d.tiver.length = 3 then Except.ok d.tiver else _) = _
    rw [if_pos hv]
  have he' : Fields.encRow RoutPkt.RouterHello.cls d.attrs (Fields.LRow.fld "elist" (.i 244)).row =
      .ok (UInt8.ofNat d.elist.length :: d.elist) := by
    show Fields.iEnc 244 d.elist = _
    unfold Fields.iEnc Fields.byte
    rw [if_neg (by omega)]
    simp only [show d.elist.length < 256 by omega, if_true]
    rfl
  have key := RoutPkt.encRows_cons (c := RoutPkt.RouterHello.cls) (p := d.attrs) (r := .bm _) hb1
    (RoutPkt.encRows_cons hv'
    (RoutPkt.encRows_cons (r := (Fields.LRow.fld "hiid" (.bv 4)).row) (b := [0xaa, 0, 4, 0]) rfl
    (RoutPkt.encRows_cons (RoutPkt.encRow_node (n := "id") (x := d.id) rfl hid.1)
    (RoutPkt.encRows_cons (r := .bm _) hb2
    (RoutPkt.encRows_cons (RoutPkt.encRow_b (n := "blksize") (k := 2) (x := d.blk) rfl (by omega))
    (RoutPkt.encRows_cons (RoutPkt.encRow_b (n := "prio") (k := 1) (x := d.prio) rfl (by omega))
    (RoutPkt.encRows_cons (r := .res 1) (b := [0]) rfl
    (RoutPkt.encRows_cons (RoutPkt.encRow_b (n := "timer") (k := 2) (x := d.timer) rfl (by omega))
    (RoutPkt.encRows_cons (r := .res 1) (b := [0]) rfl
    (RoutPkt.encRows_cons he' (rs := []) (bs := []) rfl))))))))))
  have hl : ∀ r ∈ RoutPkt.RouterHello.rows, r.Legal RoutPkt.RouterHello d.attrs := by
    intro r hr
    simp only [RoutPkt.RouterHello, List.mem_cons, List.not_mem_nil, or_false] at hr
    rcases hr with rfl | rfl | rfl | rfl | rfl | rfl | rfl | rfl | rfl | rfl | rfl
    · trivial
    · trivial
    · exact ⟨_, rfl, rfl⟩
    · exact ⟨d.id, rfl, by have := hid.2; omega⟩
    · trivial
    · trivial
    · trivial
    · trivial
    · trivial
    · trivial
    · trivial
  obtain ⟨q, hq, hg⟩ := Fields.class_roundtrip RoutPkt.RouterHello (by decide) d.attrs hl rfl _ key
  have hm : ([0x0b] : Bytes) ++ (d.tiver ++ ([0xaa, 0, 4, 0] ++ (Fields.le 2 d.id ++ ([UInt8.ofNat d.nt] ++
      (Fields.le 2 d.blk ++ (Fields.le 1 d.prio ++ ([0] ++ (Fields.le 2 d.timer ++ ([0] ++
      (UInt8.ofNat d.elist.length :: d.elist ++ [])))))))))) =
      0x0b :: (d.tiver ++ [0xaa, 0, 4, 0] ++ Fields.le 2 d.id ++ [UInt8.ofNat d.nt] ++
        Fields.le 2 d.blk ++ [UInt8.ofNat d.prio, 0] ++ Fields.le 2 d.timer ++
        [0, UInt8.ofNat d.elist.length] ++ d.elist) := by
    simp [Fields.le, Nat.mod_eq_of_lt hprio]
  rw [parse_pad hp rfl (by decide)]
  unfold parseMsg
  dsimp only
  rw [if_neg (by decide), if_neg (by decide), if_pos (by decide)]
  unfold decodeAs
  rw [hm] at hq
  rw [hq]
  show some (Msg.hello _ _ _) = _
  simp only [num, hg]
  rfl

/-- C77: two paddings in a row, and every first byte that is not one of the
three, is ignored: in particular hello messages of end nodes. -/
theorem ignored_frame {c : Cfg} {st : St} {hop p : Bytes} (hp : IsPad p) (b : UInt8) (q : Bytes)
    (hb : (p ≠ [] ∧ 128 ≤ b.toNat) ∨ (b.toNat < 128 ∧ b.toNat % 8 ≠ 2 ∧ b.toNat % 8 ≠ 6 ∧ b.toNat % 16 ≠ 11)) :
    frame c st hop (p ++ b :: q) = some (st, []) := by
  have htab : ∀ n < 256, (128 ≤ n ∨ (n < 128 ∧ n % 8 ≠ 2 ∧ n % 8 ≠ 6 ∧ n % 16 ≠ 11)) →
      n &&& 0xc7 ≠ 2 ∧ n &&& 0xc7 ≠ 6 ∧ n &&& 0x8f ≠ 0x0b := by decide +kernel
  obtain ⟨h1, h2, h3⟩ := htab b.toNat (by simpa using b.toNat_lt) (hb.imp And.right id)
  have hm : parseMsg (b :: q) = none := by
    unfold parseMsg
    dsimp only
    rw [if_neg h1, if_neg h2, if_neg h3]
  have : parse (p ++ b :: q) = none := by
    rcases hb with ⟨hne, -⟩ | ⟨hlt, -⟩
    · rcases hp with rfl | ⟨x, r, rfl, hx⟩
      · exact absurd rfl hne
      · show (if 128 ≤ x.toNat then _ else _) = _
        rw [if_pos (by omega), show x.toNat - 128 = (x :: r).length by omega,
          List.drop_append_of_le_length (Nat.le_refl _), List.drop_length, List.nil_append, hm]
    · rw [parse_pad hp rfl hlt, hm]
  unfold frame
  rw [this]

/-- C77, the whole way: a data packet on the LAN for this node, from another,
reaches NSP as it was sent. -/
theorem frame_delivered {c : Cfg} {h : List Rec} {st : St} (r : Run c h st) (ho : c.own < 65536)
    {hop p : Bytes} {n : Nat} (hl : hop.length = 6) (hn : n ≠ c.own) (hop' : NodeAddr hop n)
    (hp : IsPad p) (d : DataPkt) (h1 : d.rqr < 2) (h2 : d.rts < 2) (h3 : d.ie < 2)
    (hd : goodNode d.dst) (hs : goodNode d.src) (hv : d.visit < 256) (hdst : d.dst = c.own)
    (hsrc : d.src ≠ c.own) :
    ∃ st', frame c st hop (p ++ UInt8.ofNat (6 + 8 * d.rqr + 16 * d.rts + 32 * d.ie) ::
        ([0, 0, 0xaa, 0, 4, 0] ++ Fields.le 2 d.dst ++ [0, 0, 0xaa, 0, 4, 0] ++ Fields.le 2 d.src ++
          [0, UInt8.ofNat d.visit, 0, 0] ++ d.payload)) =
      some (st', [.nsp (.node d.src) (decide (d.rts ≠ 0)) d.payload]) := by
  unfold frame
  rw [long_frame hp d h1 h2 h3 hd hs hv]
  dsimp only
  cases hst : step c st (.recv hop (.data d.src d.dst (decide (d.rts ≠ 0)) d.payload)) with
  | none =>
    simp only [step] at hst
    split at hst <;> cases hst
  | some z =>
    have := (delivered hl ho (.step r hst)).1 n hn hop' hdst
    refine ⟨z.1, ?_⟩
    rw [show z = (z.1, z.2) from rfl, this, if_neg fun g => hsrc g.1]

example : IsPad [0x83, 1, 2] := .inr ⟨_, _, rfl, by decide⟩

example : parse ([0x83, 1, 2] ++ [2, 2, 4, 1, 4, 0, 9]) = some (.data 1025 1026 false [9]) :=
  short_frame (.inr ⟨_, _, rfl, by decide⟩) ⟨0, 0, 0, 1026, 1025, 0, [9]⟩ (by decide) (by decide) rfl
    ⟨by decide, by decide⟩ ⟨by decide, by decide⟩ (by decide)

end Verif.LanEnd
