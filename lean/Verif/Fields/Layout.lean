import Verif.Fields.Props
import Verif.Addr.Props

/-!
# Packet classes as data

The `_layout` tables of the packet classes (packet.py:901-960 describes them)
written as Lean values, with a decidable well-formedness test.  One theorem,
`class_roundtrip`, then gives the round trip for every class whose table passes
the test (C60).
-/

namespace Verif.Fields

/-- A field class with its layout arguments, as written in a `_layout`. -/
inductive Fld
  | i (n : Nat)
  | a (n : Nat)
  | b (n : Nat)
  | signed (n : Nat)
  | ctr (n : Nat)
  | ex (n : Nat)
  | bv (n : Nat)
  /-- `packet.Payload` or `I_tlv` -/
  | payload
  /-- `Nodeid`, common.py:331-337 -/
  | nodeid
  /-- `Version` (3 bytes, common.py:573-606), `Macaddr` (6 bytes, common.py:441-449) -/
  | fixed (n : Nat)
deriving DecidableEq, Repr

/-- common.py:331-337: `Nodeid.decode` and `encode`. -/
def cNodeid : Codec := intCodec Verif.Addr.encode Verif.Addr.decode

/-- common.py:590-596: `encode` is the value itself, whose length the
constructor has checked; `decode` takes that many bytes. -/
def cFixed (n : Nat) : Codec :=
  bytesCodec (fun v => if v.length = n then .ok v else .error .typeError) (bvDec n)

def Fld.codec : Fld → Codec
  | .i n => cI n
  | .a n => cA n
  | .b n => cB n
  | .signed n => cSigned n
  | .ctr n => cCtr n
  | .ex n => cEX n
  | .bv n => cBV n
  | .payload => cRest
  | .nodeid => cNodeid
  | .fixed n => cFixed n

/-- Values whose encoding is meant to be exact: node addresses with a node
number that is not 0, byte vectors of the full length, counters that do not
saturate.  Everything else that can be encoded at all is legal. -/
def Fld.Legal : Fld → Val → Prop
  | .nodeid, v => ∃ x : Int, v = .int x ∧ x % 1024 ≠ 0
  | .bv n, v => ∃ b : Bytes, v = .bytes b ∧ b.length = n
  | .ctr n, v => ∃ x : Int, v = .int x ∧ x ≤ maxint n
  | _, _ => True

inductive LTRow
  | fld (name : String) (f : Fld)
  | bm (es : List Elem)
deriving DecidableEq, Repr

inductive LRow
  | fld (name : String) (f : Fld)
  | bm (es : List Elem)
  | res (n : Nat)
  | tlv (tlen llen : Nat) (wild : Bool) (items : List (Nat × LTRow))
deriving DecidableEq, Repr

def LTRow.row : LTRow → TRow
  | .fld n f => .simple n f.codec
  | .bm es => .bm es

def LRow.row : LRow → Row
  | .fld n f => .simple n f.codec
  | .bm es => .bm es
  | .res n => .res n
  | .tlv t l w items => .tlv t l w (items.map fun i => (i.1, i.2.row))

/-- A packet class: the layout including those of its base classes, class
attributes with fixed values (with `true` for the index key), and the check
method as a predicate on the attribute values. -/
structure Layout where
  rows : List LRow
  fixed : List (String × Val × Bool) := []
  tolerant : Bool := false
  check : (String → Option Val) → Bool := fun _ => true

def Layout.getFixed (L : Layout) (n : String) : Option (Val × Bool) := L.fixed.lookup n

/-- The class as the generic machinery sees it. -/
def Layout.cls (L : Layout) : PktClass where
  rows := L.rows.map LRow.row
  fixed := L.getFixed
  tolerant := L.tolerant
  check q :=
    if L.check (fun n => match L.getFixed n with | some (w, _) => some w | none => q n) then .ok ()
    else .error .other

/-- What the receiver must see of attribute `n` of packet `p`: the sender's
value, or the default; for attributes outside the layout the class's fixed
value, if any. -/
def Layout.seen (L : Layout) (p : Attrs) (n : String) : Option Val :=
  match (slotsOf L.cls.rows).lookup n with
  | some s => s.fill (L.cls.get p n)
  | none => L.cls.get (fun _ => none) n

/-- All values sent are legal for their fields. -/
def LRow.Legal (L : Layout) (p : Attrs) : LRow → Prop
  | .fld n f => f.Legal ((L.cls.get p n).getD f.codec.dflt)
  | .tlv _ _ _ items => ∀ i ∈ items, match i.2 with
      | .fld n f => ∀ v, L.cls.get p n = some v → f.Legal v
      | .bm _ => True
  | _ => True

def Fld.open : Fld → Bool
  | .payload => true
  | _ => false

def Fld.ok : Fld → Bool
  | .signed n => 1 ≤ n
  | _ => true

def Elem.apartB (a b : Elem) : Bool := a.start + a.bits ≤ b.start || b.start + b.bits ≤ a.start

/-- No two elements overlap. -/
def bmOk : List Elem → Bool
  | [] => true
  | e :: es => es.all (e.apartB ·) && bmOk es

def LTRow.ok : LTRow → Bool
  | .fld _ f => f.ok
  | .bm es => bmOk es

/-- A row that may stand anywhere. -/
def LRow.okMid : LRow → Bool
  | .fld _ f => f.ok && !f.open
  | .bm es => bmOk es
  | .res _ => true
  | .tlv .. => false

/-- A row that may stand last. -/
def LRow.okLast : LRow → Bool
  | .fld _ f => f.ok
  | .bm es => bmOk es
  | .res _ => true
  | .tlv t l _ items => decide (0 < t + l) && decide (items.map (·.1)).Nodup &&
      items.all (·.2.ok)

def rowsOk : List LRow → Bool
  | [] => true
  | [r] => r.okLast
  | r :: rs => r.okMid && rowsOk rs

def LTRow.names : LTRow → List String
  | .fld n _ => [n]
  | .bm es => es.map (·.name)

def LRow.names : LRow → List String
  | .fld n _ => [n]
  | .bm es => es.map (·.name)
  | .res _ => []
  | .tlv _ _ _ items => items.flatMap (·.2.names)

/-- The well-formedness test: attribute names distinct, bit maps without
overlap, open ended fields only in the last place. -/
def Layout.ok (L : Layout) : Bool :=
  decide (L.rows.flatMap LRow.names).Nodup && rowsOk L.rows

/-- As `ok`, and nothing open ended: the packet can be followed by something. -/
def Layout.okHeader (L : Layout) : Bool :=
  decide (L.rows.flatMap LRow.names).Nodup && L.rows.all LRow.okMid

/-! ## Proofs -/

theorem bmOk_pairwise {es : List Elem} (h : bmOk es = true) : es.Pairwise Elem.Apart := by
  induction es with
  | nil => exact .nil
  | cons e es ih =>
    simp only [bmOk, Bool.and_eq_true, List.all_eq_true] at h
    refine .cons ?_ (ih h.2)
    intro x hx
    have := h.1 x hx
    simpa [Elem.apartB, Elem.Apart] using this

theorem faithful_nodeid (l : Prop) (x : Int) (hx : x % 1024 ≠ 0) :
    Faithful l cNodeid (.int x) := by
  intro b rest _ h
  simp only [cNodeid, intCodec, Verif.Addr.encode] at h
  obtain ⟨h0, h1, rfl⟩ := toBytes_ok.1 h
  have hd : Verif.Addr.decode (le 2 x.toNat ++ rest) = .ok (x, rest) := by
    unfold Verif.Addr.decode
    rw [require_append (by simp), List.take_left' (by simp), List.drop_left' (by simp)]
    have hv : ((fromLe (le 2 x.toNat) : Nat) : Int) = x := by
      rw [fromLe_le_lt (by norm_num; omega)]; omega
    have : Verif.Addr.ofBytes (le 2 x.toNat) = .ok x := by
      unfold Verif.Addr.ofBytes
      rw [if_neg (by simp)]
      simp only [hv]
      rw [if_neg (fun hc => hx hc.1)]
      refine Verif.Addr.mk_ok.2 ⟨by omega, by omega, fun hc => hx hc.1, ?_⟩
      split <;> omega
    simp [this]
  simp only [cNodeid, intCodec, hd, map_of_ok]

theorem faithful_fixed (l : Prop) (n : Nat) (v : Val) : Faithful l (cFixed n) v := by
  intro b rest _ h
  cases v with
  | int => simp [cFixed, bytesCodec] at h
  | str => simp [cFixed, bytesCodec] at h
  | bytes x =>
    simp only [cFixed, bytesCodec] at h ⊢
    split at h
    · injection h with h
      subst h
      rename_i hl
      rw [bvDec_append hl]; rfl
    · cases h

theorem Fld.faithful {f : Fld} {v : Val} (l : Prop) (hok : f.ok = true)
    (ho : f.open = true → l) (hl : f.Legal v) : Faithful l f.codec v := by
  cases f with
  | i n => exact faithful_I _ _ _
  | a n => exact faithful_A _ _ _
  | b n => exact faithful_B _ _ _
  | signed n => exact faithful_signed _ _ (by simpa [Fld.ok] using hok) _
  | ctr n => obtain ⟨x, rfl, hx⟩ := hl; exact faithful_ctr _ _ _ hx
  | ex n => exact faithful_EX _ _ _
  | bv n => obtain ⟨x, rfl, hx⟩ := hl; exact faithful_BV _ _ _ hx
  | payload =>
    have hl : l := ho rfl
    intro b rest hr h
    exact faithful_rest v b rest (fun _ => hr hl) h
  | nodeid => obtain ⟨x, rfl, hx⟩ := hl; exact faithful_nodeid _ _ hx
  | fixed n => exact faithful_fixed _ _ _

theorem LRow.good_mid {L : Layout} {p : Attrs} {r : LRow} (l : Prop) (hok : r.okMid = true)
    (hl : r.Legal L p) : r.row.Good L.cls p l := by
  cases r with
  | fld n f =>
    simp only [LRow.okMid, Bool.and_eq_true, Bool.not_eq_true'] at hok
    exact Fld.faithful l hok.1 (fun h => by rw [hok.2] at h; cases h) hl
  | bm es => exact bmOk_pairwise hok
  | res n => trivial
  | tlv => simp [LRow.okMid] at hok

theorem LRow.good_last {L : Layout} {p : Attrs} {r : LRow} {l : Prop} (hlast : l)
    (hok : r.okLast = true) (hl : r.Legal L p) : r.row.Good L.cls p l := by
  cases r with
  | fld n f => exact Fld.faithful l hok (fun _ => hlast) hl
  | bm es => exact bmOk_pairwise hok
  | res n => trivial
  | tlv t w wild items =>
    simp only [LRow.okLast, Bool.and_eq_true, decide_eq_true_eq, List.all_eq_true] at hok
    obtain ⟨⟨h1, h2⟩, h3⟩ := hok
    refine ⟨hlast, h1, ?_, ?_⟩
    · rw [List.map_map]; exact h2
    · intro i hi
      obtain ⟨j, hj, rfl⟩ := List.mem_map.1 hi
      have hj1 := h3 j hj
      have hj2 := hl j hj
      obtain ⟨k, tr⟩ := j
      cases tr with
      | fld n f => exact fun v hv => Fld.faithful True hj1 (fun _ => trivial) (hj2 v hv)
      | bm es => exact bmOk_pairwise hj1

theorem rows_good {L : Layout} {p : Attrs} (rs : List LRow) (hok : rowsOk rs = true)
    (hl : ∀ r ∈ rs, r.Legal L p) : RowsGood L.cls p True (rs.map LRow.row) := by
  induction rs with
  | nil => trivial
  | cons r rs ih =>
    cases rs with
    | nil => exact LRow.good_last trivial hok (hl r (by simp))
    | cons r2 rs =>
      simp only [rowsOk, Bool.and_eq_true] at hok
      exact ⟨LRow.good_mid False hok.1 (hl r (by simp)), ih hok.2 (fun x hx => hl x (by simp [hx]))⟩

theorem rows_good_header {L : Layout} {p : Attrs} (rs : List LRow)
    (hok : rs.all LRow.okMid = true) (hl : ∀ r ∈ rs, r.Legal L p) :
    RowsGood L.cls p False (rs.map LRow.row) := by
  induction rs with
  | nil => trivial
  | cons r rs ih =>
    simp only [List.all_cons, Bool.and_eq_true] at hok
    have h1 := LRow.good_mid False hok.1 (hl r (by simp))
    have h2 := ih hok.2 (fun x hx => hl x (by simp [hx]))
    cases rs with
    | nil => exact h1
    | cons r2 rs => exact ⟨h1, h2⟩

theorem slots_names (rs : List LRow) :
    (slotsOf (rs.map LRow.row)).map (·.1) = rs.flatMap LRow.names := by
  induction rs with
  | nil => rfl
  | cons r rs ih =>
    rw [List.map_cons, List.flatMap_cons, ← ih]
    unfold slotsOf
    rw [List.flatMap_cons, List.map_append]
    congr 1
    cases r with
    | fld n f => rfl
    | bm es => simp [LRow.row, Row.slots, LRow.names, Function.comp_def]
    | res n => rfl
    | tlv t l w items =>
      simp only [LRow.row, Row.slots, LRow.names, List.map_flatMap, List.flatMap_map]
      congr 1
      funext i
      obtain ⟨k, tr⟩ := i
      cases tr with
      | fld n f => rfl
      | bm es => simp [LTRow.row, TRow.slots, LTRow.names, Function.comp_def]

theorem lookup_slot {ss : List (String × Slot)} (hn : (ss.map (·.1)).Nodup) {s : String × Slot}
    (h : s ∈ ss) : ss.lookup s.1 = some s.2 := by
  induction ss with
  | nil => simp at h
  | cons x xs ih =>
    rw [List.map_cons, List.nodup_cons] at hn
    rw [List.lookup_cons]
    rcases List.mem_cons.1 h with rfl | h
    · simp
    · have : (s.1 == x.1) = false := by
        rw [beq_eq_false_iff_ne]
        intro hc
        exact hn.1 (hc ▸ List.mem_map_of_mem h)
      rw [this]
      exact ih hn.2 h

theorem lookup_no_slot {ss : List (String × Slot)} {n : String} (h : n ∉ ss.map (·.1)) :
    ss.lookup n = none := by
  induction ss with
  | nil => rfl
  | cons x xs ih =>
    rw [List.map_cons, List.mem_cons, not_or] at h
    rw [List.lookup_cons]
    have : (n == x.1) = false := by simpa using h.1
    rw [this]
    exact ih h.2

theorem seen_of {L : Layout} {p q : Attrs}
    (hn : ((slotsOf L.cls.rows).map (·.1)).Nodup)
    (h1 : ∀ s ∈ slotsOf L.cls.rows, L.cls.get q s.1 = s.2.fill (L.cls.get p s.1))
    (h2 : ∀ n, n ∉ (slotsOf L.cls.rows).map (·.1) → L.cls.get q n = L.cls.get (fun _ => none) n)
    (n : String) : L.cls.get q n = L.seen p n := by
  unfold Layout.seen
  by_cases hm : n ∈ (slotsOf L.cls.rows).map (·.1)
  · obtain ⟨s, hs, rfl⟩ := List.mem_map.1 hm
    rw [lookup_slot hn hs]
    exact h1 s hs
  · rw [lookup_no_slot hm]
    exact h2 n hm

theorem decode_of_rows {L : Layout} {p q : Attrs} {b rest : Bytes}
    (hd : decRows L.cls L.cls.rows b (fun _ => none) = .ok (q, rest))
    (hq : ∀ n, L.cls.get q n = L.seen p n) (hc : L.check (L.seen p) = true) :
    decode L.cls b = .ok (q, rest) := by
  have hchk : L.cls.check q = .ok () := by
    have : (fun n => match L.getFixed n with | some (w, _) => some w | none => q n) = L.seen p := by
      funext n
      rw [← hq n]
      rfl
    simp only [Layout.cls, this, hc, if_true]
  unfold decode
  simp [hd, hchk]

/-- C60: for every packet class whose layout passes the test and every packet
of it that can be encoded, whose values are legal for their fields and pass the
class's own check: the bytes decode completely, and every attribute, in the
layout or not, is what it has to be. -/
theorem class_roundtrip (L : Layout) (hok : L.ok = true) (p : Attrs)
    (hl : ∀ r ∈ L.rows, r.Legal L p) (hc : L.check (L.seen p) = true) (b : Bytes)
    (h : encode L.cls p = .ok b) :
    ∃ q, decode L.cls b = .ok (q, []) ∧ ∀ n, L.cls.get q n = L.seen p n := by
  simp only [Layout.ok, Bool.and_eq_true, decide_eq_true_eq] at hok
  have hn : ((slotsOf L.cls.rows).map (·.1)).Nodup := by
    rw [show L.cls.rows = L.rows.map LRow.row from rfl, slots_names]; exact hok.1
  obtain ⟨q, h1, h2⟩ := decRows_enc (last := True) (rest := []) (fun _ => rfl) L.cls.rows b
    (fun _ => none) (rows_good L.rows hok.2 hl) hn (fun _ _ => rfl) h
  rw [List.append_nil] at h1
  have hq := seen_of hn h2.got h2.same
  exact ⟨q, decode_of_rows h1 hq hc, hq⟩

/-- C60 for headers: the same with anything behind the packet. -/
theorem class_roundtrip_header (L : Layout) (hok : L.okHeader = true) (p : Attrs)
    (hl : ∀ r ∈ L.rows, r.Legal L p) (hc : L.check (L.seen p) = true) (b rest : Bytes)
    (h : encode L.cls p = .ok b) :
    ∃ q, decode L.cls (b ++ rest) = .ok (q, rest) ∧ ∀ n, L.cls.get q n = L.seen p n := by
  simp only [Layout.okHeader, Bool.and_eq_true, decide_eq_true_eq] at hok
  have hn : ((slotsOf L.cls.rows).map (·.1)).Nodup := by
    rw [show L.cls.rows = L.rows.map LRow.row from rfl, slots_names]; exact hok.1
  obtain ⟨q, h1, h2⟩ := decRows_enc (last := False) (rest := rest) (fun h => h.elim) L.cls.rows b
    (fun _ => none) (rows_good_header L.rows hok.2 hl) hn (fun _ _ => rfl) h
  have hq := seen_of hn h2.got h2.same
  exact ⟨q, decode_of_rows h1 hq hc, hq⟩

end Verif.Fields
