import Verif.Fields.Tlv

/-!
# Properties of packet fields (C05 – C09) and of packet layouts (C60)

The field functions are those of `Verif.Fields.Model`; the statements mention
only byte lists, integers and list append.
-/

namespace Verif.Fields

/-! ## C05 image and ASCII fields -/

/-- C05: an image field with maximum `n` (at most 255) is encoded exactly when
the value has at most `n` bytes; the encoding followed by anything decodes to
the value and exactly what followed. -/
theorem image_roundtrip (n : Nat) (hn : n ≤ 255) (v : Bytes) :
    (v.length ≤ n → ∃ b, iEnc n v = .ok b ∧ b.length = v.length + 1 ∧
      ∀ rest, iDec n (b ++ rest) = .ok (v, rest)) ∧
    (n < v.length → iEnc n v = .error .fieldOverflow) := by
  constructor
  · intro h
    refine ⟨UInt8.ofNat v.length :: v, iEnc_ok.2 ⟨h, by omega, rfl⟩, rfl, ?_⟩
    intro rest
    exact iDec_ok.2 ⟨h, by omega, rfl⟩
  · intro h
    unfold iEnc
    rw [if_pos h]

example : (iEnc 3 [1, 2]).toOption = some [2, 1, 2] ∧
    (iDec 3 [2, 1, 2, 9, 9]).toOption = some ([1, 2], [9, 9]) ∧
    (iEnc 1 [1, 2]).toOption = none := by decide

/-- C05: decoding an image field succeeds exactly when the buffer starts with
a length byte not above the maximum followed by that many bytes; then the
value is those bytes and the remainder is what follows them.  A declared
length above the maximum, a missing length byte and a truncated value are
rejected. -/
theorem image_decode (n : Nat) (l : UInt8) (tl : Bytes) :
    (n < l.toNat → iDec n (l :: tl) = .error .fieldOverflow) ∧
    (l.toNat ≤ n → tl.length < l.toNat → iDec n (l :: tl) = .error .missingData) ∧
    (l.toNat ≤ n → ∀ v rest, v.length = l.toNat → tl = v ++ rest →
      iDec n (l :: tl) = .ok (v, rest)) ∧
    iDec n [] = .error .missingData := by
  refine ⟨?_, ?_, ?_, rfl⟩
  · intro h
    simp only [iDec]
    rw [if_pos h]
  · intro h1 h2
    simp only [iDec]
    rw [if_neg (by omega), if_pos (by simp; omega)]
  · rintro h1 v rest h2 rfl
    have hl : l.toNat < 256 := by simpa using l.toNat_lt
    exact iDec_ok.2 ⟨by omega, by omega, by rw [h2, UInt8.ofNat_toNat]⟩

example : iDec 3 [4, 1, 2, 3, 4] = .error .fieldOverflow ∧
    iDec 3 [3, 1, 2] = .error .missingData := by
  constructor <;> rfl

/-- C05: a text field is encoded exactly when it is latin-1 text of at most
`n` characters, and decodes to the same text. -/
theorem ascii_roundtrip (n : Nat) (hn : n ≤ 255) (s : List Nat) :
    ((∀ ch ∈ s, ch < 256) → s.length ≤ n → ∃ b, aEnc n s = .ok b ∧ b.length = s.length + 1 ∧
      ∀ rest, aDec n (b ++ rest) = .ok (s, rest)) ∧
    ((∃ ch ∈ s, 256 ≤ ch) → aEnc n s = .error .valueError) ∧
    ((∀ ch ∈ s, ch < 256) → n < s.length → aEnc n s = .error .fieldOverflow) := by
  refine ⟨?_, ?_, ?_⟩
  · intro h1 h2
    obtain ⟨b, hb, hl, hr⟩ := (image_roundtrip n hn (s.map UInt8.ofNat)).1 (by simpa using h2)
    refine ⟨b, aEnc_ok.2 ⟨h1, hb⟩, by simpa using hl, ?_⟩
    intro rest
    exact aDec_ok.2 ⟨_, hr rest, (latin1Dec_enc h1).symm⟩
  · rintro ⟨ch, hc, hge⟩
    have : s.all (· < 256) = false := by
      rw [List.all_eq_false]
      exact ⟨ch, hc, by simpa using hge⟩
    simp only [aEnc, latin1Enc, this]
    rfl
  · intro h1 h2
    have : s.all (· < 256) = true := by
      rw [List.all_eq_true]; intro x hx; simpa using h1 x hx
    simp only [aEnc, latin1Enc, this]
    simp [h2]

example : (aEnc 6 [80, 89, 233]).toOption = some [3, 80, 89, 233] ∧
    (aDec 6 [3, 80, 89, 233, 7]).toOption = some ([80, 89, 233], [7]) ∧
    (aEnc 6 [8364]).toOption = none := by decide

/-! ## C06 integer fields -/

/-- C06: an unsigned integer field of `k` bytes accepts exactly the values
`0 ≤ i < 256 ^ k`; byte `j` of the encoding is the `j`-th base-256 digit, low
first; the encoding followed by anything decodes to `i` and what followed. -/
theorem unsigned_roundtrip (k : Nat) (i : Int) :
    (0 ≤ i → i < 256 ^ k → ∃ b, bEnc k i = .ok b ∧ b.length = k ∧
      (∀ (j : Nat) (hj : j < b.length), ((b[j]).toNat : Int) = i / 256 ^ j % 256) ∧
      ∀ rest, bDec k (b ++ rest) = .ok (i, rest)) ∧
    (i < 0 ∨ 256 ^ k ≤ i → bEnc k i = .error .overflowError) := by
  constructor
  · intro h0 h1
    have hb : bEnc k i = .ok (le k i.toNat) := toBytes_ok.2 ⟨h0, h1, rfl⟩
    refine ⟨_, hb, by simp, ?_, fun rest => bDec_enc hb⟩
    have key : ∀ (k n j : Nat) (hj : j < (le k n).length),
        ((le k n)[j]).toNat = n / 256 ^ j % 256 := by
      intro k
      induction k with
      | zero => intro n j hj; simp [le] at hj
      | succ k ih =>
        intro n j hj
        cases j with
        | zero => simp [le]
        | succ j =>
          simp only [le, List.getElem_cons_succ]
          rw [ih, Nat.div_div_eq_div_mul, pow_succ']
    intro j hj
    rw [key]
    push_cast
    rw [Int.toNat_of_nonneg h0]
  · intro h
    unfold bEnc toBytes
    rw [if_neg (by omega)]

example : (bEnc 2 1025).toOption = some [1, 4] ∧ (bDec 2 [1, 4, 7]).toOption = some (1025, [7]) ∧
    (bEnc 1 256).toOption = none ∧ (bEnc 1 (-1)).toOption = none := by decide

/-- C06: a buffer shorter than the field is rejected, a longer one yields a
value in range and exactly the bytes after the field. -/
theorem unsigned_decode (k : Nat) (buf : Bytes) :
    (buf.length < k → bDec k buf = .error .missingData) ∧
    (k ≤ buf.length → ∃ i, bDec k buf = .ok (i, buf.drop k) ∧ 0 ≤ i ∧ i < 256 ^ k ∧
      bEnc k i = .ok (buf.take k)) := by
  constructor
  · intro h
    simp only [bDec, require, if_pos h]; rfl
  · intro h
    have hl : (buf.take k).length = k := by simp; omega
    have hlt := fromLe_lt (buf.take k)
    rw [hl] at hlt
    refine ⟨(fromLe (buf.take k) : Int), bDec_ok.2 ⟨by omega, by exact_mod_cast hlt, ?_⟩,
      by omega, by exact_mod_cast hlt, toBytes_ok.2 ⟨by omega, by exact_mod_cast hlt, ?_⟩⟩
    · rw [Int.toNat_natCast, le_fromLe' hl, List.take_append_drop]
    · rw [Int.toNat_natCast, le_fromLe' hl]

example : bDec 2 [1] = .error .missingData := rfl

/-- C06: a signed integer field of `k` bytes accepts exactly the two's
complement range and decodes to the value encoded. -/
theorem signed_roundtrip (k : Nat) (hk : 1 ≤ k) (i : Int) :
    (-(2 ^ (8 * k - 1)) ≤ i → i < 2 ^ (8 * k - 1) → ∃ b, signedEnc k i = .ok b ∧ b.length = k ∧
      ∀ rest, signedDec k (b ++ rest) = .ok (i, rest)) ∧
    (i < -(2 ^ (8 * k - 1)) ∨ 2 ^ (8 * k - 1) ≤ i → signedEnc k i = .error .overflowError) := by
  constructor
  · intro h1 h2
    exact ⟨_, signedEnc_ok.2 ⟨h1, h2, rfl⟩, by simp,
      fun rest => (signedDec_ok hk).2 ⟨h1, h2, rfl⟩⟩
  · intro h
    unfold signedEnc
    rw [if_neg (by omega)]

example : (signedEnc 1 (-2)).toOption = some [254] ∧ (signedDec 1 [254]).toOption = some (-2, []) ∧
    (signedEnc 1 128).toOption = none := by decide

/-- C06: a counter field sends the value if it fits and the largest
representable value if it does not, so the receiver sees the minimum of the
two; negative values are rejected. -/
theorem counter_saturates (k : Nat) (i : Int) :
    (0 ≤ i → ∃ b, ctrEnc k i = .ok b ∧ b.length = k ∧
      ∀ rest, bDec k (b ++ rest) = .ok (min i (256 ^ k - 1), rest)) ∧
    (i < 0 → ctrEnc k i = .error .overflowError) := by
  have hp : (0 : Int) < 256 ^ k := by positivity
  constructor
  · intro h0
    unfold ctrEnc maxint
    by_cases h : i ≤ 256 ^ k - 1
    · rw [if_pos h, min_eq_left h]
      obtain ⟨b, h1, h2, _, h3⟩ := (unsigned_roundtrip k i).1 h0 (by omega)
      exact ⟨b, h1, h2, h3⟩
    · rw [if_neg h, min_eq_right (by omega)]
      obtain ⟨b, h1, h2, _, h3⟩ := (unsigned_roundtrip k (256 ^ k - 1)).1 (by omega) (by omega)
      exact ⟨b, h1, h2, h3⟩
  · intro h
    unfold ctrEnc maxint
    rw [if_pos (by omega)]
    exact (unsigned_roundtrip k i).2 (.inl h)

example : (ctrEnc 1 300).toOption = some [255] ∧ (ctrEnc 1 30).toOption = some [30] := by decide

/-! ## C07 bit maps -/

/-- Two bit ranges share no bit. -/
def Elem.Disjoint (a b : Elem) : Prop :=
  ∀ i, ¬ ((a.start ≤ i ∧ i < a.start + a.bits) ∧ (b.start ≤ i ∧ i < b.start + b.bits))

theorem apart_of_disjoint {a b : Elem} (ha : 1 ≤ a.bits) (hb : 1 ≤ b.bits)
    (h : a.Disjoint b) : a.Apart b := by
  unfold Elem.Apart
  by_contra hc
  rw [not_or] at hc
  have := h (max a.start b.start)
  apply this
  constructor <;> constructor <;> omega

theorem pairwise_apart {es : List Elem} (hw : ∀ e ∈ es, 1 ≤ e.bits)
    (hd : es.Pairwise Elem.Disjoint) : es.Pairwise Elem.Apart :=
  hd.imp_of_mem fun ha hb h => apart_of_disjoint (hw _ ha) (hw _ hb) h

/-- C07: a bit map whose elements share no bits (and have distinct names, at
least one bit) is encoded exactly when every value fits in its own element;
whatever follows it in the buffer, decoding restores every element's value. -/
theorem bitmap_roundtrip (c : PktClass) (es : List Elem) (vals : String → Int)
    (hw : ∀ e ∈ es, 1 ≤ e.bits) (hd : es.Pairwise Elem.Disjoint)
    (hn : (es.map (·.name)).Nodup) (hc : ∀ e ∈ es, c.fixed e.name = none) :
    ((∀ e ∈ es, 0 ≤ vals e.name ∧ vals e.name < 2 ^ e.bits) →
      ∃ b, bmEnc c (fun n => some (.int (vals n))) es = .ok b ∧
        ∀ rest p, ∃ q, bmDec c es (b ++ rest) p = .ok (q, rest) ∧
          (∀ e ∈ es, q e.name = some (.int (vals e.name))) ∧
          (∀ n, n ∉ es.map (·.name) → c.get q n = c.get p n)) ∧
    ((∃ e ∈ es, vals e.name < 0 ∨ 2 ^ e.bits ≤ vals e.name) →
      bmEnc c (fun n => some (.int (vals n))) es = .error .fieldOverflow) := by
  have hget : ∀ e ∈ es, (c.get (fun n => some (.int (vals n))) e.name).getD (.int 0) =
      .int (vals e.name) := by
    intro e he
    simp [PktClass.get, hc e he]
  constructor
  · intro h
    have key : ∀ (es' : List Elem) (f : Nat), (∀ e ∈ es', e ∈ es) →
        ∃ F, bmField c (fun n => some (.int (vals n))) es' f = .ok F := by
      intro es'
      induction es' with
      | nil => intro f _; exact ⟨f, rfl⟩
      | cons e es' ih =>
        intro f hs
        have he := hs e (by simp)
        simp only [bmField, hget e he]
        have : vals e.name / 2 ^ e.bits = 0 := Int.ediv_eq_zero_of_lt (h e he).1 (h e he).2
        simp only [this, ne_eq, not_true_eq_false, if_false]
        exact ih _ (fun x hx => hs x (by simp [hx]))
    obtain ⟨F, hF⟩ := key es 0 (fun _ h => h)
    have hb : bmEnc c (fun n => some (.int (vals n))) es = .ok (le (bmLen es) F) := by
      unfold bmEnc
      rw [hF]
      exact toBytes_ok.2 ⟨by omega, by exact_mod_cast bmField_lt hF, by simp⟩
    refine ⟨_, hb, ?_⟩
    intro rest p
    obtain ⟨q, h1, h2⟩ := bmDec_enc (acc := p) (rest := rest) (pairwise_apart hw hd) hn hb
    refine ⟨q, h1, ?_, ?_⟩
    · intro e he
      have := h2.got (e.name, .dflt (.int 0)) (by
        simp only [Row.slots, List.mem_map]; exact ⟨e, he, rfl⟩)
      simpa [PktClass.get, hc e he, Slot.fill] using this
    · intro n hnn
      exact h2.same n (by simpa [Row.slots, Function.comp_def] using hnn)
  · intro h
    have key : ∀ (es' : List Elem) (f : Nat), (∀ e ∈ es', e ∈ es) →
        (∃ e ∈ es', vals e.name < 0 ∨ 2 ^ e.bits ≤ vals e.name) →
        bmField c (fun n => some (.int (vals n))) es' f = .error .fieldOverflow := by
      intro es'
      induction es' with
      | nil => intro f _ h; simp at h
      | cons e es' ih =>
        intro f hs hx
        have he := hs e (by simp)
        simp only [bmField, hget e he]
        by_cases h0 : vals e.name / 2 ^ e.bits = 0
        · simp only [h0, ne_eq, not_true_eq_false, if_false]
          refine ih _ (fun x hx => hs x (by simp [hx])) ?_
          obtain ⟨x, hx1, hx2⟩ := hx
          rcases List.mem_cons.1 hx1 with rfl | hx1
          · exfalso
            have hp : (0 : Int) < 2 ^ x.bits := by positivity
            have h3 := Int.emod_add_mul_ediv (vals x.name) (2 ^ x.bits)
            rw [h0] at h3
            have h4 := Int.emod_nonneg (vals x.name) (ne_of_gt hp)
            have h5 := Int.emod_lt_of_pos (vals x.name) hp
            omega
          · exact ⟨x, hx1, hx2⟩
        · simp only [ne_eq, h0, not_false_eq_true, if_true]
    unfold bmEnc
    rw [key es 0 (fun _ h => h) h]
    rfl

example :
    let es : List Elem := [⟨"count", 0, 14⟩, ⟨"qsync", 14, 1⟩, ⟨"select", 15, 1⟩]
    (∀ e ∈ es, 1 ≤ e.bits) ∧ (es.map (·.name)).Nodup ∧
    (bmEnc ⟨[.bm es], fun _ => none, false, fun _ => .ok ()⟩
      (fun n => some (.int (if n = "count" then 5 else if n = "select" then 1 else 0))) es).toOption
      = some [5, 128] := by
  refine ⟨by decide, by decide, by decide⟩

/-! ## C08 extensible fields -/

/-- C08: an extensible field of at most `m ≥ 1` bytes accepts exactly the
values below `128 ^ m`.  The encoding has at most `m` bytes, all but the last
have the top bit set and the last does not, and followed by anything it decodes
to the value and what followed. -/
theorem extensible_roundtrip (m : Nat) (hm : 1 ≤ m) (v : Nat) :
    (v < 128 ^ m → ∃ b, exEnc m v = .ok b ∧ b.length ≤ m ∧
      (∃ pre last, b = pre ++ [last] ∧ (∀ x ∈ pre, 128 ≤ x.toNat) ∧ last.toNat < 128) ∧
      ∀ rest, exDec m (b ++ rest) = .ok (v, rest)) ∧
    (128 ^ m ≤ v → exEnc m v = .error .fieldOverflow) := by
  constructor
  · intro h
    have hl := (exGroups_length_le v m hm).2 h
    have hb := exEnc_ok.2 ⟨hl, rfl⟩
    exact ⟨_, hb, hl, exGroups_shape v, fun rest => exDec_enc hb⟩
  · intro h
    have hl : ¬ (exGroups v).length ≤ m := by
      rw [exGroups_length_le v m hm]; omega
    unfold exEnc
    simp only
    rw [if_pos (by omega)]

example : (exDec 2 [0xac, 0x02, 5]).toOption = some (300, [5]) ∧ (exDec 1 [0xac, 0x02]).toOption = none ∧
    (300 : Nat) < 128 ^ 2 := by decide

/-- C08: decoding succeeds exactly if within the first `m` bytes there is one
with a clear top bit; exactly the bytes up to that one are consumed. -/
theorem extensible_decode (m : Nat) (pre : Bytes) (last : UInt8) (rest : Bytes)
    (hpre : ∀ x ∈ pre, 128 ≤ x.toNat) (hlast : last.toNat < 128) :
    (pre.length < m → ∃ v, exDec m (pre ++ last :: rest) = .ok (v, rest)) ∧
    (1 ≤ m → m ≤ pre.length → exDec m (pre ++ last :: rest) = .error .fieldOverflow) ∧
    (pre.length < m → exDec m pre = .error .missingData) := by
  have key1 : ∀ (pre : Bytes) (left i val : Nat), (∀ x ∈ pre, 128 ≤ x.toNat) →
      pre.length < left → ∃ v, exLoop left i val (pre ++ last :: rest) = .ok (v, rest) := by
    intro pre
    induction pre with
    | nil =>
      intro left i val _ h
      cases left with
      | zero => simp at h
      | succ left => exact ⟨_, by simp only [List.nil_append, exLoop]; rw [if_pos hlast]⟩
    | cons x pre ih =>
      intro left i val hp h
      cases left with
      | zero => simp at h
      | succ left =>
        have hx := hp x (by simp)
        simp only [List.length_cons] at h
        simp only [List.cons_append, exLoop]
        rw [if_neg (by omega), if_neg (by omega)]
        exact ih _ _ _ (fun y hy => hp y (by simp [hy])) (by omega)
  have key2 : ∀ (pre : Bytes) (left i val : Nat), (∀ x ∈ pre, 128 ≤ x.toNat) →
      1 ≤ left → left ≤ pre.length →
      exLoop left i val (pre ++ last :: rest) = .error .fieldOverflow := by
    intro pre
    induction pre with
    | nil => intro left i val _ h1 h2; simp at h2; omega
    | cons x pre ih =>
      intro left i val hp h1 h2
      cases left with
      | zero => omega
      | succ left =>
        have hx := hp x (by simp)
        simp only [List.length_cons] at h2
        simp only [List.cons_append, exLoop]
        rw [if_neg (by omega)]
        split
        · rfl
        · exact ih _ _ _ (fun y hy => hp y (by simp [hy])) (by omega) (by omega)
  have key3 : ∀ (pre : Bytes) (left i val : Nat), (∀ x ∈ pre, 128 ≤ x.toNat) →
      pre.length < left → exLoop left i val pre = .error .missingData := by
    intro pre
    induction pre with
    | nil =>
      intro left i val _ h
      cases left with
      | zero => simp at h
      | succ left => rfl
    | cons x pre ih =>
      intro left i val hp h
      cases left with
      | zero => simp at h
      | succ left =>
        have hx := hp x (by simp)
        simp only [List.length_cons] at h
        simp only [exLoop]
        rw [if_neg (by omega), if_neg (by omega)]
        exact ih _ _ _ (fun y hy => hp y (by simp [hy])) (by omega)
  exact ⟨key1 pre m 0 0 hpre, key2 pre m 0 0 hpre, key3 pre m 0 0 hpre⟩

/-- The loop of `EX.encode` (packet.py:370-372) does not end for a negative
value: however often it is shifted right by 7 it stays nonzero. -/
theorem extensible_negative_never_ends (v : Int) (hv : v < 0) (k : Nat) :
    v / 2 ^ (7 * k) ≠ 0 := by
  have : v / 2 ^ (7 * k) < 0 := Int.ediv_neg_of_neg_of_pos hv (by positivity)
  omega

/-! ## C09 TLV groups -/

/-- C09, what is sent is what is received.  For every TLV group with distinct
tags and distinct attribute names, whose items reproduce their own values: the
encoding decodes, every attribute of the group has the sender's value (absent
if the sender did not set it, zero for an unset bit map element), and no other
attribute is touched. -/
theorem tlv_roundtrip (c : PktClass) (p : Attrs) (tlen llen : Nat) (wild : Bool)
    (items : List (Nat × TRow)) (b : Bytes) (hpos : 0 < tlen + llen)
    (hk : (items.map (·.1)).Nodup)
    (hn : ((Row.tlv tlen llen wild items).slots.map (·.1)).Nodup)
    (hg : ∀ i ∈ items, i.2.Good c p)
    (h : tlvEnc c p tlen llen items = .ok b) :
    ∃ q, tlvDec c tlen llen wild items b (fun _ => none) = .ok q ∧
      (∀ s ∈ (Row.tlv tlen llen wild items).slots, c.get q s.1 = s.2.fill (c.get p s.1)) ∧
      (∀ n, n ∉ (Row.tlv tlen llen wild items).slots.map (·.1) →
        c.get q n = c.get (fun _ => none) n) := by
  obtain ⟨q, h1, h2⟩ := tlvDec_enc (wild := wild) hpos hk items b (fun _ => none) (fun _ h => h) hg hn
    (fun _ _ => rfl) h
  exact ⟨q, h1, h2.got, h2.same⟩

/-- C09, nothing is misread.  If decoding a TLV group succeeds, the buffer is a
sequence of complete (tag, length, value) items, each item saw exactly its own
value, and the result is what applying them in order gives.  Unless the class is
marked tolerant nothing remains; if it is, less than one item header remains. -/
theorem tlv_exact (c : PktClass) (tlen llen : Nat) (wild : Bool) (items : List (Nat × TRow))
    (buf : Bytes) (p q : Attrs) (h : tlvDec c tlen llen wild items buf p = .ok q) :
    ∃ parts tail, buf = wire tlen llen parts ++ tail ∧ Applied c wild items parts p q ∧
      (∀ i ∈ parts, i.1 < 256 ^ tlen ∧ i.2.length < 256 ^ llen) ∧
      (c.tolerant = false → tail = []) ∧ tail.length < tlen + llen :=
  tlvDec_exact c tlen llen wild items buf.length buf p q le_rfl h

/-- C09: an accepted item has a tag of the group, unless the group is open, and
its value field was consumed completely, unless the class is tolerant. -/
theorem tlv_item_exact (c : PktClass) (wild : Bool) (items : List (Nat × TRow)) (t : Nat)
    (v : Bytes) (p q : Attrs) (h : tDec c wild items t v p = .ok q) :
    (wild = true ∨ ∃ r, items.lookup t = some r) ∧
    (c.tolerant = false → ∀ n codec, items.lookup t = some (.simple n codec) →
      ∃ x, codec.dec v = .ok (x, []) ∧ c.set p n x = .ok q) ∧
    (c.tolerant = false → ∀ es, items.lookup t = some (.bm es) → bmDec c es v p = .ok (q, [])) :=
  tDec_ok h

/-- The TLV group used in the examples: two byte integer 1, image 2, one flag
bit in 3. -/
def exTlv : List (Nat × TRow) :=
  [(1, .simple "size" (cB 2)), (2, .simple "name" cRest), (3, .bm [⟨"flag", 0, 1⟩])]

def exClass : PktClass := { rows := [.tlv 1 1 false exTlv] }

def exAttrs : Attrs := fun n =>
  if n = "size" then some (.int 576) else if n = "flag" then some (.int 1) else none

theorem exTlv_good (p : Attrs) : ∀ i ∈ exTlv, i.2.Good exClass p := by
  intro i hi
  simp only [exTlv, List.mem_cons, List.not_mem_nil, or_false] at hi
  rcases hi with rfl | rfl | rfl
  · exact fun v _ => faithful_B _ _ _
  · exact fun v _ => faithful_rest _
  · exact List.pairwise_singleton ..

example : tlvEnc exClass exAttrs 1 1 exTlv = .ok [1, 2, 64, 2, 3, 1, 1] ∧
    (exTlv.map (·.1)).Nodup ∧
    ((Row.tlv 1 1 false exTlv).slots.map (·.1)).Nodup := by
  refine ⟨by rfl, by decide, by decide⟩

/-! ## C60 whole packets -/

/-- C60: for every packet class whose layout has distinct attribute names,
non-overlapping bit maps, well formed TLV groups and only then open-ended
fields in the last place, an encoded packet decodes, consumes the whole buffer,
and every attribute of the layout is the sender's (the default where the sender
set none); attributes which are not in the layout are not set. -/
theorem packet_roundtrip (c : PktClass) (p : Attrs) (b : Bytes)
    (hn : ((slotsOf c.rows).map (·.1)).Nodup) (hg : RowsGood c p True c.rows)
    (hchk : ∀ q, (∀ s ∈ slotsOf c.rows, c.get q s.1 = s.2.fill (c.get p s.1)) →
      c.check q = .ok ())
    (h : encode c p = .ok b) :
    ∃ q, decode c b = .ok (q, []) ∧
      (∀ s ∈ slotsOf c.rows, c.get q s.1 = s.2.fill (c.get p s.1)) ∧
      (∀ n, n ∉ (slotsOf c.rows).map (·.1) → c.get q n = c.get (fun _ => none) n) := by
  obtain ⟨q, h1, h2⟩ := decRows_enc (last := True) (rest := []) (fun _ => rfl) c.rows b
    (fun _ => none) hg hn (fun _ _ => rfl) h
  rw [List.append_nil] at h1
  refine ⟨q, ?_, h2.got, h2.same⟩
  unfold decode
  simp only [h1, ok_bind, hchk q h2.got]
  rfl

/-- C60 for a layout used as a header: the bytes after the packet are returned
untouched. -/
theorem header_roundtrip (c : PktClass) (p : Attrs) (b rest : Bytes)
    (hn : ((slotsOf c.rows).map (·.1)).Nodup) (hg : RowsGood c p False c.rows)
    (hchk : ∀ q, (∀ s ∈ slotsOf c.rows, c.get q s.1 = s.2.fill (c.get p s.1)) →
      c.check q = .ok ())
    (h : encode c p = .ok b) :
    ∃ q, decode c (b ++ rest) = .ok (q, rest) ∧
      (∀ s ∈ slotsOf c.rows, c.get q s.1 = s.2.fill (c.get p s.1)) ∧
      (∀ n, n ∉ (slotsOf c.rows).map (·.1) → c.get q n = c.get (fun _ => none) n) := by
  obtain ⟨q, h1, h2⟩ := decRows_enc (last := False) (rest := rest) (fun h => h.elim) c.rows b
    (fun _ => none) hg hn (fun _ _ => rfl) h
  refine ⟨q, ?_, h2.got, h2.same⟩
  unfold decode
  simp only [h1, ok_bind, hchk q h2.got]
  rfl

/-- A layout for the examples: type byte (fixed), a bit map, a counted string,
reserved byte, payload. -/
def exPkt : PktClass :=
  { rows := [.simple "type" (cB 1), .bm [⟨"a", 0, 3⟩, ⟨"b", 4, 4⟩], .simple "id" (cI 8), .res 1,
      .simple "payload" cRest]
    fixed := fun n => if n = "type" then some (.int 7, false) else none }

def exPktAttrs : Attrs := fun n =>
  if n = "a" then some (.int 5) else if n = "id" then some (.bytes [1, 2]) else
  if n = "payload" then some (.bytes [9, 9, 9]) else none

example : encode exPkt exPktAttrs = .ok [7, 5, 2, 1, 2, 0, 9, 9, 9] ∧
    ((slotsOf exPkt.rows).map (·.1)).Nodup ∧ RowsGood exPkt exPktAttrs True exPkt.rows := by
  refine ⟨by rfl, by decide, ?_⟩
  refine ⟨faithful_B _ _ _, ?_, faithful_I _ _ _, trivial, faithful_rest _⟩
  rw [Row.Good, List.pairwise_pair]
  exact .inl (by decide)

/-- An empty buffer is not decoded at all by the packet constructor
(packet.py:975): it yields an object without attributes, even for a class whose
layout requires data. -/
theorem empty_buffer_accepted :
    construct exPkt [] = .ok (fun _ => none) ∧ decode exPkt [] = .error .missingData := by
  constructor <;> rfl

/-- Unknown items of an open TLV group are received, but re-encoding the
packet drops them. -/
theorem wild_items_not_forwarded :
    let c : PktClass := { rows := [.tlv 1 1 true []] }
    ∃ q, decode c [5, 1, 77] = .ok (q, []) ∧ q "field5" = some (.bytes [77]) ∧
      encode c q = .ok [] := by
  refine ⟨fun m => if m = "field5" then some (.bytes [77]) else none, ?_, by decide, rfl⟩
  have h1 : tlvDec { rows := [.tlv 1 1 true []] } 1 1 true [] [5, 1, 77] (fun _ => none) =
      .ok (fun m => if m = "field5" then some (.bytes [77]) else none) := by
    rw [tlvDec]
    simp only [Nat.reduceAdd, OfNat.ofNat_ne_zero, dite_false, List.cons_ne_nil, if_false]
    rw [dif_neg (by decide)]
    have e1 : fromLe (List.take 1 ([5, 1, 77] : Bytes)) = 5 := by decide
    have e2 : fromLe (List.take 1 (List.drop 1 ([5, 1, 77] : Bytes))) = 1 := by decide
    simp only [e1, e2]
    rw [if_neg (by decide)]
    have e3 : List.take 1 (List.drop 2 ([5, 1, 77] : Bytes)) = [77] := by decide
    have e4 : List.drop 1 (List.drop 2 ([5, 1, 77] : Bytes)) = [] := by decide
    have e5 : ("field" ++ toString 5 : String) = "field5" := by decide
    simp only [e3, e4, tDec, List.lookup_nil, if_true, pure_eq_ok, ok_bind, e5]
    simp only [cRest, bytesCodec, map_of_ok, ok_bind, PktClass.set, ne_eq, not_true_eq_false,
      false_and, if_false]
    rw [tlvDec]
    simp
  simp only [decode, decRows, decRow, h1, ok_bind, pure_eq_ok]

end Verif.Fields
