import Verif.Nice.Items

/-!
# C51: NICE parameters and counters
-/
namespace Verif.Nice

open Verif.Fields (Bytes le fromLe toBytes signedEnc byte latin1Enc latin1Dec)

/-! ## Specification: which values fit their type -/

def Simple.Fits : Simple → Prop
  | .num .ds n v => -(2 ^ (8 * n - 1)) ≤ v ∧ v < 2 ^ (8 * n - 1)
  | .num _ n v => 0 ≤ v ∧ v < 256 ^ n
  | .ai s => s.length ≤ 255 ∧ ∀ c ∈ s, c ≤ 255
  | .hi b => b.length ≤ 255

def Val.Fits : Val → Prop
  | .one s => s.Fits
  | .many ss => ∀ s ∈ ss, s.Fits

/-- A counter need only not be negative. -/
def Item.Fits : Item → Prop
  | .par _ v => v.Fits
  | .ctr _ _ v => 0 ≤ v
  | .ctm _ _ m v => m < 65536 ∧ 0 ≤ v

/-! ## Lemmas -/

theorem body_fits {s : Simple} : (∃ d, s.body = .ok d) ↔ s.Fits := by
  cases s with
  | num t n v =>
    cases t <;>
      simp only [Simple.body, numBytes, Simple.Fits, up_ok, reduceCtorEq, if_false, if_true,
        Fields.toBytes_ok, Fields.signedEnc_ok] <;>
      exact ⟨fun ⟨_, h, h2, _⟩ => ⟨h, h2⟩, fun ⟨h, h2⟩ => ⟨_, h, h2, rfl⟩⟩
  | ai s =>
    simp only [Simple.body, Simple.Fits]
    constructor
    · rintro ⟨d, h⟩
      obtain ⟨x, hx, hd⟩ := ebind_ok.1 h
      obtain ⟨hs, rfl⟩ := Fields.latin1Enc_ok.1 (up_ok.1 hx)
      have := (counted_ok.1 hd).1
      simp only [List.length_map] at this
      exact ⟨by omega, fun c hc => by have := hs c hc; omega⟩
    · rintro ⟨h1, h2⟩
      refine ⟨_, ebind_ok.2 ⟨_, up_ok.2 (Fields.latin1Enc_ok.2 ⟨fun c hc => ?_, rfl⟩),
        counted_ok.2 ⟨?_, rfl⟩⟩⟩
      · have := h2 c hc; omega
      · simp only [List.length_map]; omega
  | hi b =>
    simp only [Simple.body, Simple.Fits, counted_ok]
    constructor
    · rintro ⟨d, h, _⟩; omega
    · intro h; exact ⟨_, by omega, rfl⟩

theorem simple_fits {s : Simple} (hv : s.Valid) : (∃ e, s.enc = .ok e) ↔ s.Fits := by
  have hc := ((Simple.valid_iff s).1 hv).code_lt
  rw [Simple.code_ty] at hc
  rw [← body_fits]
  constructor
  · rintro ⟨e, h⟩; obtain ⟨_, d, hd, _⟩ := Simple.enc_ok.1 h; exact ⟨d, hd⟩
  · rintro ⟨d, hd⟩; exact ⟨_, Simple.enc_ok.2 ⟨hc, d, hd, rfl⟩⟩

theorem all_fits {ss : List Simple} (hv : ∀ s ∈ ss, s.Valid) :
    (∃ e, encAll ss = .ok e) ↔ ∀ s ∈ ss, s.Fits := by
  induction ss with
  | nil => simp [encAll]
  | cons s ss ih =>
    have ih := ih (fun x hx => hv x (by simp [hx]))
    have h1 := simple_fits (hv s (by simp))
    simp only [List.mem_cons, forall_eq_or_imp]
    constructor
    · rintro ⟨e, h⟩
      obtain ⟨a, b, ha, hb, _⟩ := encAll_cons.1 h
      exact ⟨h1.1 ⟨a, ha⟩, ih.1 ⟨b, hb⟩⟩
    · rintro ⟨h2, h3⟩
      obtain ⟨a, ha⟩ := h1.2 h2
      obtain ⟨b, hb⟩ := ih.2 h3
      exact ⟨_, encAll_cons.2 ⟨a, b, ha, hb, rfl⟩⟩

theorem val_fits {v : Val} (hv : v.Valid) : (∃ e, v.enc = .ok e) ↔ v.Fits := by
  cases v with
  | one s => exact simple_fits hv
  | many ss =>
    rw [show (Val.many ss).Fits = ∀ s ∈ ss, s.Fits from rfl, ← all_fits hv.2.2]
    have := hv.2.1
    constructor
    · rintro ⟨e, h⟩; obtain ⟨_, d, hd, _⟩ := Val.enc_many.1 h; exact ⟨d, hd⟩
    · rintro ⟨d, hd⟩; exact ⟨_, Val.enc_many.2 ⟨by omega, d, hd, rfl⟩⟩

theorem item_fits {i : Item} (hv : i.Valid) : (∃ e, i.enc = .ok e) ↔ i.Fits := by
  cases i with
  | par p v =>
    rw [show (Item.par p v).Fits = v.Fits from rfl, ← val_fits hv.2]
    have := hv.1
    constructor
    · rintro ⟨e, h⟩; obtain ⟨_, d, hd, _⟩ := Item.enc_par.1 h; exact ⟨d, hd⟩
    · rintro ⟨d, hd⟩; exact ⟨_, Item.enc_par.2 ⟨by omega, d, hd, rfl⟩⟩
  | ctr p w v =>
    constructor
    · rintro ⟨e, h⟩; exact ((Item.enc_ctr hv).1 h).1
    · intro h; exact ⟨_, (Item.enc_ctr hv).2 ⟨h, rfl⟩⟩
  | ctm p w m v =>
    constructor
    · rintro ⟨e, h⟩; have := (Item.enc_ctm hv).1 h; exact ⟨this.2.1, this.1⟩
    · intro h; exact ⟨_, (Item.enc_ctm hv).2 ⟨h.2, h.1, rfl⟩⟩

theorem decItem_append {buf r x : Bytes} {i : Item} (h : decItem buf = .ok (i, r)) :
    decItem (buf ++ x) = .ok (i, r ++ x) := by
  obtain ⟨a, b, c, tl, rfl⟩ : ∃ a b c tl, buf = a :: b :: c :: tl := by
    match buf, h with
    | [], h => cases h
    | [_], h => cases h
    | [_, _], h => cases h
    | a :: b :: c :: tl, _ => exact ⟨a, b, c, tl, rfl⟩
  by_cases hx : fromLe [a, b] < 0x8000
  · obtain ⟨v, hi, hv, d, hd, h2⟩ := (decItem_par hx).1 h
    refine (decItem_par hx).2 ⟨v, hi, hv, d, hd, ?_⟩
    show (c :: tl) ++ x = _
    rw [h2, List.append_assoc]
  · obtain ⟨m, w, hk, hd⟩ := (decItem_ctr (by omega)).1 h
    refine (decItem_ctr (by omega)).2 ⟨m, w, hk, ?_⟩
    show decCounter _ _ _ ((c :: tl) ++ x) = _
    generalize c :: tl = y at hd
    unfold decCounter at hd ⊢
    cases m with
    | true =>
      simp only [if_true] at hd ⊢
      split at hd
      · cases hd
      · rename_i hl
        simp only [Except.ok.injEq, Prod.mk.injEq] at hd
        obtain ⟨rfl, rfl⟩ := hd
        rw [if_neg (by rw [List.length_append]; omega), List.take_append_of_le_length (by omega),
          List.drop_append_of_le_length (by omega),
          List.take_append_of_le_length (by rw [List.length_drop]; omega),
          List.drop_append_of_le_length (by rw [List.length_drop]; omega)]
    | false =>
      simp only [Bool.false_eq_true, if_false] at hd ⊢
      split at hd
      · cases hd
      · rename_i hl
        simp only [Except.ok.injEq, Prod.mk.injEq] at hd
        obtain ⟨rfl, rfl⟩ := hd
        rw [if_neg (by rw [List.length_append]; omega), List.take_append_of_le_length (by omega),
          List.drop_append_of_le_length (by omega)]

theorem decode_step {buf r : Bytes} {i : Item} (h : decItem buf = .ok (i, r)) :
    decode buf = (decode r).map (i :: ·) := by
  cases buf with
  | nil => cases h
  | cons y ys =>
    cases hr : decode r with
    | ok js => exact decode_cons.2 ⟨i, r, js, h, hr, rfl⟩
    | error e =>
      have hs := decItem_shorter h
      simp only [List.length_cons] at hs
      have hdec : decode (y :: ys) = (decLoop ys.length r).map (i :: ·) := by
        show (decItem (y :: ys) >>= _) = _
        rw [h]; show (decLoop ys.length r >>= _) = _
        cases decLoop ys.length r <;> rfl
      rw [hdec]
      -- more fuel than needed makes no difference
      have enough : ∀ f b, b.length ≤ f → decLoop f b = decode b := by
        intro f b
        induction hn : b.length using Nat.strongRecOn generalizing b f with
        | _ n ih =>
          intro hle
          subst hn
          cases b with
          | nil => cases f <;> rfl
          | cons y ys =>
            cases f with
            | zero => simp at hle
            | succ f =>
              show (decItem (y :: ys) >>= _) = (decItem (y :: ys) >>= _)
              cases hd : decItem (y :: ys) with
              | error e => rfl
              | ok ir =>
                obtain ⟨i, r⟩ := ir
                have hs := decItem_shorter hd
                simp only [List.length_cons] at hs hle ih
                show (decLoop f r >>= _) = (decLoop ys.length r >>= _)
                rw [ih r.length (by omega) f r rfl (by omega),
                  ih r.length (by omega) ys.length r rfl (by omega)]
      rw [enough _ _ (by omega), hr]

theorem decode_append {a : Bytes} {is : List Item} (h : decode a = .ok is) (b : Bytes) :
    decode (a ++ b) = (decode b).map (is ++ ·) := by
  induction is generalizing a with
  | nil =>
    cases a with
    | nil => cases hb : decode b <;> simp [Except.map, hb]
    | cons x xs =>
      obtain ⟨i, r, js, _, _, h3⟩ := decode_cons.1 h
      cases h3
  | cons j js ih =>
    cases a with
    | nil => cases h
    | cons x xs =>
      obtain ⟨i, r, js', h1, h2, h3⟩ := decode_cons.1 h
      cases h3
      rw [decode_step (decItem_append h1), ih h2]
      cases decode b <;> rfl

/-! ## Responses and events -/

/-- Decoding what was encoded gives the items in the same order, with counters beyond their range at
the largest value the counter can have. -/
theorem response_roundtrip {is : List Item} (hv : ∀ i ∈ is, i.Valid) {b : Bytes}
    (h : encode is = .ok b) : decode b = .ok (is.map Item.sat) := by
  induction is generalizing b with
  | nil => simp only [encode, Except.ok.injEq] at h; subst h; rfl
  | cons i is ih =>
    obtain ⟨e, b', he, hb', rfl⟩ := encode_cons.1 h
    rw [decode_step (decItem_enc (hv i (by simp)) he b'), ih (fun x hx => hv x (by simp [hx])) hb']
    rfl

/-- Encoding succeeds exactly if every value fits its type; a counter of any size does. -/
theorem encodes_iff {is : List Item} (hv : ∀ i ∈ is, i.Valid) :
    (∃ b, encode is = .ok b) ↔ ∀ i ∈ is, i.Fits := by
  induction is with
  | nil => simp [encode]
  | cons i is ih =>
    have ih := ih (fun x hx => hv x (by simp [hx]))
    have h1 := item_fits (hv i (by simp))
    simp only [List.mem_cons, forall_eq_or_imp]
    constructor
    · rintro ⟨e, h⟩
      obtain ⟨a, b, ha, hb, _⟩ := encode_cons.1 h
      exact ⟨h1.1 ⟨a, ha⟩, ih.1 ⟨b, hb⟩⟩
    · rintro ⟨h2, h3⟩
      obtain ⟨a, ha⟩ := h1.2 h2
      obtain ⟨b, hb⟩ := ih.2 h3
      exact ⟨_, encode_cons.2 ⟨a, b, ha, hb, rfl⟩⟩

/-- Different lists of items that fit and are within range have different encodings. -/
theorem encode_injective {is js : List Item} (hi : ∀ i ∈ is, i.Valid ∧ i.sat = i)
    (hj : ∀ i ∈ js, i.Valid ∧ i.sat = i) {b : Bytes} (h1 : encode is = .ok b)
    (h2 : encode js = .ok b) : is = js := by
  have e : ∀ l : List Item, (∀ i ∈ l, i.Valid ∧ i.sat = i) → l.map Item.sat = l := by
    intro l hl
    conv_rhs => rw [← List.map_id l]
    exact List.map_congr_left fun i h => (hl i h).2
  have a := response_roundtrip (fun i h => (hi i h).1) h1
  rw [response_roundtrip (fun i h => (hj i h).1) h2, e _ hi, e _ hj] at a
  simpa using a.symm

/-- Whatever was received can be sent on without loss: the items decoded are valid, encode to as many
bytes as were received, and those decode to the same items. -/
theorem reencode {b : Bytes} {is : List Item} (h : decode b = .ok is) :
    (∀ i ∈ is, i.Valid) ∧ ∃ b', encode is = .ok b' ∧ b'.length = b.length ∧ decode b' = .ok is := by
  have key : (∀ i ∈ is, i.Valid ∧ i.sat = i) ∧ ∃ b', encode is = .ok b' ∧ b'.length = b.length := by
    induction is generalizing b with
    | nil =>
      cases b with
      | nil => exact ⟨by simp, [], rfl, rfl⟩
      | cons x xs => obtain ⟨i, r, js, _, _, h3⟩ := decode_cons.1 h; cases h3
    | cons j js ih =>
      cases b with
      | nil => cases h
      | cons x xs =>
        obtain ⟨i, r, js', h1, h2, h3⟩ := decode_cons.1 h
        cases h3
        obtain ⟨k1, b', k2, k3⟩ := ih h2
        obtain ⟨v, s, _, _, e, he, hb, hl, _⟩ := decItem_back h1
        refine ⟨?_, e ++ b', encode_cons.2 ⟨e, b', he, k2, rfl⟩, ?_⟩
        · intro y hy
          rcases List.mem_cons.1 hy with rfl | hy
          · exact ⟨v, s⟩
          · exact k1 y hy
        · rw [hb]; simp; omega
  obtain ⟨k1, b', k2, k3⟩ := key
  refine ⟨fun i hi => (k1 i hi).1, b', k2, k3, ?_⟩
  rw [response_roundtrip (fun i hi => (k1 i hi).1) k2]
  congr 1
  conv_rhs => rw [← List.map_id is]
  exact List.map_congr_left fun i h => (k1 i h).2

/-- The bytes are even the same, unless a parameter number has one of the bits 12 to 14 set; those are
dropped. -/
theorem reencode_item {b r : Bytes} {i : Item} (h : decItem b = .ok (i, r)) :
    ∃ x y e, i.enc = .ok e ∧ b = x :: y :: (e.drop 2 ++ r) ∧
      (e.take 2 = [x, y] ↔ fromLe [x, y] % 0x8000 < 0x1000 ∨ 0x8000 ≤ fromLe [x, y]) := by
  obtain ⟨_, _, x, y, e, he, hb, _, ht⟩ := decItem_back h
  refine ⟨x, y, e, he, hb, ?_⟩
  rw [ht]
  have hlt := fromLe2_lt x y
  split
  · rename_i hx
    constructor
    · intro hh
      have := congrArg fromLe hh
      rw [Fields.fromLe_le_lt (by simp; omega)] at this
      omega
    · intro hh
      rw [show fromLe [x, y] % 4096 = fromLe [x, y] by omega, le_fromLe2]
  · constructor
    · intro _; right; omega
    · intro _; rfl

/-- Parameter 0x1001 becomes parameter 1. -/
theorem number_bits_lost :
    decode [0x01, 0x10, 0x01, 0x07] = .ok [.par 1 (.one (.num .du 1 7))] ∧
    encode [.par 1 (.one (.num .du 1 7))] = .ok [0x01, 0x00, 0x01, 0x07] := by
  constructor <;> rfl

/-- A message can be decoded piece by piece: an item never takes bytes of the next one. -/
theorem decode_concat {a b : Bytes} {is js : List Item} (ha : decode a = .ok is)
    (hb : decode b = .ok js) : decode (a ++ b) = .ok (is ++ js) := by
  rw [decode_append ha, hb]; rfl

/-! ## Failures -/

/-- One or two stray bytes after the items are an AttributeError, not a DecodeError. -/
theorem stray_bytes {a t : Bytes} {is : List Item} (ha : decode a = .ok is)
    (ht : t.length = 1 ∨ t.length = 2) : decode (a ++ t) = .error .attributeError := by
  rw [decode_append ha]
  match t, ht with
  | [x], _ => rfl
  | [x, y], _ => rfl
  | x :: y :: z :: l, h => simp at h

/-- A multiple within a multiple is a TypeError, not a DecodeError. -/
theorem nested_multiple {a t : Bytes} {is : List Item} (ha : decode a = .ok is) (p k m : Nat)
    (hp : p < 4096) (hk : 1 ≤ k ∧ k ≤ 31) (hm : 1 ≤ m ∧ m ≤ 31) :
    decode (a ++ (le 2 p ++ UInt8.ofNat (0xc0 + k) :: UInt8.ofNat (0xc0 + m) :: t)) =
      .error .typeError := by
  rw [decode_append ha]
  obtain ⟨x, y, hxy, hf⟩ := le2_cons (show p < 65536 by omega)
  rw [hxy]
  have e1 := classOf_cm ⟨k, by omega⟩ hk.1
  have e2 := classOf_cm ⟨m, by omega⟩ hm.1
  simp only at e1 e2
  have : decItem (x :: y :: UInt8.ofNat (0xc0 + k) :: UInt8.ofNat (0xc0 + m) :: t) =
      .error .typeError := by
    simp only [decItem]
    rw [if_neg (fun h => by have := (flag_iff _ (fromLe2_lt x y)).1 h; omega),
      u8_ofNat_toNat (show 0xc0 + k < 256 by omega), e1]
    obtain ⟨k, rfl⟩ : ∃ k', k = k' + 1 := ⟨k - 1, by omega⟩
    show ((decAll (k + 1) _ >>= _) >>= _) = _
    simp only [decAll]
    rw [u8_ofNat_toNat (show 0xc0 + m < 256 by omega), e2]
    rfl
  show Except.map _ (decItem (x :: y :: UInt8.ofNat (0xc0 + k) :: UInt8.ofNat (0xc0 + m) :: t) >>= _) = _
  rw [this]; rfl

/-- The sender's side: a multiple of 32 to 63 fields, or none, is encoded, but not as what it is.  (32
fields come out with the code of no type; the decoder rejects it.) -/
theorem multiple_too_long (p : Nat) (ss : List Simple) (h : 32 ≤ ss.length ∧ ss.length ≤ 63)
    (hv : ∀ s ∈ ss, s.Valid) (hf : ∀ s ∈ ss, s.Fits) (hp : p < 4096) :
    ∃ b, encode [.par p (.many ss)] = .ok b ∧ decode b = .error .decodeError := by
  obtain ⟨d, hd⟩ := (all_fits hv).2 hf
  have hc : 0xc0 + ss.length < 256 := by omega
  refine ⟨le 2 p ++ (UInt8.ofNat (0xc0 + ss.length) :: d), ?_, ?_⟩
  · exact encode_cons.2 ⟨_, [], Item.enc_par.2 ⟨by omega, _, Val.enc_many.2 ⟨hc, d, hd, rfl⟩, rfl⟩, rfl,
      by simp⟩
  · obtain ⟨x, y, hxy, hf⟩ := le2_cons (show p < 65536 by omega)
    rw [hxy]
    have hk : ∀ k : Fin 32, classOf (0xe0 + k.val) = .error .decodeError := by decide +kernel
    have hk := hk ⟨ss.length - 32, by omega⟩
    simp only [show 0xe0 + (ss.length - 32) = 0xc0 + ss.length by omega] at hk
    have : decItem (x :: y :: UInt8.ofNat (0xc0 + ss.length) :: d) = .error .decodeError := by
      simp only [decItem]
      rw [if_neg (fun h => by have := (flag_iff _ (fromLe2_lt x y)).1 h; omega),
        u8_ofNat_toNat hc, hk]
      rfl
    show (decItem (x :: y :: UInt8.ofNat (0xc0 + ss.length) :: d) >>= _) = _
    rw [this]; rfl

theorem decSimple_err {ty : Ty} {b : Bytes} {e : Err} (h : decSimple ty b = .error e) :
    e = .decodeError ∨ e = .typeError := by
  have hc : ∀ b, decCounted b = .error e → e = .decodeError := by
    intro b h
    cases b with
    | nil => cases h; rfl
    | cons l b => simp only [decCounted] at h; split at h <;> cases h; rfl
  cases ty with
  | num t n =>
    simp only [decSimple, decNum] at h
    split at h <;> cases h
    exact .inl rfl
  | cm n => cases h; exact .inr rfl
  | ai =>
    simp only [decSimple] at h
    cases hd : decCounted b with
    | ok v => rw [hd] at h; cases h
    | error e' => rw [hd] at h; cases h; exact .inl (hc b hd)
  | hi =>
    simp only [decSimple] at h
    cases hd : decCounted b with
    | ok v => rw [hd] at h; cases h
    | error e' => rw [hd] at h; cases h; exact .inl (hc b hd)

theorem decAll_err {k : Nat} {b : Bytes} {e : Err} (h : decAll k b = .error e) :
    e = .decodeError ∨ e = .typeError := by
  induction k generalizing b with
  | zero => cases h
  | succ k ih =>
    cases b with
    | nil => cases h; exact .inl rfl
    | cons c b =>
      simp only [decAll] at h
      cases h1 : classOf c.toNat with
      | error e' =>
        rw [h1] at h; cases h
        exact .inl (classOf_err (by simpa using c.toNat_lt) h1)
      | ok ty =>
        rw [h1] at h
        change (decSimple ty b >>= _) = _ at h
        cases h2 : decSimple ty b with
        | error e' => rw [h2] at h; cases h; exact decSimple_err h2
        | ok sr =>
          rw [h2] at h
          change (decAll k sr.2 >>= _) = _ at h
          cases h3 : decAll k sr.2 with
          | error e' => rw [h3] at h; cases h; exact ih h3
          | ok x => rw [h3] at h; cases h

theorem decItem_err {b : Bytes} {e : Err} (h : decItem b = .error e) :
    e = .decodeError ∨ e = .typeError ∨ (e = .attributeError ∧ b.length < 3) := by
  match b, h with
  | [], h => cases h; exact .inr (.inr ⟨rfl, by simp⟩)
  | [_], h => cases h; exact .inr (.inr ⟨rfl, by simp⟩)
  | [_, _], h => cases h; exact .inr (.inr ⟨rfl, by simp⟩)
  | a :: b :: c :: tl, h =>
    simp only [decItem] at h
    split at h
    · cases hc : counterClass (fromLe [a, b] &&& 0xf000) with
      | error e' =>
        rw [hc] at h; cases h
        left
        unfold counterClass at hc
        repeat' (split at hc)
        all_goals cases hc
        rfl
      | ok mw =>
        rw [hc] at h
        change decCounter _ mw.1 mw.2 _ = _ at h
        unfold decCounter at h
        left
        split at h <;> split at h <;> cases h <;> rfl
    · cases hc : classOf c.toNat with
      | error e' =>
        rw [hc] at h; cases h
        exact .inl (classOf_err (by simpa using c.toNat_lt) hc)
      | ok ty =>
        rw [hc] at h
        change (decVal ty tl >>= _) = _ at h
        have hv : ∀ e', decVal ty tl = .error e' → e' = .decodeError ∨ e' = .typeError := by
          intro e' h'
          have hs : ∀ x : Except Err (Simple × Bytes), (x = decSimple ty tl) →
              (x >>= fun (s, b) => pure (Val.one s, b)) = .error e' →
              e' = .decodeError ∨ e' = .typeError := by
            intro x hx h2
            cases x with
            | ok _ => cases h2
            | error e'' => cases h2; exact decSimple_err hx.symm
          cases ty with
          | cm n =>
            simp only [decVal] at h'
            cases h3 : decAll n tl with
            | ok _ => rw [h3] at h'; cases h'
            | error e'' => rw [h3] at h'; cases h'; exact decAll_err h3
          | num t n => exact hs _ rfl h'
          | ai => exact hs _ rfl h'
          | hi => exact hs _ rfl h'
        cases h2 : decVal ty tl with
        | ok _ => rw [h2] at h; cases h
        | error e' => rw [h2] at h; cases h; exact (hv _ h2).imp_right .inl

/-- No other exception comes out of decoding a response; the AttributeError exactly if one or two bytes
follow the last item. -/
theorem decode_errors {b : Bytes} {e : Err} (h : decode b = .error e) :
    e = .decodeError ∨ e = .typeError ∨
      (e = .attributeError ∧ ∃ a t is, b = a ++ t ∧ decode a = .ok is ∧
        (t.length = 1 ∨ t.length = 2)) := by
  induction hn : b.length using Nat.strongRecOn generalizing b with
  | _ n ih =>
    subst hn
    cases b with
    | nil => cases h
    | cons x xs =>
      cases hd : decItem (x :: xs) with
      | error e' =>
        have : decode (x :: xs) = .error e' := by
          show (decItem (x :: xs) >>= _) = _
          rw [hd]; rfl
        rw [this] at h
        cases h
        rcases decItem_err hd with rfl | rfl | ⟨rfl, hl⟩
        · exact .inl rfl
        · exact .inr (.inl rfl)
        · exact .inr (.inr ⟨rfl, [], x :: xs, [], rfl, rfl, by
            simp only [List.length_cons] at hl ⊢; omega⟩)
      | ok ir =>
        obtain ⟨i, r⟩ := ir
        have hs := decItem_shorter hd
        rw [decode_step hd] at h
        cases hr : decode r with
        | ok js => rw [hr] at h; cases h
        | error e' =>
          rw [hr] at h
          cases h
          rcases ih r.length (by omega) hr rfl with rfl | rfl | ⟨rfl, a, t, is, hrat, ha, ht⟩
          · exact .inl rfl
          · exact .inr (.inl rfl)
          · refine .inr (.inr ⟨rfl, ?_⟩)
            subst hrat
            obtain ⟨v, s, x', y', e, he, hb, hl, _⟩ := decItem_back hd
            -- the same item without what follows
            have hb2 : x :: xs = (x' :: y' :: (e.drop 2 ++ a)) ++ t := by
              rw [hb]; simp
            refine ⟨x' :: y' :: (e.drop 2 ++ a), t, i :: is, hb2, ?_, ht⟩
            have hd' : decItem (x' :: y' :: (e.drop 2 ++ a)) = .ok (i, a) := by
              rw [hb2] at hd
              obtain ⟨c, tl, hc⟩ : ∃ c tl, e.drop 2 = c :: tl := by
                cases hc : e.drop 2 with
                | nil => have := congrArg List.length hc; simp at this; omega
                | cons c tl => exact ⟨c, tl, rfl⟩
              rw [hc] at hd ⊢
              simp only [List.cons_append] at hd ⊢
              by_cases hx : fromLe [x', y'] < 0x8000
              · obtain ⟨v', hi, hval, d, hd1, hd2⟩ := (decItem_par hx).1 hd
                refine (decItem_par hx).2 ⟨v', hi, hval, d, hd1, ?_⟩
                have : (c :: (tl ++ a)) ++ t = (d ++ a) ++ t := by
                  rw [List.append_assoc, ← hd2]; simp
                exact List.append_cancel_right this
              · obtain ⟨m, w, hk, hdc⟩ := (decItem_ctr (by omega)).1 hd
                refine (decItem_ctr (by omega)).2 ⟨m, w, hk, ?_⟩
                have e1 : c :: (tl ++ a ++ t) = (c :: (tl ++ a)) ++ t := by simp
                rw [e1] at hdc
                generalize c :: (tl ++ a) = y at hdc
                unfold decCounter at hdc ⊢
                cases m with
                | true =>
                  simp only [if_true] at hdc ⊢
                  split at hdc
                  · cases hdc
                  · rename_i hlen
                    simp only [Except.ok.injEq, Prod.mk.injEq] at hdc
                    obtain ⟨hi, hr'⟩ := hdc
                    have hl2 : ((y ++ t).drop 2).length = w.bytes + (a ++ t).length := by
                      have := congrArg List.length hr'
                      rw [List.length_drop] at this
                      rw [List.length_append, List.length_drop] at *
                      omega
                    have hly : w.bytes + 2 + a.length = y.length := by
                      rw [List.length_drop, List.length_append, List.length_append] at hl2
                      rw [List.length_append] at hlen
                      omega
                    rw [if_neg (by omega)]
                    rw [List.take_append_of_le_length (by omega),
                      List.drop_append_of_le_length (by omega),
                      List.take_append_of_le_length (by rw [List.length_drop]; omega)] at hi
                    rw [List.drop_append_of_le_length (by omega),
                      List.drop_append_of_le_length (by rw [List.length_drop]; omega)] at hr'
                    rw [hi, List.append_cancel_right hr']
                | false =>
                  simp only [Bool.false_eq_true, if_false] at hdc ⊢
                  split at hdc
                  · cases hdc
                  · rename_i hlen
                    simp only [Except.ok.injEq, Prod.mk.injEq] at hdc
                    obtain ⟨hi, hr'⟩ := hdc
                    have hly : w.bytes + a.length = y.length := by
                      have := congrArg List.length hr'
                      rw [List.length_drop, List.length_append, List.length_append] at this
                      rw [List.length_append] at hlen
                      omega
                    rw [if_neg (by omega)]
                    rw [List.take_append_of_le_length (by omega)] at hi
                    rw [List.drop_append_of_le_length (by omega)] at hr'
                    rw [hi, List.append_cancel_right hr']
            rw [decode_step hd', ha]; rfl

/-! ## Requests -/

theorem decReqItem_iff {table : Nat → Option Ty} (ht : ∀ p ty, table p = some ty → ty.Valid)
    {a b c : UInt8} {tl r : Bytes} {p : Nat} {v : Val} :
    decReqItem table (a :: b :: c :: tl) = .ok ((p, v), r) ↔
      p = fromLe [a, b] &&& 0x8fff ∧ ∃ s d, v = .one s ∧ table p = some s.ty ∧ s.body = .ok d ∧
        c :: tl = d ++ r := by
  simp only [decReqItem]
  cases hp : table (fromLe [a, b] &&& 0x8fff) with
  | none =>
    constructor
    · intro h; cases h
    · rintro ⟨rfl, s, d, _, h, _⟩; rw [hp] at h; cases h
  | some ty =>
    simp only
    rw [ebind_ok]
    constructor
    · rintro ⟨⟨s, r'⟩, h1, h2⟩
      simp only [epure, Except.ok.injEq, Prod.mk.injEq] at h2
      obtain ⟨⟨rfl, rfl⟩, rfl⟩ := h2
      obtain ⟨rfl, d, hd, hb⟩ := (decSimple_iff (ht _ _ hp)).1 h1
      exact ⟨rfl, s, d, rfl, hp, hd, hb⟩
    · rintro ⟨rfl, s, d, rfl, h, hd, hb⟩
      rw [hp] at h
      simp only [Option.some.injEq] at h
      exact ⟨(s, r), (decSimple_iff (ht _ _ hp)).2 ⟨h.symm, d, hd, hb⟩, rfl⟩

theorem encReq_cons {p : Nat} {v : Val} {is : List (Nat × Val)} {e : Bytes} :
    encReq ((p, v) :: is) = .ok e ↔
      p < 65536 ∧ ∃ a b, v.enc = .ok a ∧ encReq is = .ok b ∧ e = le 2 p ++ (a.drop 1 ++ b) := by
  simp only [encReq]
  rw [ebind_ok]
  constructor
  · rintro ⟨a, h, h2⟩
    obtain ⟨n, hn, h3⟩ := ebind_ok.1 h2
    obtain ⟨b, hb, h4⟩ := ebind_ok.1 h3
    obtain ⟨h1, rfl⟩ := toBytes2.1 (up_ok.1 hn)
    simp only [epure, Except.ok.injEq] at h4
    exact ⟨h1, a, b, h, hb, h4.symm⟩
  · rintro ⟨hp, a, b, h, hb, rfl⟩
    exact ⟨a, h, ebind_ok.2 ⟨_, up_ok.2 (toBytes2.2 ⟨hp, rfl⟩), ebind_ok.2 ⟨b, hb, rfl⟩⟩⟩

theorem body_length {s : Simple} (hv : s.Valid) {d : Bytes} (h : s.body = .ok d) : 1 ≤ d.length := by
  cases s with
  | num t n v =>
    have hn := hv.1
    simp only [Simple.body, numBytes, up_ok] at h
    split at h
    · obtain ⟨_, _, rfl⟩ := Fields.signedEnc_ok.1 h; rw [Fields.le_length]; exact hn
    · obtain ⟨_, _, rfl⟩ := Fields.toBytes_ok.1 h; rw [Fields.le_length]; exact hn
  | ai s =>
    obtain ⟨x, _, hd⟩ := ebind_ok.1 h
    obtain ⟨_, rfl⟩ := counted_ok.1 hd; simp
  | hi b => obtain ⟨_, rfl⟩ := counted_ok.1 h; simp

theorem decReqLoop_enough {table : Nat → Option Ty} (ht : ∀ p ty, table p = some ty → ty.Valid) :
    ∀ f b, b.length ≤ f → decReqLoop table f b = decodeReq table b := by
  intro f b
  induction hn : b.length using Nat.strongRecOn generalizing b f with
  | _ n ih =>
    intro hle
    subst hn
    cases b with
    | nil => cases f <;> rfl
    | cons y ys =>
      cases f with
      | zero => simp at hle
      | succ f =>
        show (decReqItem table (y :: ys) >>= _) = (decReqItem table (y :: ys) >>= _)
        cases hd : decReqItem table (y :: ys) with
        | error e => rfl
        | ok ir =>
          obtain ⟨⟨p, v⟩, r⟩ := ir
          have hs : r.length < (y :: ys).length := by
            match ys, hd with
            | [], hd => cases hd
            | [_], hd => cases hd
            | b :: c :: tl, hd =>
              obtain ⟨_, s, d, _, _, _, h⟩ := (decReqItem_iff ht).1 hd
              have := congrArg List.length h
              simp at this ⊢; omega
          simp only [List.length_cons] at hs hle ih
          show (decReqLoop table f r >>= _) = (decReqLoop table ys.length r >>= _)
          rw [ih r.length (by omega) f r rfl (by omega),
            ih r.length (by omega) ys.length r rfl (by omega)]

/-- Requests, which carry no type codes: parameters that are in the receiver's table with the type they
were sent with are decoded to what was sent. -/
theorem request_roundtrip {table : Nat → Option Ty} (ht : ∀ p ty, table p = some ty → ty.Valid)
    {is : List (Nat × Simple)} (hv : ∀ i ∈ is, i.1 < 4096 ∧ i.2.Valid ∧ table i.1 = some i.2.ty)
    {b : Bytes} (h : encReq (is.map fun i => (i.1, .one i.2)) = .ok b) :
    decodeReq table b = .ok (is.map fun i => (i.1, .one i.2)) := by
  induction is generalizing b with
  | nil => simp only [List.map_nil, encReq, Except.ok.injEq] at h; subst h; rfl
  | cons i is ih =>
    obtain ⟨p, s⟩ := i
    simp only [List.map_cons] at h
    obtain ⟨hp, a, b', ha, hb', rfl⟩ := encReq_cons.1 h
    obtain ⟨h1, h2, h3⟩ := hv (p, s) (by simp)
    obtain ⟨_, d, hd, rfl⟩ := Simple.enc_ok.1 ha
    have hl := body_length h2 hd
    obtain ⟨x, y, hxy, hf⟩ := le2_cons hp
    obtain ⟨c, tl, rfl⟩ : ∃ c tl, d = c :: tl := by
      cases d with
      | nil => simp at hl
      | cons c tl => exact ⟨c, tl, rfl⟩
    have hkey : p = fromLe [x, y] &&& 0x8fff := by
      have h1 : p < 4096 := h1
      rw [hf, key_small _ (by omega), Nat.mod_eq_of_lt h1]
    have hi : decReqItem table (x :: y :: c :: (tl ++ b')) = .ok ((p, .one s), b') :=
      (decReqItem_iff ht).2 ⟨hkey, s, c :: tl, rfl, h3, hd, rfl⟩
    rw [hxy]
    show (decReqItem table (x :: y :: c :: (tl ++ b')) >>= _) = _
    rw [hi]
    show (decReqLoop table _ b' >>= _) = _
    rw [decReqLoop_enough ht _ _ (by simp; omega), ih (fun j hj => hv j (by simp [hj])) hb']
    rfl

/-- A parameter not in the table makes the request unreadable. -/
theorem request_unknown (table : Nat → Option Ty) (p : Nat) (hp : p < 4096) (h : table p = none)
    (c : UInt8) (t : Bytes) : decodeReq table (le 2 p ++ c :: t) = .error .decodeError := by
  obtain ⟨x, y, hxy, hf⟩ := le2_cons (show p < 65536 by omega)
  rw [hxy]
  show (decReqItem table (x :: y :: c :: t) >>= _) = _
  have : decReqItem table (x :: y :: c :: t) = .error .decodeError := by
    simp only [decReqItem]
    rw [hf, key_small _ (by omega), Nat.mod_eq_of_lt hp, h]
  rw [this]; rfl

/-- A multiple can be sent in a request, but no request with one can be read. -/
theorem request_multiple (table : Nat → Option Ty) (p n : Nat) (hp : p < 4096)
    (h : table p = some (.cm n)) (c : UInt8) (t : Bytes) :
    decodeReq table (le 2 p ++ c :: t) = .error .typeError := by
  obtain ⟨x, y, hxy, hf⟩ := le2_cons (show p < 65536 by omega)
  rw [hxy]
  show (decReqItem table (x :: y :: c :: t) >>= _) = _
  have : decReqItem table (x :: y :: c :: t) = .error .typeError := by
    simp only [decReqItem]
    rw [hf, key_small _ (by omega), Nat.mod_eq_of_lt hp, h]
    rfl
  rw [this]; rfl

/-! ## Examples -/

private def exItems : List Item :=
  [.par 0 (.one (.num .c 1 5)), .par 500 (.one (.ai [0x45, 0x54, 0x48])),
    .par 822 (.many [.num .du 2 1025, .ai [0x41], .hi [1, 2]]), .par 7 (.one (.num .ds 2 (-3))),
    .ctr 1000 .w4 123456, .ctm 1020 .w2 5 70000]

example : ∀ i ∈ exItems, i.Valid := by
  simp [exItems, Item.Valid, Val.Valid, Simple.Valid, Num.maxLen]

example : encode exItems = .ok [0, 0, 0x81, 5, 0xf4, 1, 0x40, 3, 0x45, 0x54, 0x48,
    0x36, 3, 0xc3, 2, 1, 4, 0x40, 1, 0x41, 0x20, 2, 1, 2, 7, 0, 0x12, 0xfd, 0xff,
    0xe8, 0xe3, 0x40, 0xe2, 1, 0, 0xfc, 0xd3, 5, 0, 0xff, 0xff] := by rfl

example : (exItems.map Item.sat).getLast? = some (.ctm 1020 .w2 5 65535) := by rfl

private def exTable : Nat → Option Ty
  | 10 => some (.num .du 2)
  | 11 => some .ai
  | _ => none

example : encReq [(10, .one (.num .du 2 300)), (11, .one (.ai [0x41]))] =
    .ok [10, 0, 44, 1, 11, 0, 1, 0x41] := by rfl

example : decodeReq exTable [10, 0, 44, 1, 11, 0, 1, 0x41] =
    .ok [(10, .one (.num .du 2 300)), (11, .one (.ai [0x41]))] := by rfl

end Verif.Nice
