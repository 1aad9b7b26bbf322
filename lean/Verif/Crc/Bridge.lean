import Verif.Crc.Lemmas

/-! From the table driven update to the bit-serial shift register. -/

namespace Verif.Crc

open Polynomial
open Verif.Fields (Bytes le)

/-- The `k` low bits of `v`, low bit first. -/
def lsbFirst (k v : Nat) : List Bool := (List.range k).map v.testBit

/-- The `k` low bits of `v`, high bit first. -/
def msbFirst (k v : Nat) : List Bool := (lsbFirst k v).reverse

/-- A value in transmission order. -/
def inOrder (reversed : Bool) (k v : Nat) : List Bool :=
  if reversed then lsbFirst k v else msbFirst k v

/-- The bits of a byte string in the order the CRC takes them. -/
def dataBits (reversed : Bool) (data : Bytes) : List Bool :=
  data.flatMap fun b => inOrder reversed 8 b.toNat

theorem low_eq (k v : Nat) : low k v = lsbFirst k v := by
  induction k generalizing v with
  | zero => rfl
  | succ k ih =>
    rw [low, ih]
    unfold lsbFirst
    rw [List.range_succ_eq_map, List.map_cons, List.map_map]
    congr 1
    apply List.map_congr_left
    intro i _
    simp [Nat.testBit_shiftRight, Nat.add_comm]

theorem lsbFirst_reverse (k v : Nat) : lsbFirst k (reverse v k) = msbFirst k v := by
  unfold msbFirst lsbFirst
  apply List.ext_getElem
  · simp
  · intro i h1 h2
    have hi : i < k := by simpa using h1
    rw [List.getElem_reverse]
    simp [testBit_reverse, hi]

theorem rp_eq (w v : Nat) : rp w v = polyOf (lsbFirst w v) := by
  rw [← low_eq]
  have len : ∀ k v, (low k v).length = k := by
    intro k
    induction k with
    | zero => intro v; rfl
    | succ k ih => intro v; simp [low, ih]
  induction w generalizing v with
  | zero => rfl
  | succ w ih => rw [rp, low, polyOf_cons, len, ih]

theorem inOrder_length (r : Bool) (k v : Nat) : (inOrder r k v).length = k := by
  unfold inOrder msbFirst lsbFirst; split <;> simp

theorem dataBits_length (r : Bool) (d : Bytes) : (dataBits r d).length = 8 * d.length := by
  induction d with
  | nil => rfl
  | cons b d ih =>
    unfold dataBits at *
    rw [List.flatMap_cons, List.length_append, ih, inOrder_length, List.length_cons]; omega

/-- Parameters for which the class makes sense: crc.py:95-96 rejects a
polynomial wider than `width`; the register constants must fit. -/
structure Params.Valid (K : Params) : Prop where
  width : 1 ≤ K.width
  poly : K.poly < 2 ^ K.width
  initial : K.initial < 2 ^ K.width
  final : K.final < 2 ^ K.width

/-- The register seen with its highest power at the bottom. -/
def Params.refl (K : Params) (c : Nat) : Nat := if K.reversed then c else reverse c K.width

/-- The reflected register constant. -/
def Params.rpoly (K : Params) : Nat := reverse K.poly K.width

theorem Params.refl_lt (K : Params) {c : Nat} (h : c < 2 ^ K.width) : K.refl c < 2 ^ K.width := by
  unfold Params.refl; split
  · exact h
  · exact reverse_lt _ _

theorem Params.refl_refl (K : Params) {c : Nat} (h : c < 2 ^ K.width) : K.refl (K.refl c) = c := by
  unfold Params.refl
  cases K.reversed
  · simp only [Bool.false_eq_true, if_false]; exact reverse_reverse h
  · simp

theorem Params.refl_xor (K : Params) (a b : Nat) : K.refl (a ^^^ b) = K.refl a ^^^ K.refl b := by
  unfold Params.refl; split
  · rfl
  · exact reverse_xor _ _ _

theorem inOrder_eq (K : Params) {k : Nat} (v : Nat) :
    inOrder K.reversed k v = low k (if K.reversed then v else reverse v k) := by
  unfold inOrder
  cases K.reversed
  · simp [low_eq, lsbFirst_reverse]
  · simp [low_eq]

theorem Params.inOrder_width (K : Params) (v : Nat) :
    inOrder K.reversed K.width v = low K.width (K.refl v) := by
  rw [inOrder_eq]; rfl

theorem split_low8 (c : Nat) : c = (c &&& 0xff) ^^^ ((c >>> 8) <<< 8) := by
  apply Nat.eq_of_testBit_eq
  intro i
  rw [Nat.testBit_xor, Nat.testBit_and, Nat.testBit_shiftLeft, Nat.testBit_shiftRight]
  have hff : Nat.testBit 0xff i = decide (i < 8) := Nat.testBit_two_pow_sub_one 8 i
  rw [hff]
  by_cases h : i < 8
  · have : ¬ (8 ≤ i) := by omega
    simp [h, this]
  · have h2 : 8 ≤ i := by omega
    simp [h, h2]

theorem shifts_low8 (p c b : Nat) :
    shifts 8 p ((c &&& 0xff) ^^^ b) ^^^ (c >>> 8) = shifts 8 p (c ^^^ b) := by
  rw [← shifts_xor_high]
  congr 1
  conv_rhs => rw [split_low8 c]
  rw [Nat.xor_assoc, Nat.xor_comm b, ← Nat.xor_assoc]

theorem byte_lt (b : UInt8) : b.toNat < 2 ^ 8 := by simpa using b.toNat_lt

theorem Params.byteStep_spec (K : Params) (hK : K.Valid) {c : Nat} (hc : c < 2 ^ K.width)
    (b : UInt8) :
    K.refl (K.byteStep c b) = proc K.rpoly (K.refl c) (inOrder K.reversed 8 b.toNat) ∧
      K.byteStep c b < 2 ^ K.width := by
  have hp : K.rpoly < 2 ^ K.width := reverse_lt _ _
  rw [inOrder_eq]
  have hbb : (if K.reversed then b.toNat else reverse b.toNat 8) < 2 ^ 8 := by
    split
    · exact byte_lt b
    · exact reverse_lt _ _
  rw [proc_low _ _ _ _ hbb]
  have hlt : shifts 8 K.rpoly (K.refl c ^^^ (if K.reversed then b.toNat else reverse b.toNat 8)) <
      2 ^ K.width := by
    rw [← proc_low _ _ _ _ hbb]
    exact proc_lt hK.width hp _ _ (K.refl_lt hc)
  cases hr : K.reversed with
  | true =>
    simp only [hr, if_true] at hbb hlt ⊢
    have hre : ∀ x, K.refl x = x := by intro x; simp [Params.refl, hr]
    rw [hre] at hlt
    rw [hre, hre]
    have key : K.byteStep c b = shifts 8 K.rpoly (c ^^^ b.toNat) := by
      unfold Params.byteStep
      rw [hr, if_pos rfl]
      split
      · simp [Params.table, tableEntry, hr, Params.rpoly]
      · simp only [Params.table, tableEntry, hr, if_true]
        exact shifts_low8 _ _ _
    rw [key]
    exact ⟨rfl, hlt⟩
  | false =>
    simp only [hr, Bool.false_eq_true, if_false] at hbb hlt ⊢
    have hre : ∀ x, K.refl x = reverse x K.width := by intro x; simp [Params.refl, hr]
    rw [hre] at hlt
    rw [hre, hre]
    have key : K.byteStep c b =
        reverse (shifts 8 K.rpoly (reverse c K.width ^^^ reverse b.toNat 8)) K.width := by
      unfold Params.byteStep
      rw [hr, if_neg (by decide)]
      split
      · rename_i hw
        simp only [Params.table, tableEntry, hr, Bool.false_eq_true, if_false]
        rw [reverse_xor]
        have : reverse (c <<< (8 - K.width) &&& 0xff) 8 = reverse c K.width := by
          apply Nat.eq_of_testBit_eq
          intro i
          rw [testBit_reverse, testBit_reverse, Nat.testBit_and, Nat.testBit_shiftLeft]
          have hff : ∀ j, Nat.testBit 0xff j = decide (j < 8) := fun j => Nat.testBit_two_pow_sub_one 8 j
          rw [hff]
          by_cases h1 : i < K.width
          · have h2 : i < 8 := by omega
            have h3 : 8 - K.width ≤ 7 - i := by omega
            have h4 : 7 - i < 8 := by omega
            have h5 : 7 - i - (8 - K.width) = K.width - 1 - i := by omega
            simp [h1, h2, h3, h4, h5]
          · by_cases h2 : i < 8
            · have h3 : ¬ (8 - K.width ≤ 7 - i) := by omega
              simp [h1, h2, h3]
            · simp [h1, h2]
        rw [this]; rfl
      · rename_i hw
        simp only [Params.table, tableEntry, hr, Bool.false_eq_true, if_false]
        rw [reverse_xor]
        have h1 : reverse (c >>> (K.width - 8)) 8 = reverse c K.width &&& 0xff := by
          apply Nat.eq_of_testBit_eq
          intro i
          rw [testBit_reverse, Nat.testBit_and, testBit_reverse, Nat.testBit_shiftRight]
          have hff : Nat.testBit 0xff i = decide (i < 8) := Nat.testBit_two_pow_sub_one 8 i
          rw [hff]
          by_cases h : i < 8
          · have h2 : i < K.width := by omega
            have h3 : K.width - 8 + (8 - 1 - i) = K.width - 1 - i := by omega
            simp only [h, h2, decide_true, Bool.true_and, Bool.and_true, h3]
          · simp [h]
        have h2 : (c <<< 8) &&& K.mask = reverse (reverse c K.width >>> 8) K.width := by
          apply Nat.eq_of_testBit_eq
          intro i
          have hmask : K.mask.testBit i = decide (i < K.width) := by
            unfold Params.mask
            rw [Nat.one_shiftLeft]
            exact Nat.testBit_two_pow_sub_one _ _
          rw [Nat.testBit_and, Nat.testBit_shiftLeft, testBit_reverse, Nat.testBit_shiftRight,
            testBit_reverse, hmask]
          by_cases h : i < K.width
          · by_cases h8 : 8 ≤ i
            · have h3 : 8 + (K.width - 1 - i) < K.width := by omega
              have h4 : K.width - 1 - (8 + (K.width - 1 - i)) = i - 8 := by omega
              simp [h, h8, h3, h4]
            · have h3 : ¬ (8 + (K.width - 1 - i) < K.width) := by omega
              simp [h, h8, h3]
          · simp [h]
        rw [h1, h2, ← reverse_xor]
        congr 1
        exact shifts_low8 _ _ _
    rw [key]
    exact ⟨reverse_reverse hlt, reverse_lt _ _⟩

theorem Params.update_spec (K : Params) (hK : K.Valid) (data : Bytes) :
    ∀ c, c < 2 ^ K.width →
      K.refl (K.update c data) = proc K.rpoly (K.refl c) (dataBits K.reversed data) ∧
        K.update c data < 2 ^ K.width := by
  induction data with
  | nil => intro c hc; exact ⟨rfl, hc⟩
  | cons b data ih =>
    intro c hc
    obtain ⟨h1, h2⟩ := K.byteStep_spec hK hc b
    obtain ⟨h3, h4⟩ := ih _ h2
    refine ⟨?_, h4⟩
    show K.refl (K.update (K.byteStep c b) data) = _
    rw [h3, h1, ← proc_append]
    rfl

theorem dataBits_append (r : Bool) (a b : Bytes) :
    dataBits r (a ++ b) = dataBits r a ++ dataBits r b := by
  unfold dataBits; rw [List.flatMap_append]

theorem lsbFirst_add (j k v : Nat) : lsbFirst (j + k) v = lsbFirst j v ++ lsbFirst k (v >>> j) := by
  unfold lsbFirst
  rw [List.range_add, List.map_append, List.map_map]
  congr 1
  apply List.map_congr_left
  intro i _
  simp [Nat.testBit_shiftRight]

theorem lsbFirst_mod (k v : Nat) : lsbFirst k (v % 2 ^ k) = lsbFirst k v := by
  unfold lsbFirst
  apply List.map_congr_left
  intro i hi
  rw [List.mem_range] at hi
  rw [Nat.testBit_mod_two_pow]
  simp [hi]

theorem dataBits_le (k n : Nat) : dataBits true (le k n) = lsbFirst (8 * k) n := by
  induction k generalizing n with
  | zero => rfl
  | succ k ih =>
    rw [le, show 8 * (k + 1) = 8 + 8 * k by omega, lsbFirst_add, Nat.shiftRight_eq_div_pow]
    have := ih (n / 256)
    unfold dataBits at *
    rw [List.flatMap_cons, this]
    congr 1
    show lsbFirst 8 _ = _
    rw [Verif.Fields.ofNat_toNat_lt (Nat.mod_lt _ (by norm_num))]
    exact lsbFirst_mod 8 n

theorem dataBits_reverse (d : Bytes) : dataBits false d.reverse = (dataBits true d).reverse := by
  induction d with
  | nil => rfl
  | cons b d ih =>
    rw [List.reverse_cons, dataBits_append, ih]
    have h1 : dataBits true (b :: d) = lsbFirst 8 b.toNat ++ dataBits true d := rfl
    have h2 : dataBits false [b] = msbFirst 8 b.toNat := by simp [dataBits, inOrder]
    rw [h1, h2, List.reverse_append]; rfl

theorem dataBits_be (k n : Nat) : dataBits false (be k n) = msbFirst (8 * k) n := by
  unfold be
  rw [dataBits_reverse, dataBits_le]; rfl

theorem rp_inj {w a b : Nat} (ha : a < 2 ^ w) (hb : b < 2 ^ w) (h : rp w a = rp w b) : a = b := by
  induction w generalizing a b with
  | zero => simp at ha hb; omega
  | succ w ih =>
    simp only [rp] at h
    have hc : ∀ x, (rp w x).coeff w = 0 := fun x => coeff_eq_zero_of_degree_lt (degree_rp_lt w x)
    have h0 := congrArg (fun q => q.coeff w) h
    simp only [coeff_add, hc, add_zero] at h0
    have hbit : a.testBit 0 = b.testBit 0 := by
      cases h1 : a.testBit 0 <;> cases h2 : b.testBit 0 <;> simp [cb, h1, h2] at h0 ⊢
    rw [hbit] at h
    have h' := add_left_cancel h
    have := ih (a := a >>> 1) (b := b >>> 1)
      (by rw [Nat.shiftRight_eq_div_pow]; rw [pow_succ] at ha; omega)
      (by rw [Nat.shiftRight_eq_div_pow]; rw [pow_succ] at hb; omega) h'
    rw [Nat.shiftRight_eq_div_pow, Nat.shiftRight_eq_div_pow] at this
    rw [Nat.testBit_zero, Nat.testBit_zero] at hbit
    have : a % 2 = b % 2 := by
      have h1 : a % 2 < 2 := Nat.mod_lt _ (by norm_num)
      have h2 : b % 2 < 2 := Nat.mod_lt _ (by norm_num)
      simp only [decide_eq_decide] at hbit
      omega
    omega

theorem degree_polyOf_lt (l : List Bool) : (polyOf l).degree < l.length := by
  induction l with
  | nil => simp [polyOf]
  | cons x l ih =>
    rw [polyOf_cons]
    refine lt_of_le_of_lt (degree_add_le _ _) ?_
    rw [max_lt_iff, List.length_cons]
    constructor
    · have : (cb x * X ^ l.length : F2[X]).degree ≤ l.length := by
        unfold cb
        split
        · rw [one_mul]; exact degree_X_pow_le _
        · simp
      exact lt_of_le_of_lt this (by exact_mod_cast Nat.lt_succ_self _)
    · exact lt_trans ih (by exact_mod_cast Nat.lt_succ_self _)

theorem polyOf_inj {a b : List Bool} (hl : a.length = b.length) (h : polyOf a = polyOf b) : a = b := by
  induction a generalizing b with
  | nil => exact (List.length_eq_zero_iff.1 hl.symm).symm
  | cons x a ih =>
    cases b with
    | nil => simp at hl
    | cons y b =>
      simp only [List.length_cons, Nat.add_right_cancel_iff] at hl
      rw [polyOf_cons, polyOf_cons, hl] at h
      have h1 : (polyOf a).coeff b.length = 0 :=
        coeff_eq_zero_of_degree_lt (by rw [← hl]; exact degree_polyOf_lt a)
      have h2 : (polyOf b).coeff b.length = 0 := coeff_eq_zero_of_degree_lt (degree_polyOf_lt b)
      have h0 := congrArg (fun q => q.coeff b.length) h
      simp only [coeff_add, h1, h2, add_zero] at h0
      have hxy : x = y := by
        cases x <;> cases y <;> simp [cb] at h0 ⊢
      subst hxy
      rw [ih hl (add_left_cancel h)]

/-! ## Bit counts that are not a multiple of eight -/

theorem shiftOne_bit (p v : Nat) (x : Bool) :
    shiftOne p (v ^^^ x.toNat) =
      if (x ^^ v.testBit 0) then (v >>> 1) ^^^ p else v >>> 1 := by
  rw [shiftOne_eq]
  have h1 : (v ^^^ x.toNat) >>> 1 = v >>> 1 := by
    apply Nat.eq_of_testBit_eq
    intro i
    rw [Nat.testBit_shiftRight, Nat.testBit_shiftRight, Nat.testBit_xor]
    have : x.toNat.testBit (1 + i) = false := by
      apply Nat.testBit_lt_two_pow
      have h2 : 2 ^ 1 ≤ 2 ^ (1 + i) := Nat.pow_le_pow_right (by norm_num) (by omega)
      cases x <;> simp <;> omega
    rw [this]; simp
  have h2 : (v ^^^ x.toNat).testBit 0 = (x ^^ v.testBit 0) := by
    rw [Nat.testBit_xor, Bool.xor_comm]
    cases x <;> simp
  rw [h1, h2]

theorem bitsRev_eq (p : Nat) : ∀ k b v, bitsRev k p b v = proc p v (low k b) := by
  intro k
  induction k with
  | zero => intro b v; rfl
  | succ k ih =>
    intro b v
    rw [bitsRev, ih, low, proc, shiftOne_bit]
    congr 1
    have : (b ^^^ v) &&& 1 ≠ 0 ↔ (b.testBit 0 ^^ v.testBit 0) = true := by
      rw [and_one_ne, Nat.testBit_xor]
    by_cases h : (b.testBit 0 ^^ v.testBit 0) = true
    · rw [if_pos (this.2 h), if_pos h]
    · rw [if_neg (fun h' => h (this.1 h')), if_neg h]

theorem Params.mask_testBit (K : Params) (i : Nat) : K.mask.testBit i = decide (i < K.width) := by
  unfold Params.mask
  rw [Nat.one_shiftLeft]
  exact Nat.testBit_two_pow_sub_one _ _

theorem Params.reverse_mask (K : Params) (v : Nat) :
    reverse (v &&& K.mask) K.width = reverse v K.width := by
  apply Nat.eq_of_testBit_eq
  intro i
  rw [testBit_reverse, testBit_reverse, Nat.testBit_and, K.mask_testBit]
  by_cases h : i < K.width
  · have : K.width - 1 - i < K.width := by omega
    simp [this]
  · simp [h]

theorem reverse_shl1 (v w : Nat) : reverse (v <<< 1) w = reverse v w >>> 1 := by
  apply Nat.eq_of_testBit_eq
  intro i
  rw [Nat.testBit_shiftRight, testBit_reverse, testBit_reverse, Nat.testBit_shiftLeft]
  by_cases h : 1 + i < w
  · have h1 : i < w := by omega
    have h2 : 1 ≤ w - 1 - i := by omega
    have h3 : w - 1 - i - 1 = w - 1 - (1 + i) := by omega
    simp only [h, h1, h2, h3, decide_true, Bool.true_and]
  · by_cases h1 : i < w
    · have h2 : ¬ (1 ≤ w - 1 - i) := by omega
      simp [h, h2]
    · simp [h, h1]

theorem Params.bitsFwd_eq (K : Params) (hK : K.Valid) (b : Nat) : ∀ k i v, i + k ≤ 8 →
    reverse (K.bitsFwd k i b v) K.width =
      proc K.rpoly (reverse v K.width) (((msbFirst 8 b).drop i).take k) := by
  intro k
  induction k with
  | zero => intro i v _; simp [Params.bitsFwd, proc]
  | succ k ih =>
    intro i v hi
    have hlen : (msbFirst 8 b).length = 8 := by simp [msbFirst, lsbFirst]
    have hd : (msbFirst 8 b).drop i = b.testBit (7 - i) :: (msbFirst 8 b).drop (i + 1) := by
      rw [List.drop_eq_getElem_cons (by omega)]
      congr 1
      simp [msbFirst, lsbFirst]
    rw [Params.bitsFwd, ih _ _ (by omega), hd, List.take_succ_cons, proc, shiftOne_bit,
      K.reverse_mask]
    congr 1
    have h0 : (reverse v K.width).testBit 0 = v.testBit (K.width - 1) := by
      rw [testBit_reverse]
      have := hK.width
      have h1 : 0 < K.width := by omega
      simp [h1]
    have : (b >>> (7 - i) ^^^ v >>> (K.width - 1)) &&& 1 ≠ 0 ↔
        (b.testBit (7 - i) ^^ (reverse v K.width).testBit 0) = true := by
      rw [and_one_ne, Nat.testBit_xor, h0, Nat.testBit_shiftRight, Nat.testBit_shiftRight]
      rfl
    by_cases h : (b.testBit (7 - i) ^^ (reverse v K.width).testBit 0) = true
    · rw [if_pos (this.2 h), if_pos h, reverse_xor, reverse_shl1]; rfl
    · rw [if_neg (fun h' => h (this.1 h')), if_neg h, reverse_shl1]

theorem Params.bitsFwd_lt (K : Params) (b : Nat) : ∀ k i v, v < 2 ^ K.width →
    K.bitsFwd k i b v < 2 ^ K.width := by
  intro k
  induction k with
  | zero => intro i v h; exact h
  | succ k ih =>
    intro i v h
    rw [Params.bitsFwd]
    apply ih
    apply Nat.lt_pow_two_of_testBit
    intro j hj
    rw [Nat.testBit_and, K.mask_testBit]
    have : ¬ (j < K.width) := by omega
    simp [this]

theorem dataBits_take (r : Bool) (data : Bytes) (n k : Nat) (hk : k ≤ 8) (h : n < data.length) :
    (dataBits r data).take (8 * n + k) =
      dataBits r (data.take n) ++ (inOrder r 8 (data.getD n 0).toNat).take k := by
  have h1 : data = data.take n ++ (data.getD n 0 :: data.drop (n + 1)) := by
    have : data.getD n 0 = data[n] := by simp [List.getD, h]
    rw [this, ← List.drop_eq_getElem_cons h, List.take_append_drop]
  conv_lhs => rw [h1]
  rw [dataBits_append]
  have hl : (dataBits r (data.take n)).length = 8 * n := by
    rw [dataBits_length, List.length_take]; omega
  rw [List.take_append, hl, List.take_of_length_le (by omega), Nat.add_sub_cancel_left]
  congr 1
  have : dataBits r (data.getD n 0 :: data.drop (n + 1)) =
      inOrder r 8 (data.getD n 0).toNat ++ dataBits r (data.drop (n + 1)) := rfl
  rw [this, List.take_append, inOrder_length, show k - 8 = 0 by omega]
  simp

theorem Params.table128 (K : Params) (h : K.reversed = true) : K.table 128 = K.rpoly := by
  unfold Params.table tableEntry
  simp only [h, if_true]
  simp [shifts, shiftOne, Params.rpoly]

/-- Exactly enough data: the register after the first `bits` bits. -/
theorem Params.updateBits_spec (K : Params) (hK : K.Valid) {c : Nat} (hc : c < 2 ^ K.width)
    (data : Bytes) (bits : Nat) (hl : data.length = (bits + 7) / 8) :
    ∃ v, K.updateBits c data bits = some v ∧ v < 2 ^ K.width ∧
      K.refl v = proc K.rpoly (K.refl c) ((dataBits K.reversed data).take bits) := by
  have hp : K.rpoly < 2 ^ K.width := reverse_lt _ _
  unfold Params.updateBits
  simp only
  rw [if_neg (by omega)]
  by_cases h0 : bits % 8 = 0
  · rw [if_pos h0]
    obtain ⟨h1, h2⟩ := K.update_spec hK data c hc
    refine ⟨_, rfl, h2, ?_⟩
    rw [h1, List.take_of_length_le (by rw [dataBits_length]; omega)]
  · rw [if_neg h0]
    obtain ⟨h1, h2⟩ := K.update_spec hK (data.take (bits / 8)) c hc
    refine ⟨_, rfl, ?_⟩
    have hb : bits = 8 * (bits / 8) + bits % 8 := by omega
    have htake := dataBits_take K.reversed data (bits / 8) (bits % 8) (by omega) (by omega)
    rw [← hb] at htake
    rw [htake, proc_append, ← h1]
    cases hr : K.reversed with
    | true =>
      rw [if_pos rfl, K.table128 hr, bitsRev_eq]
      have hre : ∀ x, K.refl x = x := by intro x; simp [Params.refl, hr]
      refine ⟨proc_lt hK.width hp _ _ h2, ?_⟩
      rw [hre, hre]
      congr 1
      rw [low_eq]
      unfold inOrder lsbFirst
      rw [if_pos rfl, ← List.map_take, List.take_range]
      congr 2
      omega
    | false =>
      rw [if_neg (by decide)]
      have hre : ∀ x, K.refl x = reverse x K.width := by intro x; simp [Params.refl, hr]
      refine ⟨K.bitsFwd_lt _ _ _ _ h2, ?_⟩
      rw [hre, hre, K.bitsFwd_eq hK _ _ _ _ (by omega)]
      simp [inOrder]

theorem le_len (k n : Nat) : (le k n).length = k := by
  induction k generalizing n with
  | zero => rfl
  | succ k ih => simp [le, ih]

theorem Params.updateInt_spec (K : Params) (hK : K.Valid) {c : Nat} (hc : c < 2 ^ K.width)
    (n bits : Nat) :
    ∃ v, K.updateInt c n bits = some v ∧ v < 2 ^ K.width ∧
      K.refl v = proc K.rpoly (K.refl c) (inOrder K.reversed bits n) := by
  unfold Params.updateInt
  simp only
  cases hr : K.reversed with
  | true =>
    rw [if_pos rfl]
    obtain ⟨v, h1, h2, h3⟩ := K.updateBits_spec hK hc (le ((bits + 7) / 8) n) bits (le_len _ _)
    refine ⟨v, h1, h2, ?_⟩
    rw [h3, hr, dataBits_le]
    congr 1
    unfold inOrder lsbFirst
    rw [if_pos rfl, ← List.map_take, List.take_range]
    congr 2
    omega
  | false =>
    rw [if_neg (by decide)]
    obtain ⟨v, h1, h2, h3⟩ := K.updateBits_spec hK hc
      (be ((bits + 7) / 8) (if bits % 8 = 0 then n else n <<< (8 - bits % 8))) bits
      (by unfold be; rw [List.length_reverse, le_len])
    refine ⟨v, h1, h2, ?_⟩
    rw [h3, hr, dataBits_be]
    congr 1
    simp only [inOrder, msbFirst, Bool.false_eq_true, if_false]
    by_cases h0 : bits % 8 = 0
    · rw [if_pos h0]
      have : 8 * ((bits + 7) / 8) = bits := by omega
      rw [this, List.take_of_length_le (by simp [lsbFirst])]
    · rw [if_neg h0]
      have : 8 * ((bits + 7) / 8) = (8 - bits % 8) + bits := by omega
      rw [this, lsbFirst_add, List.reverse_append]
      rw [List.take_append]
      have hl : (lsbFirst bits (n <<< (8 - bits % 8) >>> (8 - bits % 8))).reverse.length = bits := by
        simp [lsbFirst]
      rw [hl, Nat.sub_self, List.take_zero, List.append_nil, List.take_of_length_le (by omega)]
      rw [Nat.shiftLeft_shiftRight]

end Verif.Crc
