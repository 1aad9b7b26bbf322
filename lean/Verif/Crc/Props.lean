import Verif.Crc.Bridge
import Mathlib.Algebra.Polynomial.FieldDivision

/-!
# CRC: properties C10 and C11

The specification is the textbook one, over polynomials with coefficients in
`ZMod 2`: bits are coefficients, the first bit on the line being the highest
power (`polyOf`); "reversed" means that bytes and the register are taken low
bit first (`inOrder`, `dataBits`).
-/

namespace Verif.Crc

open Polynomial
open Verif.Fields (Bytes le)

/-- The generator: `x^width` plus the terms given by the bits of `poly`. -/
noncomputable def generator (K : Params) : F2[X] :=
  X ^ K.width + polyOf (msbFirst K.width K.poly)

/-- A register value as a polynomial. -/
noncomputable def regPoly (K : Params) (r : Nat) : F2[X] := polyOf (inOrder K.reversed K.width r)

/-- A byte string as a polynomial. -/
noncomputable def msgPoly (K : Params) (data : Bytes) : F2[X] := polyOf (dataBits K.reversed data)

theorem generator_eq (K : Params) : generator K = gen K.width K.rpoly := by
  unfold generator gen Params.rpoly
  rw [rp_eq, lsbFirst_reverse]

theorem regPoly_eq (K : Params) (r : Nat) : regPoly K r = rp K.width (K.refl r) := by
  unfold regPoly
  rw [K.inOrder_width, rp_eq, low_eq]

theorem generator_monic (K : Params) : (generator K).Monic := by
  rw [generator_eq]; exact gen_monic _ _

theorem generator_degree (K : Params) : (generator K).degree = K.width := by
  rw [generator_eq]; exact gen_degree _ _

theorem regPoly_degree (K : Params) (r : Nat) : (regPoly K r).degree < (generator K).degree := by
  rw [generator_degree, regPoly_eq]; exact degree_rp_lt _ _

theorem regPoly_inj (K : Params) {a b : Nat} (ha : a < 2 ^ K.width) (hb : b < 2 ^ K.width)
    (h : regPoly K a = regPoly K b) : a = b := by
  rw [regPoly_eq, regPoly_eq] at h
  have := rp_inj (K.refl_lt ha) (K.refl_lt hb) h
  rw [← K.refl_refl ha, ← K.refl_refl hb, this]

theorem regPoly_xor (K : Params) (a b : Nat) : regPoly K (a ^^^ b) = regPoly K a + regPoly K b := by
  rw [regPoly_eq, regPoly_eq, regPoly_eq, K.refl_xor, rp_xor]

theorem add_self2 (q : F2[X]) : q + q = 0 := CharTwo.add_self_eq_zero q

theorem zero_of_dvd (K : Params) {q : F2[X]} (h : generator K ∣ q)
    (hd : q.degree < (generator K).degree) : q = 0 := by
  by_contra h0
  exact (generator_monic K).not_dvd_of_degree_lt h0 hd h

/-- Two polynomials of small degree that agree modulo the generator. -/
theorem unique_rem (K : Params) {q r s : F2[X]} (hq : q.degree < (generator K).degree)
    (hr : r.degree < (generator K).degree) (h1 : generator K ∣ q + s) (h2 : generator K ∣ r + s) :
    q = r := by
  have h : generator K ∣ q + r := by
    have := dvd_add h1 h2
    have e : q + s + (r + s) = q + r := by
      rw [show q + s + (r + s) = q + r + (s + s) by ring, add_self2, add_zero]
    rwa [e] at this
  have hd : (q + r).degree < (generator K).degree :=
    lt_of_le_of_lt (degree_add_le _ _) (max_lt hq hr)
  have h0 := zero_of_dvd K h hd
  have : q + r + r = r := by rw [h0, zero_add]
  rwa [add_assoc, add_self2, add_zero] at this

theorem update_dvd (K : Params) (hK : K.Valid) {c : Nat} (hc : c < 2 ^ K.width) (data : Bytes) :
    generator K ∣ regPoly K (K.update c data) +
      (regPoly K c * X ^ (8 * data.length) + msgPoly K data * X ^ K.width) := by
  have hp : K.rpoly < 2 ^ K.width := reverse_lt _ _
  obtain ⟨h1, _⟩ := K.update_spec hK data c hc
  have := proc_dvd hK.width hp (dataBits K.reversed data) (K.refl c) (K.refl_lt hc)
  rw [← h1, dataBits_length] at this
  rw [generator_eq, regPoly_eq, regPoly_eq]
  exact this

theorem updateInt_dvd (K : Params) (hK : K.Valid) {c : Nat} (hc : c < 2 ^ K.width) (n bits : Nat) :
    ∃ v, K.updateInt c n bits = some v ∧ v < 2 ^ K.width ∧
      generator K ∣ regPoly K v +
        (regPoly K c * X ^ bits + polyOf (inOrder K.reversed bits n) * X ^ K.width) := by
  have hp : K.rpoly < 2 ^ K.width := reverse_lt _ _
  obtain ⟨v, h0, h2, h1⟩ := K.updateInt_spec hK hc n bits
  refine ⟨v, h0, h2, ?_⟩
  have := proc_dvd hK.width hp (inOrder K.reversed bits n) (K.refl c) (K.refl_lt hc)
  rw [← h1, inOrder_length] at this
  rw [generator_eq, regPoly_eq, regPoly_eq]
  exact this

theorem reg_lt (K : Params) (hK : K.Valid) (data : Bytes) : K.reg data < 2 ^ K.width :=
  (K.update_spec hK data _ hK.initial).2

theorem value_lt (K : Params) (hK : K.Valid) (data : Bytes) : K.value data < 2 ^ K.width :=
  Nat.xor_lt_two_pow (reg_lt K hK data) hK.final

/-- C10: the CRC of any byte string is the remainder of the message polynomial
times `x^width` (with the initial value in front of the message) on division by
the generator, plus the final value; this for every width, generator, initial
and final value and both bit orders. -/
theorem crc_is_remainder (K : Params) (hK : K.Valid) (data : Bytes) :
    K.value data < 2 ^ K.width ∧
    regPoly K (K.value data) =
      (msgPoly K data * X ^ K.width + regPoly K K.initial * X ^ (8 * data.length)) %ₘ generator K +
        regPoly K K.final := by
  refine ⟨value_lt K hK data, ?_⟩
  unfold Params.value
  rw [regPoly_xor]
  congr 1
  have h := update_dvd K hK hK.initial data
  rw [add_comm (regPoly K K.initial * _)] at h
  set s := msgPoly K data * X ^ K.width + regPoly K K.initial * X ^ (8 * data.length)
  refine unique_rem K (regPoly_degree K _) (degree_modByMonic_lt _ (generator_monic K)) h ?_
  have := modByMonic_add_div s (generator K)
  refine ⟨s /ₘ generator K, ?_⟩
  have e : s %ₘ generator K + s =
      (s %ₘ generator K + s %ₘ generator K) + generator K * (s /ₘ generator K) := by
    rw [add_assoc, this]
  rw [e, add_self2, zero_add]

/-- C10: feeding a message in pieces, cut anywhere, gives the same register as
feeding it at once. -/
theorem crc_incremental (K : Params) (pieces : List Bytes) :
    pieces.foldl K.update K.initial = K.reg pieces.flatten := by
  unfold Params.reg
  generalize K.initial = c
  induction pieces generalizing c with
  | nil => rfl
  | cons a l ih =>
    rw [List.foldl_cons, ih, List.flatten_cons]
    simp [Params.update, List.foldl_append]

/-- C10: `update_bits` consumes exactly the first `bits` bits: the register is
the remainder for the message followed by those bits. -/
theorem update_bits_is_remainder (K : Params) (hK : K.Valid) (data tail : Bytes) (bits : Nat)
    (hl : tail.length = (bits + 7) / 8) :
    ∃ v, K.updateBits (K.reg data) tail bits = some v ∧ v < 2 ^ K.width ∧
      generator K ∣ regPoly K v +
        (polyOf (dataBits K.reversed data ++ (dataBits K.reversed tail).take bits) * X ^ K.width +
          regPoly K K.initial * X ^ (8 * data.length + bits)) := by
  have hp : K.rpoly < 2 ^ K.width := reverse_lt _ _
  obtain ⟨v, h0, h2, h1⟩ := K.updateBits_spec hK (reg_lt K hK data) tail bits hl
  refine ⟨v, h0, h2, ?_⟩
  have h3 := (K.update_spec hK data _ hK.initial).1
  unfold Params.reg at h1
  rw [h3, ← proc_append] at h1
  have := proc_dvd hK.width hp (dataBits K.reversed data ++ (dataBits K.reversed tail).take bits)
    (K.refl K.initial) (K.refl_lt hK.initial)
  rw [← h1, List.length_append, List.length_take, dataBits_length, dataBits_length,
    Nat.min_eq_left (by omega), add_comm (rp _ _ * _)] at this
  rw [generator_eq, regPoly_eq, regPoly_eq]
  exact this

/-- The register after a message and its own CRC does not depend on the
message. -/
theorem check_common (K : Params) (hK : K.Valid) (data : Bytes) :
    ∃ v, K.updateInt (K.reg data) (K.value data) K.width = some v ∧ v < 2 ^ K.width ∧
      generator K ∣ regPoly K v + regPoly K K.final * X ^ K.width := by
  obtain ⟨v, h1, h2, h3⟩ := updateInt_dvd K hK (reg_lt K hK data) (K.value data) K.width
  refine ⟨v, h1, h2, ?_⟩
  have : polyOf (inOrder K.reversed K.width (K.value data)) =
      regPoly K (K.reg data) + regPoly K K.final := by
    rw [← regPoly_xor]; rfl
  rw [this] at h3
  have e : regPoly K (K.reg data) * X ^ K.width +
      (regPoly K (K.reg data) + regPoly K K.final) * X ^ K.width =
      regPoly K K.final * X ^ K.width := by
    rw [add_mul, ← add_assoc, add_self2, zero_add]
  rwa [e] at h3

theorem check_same (K : Params) (hK : K.Valid) (data : Bytes) :
    (K.updateInt (K.reg data) (K.value data) K.width).map (· ^^^ K.final) = K.goodvalue := by
  obtain ⟨v, h1, h2, h3⟩ := check_common K hK data
  obtain ⟨u, g1, g2, g3⟩ := check_common K hK [0]
  unfold Params.goodvalue
  rw [h1, g1]
  have : v = u := regPoly_inj K h2 g2
    (unique_rem K (regPoly_degree K _) (regPoly_degree K _) h3 g3)
  rw [this]

/-- C11: defining a CRC class never fails its own confirmation. -/
theorem class_confirmed (K : Params) (hK : K.Valid) : K.confirmed = true := by
  unfold Params.confirmed
  rw [check_same K hK]
  simp

/-- C11: a message followed by the bits of its CRC is accepted, for any width. -/
theorem crc_bits_good (K : Params) (hK : K.Valid) (data : Bytes) :
    ∃ v, K.updateInt (K.reg data) (K.value data) K.width = some v ∧
      some (v ^^^ K.final) = K.goodvalue := by
  obtain ⟨v, h1, _, _⟩ := check_common K hK data
  refine ⟨v, h1, ?_⟩
  have := check_same K hK data
  rw [h1] at this
  exact this

/-- C11: a message followed by `bytes (crc)` is accepted, for every message,
when the width is a whole number of bytes. -/
theorem crc_bytes_good (K : Params) (hK : K.Valid) (hw : K.width % 8 = 0) (data : Bytes) :
    K.good (data ++ K.bytes data) = true := by
  have h := check_same K hK data
  unfold Params.good
  rw [← h]
  unfold Params.updateInt Params.updateBits Params.value Params.bytes
  simp only [hw, if_true]
  have hd : (K.width + 7) / 8 = K.width / 8 := by omega
  have hlen : ((if K.reversed then le (K.width / 8) (K.reg data ^^^ K.final)
      else be (K.width / 8) (K.reg data ^^^ K.final)) : Bytes).length = K.width / 8 := by
    split
    · exact le_len _ _
    · unfold be; rw [List.length_reverse, le_len]
  rw [hd, hlen, if_neg (Nat.lt_irrefl _)]
  unfold Params.reg Params.update
  rw [List.foldl_append]
  rw [beq_iff_eq]; rfl

/-- The generator has a constant term: `poly` is odd. -/
theorem generator_coprime_X (K : Params) (hK : K.Valid) (hodd : K.poly % 2 = 1) (n : Nat) :
    IsCoprime (generator K) (X ^ n) := by
  apply IsCoprime.pow_right
  obtain ⟨w, hw⟩ : ∃ w, K.width = w + 1 := ⟨K.width - 1, by have := hK.width; omega⟩
  have h0 : msbFirst K.width K.poly = (lsbFirst w (K.poly >>> 1)).reverse ++ [true] := by
    unfold msbFirst
    rw [hw, Nat.add_comm w 1, lsbFirst_add, List.reverse_append]
    congr 1
    simp [lsbFirst, hodd]
  have h1 : generator K = X * (X ^ w + polyOf (lsbFirst w (K.poly >>> 1)).reverse) + 1 := by
    unfold generator
    rw [h0, polyOf_append, hw]
    simp [polyOf, cb]
    ring
  generalize X ^ w + polyOf (lsbFirst w (K.poly >>> 1)).reverse = q at h1
  refine ⟨1, q, ?_⟩
  rw [h1, show (1 * (X * q + 1) + q * X : F2[X]) = (X * q + X * q) + 1 by ring, add_self2, zero_add]

/-- C11: if two messages differ only inside a stretch of at most `width` bits,
their CRCs differ. -/
theorem burst_changes_crc (K : Params) (hK : K.Valid) (hodd : K.poly % 2 = 1)
    (d d' : Bytes) (pre a a' post : List Bool)
    (h : dataBits K.reversed d = pre ++ a ++ post)
    (h' : dataBits K.reversed d' = pre ++ a' ++ post)
    (hlen : a.length = a'.length) (hw : a.length ≤ K.width) (hne : a ≠ a') :
    K.value d ≠ K.value d' := by
  intro hv
  have hreg : K.reg d = K.reg d' := by
    unfold Params.value at hv
    exact Nat.xor_left_injective hv
  have hdl : 8 * d.length = 8 * d'.length := by
    rw [← dataBits_length K.reversed, ← dataBits_length K.reversed, h, h']
    simp [hlen]
  have h1 := update_dvd K hK hK.initial d
  have h2 := update_dvd K hK hK.initial d'
  unfold Params.reg at hreg
  rw [← hreg, ← hdl] at h2
  have h3 := dvd_add h1 h2
  have e : ∀ r i m m' : F2[X], r + (i + m) + (r + (i + m')) = m + m' := by
    intro r i m m'
    rw [show r + (i + m) + (r + (i + m')) = (r + r) + (i + i) + (m + m') by ring, add_self2,
      add_self2]
    ring
  rw [e] at h3
  unfold msgPoly at h3
  rw [h, h', polyOf_append, polyOf_append, polyOf_append, polyOf_append, hlen] at h3
  have e2 : ((polyOf pre * X ^ a'.length + polyOf a) * X ^ post.length + polyOf post) * X ^ K.width +
      ((polyOf pre * X ^ a'.length + polyOf a') * X ^ post.length + polyOf post) * X ^ K.width =
      (polyOf a + polyOf a') * X ^ (post.length + K.width) +
        ((polyOf pre * X ^ a'.length * X ^ post.length * X ^ K.width +
          polyOf pre * X ^ a'.length * X ^ post.length * X ^ K.width) +
          (polyOf post * X ^ K.width + polyOf post * X ^ K.width)) := by ring
  rw [e2, add_self2, add_self2, add_zero, add_zero] at h3
  have h4 : generator K ∣ polyOf a + polyOf a' :=
    (generator_coprime_X K hK hodd _).dvd_of_dvd_mul_right h3
  have h5 : (polyOf a + polyOf a').degree < (generator K).degree := by
    rw [generator_degree]
    have l1 := degree_polyOf_lt a
    have l2 := degree_polyOf_lt a'
    rw [← hlen] at l2
    have l3 : ((a.length : ℕ) : WithBot ℕ) ≤ K.width := by exact_mod_cast hw
    exact lt_of_lt_of_le (lt_of_le_of_lt (degree_add_le _ _) (max_lt l1 l2)) l3
  have h6 := zero_of_dvd K h4 h5
  apply hne
  apply polyOf_inj hlen
  have : polyOf a + polyOf a' + polyOf a' = polyOf a' := by rw [h6, zero_add]
  rwa [add_assoc, add_self2, add_zero] at this

/-- C11: whatever is accepted stops being accepted when the bits in a stretch
of at most `width` bits are changed in any way. -/
theorem burst_detected (K : Params) (hK : K.Valid) (hodd : K.poly % 2 = 1)
    (d d' : Bytes) (pre a a' post : List Bool)
    (h : dataBits K.reversed d = pre ++ a ++ post)
    (h' : dataBits K.reversed d' = pre ++ a' ++ post)
    (hlen : a.length = a'.length) (hw : a.length ≤ K.width) (hne : a ≠ a')
    (hgood : K.good d = true) : K.good d' = false := by
  have hv := burst_changes_crc K hK hodd d d' pre a a' post h h' hlen hw hne
  unfold Params.good at *
  rw [beq_iff_eq] at hgood
  rw [beq_eq_false_iff_ne, ← hgood]
  intro h0
  exact hv (Option.some.inj h0).symm

/-- ddcmp.py:58 `class CRC16 (crc.CRC, poly = (16, 15, 2, 0))`. -/
def CRC16 : Params := { width := 16, poly := 0x8005 }

theorem CRC16_valid : CRC16.Valid := by constructor <;> decide

/-- C11 for the CRC the program uses: appending makes it good. -/
theorem crc16_good (data : Bytes) : CRC16.good (data ++ CRC16.bytes data) = true :=
  crc_bytes_good CRC16 CRC16_valid (by decide) data

/-- The CRC-16 check value is zero. -/
theorem crc16_good_iff (data : Bytes) : CRC16.good data = true ↔ CRC16.reg data = 0 := by
  have h : CRC16.goodvalue = some 0 := by decide +kernel
  unfold Params.good Params.value
  rw [h]
  simp [CRC16]

/-- A message whose last two bytes are not its CRC is not accepted. -/
theorem crc16_only_good (data : Bytes) (x y : UInt8)
    (h : CRC16.good (data ++ [x, y]) = true) : [x, y] = CRC16.bytes data := by
  by_contra hne
  have hl : ∀ b : Bytes, b.length = 2 → ∃ p q, b = [p, q] := by
    intro b hb
    match b, hb with
    | [p, q], _ => exact ⟨p, q, rfl⟩
  obtain ⟨p, q, hpq⟩ := hl (CRC16.bytes data) (by
    show (le 2 _).length = 2
    exact le_len _ _)
  rw [hpq] at hne
  have hg := crc16_good data
  rw [hpq] at hg
  have hbits : dataBits true [x, y] ≠ dataBits true [p, q] := by
    intro hb
    apply hne
    have inj : ∀ u v : UInt8, inOrder true 8 u.toNat = inOrder true 8 v.toNat → u = v := by
      intro u v huv
      have h2 : rp 8 u.toNat = rp 8 v.toNat := by rw [rp_eq, rp_eq]; exact congrArg polyOf huv
      exact UInt8.toNat_inj.1 (rp_inj (byte_lt u) (byte_lt v) h2)
    have h2 : inOrder true 8 x.toNat ++ inOrder true 8 y.toNat =
        inOrder true 8 p.toNat ++ inOrder true 8 q.toNat := by
      simpa [dataBits] using hb
    obtain ⟨h3, h4⟩ := List.append_inj h2 (by rw [inOrder_length, inOrder_length])
    rw [inj _ _ h3, inj _ _ h4]
  have := burst_detected CRC16 CRC16_valid (by decide) _ (data ++ [x, y])
    (dataBits true data) (dataBits true [p, q]) (dataBits true [x, y]) []
    (by rw [List.append_nil]; exact dataBits_append _ _ _)
    (by rw [List.append_nil]; exact dataBits_append _ _ _)
    (by rw [dataBits_length, dataBits_length]; rfl)
    (by rw [dataBits_length]; exact Nat.le_refl 16) (fun h => hbits h.symm) hg
  rw [this] at h
  exact absurd h (by decide)

/-! ## Cases -/

-- The classic check string "123456789": CRC-16/ARC, CRC-32, CRC-16/XMODEM and a 5 bit CRC.
example : CRC16.value [0x31, 0x32, 0x33, 0x34, 0x35, 0x36, 0x37, 0x38, 0x39] = 0xbb3d := by
  decide +kernel
example : ({ width := 32, poly := 0x04c11db7, initial := 0xffffffff, final := 0xffffffff } : Params).value
    [0x31, 0x32, 0x33, 0x34, 0x35, 0x36, 0x37, 0x38, 0x39] = 0xcbf43926 := by decide +kernel
example : ({ width := 16, poly := 0x1021, reversed := false } : Params).value
    [0x31, 0x32, 0x33, 0x34, 0x35, 0x36, 0x37, 0x38, 0x39] = 0x31c3 := by decide +kernel
example : ({ width := 5, poly := 0x05, initial := 0x1f, final := 0x1f } : Params).value
    [0x31, 0x32, 0x33, 0x34, 0x35, 0x36, 0x37, 0x38, 0x39] = 0x19 := by decide +kernel
example : ({ width := 5, poly := 0x05, initial := 0x1f, final := 0x1f } : Params).Valid := by
  constructor <;> decide
example : CRC16.good ([1, 2, 3] ++ CRC16.bytes [1, 2, 3]) = true := by decide +kernel
-- A burst: bits 3..18 of the message are changed.
example : ∃ pre a a' post, dataBits true [1, 2, 3] = pre ++ a ++ post ∧
    dataBits true [1, 0xff, 3] = pre ++ a' ++ post ∧ a.length = a'.length ∧
    a.length ≤ CRC16.width ∧ a ≠ a' :=
  ⟨dataBits true [1], dataBits true [2], dataBits true [0xff], dataBits true [3],
    by decide +kernel, by decide +kernel, by decide +kernel, by decide +kernel, by decide +kernel⟩
example : CRC16.good [1, 2] = false := by decide +kernel

end Verif.Crc
