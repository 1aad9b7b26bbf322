import Verif.Crc.Model
import Verif.Fields.Lemmas
import Mathlib.Algebra.Polynomial.Div
import Mathlib.Algebra.Polynomial.Degree.Lemmas
import Mathlib.Algebra.CharP.Two
import Mathlib.Data.ZMod.Basic
import Mathlib.Tactic.LinearCombination

namespace Verif.Crc

open Polynomial
open Verif.Fields (Bytes le)

abbrev F2 := ZMod 2

/-- A bit as a constant polynomial. -/
noncomputable def cb (b : Bool) : F2[X] := if b then 1 else 0

/-- Bits as a polynomial, the first bit being the highest power. -/
noncomputable def polyOf (l : List Bool) : F2[X] := l.foldl (fun a b => a * X + cb b) 0

/-! ## Bit reversal -/

theorem testBit_revLoop (k : Nat) : ∀ (ret v i : Nat),
    (revLoop k ret v).testBit i = if i < k then v.testBit (k - 1 - i) else ret.testBit (i - k) := by
  induction k with
  | zero => intro ret v i; simp [revLoop]
  | succ k ih =>
    intro ret v i
    rw [revLoop, ih]
    by_cases h1 : i < k
    · rw [if_pos h1, if_pos (by omega), Nat.testBit_shiftRight]
      congr 1; omega
    · rw [if_neg h1]
      by_cases h2 : i = k
      · subst h2
        simp [Nat.testBit_or]
      · rw [if_neg (by omega), Nat.testBit_or, Nat.testBit_and]
        have e : i - k = (i - (k + 1)) + 1 := by omega
        have h3 : Nat.testBit 1 (i - k) = false := by
          exact Nat.testBit_lt_two_pow (Nat.one_lt_two_pow (by omega))
        rw [h3, Bool.and_false, Bool.or_false, Nat.testBit_shiftLeft]
        have : 1 ≤ i - k := by omega
        simp [this]
        congr 1

theorem testBit_reverse (v w i : Nat) :
    (reverse v w).testBit i = (decide (i < w) && v.testBit (w - 1 - i)) := by
  unfold reverse
  rw [testBit_revLoop]
  by_cases h : i < w <;> simp [h]

theorem reverse_lt (v w : Nat) : reverse v w < 2 ^ w := by
  apply Nat.lt_pow_two_of_testBit
  intro i hi
  rw [testBit_reverse]
  simp; omega

theorem reverse_reverse {v w : Nat} (h : v < 2 ^ w) : reverse (reverse v w) w = v := by
  apply Nat.eq_of_testBit_eq
  intro i
  rw [testBit_reverse]
  by_cases hi : i < w
  · rw [testBit_reverse]
    simp only [hi, decide_true, Bool.true_and]
    have : w - 1 - (w - 1 - i) = i := by omega
    rw [this]
    have : w - 1 - i < w := by omega
    simp [this]
  · have : v.testBit i = false := Nat.testBit_lt_two_pow (lt_of_lt_of_le h (Nat.pow_le_pow_right (by norm_num) (by omega)))
    simp [hi, this]

theorem reverse_xor (a b w : Nat) : reverse (a ^^^ b) w = reverse a w ^^^ reverse b w := by
  apply Nat.eq_of_testBit_eq
  intro i
  simp only [testBit_reverse, Nat.testBit_xor]
  by_cases hi : i < w <;> simp [hi]

/-! ## The shift register -/

theorem and_one_ne (i : Nat) : (i &&& 1 ≠ 0) ↔ i.testBit 0 = true := by
  rw [Nat.testBit_zero, Nat.and_one_is_mod]; simp

theorem shiftOne_eq (p i : Nat) :
    shiftOne p i = if i.testBit 0 then (i >>> 1) ^^^ p else i >>> 1 := by
  unfold shiftOne
  by_cases h : i.testBit 0 = true
  · rw [if_pos ((and_one_ne i).2 h), if_pos h]
  · rw [if_neg (fun hc => h ((and_one_ne i).1 hc)), if_neg h]

theorem shiftOne_xor_even (p x y : Nat) :
    shiftOne p (x ^^^ (y <<< 1)) = shiftOne p x ^^^ y := by
  have h0 : (x ^^^ (y <<< 1)).testBit 0 = x.testBit 0 := by
    rw [Nat.testBit_xor, Nat.testBit_shiftLeft]; simp
  have h1 : (x ^^^ (y <<< 1)) >>> 1 = (x >>> 1) ^^^ y := by
    apply Nat.eq_of_testBit_eq
    intro i
    rw [Nat.testBit_shiftRight, Nat.testBit_xor, Nat.testBit_xor, Nat.testBit_shiftRight,
      Nat.testBit_shiftLeft]
    simp
  rw [shiftOne_eq, shiftOne_eq, h0, h1]
  split
  · rw [Nat.xor_assoc, Nat.xor_comm y p, ← Nat.xor_assoc]
  · rfl

theorem shifts_xor_high (k p : Nat) : ∀ (x y : Nat),
    shifts k p (x ^^^ (y <<< k)) = shifts k p x ^^^ y := by
  induction k with
  | zero => intro x y; simp [shifts]
  | succ k ih =>
    intro x y
    rw [shifts, shifts, show y <<< (k + 1) = (y <<< k) <<< 1 by rw [← Nat.shiftLeft_add],
      shiftOne_xor_even, ih]

theorem shiftOne_lt {w p i : Nat} (hp : p < 2 ^ w) (hi : i < 2 ^ w) : shiftOne p i < 2 ^ w := by
  rw [shiftOne_eq]
  have : i >>> 1 < 2 ^ w := by rw [Nat.shiftRight_eq_div_pow]; omega
  split
  · exact Nat.xor_lt_two_pow this hp
  · exact this

/-- Feed bits, one at a time, into the shift register. -/
def proc (p : Nat) : Nat → List Bool → Nat
  | v, [] => v
  | v, b :: bs => proc p (shiftOne p (v ^^^ b.toNat)) bs

/-- `k` bits of `b`, low first. -/
def low : Nat → Nat → List Bool
  | 0, _ => []
  | k + 1, b => b.testBit 0 :: low k (b >>> 1)

theorem proc_append (p v : Nat) (l1 l2 : List Bool) :
    proc p v (l1 ++ l2) = proc p (proc p v l1) l2 := by
  induction l1 generalizing v with
  | nil => rfl
  | cons b l1 ih => exact ih _

theorem proc_low (p : Nat) : ∀ (k v b : Nat), b < 2 ^ k → proc p v (low k b) = shifts k p (v ^^^ b) := by
  intro k
  induction k with
  | zero => intro v b h; simp at h; subst h; simp [proc, low, shifts]
  | succ k ih =>
    intro v b h
    rw [low, proc, shifts, ih _ _ (by rw [Nat.shiftRight_eq_div_pow]; rw [pow_succ] at h; omega)]
    congr 1
    have hb : b = (b.testBit 0).toNat ^^^ ((b >>> 1) <<< 1) := by
      apply Nat.eq_of_testBit_eq
      intro i
      rw [Nat.testBit_xor, Nat.testBit_shiftLeft, Nat.testBit_shiftRight]
      cases i with
      | zero => cases hb : b.testBit 0 <;> simp
      | succ i =>
        have h0 : ((b.testBit 0).toNat).testBit (i + 1) = false := by
          cases b.testBit 0
          · simp
          · exact Nat.testBit_lt_two_pow (Nat.one_lt_two_pow (by omega))
        rw [h0]
        simp [Nat.add_comm]
    conv_rhs => rw [hb]
    rw [← Nat.xor_assoc, shiftOne_xor_even]

theorem proc_lt {w p : Nat} (hw : 1 ≤ w) (hp : p < 2 ^ w) (l : List Bool) :
    ∀ v, v < 2 ^ w → proc p v l < 2 ^ w := by
  induction l with
  | nil => intro v h; exact h
  | cons b l ih =>
    intro v h
    apply ih
    apply shiftOne_lt hp
    apply Nat.xor_lt_two_pow h
    have : 2 ^ 1 ≤ 2 ^ w := Nat.pow_le_pow_right (by norm_num) hw
    cases b <;> simp at * <;> omega

/-! ## Polynomials -/

@[simp] theorem cb_xor (a b : Bool) : cb (a ^^ b) = cb a + cb b := by
  cases a <;> cases b <;> simp [cb, CharTwo.add_self_eq_zero]

/-- The register as a polynomial: bit 0 is the highest power. -/
noncomputable def rp : Nat → Nat → F2[X]
  | 0, _ => 0
  | w + 1, v => cb (v.testBit 0) * X ^ w + rp w (v >>> 1)

theorem rp_xor (w : Nat) : ∀ a b, rp w (a ^^^ b) = rp w a + rp w b := by
  induction w with
  | zero => intro a b; simp [rp]
  | succ w ih =>
    intro a b
    simp only [rp]
    rw [Nat.shiftRight_xor_distrib, ih, Nat.testBit_xor, cb_xor]
    ring

theorem rp_peel (w : Nat) : ∀ v, rp (w + 1) v = X * rp w v + cb (v.testBit w) := by
  induction w with
  | zero => intro v; simp [rp]
  | succ w ih =>
    intro v
    rw [rp, ih, rp, Nat.testBit_shiftRight]
    rw [show 1 + w = w + 1 by omega]
    ring

theorem rp_shift {w v : Nat} (h : v < 2 ^ w) :
    rp w (v >>> 1) = X * rp w v + cb (v.testBit 0) * X ^ w := by
  have h1 := rp_peel w v
  rw [Nat.testBit_lt_two_pow h, rp] at h1
  simp only [cb] at h1
  have h2 : rp w (v >>> 1) = X * rp w v + 0 - cb (v.testBit 0) * X ^ w := by
    rw [eq_sub_iff_add_eq, add_comm]
    simpa [cb] using h1
  rw [h2, CharTwo.sub_eq_add, add_zero]

theorem rp_one {w : Nat} (hw : 1 ≤ w) (b : Bool) : X * rp w b.toNat = cb b * X ^ w := by
  obtain ⟨w, rfl⟩ : ∃ k, w = k + 1 := ⟨w - 1, by omega⟩
  have h0 : ∀ k, rp k 0 = 0 := by
    intro k
    induction k with
    | zero => rfl
    | succ k ih => simp [rp, ih, cb]
  have : b.toNat >>> 1 = 0 := by cases b <;> rfl
  rw [rp, this, h0]
  have : b.toNat.testBit 0 = b := by cases b <;> rfl
  rw [this]
  ring

/-- The generator polynomial for the reflected register constant `p`. -/
noncomputable def gen (w p : Nat) : F2[X] := X ^ w + rp w p

theorem step_dvd {w p v : Nat} (hw : 1 ≤ w) (h : v < 2 ^ w) (b : Bool) :
    gen w p ∣ rp w (shiftOne p (v ^^^ b.toNat)) + (X * rp w v + cb b * X ^ w) := by
  have hb : v ^^^ b.toNat < 2 ^ w := by
    apply Nat.xor_lt_two_pow h
    have : 2 ^ 1 ≤ 2 ^ w := Nat.pow_le_pow_right (by norm_num) hw
    cases b <;> simp at * <;> omega
  have key : rp w (shiftOne p (v ^^^ b.toNat)) =
      rp w ((v ^^^ b.toNat) >>> 1) + cb ((v ^^^ b.toNat).testBit 0) * rp w p := by
    rw [shiftOne_eq]
    cases h0 : (v ^^^ b.toNat).testBit 0
    · simp [cb]
    · simp [cb, rp_xor]
  rw [key, rp_shift hb, rp_xor]
  refine ⟨cb ((v ^^^ b.toNat).testBit 0), ?_⟩
  unfold gen
  have h1 := rp_one hw b
  rw [mul_add, h1]
  have h2 : ∀ a : F2[X], a + a = 0 := CharTwo.add_self_eq_zero
  linear_combination h2 (X * rp w v) + h2 (cb b * X ^ w)

theorem polyOf_append (a b : List Bool) :
    polyOf (a ++ b) = polyOf a * X ^ b.length + polyOf b := by
  unfold polyOf
  rw [List.foldl_append]
  generalize List.foldl (fun a b => a * X + cb b) 0 a = q
  have : ∀ (b : List Bool) (q : F2[X]), List.foldl (fun a b => a * X + cb b) q b =
      q * X ^ b.length + List.foldl (fun a b => a * X + cb b) 0 b := by
    intro b
    induction b with
    | nil => intro q; simp
    | cons x b ih =>
      intro q
      rw [List.foldl_cons, List.foldl_cons, ih, ih (0 * X + cb x)]
      simp only [List.length_cons]
      ring
  exact this b q

theorem polyOf_cons (x : Bool) (b : List Bool) :
    polyOf (x :: b) = cb x * X ^ b.length + polyOf b := by
  have := polyOf_append [x] b
  simpa [polyOf] using this

/-- Feeding bits divides: the register after `l` is congruent to
`X ^ n * register + X ^ w * message`. -/
theorem proc_dvd {w p : Nat} (hw : 1 ≤ w) (hp : p < 2 ^ w) (l : List Bool) :
    ∀ v, v < 2 ^ w → gen w p ∣ rp w (proc p v l) + (rp w v * X ^ l.length + polyOf l * X ^ w) := by
  induction l with
  | nil =>
    intro v _
    simp [proc, polyOf, CharTwo.add_self_eq_zero]
  | cons b l ih =>
    intro v h
    have hlt : shiftOne p (v ^^^ b.toNat) < 2 ^ w := proc_lt hw hp [b] v h
    have h1 := ih _ hlt
    have h2 := (step_dvd (p := p) hw h b).mul_right (X ^ l.length)
    have := dvd_add h1 h2
    rw [proc]
    have h3 : ∀ a : F2[X], a + a = 0 := CharTwo.add_self_eq_zero
    convert this using 1
    rw [polyOf_cons, List.length_cons]
    linear_combination -h3 (rp w (shiftOne p (v ^^^ b.toNat)) * X ^ l.length)

theorem degree_rp_lt (w v : Nat) : (rp w v).degree < w := by
  induction w generalizing v with
  | zero => simp [rp]
  | succ w ih =>
    rw [rp]
    refine lt_of_le_of_lt (degree_add_le _ _) ?_
    rw [max_lt_iff]
    constructor
    · have : (cb (v.testBit 0) * X ^ w : F2[X]).degree ≤ w := by
        unfold cb
        split
        · rw [one_mul]; exact degree_X_pow_le w
        · simp
      exact lt_of_le_of_lt this (by exact_mod_cast Nat.lt_succ_self w)
    · exact lt_trans (ih _) (by exact_mod_cast Nat.lt_succ_self w)

theorem gen_monic (w p : Nat) : (gen w p).Monic := by
  unfold gen
  exact monic_X_pow_add (by exact_mod_cast degree_rp_lt w p)

theorem gen_degree (w p : Nat) : (gen w p).degree = w := by
  unfold gen
  rw [degree_add_eq_left_of_degree_lt]
  · exact degree_X_pow w
  · rw [degree_X_pow]; exact degree_rp_lt w p

end Verif.Crc
