import Verif.Nice.Model
import Verif.Fields.Lemmas
import Verif.Fields.Roundtrip

namespace Verif.Nice

open Verif.Fields (Bytes le fromLe toBytes signedEnc byte latin1Enc latin1Dec)

theorem ebind_ok {α β : Type} {x : Except Err α} {f : α → Except Err β} {y : β} :
    (x >>= f) = .ok y ↔ ∃ a, x = .ok a ∧ f a = .ok y := by
  cases x with
  | error e => simp [bind, Except.bind]
  | ok a => simp [bind, Except.bind]

@[simp] theorem epure {α : Type} {a : α} : (pure a : Except Err α) = .ok a := rfl

@[simp] theorem up_ok {α : Type} {x : Except Fields.Err α} {a : α} : up x = .ok a ↔ x = .ok a := by
  cases x <;> simp [up, Except.mapError]

/-! ## Validity -/

/-- There is a class for the type: lengths 1 to 15 (31 for coded values). -/
def Simple.Valid : Simple → Prop
  | .num t n _ => 1 ≤ n ∧ n ≤ t.maxLen
  | _ => True

def Val.Valid : Val → Prop
  | .one s => s.Valid
  | .many ss => 1 ≤ ss.length ∧ ss.length ≤ 31 ∧ ∀ s ∈ ss, s.Valid

def Val.code : Val → Nat
  | .one s => s.code
  | .many ss => 0xc0 + ss.length

def Ty.Valid : Ty → Prop
  | .num t n => 1 ≤ n ∧ n ≤ t.maxLen
  | .cm n => 1 ≤ n ∧ n ≤ 31
  | _ => True

def Ty.code : Ty → Nat
  | .num t n => t.base + n
  | .ai => 0x40
  | .hi => 0x20
  | .cm n => 0xc0 + n

def Simple.ty : Simple → Ty
  | .num t n _ => .num t n
  | .ai _ => .ai
  | .hi _ => .hi

def Val.ty : Val → Ty
  | .one s => s.ty
  | .many ss => .cm ss.length

instance : (t : Ty) → Decidable t.Valid
  | .num t n => inferInstanceAs (Decidable (1 ≤ n ∧ n ≤ t.maxLen))
  | .cm n => inferInstanceAs (Decidable (1 ≤ n ∧ n ≤ 31))
  | .ai => isTrue trivial
  | .hi => isTrue trivial

def classGood (c : Nat) : Bool :=
  match classOf c with
  | .ok ty => decide (ty.Valid ∧ ty.code = c)
  | .error e => decide (e = .decodeError)

theorem classGood_all : ∀ c : Fin 256, classGood c.val = true := by decide +kernel

theorem classOf_num (t : Num) : ∀ n : Fin 32, 1 ≤ n.val ∧ n.val ≤ t.maxLen →
    classOf (t.base + n.val) = .ok (.num t n.val) := by
  cases t <;> decide +kernel

theorem classOf_cm : ∀ n : Fin 32, 1 ≤ n.val → classOf (0xc0 + n.val) = .ok (.cm n.val) := by
  decide +kernel

theorem Ty.Valid.classOf {ty : Ty} (h : ty.Valid) : classOf ty.code = .ok ty := by
  cases ty with
  | num t n =>
    have : n < 32 := by have := h.2; cases t <;> simp [Num.maxLen] at this <;> omega
    exact classOf_num t ⟨n, this⟩ h
  | ai => decide
  | hi => decide
  | cm n => exact classOf_cm ⟨n, by have := h.2; omega⟩ h.1

theorem classOf_ok {c : Nat} (hc : c < 256) {ty : Ty} :
    Nice.classOf c = .ok ty ↔ ty.Valid ∧ ty.code = c := by
  constructor
  · intro h
    have := classGood_all ⟨c, hc⟩
    simp only [classGood, h, decide_eq_true_eq] at this
    exact this
  · rintro ⟨h, rfl⟩; exact h.classOf

theorem classOf_err {c : Nat} (hc : c < 256) {e : Err} (h : Nice.classOf c = .error e) :
    e = .decodeError := by
  have := classGood_all ⟨c, hc⟩
  simp only [classGood, h, decide_eq_true_eq] at this
  exact this

theorem Ty.Valid.code_lt {ty : Ty} (h : ty.Valid) : ty.code < 256 := by
  cases ty with
  | num t n => cases t <;> simp [Ty.Valid, Num.maxLen, Ty.code, Num.base] at h ⊢ <;> omega
  | ai => decide
  | hi => decide
  | cm n => simp [Ty.Valid, Ty.code] at h ⊢; omega

/-! ## Simple values -/

theorem decNum_iff {t : Num} {n : Nat} (hn : 1 ≤ n) {b r : Bytes} {s : Simple} :
    decNum t n b = .ok (s, r) ↔
      ∃ v d, s = .num t n v ∧ numBytes t n v = .ok d ∧ b = d ++ r := by
  by_cases ht : t = .ds
  · subst ht
    have key : ∀ v, Fields.signedDec n b = .ok (v, r) ↔
        b.length ≥ n ∧ v = toInt .ds n (fromLe (b.take n)) ∧ r = b.drop n := by
      intro v
      unfold Fields.signedDec
      rw [Fields.bind_ok]
      simp only [Fields.require_ok, Fields.pure_eq_ok, Except.ok.injEq, Prod.mk.injEq, toInt,
        if_true]
      constructor
      · rintro ⟨_, h1, h2, h3⟩; exact ⟨h1, h2.symm, h3.symm⟩
      · rintro ⟨h1, h2, h3⟩; exact ⟨(), h1, h2.symm, h3.symm⟩
    have e : ∀ v, numBytes .ds n v = up (signedEnc n v) := fun v => by simp [numBytes]
    simp only [e, up_ok, Fields.signedEnc_ok]
    unfold decNum
    constructor
    · intro h
      split at h
      · cases h
      · rename_i hl
        simp only [Except.ok.injEq, Prod.mk.injEq] at h
        have := (key _).2 ⟨by omega, rfl, h.2.symm⟩
        obtain ⟨h1, h2, h3⟩ := (Fields.signedDec_ok hn).1 this
        exact ⟨_, _, h.1.symm, ⟨h1, h2, rfl⟩, h3⟩
    · rintro ⟨v, d, rfl, ⟨h1, h2, rfl⟩, h3⟩
      obtain ⟨k1, k2, k3⟩ := (key v).1 ((Fields.signedDec_ok hn).2 ⟨h1, h2, h3⟩)
      rw [if_neg (by omega), ← k2, ← k3]
  · have e : ∀ v, numBytes t n v = up (toBytes n v) := fun v => by simp [numBytes, ht]
    simp only [e, up_ok, Fields.toBytes_ok]
    have hi : ∀ u, toInt t n u = (u : Int) := fun u => by simp [toInt, ht]
    unfold decNum
    rw [hi]
    constructor
    · intro h
      split at h
      · cases h
      · rename_i hl
        simp only [Except.ok.injEq, Prod.mk.injEq] at h
        have hlen : (b.take n).length = n := by simp; omega
        have := Fields.fromLe_lt (b.take n)
        rw [hlen] at this
        refine ⟨_, _, h.1.symm, ⟨by omega, by exact_mod_cast this, rfl⟩, ?_⟩
        rw [Int.toNat_natCast, Fields.le_fromLe' hlen, ← h.2, List.take_append_drop]
    · rintro ⟨v, d, rfl, ⟨h1, h2, rfl⟩, rfl⟩
      have hlen := Fields.le_length n v.toNat
      rw [if_neg (by simp), List.take_left' hlen, List.drop_left' hlen,
        Fields.fromLe_le_lt (Fields.toNat_lt_pow h1 h2), Int.toNat_of_nonneg h1]

theorem counted_ok {b d : Bytes} :
    counted b = .ok d ↔ b.length < 256 ∧ d = UInt8.ofNat b.length :: b := by
  unfold counted
  rw [up_ok, Fields.bind_ok]
  simp only [Fields.pure_eq_ok, Except.ok.injEq]
  constructor
  · rintro ⟨x, h, rfl⟩
    obtain ⟨h1, rfl⟩ := Fields.byte_ok.1 h
    exact ⟨h1, rfl⟩
  · rintro ⟨h, rfl⟩; exact ⟨_, Fields.byte_ok.2 ⟨h, rfl⟩, rfl⟩

theorem decCounted_iff {b s r : Bytes} :
    decCounted b = .ok (s, r) ↔ ∃ d, counted s = .ok d ∧ b = d ++ r := by
  simp only [counted_ok]
  cases b with
  | nil => simp [decCounted]
  | cons l b =>
    have hl : l.toNat < 256 := by simpa using l.toNat_lt
    simp only [decCounted]
    constructor
    · intro h
      split at h
      · cases h
      · rename_i hn
        simp only [Except.ok.injEq, Prod.mk.injEq] at h
        have hlen : s.length = l.toNat := by rw [← h.1]; simp; omega
        refine ⟨_, ⟨by omega, rfl⟩, ?_⟩
        rw [hlen, UInt8.ofNat_toNat, ← h.1, ← h.2]; simp
    · rintro ⟨d, ⟨h1, rfl⟩, h2⟩
      simp only [List.cons_append, List.cons.injEq] at h2
      obtain ⟨rfl, rfl⟩ := h2
      have e : (UInt8.ofNat s.length).toNat = s.length := by
        rw [UInt8.toNat_ofNat']; omega
      rw [e, if_neg (by simp)]
      simp

theorem decSimple_iff {ty : Ty} (hv : ty.Valid) {b r : Bytes} {s : Simple} :
    decSimple ty b = .ok (s, r) ↔ s.ty = ty ∧ ∃ d, s.body = .ok d ∧ b = d ++ r := by
  cases ty with
  | num t n =>
    show decNum t n b = .ok (s, r) ↔ _
    rw [decNum_iff hv.1]
    constructor
    · rintro ⟨v, d, rfl, h, rfl⟩; exact ⟨rfl, d, h, rfl⟩
    · rintro ⟨h, d, h2, rfl⟩
      cases s with
      | num t' n' v => cases h; exact ⟨v, d, rfl, h2, rfl⟩
      | ai _ => cases h
      | hi _ => cases h
  | ai =>
    simp only [decSimple]
    rw [ebind_ok]
    constructor
    · rintro ⟨⟨x, y⟩, h, h2⟩
      simp only [epure, Except.ok.injEq, Prod.mk.injEq] at h2
      obtain ⟨rfl, rfl⟩ := h2
      obtain ⟨d, hd, hb⟩ := decCounted_iff.1 h
      refine ⟨rfl, d, ?_, hb⟩
      simp only [Simple.body]
      rw [ebind_ok]
      exact ⟨x, up_ok.2 (Fields.latin1Enc_dec x), hd⟩
    · rintro ⟨h, d, h2, rfl⟩
      cases s with
      | num _ _ _ => cases h
      | hi _ => cases h
      | ai s =>
        simp only [Simple.body] at h2
        rw [ebind_ok] at h2
        obtain ⟨x, hx, hd⟩ := h2
        obtain ⟨hs, rfl⟩ := Fields.latin1Enc_ok.1 (up_ok.1 hx)
        refine ⟨(_, r), decCounted_iff.2 ⟨d, hd, rfl⟩, ?_⟩
        simp only [epure, Except.ok.injEq, Prod.mk.injEq, Simple.ai.injEq, and_true]
        exact Fields.latin1Dec_enc hs
  | hi =>
    simp only [decSimple]
    rw [ebind_ok]
    constructor
    · rintro ⟨⟨x, y⟩, h, h2⟩
      simp only [epure, Except.ok.injEq, Prod.mk.injEq] at h2
      obtain ⟨rfl, rfl⟩ := h2
      obtain ⟨d, hd, hb⟩ := decCounted_iff.1 h
      exact ⟨rfl, d, hd, hb⟩
    · rintro ⟨h, d, h2, rfl⟩
      cases s with
      | num _ _ _ => cases h
      | ai _ => cases h
      | hi s => exact ⟨(_, r), decCounted_iff.2 ⟨d, h2, rfl⟩, rfl⟩
  | cm n =>
    constructor
    · intro h; cases h
    · rintro ⟨h, _⟩; cases s <;> cases h

theorem Simple.valid_iff (s : Simple) : s.Valid ↔ s.ty.Valid := by cases s <;> rfl

theorem Simple.code_ty (s : Simple) : s.ty.code = s.code := by cases s <;> rfl

theorem Simple.enc_ok {s : Simple} {e : Bytes} :
    s.enc = .ok e ↔ s.code < 256 ∧ ∃ d, s.body = .ok d ∧ e = UInt8.ofNat s.code :: d := by
  unfold Simple.enc
  rw [ebind_ok]
  constructor
  · rintro ⟨a, h, h2⟩
    obtain ⟨d, hd, h3⟩ := ebind_ok.1 h2
    obtain ⟨h1, rfl⟩ := Fields.byte_ok.1 (up_ok.1 h)
    simp only [epure, Except.ok.injEq] at h3
    exact ⟨h1, d, hd, h3.symm⟩
  · rintro ⟨h, d, hd, rfl⟩
    exact ⟨_, up_ok.2 (Fields.byte_ok.2 ⟨h, rfl⟩), ebind_ok.2 ⟨d, hd, rfl⟩⟩

/-! ## Multiples -/

theorem encAll_cons {s : Simple} {ss : List Simple} {e : Bytes} :
    encAll (s :: ss) = .ok e ↔ ∃ a b, s.enc = .ok a ∧ encAll ss = .ok b ∧ e = a ++ b := by
  simp only [encAll]
  rw [ebind_ok]
  constructor
  · rintro ⟨a, h, h2⟩
    obtain ⟨b, hb, h3⟩ := ebind_ok.1 h2
    simp only [epure, Except.ok.injEq] at h3
    exact ⟨a, b, h, hb, h3.symm⟩
  · rintro ⟨a, b, h, hb, rfl⟩
    exact ⟨a, h, ebind_ok.2 ⟨b, hb, rfl⟩⟩

theorem u8_ofNat_toNat {n : Nat} (h : n < 256) : (UInt8.ofNat n).toNat = n := by
  rw [UInt8.toNat_ofNat']; omega

theorem decAll_iff {k : Nat} {b r : Bytes} {ss : List Simple} :
    decAll k b = .ok (ss, r) ↔
      ss.length = k ∧ (∀ s ∈ ss, s.Valid) ∧ ∃ e, encAll ss = .ok e ∧ b = e ++ r := by
  induction k generalizing b ss with
  | zero =>
    simp only [decAll, Except.ok.injEq, Prod.mk.injEq]
    constructor
    · rintro ⟨rfl, rfl⟩; exact ⟨rfl, by simp, [], rfl, rfl⟩
    · rintro ⟨h, _, e, he, rfl⟩
      cases List.length_eq_zero_iff.1 h
      simp only [encAll, Except.ok.injEq] at he
      subst he; exact ⟨rfl, rfl⟩
  | succ k ih =>
    cases b with
    | nil =>
      constructor
      · intro h; cases h
      · rintro ⟨h, _, e, he, h2⟩
        cases ss with
        | nil => simp at h
        | cons s ss =>
          obtain ⟨a, _, ha, _, rfl⟩ := encAll_cons.1 he
          obtain ⟨_, d, _, rfl⟩ := Simple.enc_ok.1 ha
          simp at h2
    | cons c b =>
      have hc : c.toNat < 256 := by simpa using c.toNat_lt
      simp only [decAll]
      rw [ebind_ok]
      constructor
      · rintro ⟨ty, h1, h2⟩
        obtain ⟨⟨s, b2⟩, h3, h4⟩ := ebind_ok.1 h2
        obtain ⟨⟨ss', b3⟩, h5, h6⟩ := ebind_ok.1 h4
        simp only [epure, Except.ok.injEq, Prod.mk.injEq] at h6
        obtain ⟨rfl, rfl⟩ := h6
        obtain ⟨hv, hcode⟩ := (classOf_ok hc).1 h1
        obtain ⟨hty, d, hd, rfl⟩ := (decSimple_iff hv).1 h3
        obtain ⟨i1, i2, e, he, rfl⟩ := ih.1 h5
        subst hty
        rw [Simple.code_ty] at hcode
        refine ⟨by simp [i1], ?_, UInt8.ofNat s.code :: d ++ e, ?_, ?_⟩
        · intro x hx
          rcases List.mem_cons.1 hx with rfl | hx
          · exact (Simple.valid_iff _).2 hv
          · exact i2 x hx
        · exact encAll_cons.2 ⟨_, _, Simple.enc_ok.2 ⟨by omega, d, hd, rfl⟩, he, rfl⟩
        · rw [hcode]; simp
      · rintro ⟨h, hval, e, he, h2⟩
        cases ss with
        | nil => simp at h
        | cons s ss =>
          obtain ⟨a, e2, ha, he2, rfl⟩ := encAll_cons.1 he
          obtain ⟨hlt, d, hd, rfl⟩ := Simple.enc_ok.1 ha
          simp only [List.cons_append, List.cons.injEq] at h2
          obtain ⟨rfl, rfl⟩ := h2
          have hv : s.ty.Valid := (Simple.valid_iff s).1 (hval s (by simp))
          refine ⟨s.ty, (classOf_ok hc).2 ⟨hv, ?_⟩, ?_⟩
          · rw [u8_ofNat_toNat hlt, Simple.code_ty]
          · refine ebind_ok.2 ⟨(s, e2 ++ r), (decSimple_iff hv).2 ⟨rfl, d, hd, by simp⟩, ?_⟩
            refine ebind_ok.2 ⟨(ss, r), ih.2 ⟨by simpa using h, fun x hx => hval x (by simp [hx]),
              e2, he2, rfl⟩, rfl⟩

theorem Val.valid_iff (v : Val) : v.Valid → v.ty.Valid := by
  cases v with
  | one s => exact (Simple.valid_iff s).1
  | many ss => exact fun h => ⟨h.1, h.2.1⟩

theorem Val.code_ty (v : Val) : v.ty.code = v.code := by
  cases v with
  | one s => exact Simple.code_ty s
  | many ss => rfl

theorem Val.enc_many {ss : List Simple} {e : Bytes} :
    (Val.many ss).enc = .ok e ↔
      0xc0 + ss.length < 256 ∧ ∃ d, encAll ss = .ok d ∧ e = UInt8.ofNat (0xc0 + ss.length) :: d := by
  simp only [Val.enc]
  rw [ebind_ok]
  constructor
  · rintro ⟨d, hd, h2⟩
    obtain ⟨x, hx, h3⟩ := ebind_ok.1 h2
    obtain ⟨h1, rfl⟩ := Fields.byte_ok.1 (up_ok.1 hx)
    simp only [epure, Except.ok.injEq] at h3
    exact ⟨h1, d, hd, h3.symm⟩
  · rintro ⟨h, d, hd, rfl⟩
    exact ⟨d, hd, ebind_ok.2 ⟨_, up_ok.2 (Fields.byte_ok.2 ⟨h, rfl⟩), rfl⟩⟩

theorem decVal_iff {ty : Ty} (hv : ty.Valid) {b r : Bytes} {v : Val} :
    decVal ty b = .ok (v, r) ↔
      v.Valid ∧ v.ty = ty ∧ ∃ d, v.enc = .ok (UInt8.ofNat v.code :: d) ∧ b = d ++ r := by
  have simple : ∀ (h : ∀ n, ty ≠ .cm n),
      ((do let (s, b) ← decSimple ty b; return (Val.one s, b)) = Except.ok (v, r) ↔
        v.Valid ∧ v.ty = ty ∧ ∃ d, v.enc = .ok (UInt8.ofNat v.code :: d) ∧ b = d ++ r) := by
    intro hne
    rw [ebind_ok]
    constructor
    · rintro ⟨⟨s, b2⟩, h, h2⟩
      simp only [epure, Except.ok.injEq, Prod.mk.injEq] at h2
      obtain ⟨rfl, rfl⟩ := h2
      obtain ⟨rfl, d, hd, rfl⟩ := (decSimple_iff hv).1 h
      have := hv.code_lt
      rw [Simple.code_ty] at this
      exact ⟨(Simple.valid_iff s).2 hv, rfl, d, Simple.enc_ok.2 ⟨this, d, hd, rfl⟩, rfl⟩
    · rintro ⟨h1, h2, d, hd, rfl⟩
      cases v with
      | many ss => exact absurd h2.symm (hne _)
      | one s =>
        obtain ⟨_, d', hd', h3⟩ := Simple.enc_ok.1 hd
        simp only [Val.code, List.cons.injEq, true_and] at h3
        subst h3
        exact ⟨(s, r), (decSimple_iff hv).2 ⟨h2, d, hd', rfl⟩, rfl⟩
  cases ty with
  | num t n => exact simple (by simp)
  | ai => exact simple (by simp)
  | hi => exact simple (by simp)
  | cm n =>
    simp only [decVal]
    rw [ebind_ok]
    constructor
    · rintro ⟨⟨ss, b2⟩, h, h2⟩
      simp only [epure, Except.ok.injEq, Prod.mk.injEq] at h2
      obtain ⟨rfl, rfl⟩ := h2
      obtain ⟨rfl, h3, e, he, rfl⟩ := decAll_iff.1 h
      have := hv.2
      exact ⟨⟨hv.1, hv.2, h3⟩, rfl, e, Val.enc_many.2 ⟨by omega, e, he, rfl⟩, rfl⟩
    · rintro ⟨h1, h2, d, hd, rfl⟩
      cases v with
      | one s => cases s <;> cases h2
      | many ss =>
        cases h2
        obtain ⟨_, d', hd', h3⟩ := Val.enc_many.1 hd
        simp only [Val.code, List.cons.injEq, true_and] at h3
        subst h3
        exact ⟨(ss, r), decAll_iff.2 ⟨rfl, h1.2.2, d, hd', rfl⟩, rfl⟩

/-! ## The parameter number -/

theorem and_split (k p m q : Nat) (hp : p < 4096) (hq : q < 4096) :
    (4096 * k + p) &&& (4096 * m + q) = 4096 * (k &&& m) + (p &&& q) := by
  have hpq : p &&& q < 2 ^ 12 := Nat.lt_of_le_of_lt Nat.and_le_left hp
  have e : (4096 : Nat) = 2 ^ 12 := rfl
  rw [e] at *
  apply Nat.eq_of_testBit_eq
  intro i
  rw [Nat.testBit_and, Nat.testBit_two_pow_mul_add _ hp, Nat.testBit_two_pow_mul_add _ hq,
    Nat.testBit_two_pow_mul_add _ hpq]
  split <;> simp [Nat.testBit_and]

theorem num_flag (x : Nat) : x &&& 0x8000 = 4096 * (x / 4096 &&& 8) := by
  have := and_split (x / 4096) (x % 4096) 8 0 (Nat.mod_lt _ (by omega)) (by omega)
  rw [Nat.div_add_mod] at this
  simpa using this

theorem num_kind (x : Nat) : x &&& 0xf000 = 4096 * (x / 4096 &&& 15) := by
  have := and_split (x / 4096) (x % 4096) 15 0 (Nat.mod_lt _ (by omega)) (by omega)
  rw [Nat.div_add_mod] at this
  simpa using this

theorem num_low (x : Nat) : x &&& 0x0fff = x % 4096 :=
  Nat.and_two_pow_sub_one_eq_mod x 12

theorem num_key (x : Nat) : x &&& 0x8fff = 4096 * (x / 4096 &&& 8) + x % 4096 := by
  have := and_split (x / 4096) (x % 4096) 8 4095 (Nat.mod_lt _ (by omega)) (by omega)
  rw [Nat.div_add_mod] at this
  rw [show 4096 * 8 + 4095 = 0x8fff from rfl] at this
  rw [this]
  have h2 : x % 4096 &&& 4095 = x % 4096 % 4096 := Nat.and_two_pow_sub_one_eq_mod _ 12
  omega

theorem or_code (p k : Nat) (hp : p < 4096) (hk : 8 ≤ k) (hk2 : k < 16) :
    p ||| 0x8000 ||| 4096 * k = 4096 * k + p := by
  have h1 : 4096 * k + p = 4096 * k ||| p := by
    have := Nat.shiftLeft_add_eq_or_of_lt (i := 12) hp k
    rw [Nat.shiftLeft_eq, Nat.mul_comm] at this
    exact this
  have h2 : ∀ k : Fin 16, 8 ≤ k.val → 0x8000 ||| 4096 * k.val = 4096 * k.val := by decide
  rw [Nat.or_assoc, h2 ⟨k, hk2⟩ hk, h1, Nat.or_comm]

theorem flag_iff (x : Nat) (hx : x < 65536) : x &&& 0x8000 ≠ 0 ↔ 0x8000 ≤ x := by
  rw [num_flag]
  have h : ∀ k : Fin 16, (k.val &&& 8 ≠ 0 ↔ 8 ≤ k.val) := by decide
  have := h ⟨x / 4096, by omega⟩
  simp only at this
  omega

theorem key_small (x : Nat) (hx : x < 0x8000) : x &&& 0x8fff = x % 4096 := by
  rw [num_key]
  have h : ∀ k : Fin 8, k.val &&& 8 = 0 := by decide
  have := h ⟨x / 4096, by omega⟩
  simp only at this
  rw [this]; omega

theorem kind_eq (x : Nat) (hx : x < 65536) : x &&& 0xf000 = 4096 * (x / 4096) := by
  rw [num_kind]
  have h : ∀ k : Fin 16, k.val &&& 15 = k.val := by decide
  have := h ⟨x / 4096, by omega⟩
  simp only at this
  rw [this]

end Verif.Nice
