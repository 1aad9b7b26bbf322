import Verif.Fields.Model
import Mathlib.Tactic.Ring
import Mathlib.Tactic.Linarith
import Mathlib.Data.Nat.Bitwise
import Mathlib.Data.List.Pairwise

namespace Verif.Fields

/-! ## Little endian conversion -/

@[simp] theorem le_length (k n : Nat) : (le k n).length = k := by
  induction k generalizing n with
  | zero => rfl
  | succ k ih => simp [le, ih]

theorem fromLe_le (k n : Nat) : fromLe (le k n) = n % 256 ^ k := by
  induction k generalizing n with
  | zero => simp [le, fromLe, Nat.mod_one]
  | succ k ih =>
    simp only [le, fromLe, ih, UInt8.toNat_ofNat']
    rw [pow_succ 256 k, Nat.mul_comm (256 ^ k) 256, Nat.mod_mul]
    omega

theorem fromLe_le_lt {k n : Nat} (h : n < 256 ^ k) : fromLe (le k n) = n := by
  rw [fromLe_le, Nat.mod_eq_of_lt h]

theorem fromLe_lt (b : Bytes) : fromLe b < 256 ^ b.length := by
  induction b with
  | nil => simp [fromLe]
  | cons x xs ih =>
    have := x.toNat_lt
    simp only [fromLe, List.length_cons, pow_succ]
    have : x.toNat < 256 := by simpa using this
    omega

theorem le_fromLe (b : Bytes) : le b.length (fromLe b) = b := by
  induction b with
  | nil => rfl
  | cons x xs ih =>
    have h : x.toNat < 256 := by simpa using x.toNat_lt
    have h1 : (x.toNat + 256 * fromLe xs) % 256 = x.toNat := by omega
    have h2 : (x.toNat + 256 * fromLe xs) / 256 = fromLe xs := by omega
    simp only [fromLe, List.length_cons, le, h1, h2, ih, UInt8.ofNat_toNat]

theorem le_fromLe' {b : Bytes} {k : Nat} (h : b.length = k) : le k (fromLe b) = b := by
  subst h; exact le_fromLe b

theorem toBytes_ok {k : Nat} {i : Int} {b : Bytes} :
    toBytes k i = .ok b ↔ 0 ≤ i ∧ i < 256 ^ k ∧ b = le k i.toNat := by
  unfold toBytes
  split
  · rename_i h; simp [h.1, h.2, eq_comm]
  · rename_i h
    simp only [reduceCtorEq, false_iff]
    rintro ⟨h1, h2, _⟩; exact h ⟨h1, h2⟩

theorem toNat_lt_pow {k : Nat} {i : Int} (h0 : 0 ≤ i) (h : i < 256 ^ k) :
    i.toNat < 256 ^ k := by
  have : ((i.toNat : Nat) : Int) < ((256 ^ k : Nat) : Int) := by
    push_cast; omega
  exact_mod_cast this

@[simp] theorem require_ok {b : Bytes} {n : Nat} {u : Unit} :
    require b n = .ok u ↔ n ≤ b.length := by
  unfold require; split <;> simp <;> omega

theorem require_append {b r : Bytes} {n : Nat} (h : b.length = n) :
    require (b ++ r) n = .ok () := by
  rw [require_ok]; simp; omega

/-! ## `Except` helpers -/

theorem bind_ok {α β : Type} {x : Except Err α} {f : α → Except Err β} {y : β} :
    (x >>= f) = .ok y ↔ ∃ a, x = .ok a ∧ f a = .ok y := by
  cases x <;> simp [bind, Except.bind]

theorem map_ok {α β : Type} {x : Except Err α} {f : α → β} {y : β} :
    x.map f = .ok y ↔ ∃ a, x = .ok a ∧ f a = y := by
  cases x <;> simp [Except.map]

@[simp] theorem ok_bind {α β : Type} {a : α} {f : α → Except Err β} :
    (Except.ok a >>= f) = f a := rfl

@[simp] theorem pure_eq_ok {α : Type} {a : α} :
    (pure a : Except Err α) = .ok a := rfl

@[simp] theorem map_of_ok {α β : Type} {a : α} {f : α → β} :
    (Except.ok a : Except Err α).map f = .ok (f a) := rfl

/-! ## I and A -/

theorem byte_ok {n : Nat} {b : Bytes} :
    byte n = .ok b ↔ n < 256 ∧ b = [UInt8.ofNat n] := by
  unfold byte; split <;> simp_all [eq_comm]

theorem ofNat_toNat_lt {n : Nat} (h : n < 256) : (UInt8.ofNat n).toNat = n := by
  simp; omega

theorem iEnc_ok {m : Nat} {v b : Bytes} :
    iEnc m v = .ok b ↔ v.length ≤ m ∧ v.length < 256 ∧
      b = UInt8.ofNat v.length :: v := by
  unfold iEnc
  split
  · simp; omega
  · rw [map_ok]
    constructor
    · rintro ⟨a, ha, rfl⟩
      obtain ⟨h, rfl⟩ := byte_ok.1 ha
      exact ⟨by omega, h, rfl⟩
    · rintro ⟨_, h, rfl⟩
      exact ⟨_, byte_ok.2 ⟨h, rfl⟩, rfl⟩

theorem iDec_ok {m : Nat} {buf v rest : Bytes} :
    iDec m buf = .ok (v, rest) ↔
      v.length ≤ m ∧ v.length < 256 ∧ buf = UInt8.ofNat v.length :: (v ++ rest) := by
  cases buf with
  | nil => simp [iDec]
  | cons l tl =>
    have hl : l.toNat < 256 := by simpa using l.toNat_lt
    simp only [iDec]
    split
    · rename_i h
      simp only [reduceCtorEq, false_iff]
      rintro ⟨h1, h2, h3⟩
      injection h3 with h3 h4
      rw [h3, ofNat_toNat_lt h2] at h
      omega
    · rename_i h
      split
      · rename_i h5
        simp only [reduceCtorEq, false_iff]
        rintro ⟨h1, h2, h3⟩
        injection h3 with h3 h4
        rw [h3, ofNat_toNat_lt h2, h4] at h5
        simp at h5
      · rename_i h5
        rw [not_not] at h5
        constructor
        · intro h6
          simp only [Except.ok.injEq, Prod.mk.injEq] at h6
          obtain ⟨rfl, rfl⟩ := h6
          refine ⟨by omega, by omega, ?_⟩
          rw [h5, UInt8.ofNat_toNat, List.take_append_drop]
        · rintro ⟨h1, h2, h3⟩
          injection h3 with h3 h4
          rw [h3, ofNat_toNat_lt h2, h4]
          simp

theorem latin1Enc_ok {s : List Nat} {b : Bytes} :
    latin1Enc s = .ok b ↔ (∀ c ∈ s, c < 256) ∧ b = s.map UInt8.ofNat := by
  unfold latin1Enc
  split
  · rename_i h
    have h' : ∀ c ∈ s, c < 256 := by simpa using h
    constructor
    · intro h1; injection h1 with h1; exact ⟨h', h1.symm⟩
    · rintro ⟨_, rfl⟩; rfl
  · rename_i h
    have h' : ¬ ∀ c ∈ s, c < 256 := by simpa using h
    constructor
    · intro h1; cases h1
    · rintro ⟨h1, _⟩; exact absurd h1 h'

theorem latin1Dec_enc {s : List Nat} (h : ∀ c ∈ s, c < 256) :
    latin1Dec (s.map UInt8.ofNat) = s := by
  unfold latin1Dec
  rw [List.map_map]
  conv_rhs => rw [← List.map_id s]
  apply List.map_congr_left
  intro c hc
  simp only [Function.comp_apply, id]
  exact ofNat_toNat_lt (h c hc)

theorem latin1Enc_dec (b : Bytes) : latin1Enc (latin1Dec b) = .ok b := by
  rw [latin1Enc_ok]
  constructor
  · intro c hc
    simp only [latin1Dec, List.mem_map] at hc
    obtain ⟨x, _, rfl⟩ := hc
    simpa using x.toNat_lt
  · simp [latin1Dec, Function.comp_def]

theorem aEnc_ok {m : Nat} {s : List Nat} {b : Bytes} :
    aEnc m s = .ok b ↔ (∀ c ∈ s, c < 256) ∧ iEnc m (s.map UInt8.ofNat) = .ok b := by
  unfold aEnc
  rw [bind_ok]
  constructor
  · rintro ⟨v, hv, h⟩
    obtain ⟨h1, rfl⟩ := latin1Enc_ok.1 hv
    exact ⟨h1, h⟩
  · rintro ⟨h1, h⟩
    exact ⟨_, latin1Enc_ok.2 ⟨h1, rfl⟩, h⟩

theorem aDec_ok {m : Nat} {buf : Bytes} {s : List Nat} {rest : Bytes} :
    aDec m buf = .ok (s, rest) ↔
      ∃ v, iDec m buf = .ok (v, rest) ∧ s = latin1Dec v := by
  unfold aDec
  rw [map_ok]
  constructor
  · rintro ⟨⟨v, r⟩, h, h2⟩
    simp only [Prod.mk.injEq] at h2
    obtain ⟨rfl, rfl⟩ := h2
    exact ⟨v, h, rfl⟩
  · rintro ⟨v, h, rfl⟩
    exact ⟨_, h, rfl⟩

/-! ## B, SIGNED, CTR -/

theorem bDec_ok {k : Nat} {buf rest : Bytes} {i : Int} :
    bDec k buf = .ok (i, rest) ↔
      0 ≤ i ∧ i < 256 ^ k ∧ buf = le k i.toNat ++ rest := by
  unfold bDec
  rw [bind_ok]
  constructor
  · rintro ⟨_, h, h2⟩
    rw [require_ok] at h
    simp only [pure_eq_ok, Except.ok.injEq, Prod.mk.injEq] at h2
    obtain ⟨rfl, rfl⟩ := h2
    have hl : (buf.take k).length = k := by simp; omega
    have := fromLe_lt (buf.take k)
    rw [hl] at this
    refine ⟨by omega, by exact_mod_cast this, ?_⟩
    rw [Int.toNat_natCast, le_fromLe' hl, List.take_append_drop]
  · rintro ⟨h0, h1, rfl⟩
    have h2 := toNat_lt_pow h0 h1
    refine ⟨(), require_append (by simp), ?_⟩
    simp only [pure_eq_ok, Except.ok.injEq, Prod.mk.injEq]
    rw [List.take_left' (by simp), List.drop_left' (by simp), fromLe_le_lt h2]
    exact ⟨by omega, rfl⟩

theorem bDec_enc {k : Nat} {i : Int} {b rest : Bytes} (h : bEnc k i = .ok b) :
    bDec k (b ++ rest) = .ok (i, rest) := by
  obtain ⟨h0, h1, rfl⟩ := toBytes_ok.1 h
  exact bDec_ok.2 ⟨h0, h1, rfl⟩

theorem pow256 (k : Nat) (hk : 1 ≤ k) :
    (256 : Int) ^ k = 2 ^ (8 * k - 1) + 2 ^ (8 * k - 1) := by
  have h1 : (256 : Int) ^ k = 2 ^ (8 * k) := by
    rw [show (256 : Int) = 2 ^ 8 by norm_num, ← pow_mul]
  rw [h1]
  obtain ⟨m, hm⟩ : ∃ m, 8 * k = m + 1 := ⟨8 * k - 1, by omega⟩
  rw [hm, pow_succ, Nat.add_sub_cancel]; ring

theorem signed_mod {k : Nat} (hk : 1 ≤ k) {i : Int}
    (h1 : -(2 ^ (8 * k - 1)) ≤ i) (h2 : i < 2 ^ (8 * k - 1)) :
    i % 256 ^ k = if i < 0 then i + 256 ^ k else i := by
  have hp := pow256 k hk
  split
  · rw [← Int.add_mul_emod_self_left i (256 ^ k) 1, mul_one]
    apply Int.emod_eq_of_lt <;> omega
  · apply Int.emod_eq_of_lt <;> omega

theorem signedDec_ok {k : Nat} (hk : 1 ≤ k) {buf rest : Bytes} {i : Int} :
    signedDec k buf = .ok (i, rest) ↔
      -(2 ^ (8 * k - 1)) ≤ i ∧ i < 2 ^ (8 * k - 1) ∧
        buf = le k (i % 256 ^ k).toNat ++ rest := by
  have hp := pow256 k hk
  have hpos : (0 : Int) < 2 ^ (8 * k - 1) := by positivity
  unfold signedDec
  rw [bind_ok]
  constructor
  · rintro ⟨_, h, h2⟩
    rw [require_ok] at h
    simp only [pure_eq_ok, Except.ok.injEq, Prod.mk.injEq] at h2
    obtain ⟨h3, rfl⟩ := h2
    have hl : (buf.take k).length = k := by simp; omega
    have hlt := fromLe_lt (buf.take k)
    rw [hl] at hlt
    have hlt' : (fromLe (buf.take k) : Int) < 256 ^ k := by exact_mod_cast hlt
    have hi : i % 256 ^ k = fromLe (buf.take k) ∧
        -(2 ^ (8 * k - 1)) ≤ i ∧ i < 2 ^ (8 * k - 1) := by
      subst h3
      split
      · rename_i h4
        have h4' : (fromLe (buf.take k) : Int) < 2 ^ (8 * k - 1) := by exact_mod_cast h4
        refine ⟨Int.emod_eq_of_lt (by omega) hlt', by omega, h4'⟩
      · rename_i h4
        have h4' : (2 : Int) ^ (8 * k - 1) ≤ (fromLe (buf.take k) : Int) := by
          exact_mod_cast (not_lt.1 h4)
        refine ⟨?_, by omega, by omega⟩
        rw [Int.sub_emod_right]
        exact Int.emod_eq_of_lt (by omega) hlt'
    refine ⟨hi.2.1, hi.2.2, ?_⟩
    rw [hi.1, Int.toNat_natCast, le_fromLe' hl, List.take_append_drop]
  · rintro ⟨h0, h1, rfl⟩
    have hm := signed_mod hk h0 h1
    have hnn : 0 ≤ i % 256 ^ k := Int.emod_nonneg _ (by positivity)
    have hlt : i % 256 ^ k < 256 ^ k := Int.emod_lt_of_pos _ (by positivity)
    have h2 := toNat_lt_pow hnn hlt
    refine ⟨(), require_append (by simp), ?_⟩
    simp only [pure_eq_ok, Except.ok.injEq, Prod.mk.injEq]
    rw [List.take_left' (by simp), List.drop_left' (by simp), fromLe_le_lt h2]
    refine ⟨?_, rfl⟩
    have h3 : (((i % 256 ^ k).toNat : Nat) : Int) = i % 256 ^ k := Int.toNat_of_nonneg hnn
    have h5 : (i % 256 ^ k).toNat < 2 ^ (8 * k - 1) ↔ i % 256 ^ k < 2 ^ (8 * k - 1) := by
      rw [← h3]
      constructor
      · intro h; exact_mod_cast h
      · intro h; exact_mod_cast h
    rw [h3]
    split
    · rename_i h4
      have h6 := h5.1 h4
      split at hm <;> omega
    · rename_i h4
      have h6 : ¬ i % 256 ^ k < 2 ^ (8 * k - 1) := fun h => h4 (h5.2 h)
      split at hm <;> omega

/-! ## EX -/

theorem shr7 (v : Nat) : v >>> 7 = v / 128 := by
  rw [Nat.shiftRight_eq_div_pow]

theorem and7f (v : Nat) : v &&& 0x7f = v % 128 := by
  have := Nat.and_two_pow_sub_one_eq_mod v 7
  simpa using this

theorem or80 {v : Nat} (h : v < 128) : v ||| 0x80 = v + 128 := by
  have := Nat.two_pow_add_eq_or_of_lt (b := v) (i := 7) (by simpa using h) 1
  simp at this
  rw [Nat.or_comm, ← this]
  omega

theorem or_shift_add {val k m : Nat} (h : val < 2 ^ k) : val ||| (m <<< k) = val + m * 2 ^ k := by
  rw [Nat.or_comm, Nat.shiftLeft_eq]
  have := Nat.two_pow_add_eq_or_of_lt h m
  rw [Nat.mul_comm m, ← this]
  omega

theorem exLoop_groups (v : Nat) : ∀ (left i val : Nat) (rest : Bytes),
    val < 2 ^ (7 * i) → (exGroups v).length ≤ left →
    exLoop left i val (exGroups v ++ rest) = .ok (val + v * 2 ^ (7 * i), rest) := by
  induction v using Nat.strong_induction_on with
  | _ v ih =>
    intro left i val rest hval hlen
    rw [exGroups] at hlen ⊢
    split at hlen
    · rename_i h
      rw [shr7] at h
      rw [dif_pos (by rw [shr7]; exact h)]
      have hv : v < 128 := by omega
      cases left with
      | zero => simp at hlen
      | succ left =>
        simp only [List.cons_append, List.nil_append, exLoop]
        rw [ofNat_toNat_lt (by omega), and7f, Nat.mod_eq_of_lt hv, or_shift_add hval]
        rw [if_pos (by omega)]
    · rename_i h
      rw [dif_neg h]
      rw [shr7] at h
      cases left with
      | zero => simp at hlen
      | succ left =>
        simp only [List.cons_append, exLoop]
        have h1 : (UInt8.ofNat ((v &&& 0x7f) ||| 0x80)).toNat = v % 128 + 128 := by
          rw [and7f, or80 (by omega)]
          exact ofNat_toNat_lt (by omega)
        rw [h1, and7f, if_neg (by omega)]
        simp only [List.length_cons] at hlen
        have hl : left ≠ 0 := by
          intro h0
          subst h0
          have : (exGroups (v >>> 7)).length ≤ 0 := by omega
          rw [exGroups] at this
          split at this <;> simp at this
        rw [if_neg hl, show (v % 128 + 128) % 128 = v % 128 by omega, or_shift_add hval]
        have hb : val + v % 128 * 2 ^ (7 * i) < 2 ^ (7 * (i + 1)) := by
          have e : 2 ^ (7 * (i + 1)) = 128 * 2 ^ (7 * i) := by
            rw [show 7 * (i + 1) = 7 * i + 7 by ring, pow_add]; ring
          rw [e]
          have : v % 128 ≤ 127 := by omega
          have := Nat.mul_le_mul_right (2 ^ (7 * i)) this
          omega
        have hlt : v >>> 7 < v := by rw [shr7]; omega
        rw [ih _ hlt _ _ _ _ hb (by omega)]
        congr 2
        rw [shr7, show 7 * (i + 1) = 7 * i + 7 by ring, pow_add]
        have := Nat.div_add_mod v 128
        calc val + v % 128 * 2 ^ (7 * i) + v / 128 * (2 ^ (7 * i) * 2 ^ 7)
            = val + (128 * (v / 128) + v % 128) * 2 ^ (7 * i) := by ring
          _ = _ := by rw [this]

theorem exGroups_shape (v : Nat) :
    ∃ pre last, exGroups v = pre ++ [last] ∧ (∀ b ∈ pre, 128 ≤ b.toNat) ∧ last.toNat < 128 := by
  induction v using Nat.strong_induction_on with
  | _ v ih =>
    rw [exGroups]
    split
    · rename_i h
      rw [shr7] at h
      exact ⟨[], _, rfl, by simp, by rw [ofNat_toNat_lt] <;> omega⟩
    · rename_i h
      rw [shr7] at h
      obtain ⟨pre, last, h1, h2, h3⟩ := ih (v >>> 7) (by rw [shr7]; omega)
      refine ⟨_ :: pre, last, by rw [h1]; rfl, ?_, h3⟩
      intro b hb
      rcases List.mem_cons.1 hb with rfl | hb
      · rw [and7f, or80 (by omega), ofNat_toNat_lt (by omega)]; omega
      · exact h2 b hb

/-- The encoding of `v` takes at most `m` bytes exactly if `v` has at most `7 m`
bits. -/
theorem exGroups_length_le (v m : Nat) (hm : 1 ≤ m) :
    (exGroups v).length ≤ m ↔ v < 128 ^ m := by
  induction v using Nat.strong_induction_on generalizing m with
  | _ v ih =>
    rw [exGroups]
    split
    · rename_i h
      rw [shr7] at h
      have : 128 ^ 1 ≤ 128 ^ m := Nat.pow_le_pow_right (by norm_num) hm
      simp only [List.length_cons, List.length_nil]
      constructor <;> intro _ <;> omega
    · rename_i h
      rw [shr7] at h
      have hlt : v >>> 7 < v := by rw [shr7]; omega
      simp only [List.length_cons]
      by_cases hm1 : m = 1
      · subst hm1
        have : 1 ≤ (exGroups (v >>> 7)).length := by
          rw [exGroups]; split <;> simp
        constructor
        · intro _; omega
        · intro h2; simp at h2; omega
      · obtain ⟨m', rfl⟩ : ∃ m', m = m' + 1 := ⟨m - 1, by omega⟩
        have := ih (v >>> 7) hlt m' (by omega)
        rw [Nat.add_le_add_iff_right, this, shr7, Nat.div_lt_iff_lt_mul (by norm_num), pow_succ]

/-! ## BM -/

/-- The bits an element list contributes, from the attribute values. -/
theorem bmField_testBit {c : PktClass} {p : Attrs} :
    ∀ {es : List Elem} {f F : Nat}, bmField c p es f = .ok F →
      (∀ e ∈ es, ∃ v : Nat, (c.get p e.name).getD (.int 0) = .int v ∧ v < 2 ^ e.bits) ∧
      ∀ i, F.testBit i = true ↔ (f.testBit i = true ∨ ∃ e ∈ es, ∃ v : Nat,
        (c.get p e.name).getD (.int 0) = .int v ∧ e.start ≤ i ∧ v.testBit (i - e.start) = true) := by
  intro es
  induction es with
  | nil =>
    intro f F h
    simp only [bmField, Except.ok.injEq] at h
    subst h; simp
  | cons e es ih =>
    intro f F h
    simp only [bmField] at h
    split at h
    · rename_i v hv
      split at h
      · cases h
      · rename_i h1
        rw [not_not] at h1
        have hp : (0 : Int) < 2 ^ e.bits := by positivity
        have hv0 : 0 ≤ v ∧ v < 2 ^ e.bits := by
          have h3 := Int.emod_add_mul_ediv v (2 ^ e.bits)
          rw [h1] at h3
          have h4 := Int.emod_nonneg v (ne_of_gt hp)
          have h5 := Int.emod_lt_of_pos v hp
          constructor <;> omega
        have hvn : ((v.toNat : Nat) : Int) = v := Int.toNat_of_nonneg hv0.1
        have hvlt : v.toNat < 2 ^ e.bits := by
          have : ((v.toNat : Nat) : Int) < ((2 ^ e.bits : Nat) : Int) := by
            push_cast; omega
          exact_mod_cast this
        obtain ⟨h6, h7⟩ := ih h
        constructor
        · intro x hx
          rcases List.mem_cons.1 hx with rfl | hx
          · exact ⟨v.toNat, by rw [hv, hvn], hvlt⟩
          · exact h6 x hx
        · intro i
          rw [h7 i, Nat.testBit_or, Nat.testBit_shiftLeft]
          simp only [Bool.or_eq_true, Bool.and_eq_true, decide_eq_true_eq, List.mem_cons,
            exists_eq_or_imp]
          constructor
          · rintro ((h8 | h8) | h8)
            · exact .inl h8
            · exact .inr (.inl ⟨v.toNat, by rw [hv, hvn], h8.1, h8.2⟩)
            · exact .inr (.inr h8)
          · rintro (h8 | ⟨w, hw, h8, h9⟩ | h8)
            · exact .inl (.inl h8)
            · rw [hv] at hw
              injection hw with hw
              have hw' : v.toNat = w := by omega
              exact .inl (.inr ⟨h8, by rw [hw']; exact h9⟩)
            · exact .inr h8
    · cases h

/-- Two bit ranges do not overlap. -/
def Elem.Apart (a b : Elem) : Prop :=
  a.start + a.bits ≤ b.start ∨ b.start + b.bits ≤ a.start

instance : Std.Symm Elem.Apart where
  symm _ _ h := h.elim .inr .inl

theorem foldl_max_ge (es : List Elem) (t : Nat) :
    t ≤ es.foldl (fun t e => max t (e.start + e.bits)) t ∧
    ∀ e ∈ es, e.start + e.bits ≤ es.foldl (fun t e => max t (e.start + e.bits)) t := by
  induction es generalizing t with
  | nil => simp
  | cons x xs ih =>
    obtain ⟨h1, h2⟩ := ih (max t (x.start + x.bits))
    simp only [List.foldl_cons]
    refine ⟨by omega, ?_⟩
    intro e he
    rcases List.mem_cons.1 he with rfl | he
    · omega
    · exact h2 e he

theorem bmLen_ge {es : List Elem} {e : Elem} (h : e ∈ es) :
    e.start + e.bits ≤ 8 * bmLen es := by
  have := (foldl_max_ge es 0).2 e h
  unfold bmLen
  omega

theorem bmField_lt {c : PktClass} {p : Attrs} {es : List Elem} {F : Nat}
    (h : bmField c p es 0 = .ok F) : F < 256 ^ bmLen es := by
  obtain ⟨h1, h2⟩ := bmField_testBit h
  rw [show 256 = 2 ^ 8 by norm_num, ← pow_mul]
  apply Nat.lt_pow_two_of_testBit
  intro i hi
  by_contra hc
  have hc : F.testBit i = true := by simpa using hc
  rcases (h2 i).1 hc with h3 | ⟨e, he, v, hv, h4, h5⟩
  · simp at h3
  · obtain ⟨w, hw, hlt⟩ := h1 e he
    rw [hv] at hw
    injection hw with hw
    have hw : v = w := by omega
    subst hw
    have := bmLen_ge he
    have h6 : v < 2 ^ (i - e.start) := lt_of_lt_of_le hlt (Nat.pow_le_pow_right (by norm_num) (by omega))
    rw [Nat.testBit_lt_two_pow h6] at h5
    cases h5

theorem bmGet_eq {c : PktClass} {p : Attrs} {es : List Elem} {F : Nat}
    (h : bmField c p es 0 = .ok F)
    (hd : es.Pairwise Elem.Apart) {e : Elem} (he : e ∈ es) :
    (c.get p e.name).getD (.int 0) = .int (bmGet F e) := by
  obtain ⟨h1, h2⟩ := bmField_testBit h
  obtain ⟨v, hv, hlt⟩ := h1 e he
  rw [hv]
  congr 2
  apply Nat.eq_of_testBit_eq
  intro i
  unfold bmGet
  rw [Nat.testBit_and, Nat.testBit_shiftRight, Nat.one_shiftLeft, Nat.testBit_two_pow_sub_one]
  by_cases hi : i < e.bits
  · simp only [hi, decide_true, Bool.and_true]
    rw [Bool.eq_iff_iff, h2]
    constructor
    · intro h3
      exact .inr ⟨e, he, v, hv, by omega, by rwa [Nat.add_sub_cancel_left]⟩
    · rintro (h3 | ⟨e', he', w, hw, h4, h5⟩)
      · simp at h3
      · by_cases hee : e' = e
        · subst hee
          rw [hv] at hw
          injection hw with hw
          have hw : v = w := by omega
          subst hw
          rwa [Nat.add_sub_cancel_left] at h5
        · exfalso
          obtain ⟨w', hw', hlt'⟩ := h1 e' he'
          rw [hw] at hw'
          injection hw' with hw'
          have hw' : w = w' := by omega
          subst hw'
          have hap : e'.Apart e := by
            exact hd.forall he' he hee
          rcases hap with ha | ha
          · have h6 : w < 2 ^ (e.start + i - e'.start) :=
              lt_of_lt_of_le hlt' (Nat.pow_le_pow_right (by norm_num) (by omega))
            rw [Nat.testBit_lt_two_pow h6] at h5
            cases h5
          · omega
  · simp only [hi, decide_false, Bool.and_false]
    exact Nat.testBit_lt_two_pow (lt_of_lt_of_le hlt (Nat.pow_le_pow_right (by norm_num) (by omega)))

end Verif.Fields
