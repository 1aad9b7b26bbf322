import Verif.ScanVer.Model

/-!
# C143: verification for the console carrier
-/

namespace Verif.ScanVer

/-! ## Specification -/

/-- It starts with `0x` or `0X`. -/
def Hex (s : Str) : Prop := ∃ r, s = 48 :: 120 :: r ∨ s = 48 :: 88 :: r

/-- The number that bytes stand for, the first being the most significant. -/
def big (b : List Nat) : Nat := b.foldl (fun a x => 256 * a + x) 0

/-- Eight bytes. -/
def Eight (b : List Nat) : Prop := b.length = 8 ∧ ∀ x ∈ b, x < 256

/-- A text of the character set, and no NUL at its end. -/
structure Plain (s : Str) : Prop where
  text : ¬ Hex s
  chars : ∀ c ∈ s, c < 256
  last : s.getLast? ≠ some 0

/-! ## Lemmas -/

theorem isHex_iff (s : Str) : isHex s = true ↔ Hex s := by
  unfold isHex Hex
  split
  · rename_i c r
    simp only [Bool.or_eq_true, decide_eq_true_eq, List.cons.injEq, true_and]
    constructor
    · rintro (rfl | rfl)
      · exact ⟨r, Or.inl ⟨rfl, rfl⟩⟩
      · exact ⟨r, Or.inr ⟨rfl, rfl⟩⟩
    · rintro ⟨_, h | h⟩
      · exact Or.inl h.1
      · exact Or.inr h.1
  · rename_i h
    constructor
    · intro h'; cases h'
    · rintro ⟨r, rfl | rfl⟩
      · exact absurd rfl (h _ _)
      · exact absurd rfl (h _ _)

theorem toBig_eight (k n : Nat) : (toBig k n).length = k ∧ ∀ x ∈ toBig k n, x < 256 := by
  induction k generalizing n with
  | zero => exact ⟨rfl, by simp [toBig]⟩
  | succ k ih =>
    obtain ⟨h1, h2⟩ := ih (n / 256)
    refine ⟨by simp [toBig, h1], ?_⟩
    intro x hx
    unfold toBig at hx
    rw [List.mem_append, List.mem_singleton] at hx
    rcases hx with hx | rfl
    · exact h2 x hx
    · exact Nat.mod_lt _ (by omega)

theorem big_toBig (k n : Nat) (h : n < 256 ^ k) : big (toBig k n) = n := by
  induction k generalizing n with
  | zero => simp at h; subst h; rfl
  | succ k ih =>
    have := ih (n / 256) (by rw [Nat.div_lt_iff_lt_mul (by omega)]; rw [Nat.pow_succ] at h; exact h)
    unfold big at this ⊢
    unfold toBig
    rw [List.foldl_append, this]
    simp only [List.foldl_cons, List.foldl_nil]
    omega

theorem latin_id {s : Str} (h : ∀ c ∈ s, c < 256) : latin s = s := by
  unfold latin
  rw [List.filter_eq_self]
  intro c hc
  simpa using h c hc

/-- Without the NULs at the end. -/
theorem pad_inj {a b : List Nat} {m n : Nat} (ha : a.getLast? ≠ some 0) (hb : b.getLast? ≠ some 0)
    (h : a ++ List.replicate m 0 = b ++ List.replicate n 0) : a = b := by
  induction a generalizing b m n with
  | nil =>
    cases hbl : b.getLast? with
    | none => exact (List.getLast?_eq_none_iff.1 hbl).symm
    | some x =>
      have hx : x ∈ List.replicate m 0 := by
        rw [List.nil_append] at h
        rw [h]
        exact List.mem_append_left _ (List.mem_of_getLast? hbl)
      rw [List.eq_of_mem_replicate hx] at hbl
      exact absurd hbl hb
  | cons x r ih =>
    cases b with
    | nil =>
      cases hal : (x :: r).getLast? with
      | none => simp at hal
      | some y =>
        have hy : y ∈ List.replicate n 0 := by
          rw [List.nil_append] at h
          rw [← h]
          exact List.mem_append_left _ (List.mem_of_getLast? hal)
        rw [List.eq_of_mem_replicate hy] at hal
        exact absurd hal ha
    | cons y t =>
      simp only [List.cons_append, List.cons.injEq] at h
      obtain ⟨rfl, h⟩ := h
      rw [ih (fun e => ha ?_) (fun e => hb ?_) h]
      · rw [List.getLast?_cons, e]; rfl
      · rw [List.getLast?_cons, e]; rfl

/-! ## C143 -/

/-- What is accepted is always eight bytes. -/
theorem eight (int16 : Str → Option Nat) (s : Str) (b : List Nat) (h : scanVer int16 s = .ok b) : Eight b := by
  unfold scanVer at h
  split at h
  · split at h
    · cases h
    · split at h
      · injection h with h; subst h; exact toBig_eight _ _
      · cases h
  · split at h
    · cases h
    · rename_i hl
      injection h with h
      subst h
      refine ⟨by simp; omega, ?_⟩
      intro x hx
      rw [List.mem_append] at hx
      rcases hx with hx | hx
      · simpa using (List.mem_filter.1 hx).2
      · rw [List.eq_of_mem_replicate hx]; omega

/-- A number in hexadecimal is accepted exactly if it is one, and less than 2 to the 64th; the bytes are that number.  A
greater one ends with OverflowError. -/
theorem hex_iff (int16 : Str → Option Nat) (s : Str) (hs : Hex s) :
    (∀ b, scanVer int16 s = .ok b → int16 s = some (big b)) ∧
    (∀ n, int16 s = some n → n < 2 ^ 64 → ∃ b, scanVer int16 s = .ok b ∧ big b = n) ∧
    (∀ n, int16 s = some n → 2 ^ 64 ≤ n → scanVer int16 s = .error .overflow) ∧
    (int16 s = none → scanVer int16 s = .error .value) := by
  unfold scanVer
  rw [if_pos ((isHex_iff s).2 hs)]
  have hp : (256 : Nat) ^ 8 = 2 ^ 64 := by decide
  refine ⟨?_, ?_, ?_, ?_⟩
  · intro b h
    split at h
    · cases h
    · rename_i n hn
      split at h
      · rename_i hl
        injection h with h
        subst h
        rw [hn, big_toBig 8 n hl]
      · cases h
  · intro n hn hl
    rw [hn]
    simp only []
    rw [if_pos (by rw [hp]; exact hl)]
    exact ⟨_, rfl, big_toBig 8 n (by rw [hp]; exact hl)⟩
  · intro n hn hl
    rw [hn]
    simp only []
    rw [if_neg (by rw [hp]; omega)]
  · intro hn
    rw [hn]

/-- A text of the character set is accepted exactly if it has at most eight characters; zeros follow it. -/
theorem text_iff (int16 : Str → Option Nat) (s : Str) (hs : ¬ Hex s) (hc : ∀ c ∈ s, c < 256) :
    (s.length ≤ 8 → scanVer int16 s = .ok (s ++ List.replicate (8 - s.length) 0)) ∧
    (8 < s.length → scanVer int16 s = .error .value) := by
  unfold scanVer
  rw [if_neg fun h => hs ((isHex_iff s).1 h), latin_id hc]
  exact ⟨fun h => by rw [if_neg (by omega)], fun h => by rw [if_pos h]⟩

/-- Different plain texts are different verifications.  Partial: see `dropped` for other characters, and `same_as_hex`. -/
theorem text_inj_partial (int16 : Str → Option Nat) (s t : Str) (hs : Plain s) (ht : Plain t) (b : List Nat)
    (h1 : scanVer int16 s = .ok b) (h2 : scanVer int16 t = .ok b) : s = t := by
  have key : ∀ u, Plain u → scanVer int16 u = .ok b → b = u ++ List.replicate (8 - u.length) 0 := by
    intro u hu h
    obtain ⟨h3, h4⟩ := text_iff int16 u hu.text hu.chars
    by_cases hl : u.length ≤ 8
    · rw [h3 hl] at h
      injection h with h
      exact h.symm
    · rw [h4 (by omega)] at h
      cases h
  have := (key s hs h1).symm.trans (key t ht h2)
  exact pad_inj hs.last ht.last this

/-- Characters outside of the set are left out without a word: whatever the text, if only such characters differ the
verification is the same. -/
theorem dropped (int16 : Str → Option Nat) (s t : Str) (hs : ¬ Hex s) (ht : ¬ Hex t)
    (h : s.filter (· < 256) = t.filter (· < 256)) : scanVer int16 s = scanVer int16 t := by
  unfold scanVer
  rw [if_neg fun h => hs ((isHex_iff s).1 h), if_neg fun h => ht ((isHex_iff t).1 h)]
  unfold latin
  rw [h]

/-- A text of other characters only is eight zeros, as is no text at all. -/
theorem all_dropped (int16 : Str → Option Nat) (s : Str) (h : ∀ c ∈ s, 256 ≤ c) :
    scanVer int16 s = .ok [0, 0, 0, 0, 0, 0, 0, 0] := by
  have hn : ¬ Hex s := by
    rintro ⟨r, rfl | rfl⟩ <;> exact absurd (h 48 (by simp)) (by omega)
  have h' : s.filter (fun c => decide (c < 256)) = [] := by
    rw [List.filter_eq_nil_iff]
    intro c hc
    have := h c hc
    simp; omega
  rw [dropped int16 s [] hn (by rintro ⟨r, h | h⟩ <;> cases h) (by rw [h']; rfl)]
  rfl

/-- A text and a number may be the same verification. -/
theorem same_as_hex (int16 : Str → Option Nat) (h : int16 [48, 120, 52, 49, 52, 50, 48, 48, 48, 48, 48, 48, 48, 48, 48, 48,
    48, 48] = some 0x4142000000000000) : scanVer int16 [48, 120, 52, 49, 52, 50, 48, 48, 48, 48, 48, 48, 48, 48, 48, 48,
    48, 48] = scanVer int16 [65, 66] := by
  unfold scanVer
  rw [h]
  rfl

example : Plain [83, 69, 67, 82, 69, 84] :=
  ⟨by rintro ⟨r, h | h⟩ <;> simp at h, by decide, by decide⟩

example : scanVer (fun _ => some 0x0102) [48, 88, 49, 48, 50] = .ok [0, 0, 0, 0, 0, 0, 1, 2] := rfl

end Verif.ScanVer
