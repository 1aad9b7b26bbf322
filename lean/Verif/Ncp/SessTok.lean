import Verif.Ncp.SessRun

/-!
# The tokens of a line
-/

namespace Verif.Ncp

open Verif.Nml (Bytes PVal)

theorem takeWhile_all {p : Char → Bool} : ∀ {w r : Str}, (∀ x ∈ w, p x = true) → (∀ x, r.head? = some x → p x = false) →
    (w ++ r).takeWhile p = w ∧ (w ++ r).dropWhile p = r
  | [], [], _, _ => by simp
  | [], x :: r, _, h => by
    have := h x rfl
    simp [this]
  | a :: w, r, h, h' => by
    have ha : p a = true := h a (by simp)
    obtain ⟨h1, h2⟩ := takeWhile_all (w := w) (r := r) (fun x hx => h x (by simp [hx])) h'
    simp [ha, h1, h2]

theorem toks_tokensN : ∀ (n : Nat) (s : Str), s.length ≤ n → Toks s (tokensN n s)
  | 0, s, h => by
    have : s = [] := List.length_eq_zero_iff.1 (by omega)
    subst this; exact .nil
  | n + 1, [], _ => .nil
  | n + 1, c :: r, h => by
    rw [List.length_cons] at h
    unfold tokensN
    by_cases hs : space c = true
    · rw [if_pos hs]
      exact .space _ _ _ hs (toks_tokensN n r (by omega))
    · rw [if_neg hs]
      by_cases hq : (c = '"' ∨ c = '\'') ∧ c ∈ r
      · rw [if_pos hq]
        obtain ⟨b, r', rfl, hb⟩ : ∃ b r', r = b ++ c :: r' ∧ c ∉ b := by
          obtain ⟨b, r', h1, h2⟩ := List.eq_append_cons_of_mem hq.2
          exact ⟨b, r', h1, h2⟩
        obtain ⟨h1, h2⟩ := takeWhile_all (p := fun x => decide (x ≠ c)) (w := b) (r := c :: r')
          (fun x hx => by simp; rintro rfl; exact hb hx) (by simp)
        rw [h1, h2]
        simp only [List.length_append, List.length_cons] at h
        exact .quoted c b r' _ hq.1 hb (toks_tokensN n r' (by omega))
      · rw [if_neg hq]
        have hc : (!space c) = true := by simp [hs]
        rw [List.takeWhile_cons_of_pos (p := fun x => !space x) hc, List.dropWhile_cons_of_pos (p := fun x => !space x) hc]
        have hsplit := List.takeWhile_append_dropWhile (p := fun x => !space x) (l := r)
        have hlen := congrArg List.length hsplit
        rw [List.length_append] at hlen
        have := Toks.word c (r.takeWhile fun x => !space x) (r.dropWhile fun x => !space x)
          (tokensN n (r.dropWhile fun x => !space x)) ?_ ?_ ?_ (toks_tokensN n _ (by omega))
        · rw [hsplit] at this
          exact this
        · intro x hx
          rcases List.mem_cons.1 hx with rfl | hx
          · simpa using hs
          · have := List.all_eq_true.1 (List.all_takeWhile (p := fun x => !space x) (l := r)) x hx
            simpa using this
        · intro x hx
          have := List.head?_dropWhile_not (fun x => !space x) r
          rw [hx] at this
          simpa using this
        · rw [hsplit]; exact hq

theorem tokensN_toks {s : Str} {ts : List Str} (h : Toks s ts) : ∀ n, s.length ≤ n → tokensN n s = ts := by
  have quote : ∀ q : Char, q = '"' ∨ q = '\'' → space q = false := by
    rintro q (rfl | rfl) <;> decide
  induction h with
  | nil => intro n _; cases n <;> rfl
  | space c r ts hs _ ih =>
    intro n hn
    rw [List.length_cons] at hn
    obtain ⟨m, rfl⟩ : ∃ m, n = m + 1 := ⟨n - 1, by omega⟩
    rw [tokensN, if_pos hs]
    exact ih _ (by omega)
  | quoted q b r ts hq hb _ ih =>
    intro n hn
    simp only [List.length_cons, List.length_append] at hn
    obtain ⟨m, rfl⟩ : ∃ m, n = m + 1 := ⟨n - 1, by omega⟩
    rw [tokensN, if_neg (by simp [quote q hq]), if_pos ⟨hq, by simp⟩]
    obtain ⟨h1, h2⟩ := takeWhile_all (p := fun x => decide (x ≠ q)) (w := b) (r := q :: r)
      (fun x hx => by simp; rintro rfl; exact hb hx) (by simp)
    rw [h1, h2]
    simp only [List.drop_succ_cons, List.drop_zero]
    rw [ih _ (by omega)]
  | word c w r ts hw hr hq _ ih =>
    intro n hn
    simp only [List.length_cons, List.length_append] at hn
    obtain ⟨m, rfl⟩ : ∃ m, n = m + 1 := ⟨n - 1, by omega⟩
    rw [tokensN, if_neg (by simp [hw c (by simp)]), if_neg hq]
    obtain ⟨h1, h2⟩ := takeWhile_all (p := fun x => !space x) (w := c :: w) (r := r)
      (fun x hx => by simp [hw x hx]) (fun x hx => by simp [hr x hx])
    rw [← List.cons_append, h1, h2, ih _ (by omega)]

theorem toks_iff {s : Str} {ts : List Str} : Toks s ts ↔ tokens s = ts := by
  constructor
  · intro h; exact tokensN_toks h _ (Nat.le_refl _)
  · rintro rfl; exact toks_tokensN _ _ (Nat.le_refl _)

theorem toks_shape {s : Str} {ts : List Str} (h : Toks s ts) : ∀ t ∈ ts,
    (∃ q b, (q = '"' ∨ q = '\'') ∧ q ∉ b ∧ t = q :: (b ++ [q])) ∨
    (∃ w, w ≠ [] ∧ (∀ x ∈ w, space x = false) ∧ t = upper w ∧ w <:+: s) := by
  have lift : ∀ {r s : Str} {t : Str}, r <:+ s →
      (∃ q b, (q = '"' ∨ q = '\'') ∧ q ∉ b ∧ t = q :: (b ++ [q])) ∨
        (∃ w, w ≠ [] ∧ (∀ x ∈ w, space x = false) ∧ t = upper w ∧ w <:+: r) →
      (∃ q b, (q = '"' ∨ q = '\'') ∧ q ∉ b ∧ t = q :: (b ++ [q])) ∨
        (∃ w, w ≠ [] ∧ (∀ x ∈ w, space x = false) ∧ t = upper w ∧ w <:+: s) := by
    rintro r s t hr (h | ⟨w, h1, h2, h3, h4⟩)
    · exact .inl h
    · exact .inr ⟨w, h1, h2, h3, h4.trans hr.isInfix⟩
  induction h with
  | nil => simp
  | space c r ts _ _ ih => intro t ht; exact lift (List.suffix_cons _ _) (ih t ht)
  | quoted q b r ts hq hb _ ih =>
    intro t ht
    rcases List.mem_cons.1 ht with rfl | ht
    · exact .inl ⟨q, b, hq, hb, rfl⟩
    · exact lift ⟨q :: (b ++ [q]), by simp⟩ (ih t ht)
  | word c w r ts hw hr hq _ ih =>
    intro t ht
    rcases List.mem_cons.1 ht with rfl | ht
    · exact .inr ⟨c :: w, by simp, hw, rfl, [], r, by simp⟩
    · exact lift ⟨c :: w, by simp⟩ (ih t ht)

end Verif.Ncp
