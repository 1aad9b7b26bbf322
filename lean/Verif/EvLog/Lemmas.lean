import Verif.EvLog.Spec

namespace Verif.EvLog

def Digits (s : Str) : Prop := ∀ c ∈ s, 48 ≤ c ∧ c ≤ 57

theorem digit_isSome {c : Nat} : (digit c).isSome = true ↔ 48 ≤ c ∧ c ≤ 57 := by
  unfold digit; split <;> simp_all

theorem span_spec (s : Str) : s = (span s).1 ++ (span s).2 ∧ Digits (span s).1 ∧
    ∀ c r, (span s).2 = c :: r → ¬(48 ≤ c ∧ c ≤ 57) := by
  induction s with
  | nil => simp [span, Digits]
  | cons c s ih =>
    unfold span
    by_cases h : (digit c).isSome = true
    · rw [if_pos h]
      refine ⟨by simpa using ih.1, ?_, ih.2.2⟩
      intro x hx
      rcases List.mem_cons.1 hx with rfl | hx
      · exact digit_isSome.1 h
      · exact ih.2.1 x hx
    · rw [if_neg h]
      refine ⟨rfl, by simp [Digits], ?_⟩
      intro x r hx
      simp only [List.cons.injEq] at hx
      rw [← hx.1]
      exact fun hh => h (digit_isSome.2 hh)

theorem span_of {d r : Str} (hd : Digits d) (hr : ∀ c t, r = c :: t → ¬(48 ≤ c ∧ c ≤ 57)) :
    span (d ++ r) = (d, r) := by
  induction d with
  | nil =>
    cases r with
    | nil => rfl
    | cons c t =>
      have := hr c t rfl
      simp only [List.nil_append, span]
      rw [if_neg (fun h => this (digit_isSome.1 h))]
  | cons c d ih =>
    have h1 := hd c List.mem_cons_self
    have h2 := ih (fun x hx => hd x (List.mem_cons_of_mem _ hx))
    simp only [List.cons_append, span]
    rw [if_pos (digit_isSome.2 h1), h2]

theorem toNat_snoc (s : Str) (c : Nat) : toNat (s ++ [c]) = 10 * toNat s + (digit c).getD 0 := by
  simp [toNat, List.foldl_append]

theorem digit_add {d : Nat} (h : d < 10) : digit (48 + d) = some d := by
  unfold digit; rw [if_pos (by omega)]; simp

theorem numeral_iff {s : Str} {n : Nat} : Numeral s n ↔ s ≠ [] ∧ Digits s ∧ toNat s = n := by
  constructor
  · intro h
    induction h with
    | @one d h =>
      refine ⟨by simp, ?_, by simp [toNat, digit_add h]⟩
      intro c hc; simp at hc; omega
    | @snoc s n d h hd ih =>
      refine ⟨by simp, ?_, by rw [toNat_snoc, ih.2.2, digit_add hd]; rfl⟩
      intro c hc
      rcases List.mem_append.1 hc with hc | hc
      · exact ih.2.1 c hc
      · simp at hc; omega
  · rintro ⟨h1, h2, rfl⟩
    have key : ∀ m (s : Str), s.length = m → s ≠ [] → Digits s → Numeral s (toNat s) := by
      intro m
      induction m with
      | zero => intro s hs h; exact absurd (List.length_eq_zero_iff.1 hs) h
      | succ m ih =>
        intro s hs hne hd
        obtain ⟨t, c, rfl⟩ : ∃ t c, s = t ++ [c] := ⟨s.dropLast, s.getLast hne, (List.dropLast_concat_getLast hne).symm⟩
        have hc := hd c (by simp)
        have hcd : digit c = some (c - 48) := by unfold digit; rw [if_pos hc]
        have hc' : c = 48 + (c - 48) := by omega
        by_cases ht : t = []
        · subst ht
          have := Numeral.one (d := c - 48) (by omega)
          rw [← hc'] at this
          simpa [toNat, hcd] using this
        · have h3 := ih t (by simpa using hs) ht (fun x hx => hd x (List.mem_append_left _ hx))
          have := Numeral.snoc h3 (d := c - 48) (by omega)
          rw [← hc'] at this
          rw [toNat_snoc, hcd]; exact this
    exact key _ s rfl h1 h2

theorem atEnd_iff {s : Str} : atEnd s = true ↔ Newline s := by simp [atEnd, Newline]

theorem newline_nondigit {s : Str} (h : Newline s) : ∀ c t, s = c :: t → ¬(48 ≤ c ∧ c ≤ 57) := by
  intro c t hs
  rcases h with rfl | rfl
  · simp at hs
  · simp at hs; omega

/-- What the second half of the expression matches. -/
theorem matchEvents_iff {s : Str} {ev : Option (Str × Option Str)} :
    matchEvents s = some ev ↔
      (ev = none ∧ ∃ n, Newline n ∧ s = 42 :: n) ∨
      (∃ d n, ev = some (d, none) ∧ d ≠ [] ∧ Digits d ∧ Newline n ∧ s = d ++ n) ∨
      (∃ d d2 n, ev = some (d, some d2) ∧ d ≠ [] ∧ Digits d ∧ d2 ≠ [] ∧ Digits d2 ∧ Newline n ∧
        s = d ++ 45 :: (d2 ++ n)) := by
  by_cases hs : ∃ r, s = 42 :: r
  · obtain ⟨r, rfl⟩ := hs
    have hdig : ∀ d t, d ≠ [] → Digits d → 42 :: r ≠ d ++ t := by
      intro d t hd hdd he
      cases d with
      | nil => exact hd rfl
      | cons c d =>
        simp only [List.cons_append, List.cons.injEq] at he
        have := hdd c List.mem_cons_self
        omega
    simp only [matchEvents]
    constructor
    · intro h
      split at h
      · rename_i ha
        simp only [Option.some.injEq] at h
        exact .inl ⟨h.symm, r, atEnd_iff.1 ha, rfl⟩
      · cases h
    · rintro (⟨rfl, n, hn, he⟩ | ⟨d, n, -, h1, h2, -, he⟩ | ⟨d, d2, n, -, h1, h2, -, -, -, he⟩)
      · simp only [List.cons.injEq, true_and] at he
        rw [he, if_pos (atEnd_iff.2 hn)]
      · exact absurd he (hdig d _ h1 h2)
      · exact absurd he (hdig d _ h1 h2)
  · obtain ⟨e1, e2, e3⟩ := span_spec s
    have hm : matchEvents s =
        (if (span s).1 = [] then none
        else if atEnd (span s).2 then some (some ((span s).1, none))
        else match (span s).2 with
          | 45 :: r => if (span r).1 ≠ [] ∧ atEnd (span r).2 then some (some ((span s).1, some (span r).1)) else none
          | _ => none) := by
      unfold matchEvents
      split
      · rename_i r; exact absurd ⟨r, rfl⟩ hs
      · rfl
    rw [hm]
    constructor
    · intro h
      split at h
      · cases h
      · rename_i hd
        split at h
        · rename_i ha
          simp only [Option.some.injEq] at h
          exact .inr (.inl ⟨_, _, h.symm, hd, e2, atEnd_iff.1 ha, e1⟩)
        · split at h
          · rename_i r hr
            split at h
            · rename_i hc
              simp only [Option.some.injEq] at h
              obtain ⟨f1, f2, f3⟩ := span_spec r
              refine .inr (.inr ⟨_, _, _, h.symm, hd, e2, hc.1, f2, atEnd_iff.1 hc.2, ?_⟩)
              rw [← f1, ← hr]; exact e1
            · cases h
          · cases h
    · rintro (⟨rfl, n, hn, he⟩ | ⟨d, n, rfl, h1, h2, hn, he⟩ | ⟨d, d2, n, rfl, h1, h2, h3, h4, hn, he⟩)
      · exact absurd ⟨n, he⟩ hs
      · have := span_of h2 (newline_nondigit hn)
        rw [he, this]
        simp only
        rw [if_neg h1, if_pos (atEnd_iff.2 hn)]
      · have := span_of h2 (r := 45 :: (d2 ++ n)) (by rintro c t hc; simp at hc; omega)
        rw [he, this]
        simp only
        rw [if_neg h1, if_neg (by simp [atEnd])]
        have g := span_of h4 (newline_nondigit hn)
        rw [g]
        simp only
        rw [if_pos ⟨h3, atEnd_iff.2 hn⟩]

theorem dot_not_events {d r : Str} {ev : Option (Str × Option Str)} (hd : Digits d) :
    matchEvents (d ++ 46 :: r) ≠ some ev := by
  have hnd : ∀ c t, 46 :: r = c :: t → ¬(48 ≤ c ∧ c ≤ 57) := by rintro c t hc; simp at hc; omega
  rw [Ne, matchEvents_iff]
  have key : ∀ d' n, Digits d' → (∀ c t, n = c :: t → ¬(48 ≤ c ∧ c ≤ 57)) → d ++ 46 :: r = d' ++ n → n = 46 :: r := by
    intro d' n h1 h2 he
    have a := span_of hd hnd
    rw [he, span_of h1 h2] at a
    exact (Prod.ext_iff.1 a).2
  rintro (⟨-, n, hn, he⟩ | ⟨d', n, -, -, h2, hn, he⟩ | ⟨d', d2, n, -, -, h2, -, -, -, he⟩)
  · cases d with
    | nil => simp at he
    | cons c d =>
      have := hd c List.mem_cons_self
      simp only [List.cons_append, List.cons.injEq] at he
      omega
  · have := key d' n h2 (newline_nondigit hn) he
    rcases hn with rfl | rfl <;> simp at this
  · have := key d' (45 :: (d2 ++ n)) h2 (by rintro c t hc; simp at hc; omega) he
    simp at this

/-- What the whole expression matches. -/
theorem matchItem_iff {s : Str} {c : Option Str} {ev : Option (Str × Option Str)} :
    matchItem s = some (c, ev) ↔
      (∃ d r, c = some d ∧ d ≠ [] ∧ Digits d ∧ s = d ++ 46 :: r ∧ matchEvents r = some ev) ∨
      (c = none ∧ matchEvents s = some ev) := by
  obtain ⟨e1, e2, e3⟩ := span_spec s
  by_cases hs : ∃ r, (span s).2 = 46 :: r
  · obtain ⟨r, hr⟩ := hs
    have hm : matchItem s = if (span s).1 ≠ [] then (matchEvents r).map (some (span s).1, ·) else none := by
      unfold matchItem
      have : span s = ((span s).1, 46 :: r) := by rw [← hr]
      generalize span s = q at this ⊢
      rw [this]
      rfl
    rw [hr] at e1
    rw [hm]
    constructor
    · intro h
      split at h
      · rename_i hd
        simp only [Option.map_eq_some_iff, Prod.mk.injEq] at h
        obtain ⟨x, hx, rfl, rfl⟩ := h
        exact .inl ⟨_, r, rfl, hd, e2, e1, hx⟩
      · cases h
    · rintro (⟨d, r', rfl, hd, hdd, he, hx⟩ | ⟨rfl, hx⟩)
      · have := span_of hdd (r := 46 :: r') (by rintro c t hc; simp at hc; omega)
        rw [← he] at this
        rw [this] at hr
        simp only [List.cons.injEq, true_and] at hr
        rw [this, if_pos hd, ← hr, hx]; rfl
      · rw [e1] at hx
        exact absurd hx (dot_not_events e2)
  · have hm : matchItem s = (matchEvents s).map (none, ·) := by
      unfold matchItem
      split
      · rename_i d r he; exact absurd ⟨r, by rw [he]⟩ hs
      · rfl
    rw [hm]
    simp only [Option.map_eq_some_iff, Prod.mk.injEq]
    constructor
    · rintro ⟨x, hx, rfl, rfl⟩; exact .inr ⟨rfl, hx⟩
    · rintro (⟨d, r', rfl, hd, hdd, he, hx⟩ | ⟨rfl, hx⟩)
      · have := span_of hdd (r := 46 :: r') (by rintro c t hc; simp at hc; omega)
        rw [← he] at this
        exact absurd ⟨r', by rw [this]⟩ hs
      · exact ⟨_, hx, rfl, rfl⟩

/-- A match with its range read, as text. -/
theorem events_iff {s : Str} {a b : Nat} :
    (∃ ev, matchEvents s = some ev ∧ range ev = .ok (a, b)) ↔
      ∃ t n, s = t ++ n ∧ EventsText t a b ∧ b ≤ 31 ∧ Newline n := by
  constructor
  · rintro ⟨ev, hm, hr⟩
    rcases matchEvents_iff.1 hm with ⟨rfl, n, hn, rfl⟩ | ⟨d, n, rfl, h1, h2, hn, rfl⟩ |
      ⟨d, d2, n, rfl, h1, h2, h3, h4, hn, rfl⟩
    · simp only [range, Except.ok.injEq, Prod.mk.injEq] at hr
      obtain ⟨rfl, rfl⟩ := hr
      exact ⟨[42], n, rfl, .all, by omega, hn⟩
    · simp only [range] at hr
      split at hr
      · cases hr
      · simp only [Except.ok.injEq, Prod.mk.injEq] at hr
        obtain ⟨rfl, rfl⟩ := hr
        exact ⟨d, n, rfl, .one (numeral_iff.2 ⟨h1, h2, rfl⟩), by omega, hn⟩
    · simp only [range] at hr
      split at hr
      · cases hr
      · split at hr
        · cases hr
        · simp only [Except.ok.injEq, Prod.mk.injEq] at hr
          obtain ⟨rfl, rfl⟩ := hr
          exact ⟨d ++ 45 :: d2, n, by simp, .range (numeral_iff.2 ⟨h1, h2, rfl⟩)
            (numeral_iff.2 ⟨h3, h4, rfl⟩) (by omega), by omega, hn⟩
  · rintro ⟨t, n, rfl, ht, hb, hn⟩
    cases ht with
    | one h =>
      obtain ⟨h1, h2, rfl⟩ := numeral_iff.1 h
      exact ⟨_, matchEvents_iff.2 (.inr (.inl ⟨_, _, rfl, h1, h2, hn, rfl⟩)), by
        simp only [range]; rw [if_neg (by omega)]⟩
    | range h h' hlt =>
      obtain ⟨h1, h2, rfl⟩ := numeral_iff.1 h
      obtain ⟨h3, h4, rfl⟩ := numeral_iff.1 h'
      exact ⟨_, matchEvents_iff.2 (.inr (.inr ⟨_, _, _, rfl, h1, h2, h3, h4, hn, by simp⟩)), by
        simp only [range]; rw [if_neg (by omega), if_neg (by omega)]⟩
    | all => exact ⟨none, matchEvents_iff.2 (.inl ⟨rfl, n, hn, rfl⟩), rfl⟩

/-! ## The list -/

def NoComma (s : Str) : Prop := 44 ∉ s

theorem split_ne (s : Str) : split s ≠ [] := by
  cases s with
  | nil => simp [split]
  | cons c s =>
    simp only [split]
    split
    · simp
    · split <;> simp

theorem commas_split (s : Str) : commas (split s) = s := by
  induction s with
  | nil => rfl
  | cons c s ih =>
    simp only [split]
    split
    · rename_i h; exact absurd h (split_ne s)
    · rename_i x xs h
      rw [h] at ih
      split
      · rename_i hc
        rw [← ih, hc]; rfl
      · rw [← ih]
        cases xs <;> rfl

theorem split_commas {l : List Str} (hne : l ≠ []) (h : ∀ s ∈ l, NoComma s) : split (commas l) = l := by
  have one : ∀ x : Str, NoComma x → split x = [x] := by
    intro x
    induction x with
    | nil => intro _; rfl
    | cons c x ih =>
      intro hx
      have hx' : ¬ (44 = c ∨ 44 ∈ x) := by simpa [NoComma] using hx
      simp only [split]
      rw [ih (fun hh => hx' (.inr hh))]
      simp only
      rw [if_neg (fun hh => hx' (.inl hh.symm))]
  have app : ∀ x t : Str, NoComma x → split (x ++ 44 :: t) = x :: split t := by
    intro x t
    induction x with
    | nil =>
      intro _
      simp only [List.nil_append, split]
      cases hs : split t with
      | nil => exact absurd hs (split_ne t)
      | cons => simp
    | cons c x ih =>
      intro hx
      have hx' : ¬ (44 = c ∨ 44 ∈ x) := by simpa [NoComma] using hx
      simp only [List.cons_append, split]
      rw [ih (fun hh => hx' (.inr hh))]
      simp only
      rw [if_neg (fun hh => hx' (.inl hh.symm))]
  induction l with
  | nil => exact absurd rfl hne
  | cons x xs ih =>
    cases xs with
    | nil => exact one x (h x List.mem_cons_self)
    | cons y ys =>
      show split (x ++ 44 :: commas (y :: ys)) = _
      rw [app x _ (h x List.mem_cons_self), ih (by simp) (fun s hs => h s (List.mem_cons_of_mem _ hs))]

theorem numeral_nocomma {s : Str} {n : Nat} (h : Numeral s n) : NoComma s := by
  intro hc
  have := (numeral_iff.1 h).2.1 44 hc
  omega

theorem events_nocomma {s : Str} {a b : Nat} (h : EventsText s a b) : NoComma s := by
  cases h with
  | one h => exact numeral_nocomma h
  | range h h' _ =>
    have h1 := numeral_nocomma h
    have h2 := numeral_nocomma h'
    intro hc
    rcases List.mem_append.1 hc with hc | hc
    · exact h1 hc
    · rcases List.mem_cons.1 hc with hc | hc
      · omega
      · exact h2 hc
  | all => simp [NoComma]

theorem newline_nocomma {n : Str} (h : Newline n) : NoComma n := by
  rcases h with rfl | rfl <;> simp [NoComma]

theorem entries_nocomma {c : Option Nat} {ss : List Str} {l : List (Nat × Nat × Nat)}
    (h : Entries c ss l) : ∀ s ∈ ss, NoComma s := by
  have app : ∀ a b : Str, NoComma a → NoComma b → NoComma (a ++ b) := by
    intro a b ha hb hc
    rcases List.mem_append.1 hc with hc | hc
    · exact ha hc
    · exact hb hc
  induction h with
  | nil => simp
  | own h1 _ h3 _ h5 _ ih =>
    intro s hs
    rcases List.mem_cons.1 hs with rfl | hs
    · rw [List.append_assoc]
      refine app _ _ (numeral_nocomma h1) ?_
      intro hc
      simp only [List.cons_append, List.mem_cons] at hc
      rcases hc with hc | hc
      · omega
      · exact app _ _ (events_nocomma h3) (newline_nocomma h5) hc
    · exact ih s hs
  | same h1 _ h3 _ ih =>
    intro s hs
    rcases List.mem_cons.1 hs with rfl | hs
    · exact app _ _ (events_nocomma h1) (newline_nocomma h3)
    · exact ih s hs

def allPairs (l : List (Nat × Nat × Nat)) : List (Nat × Nat) := l.flatMap fun r => pairs r.1 r.2.1 r.2.2

theorem parseItems_iff {ss : List Str} : ∀ {c : Option Nat} {p : List (Nat × Nat)},
    parseItems c ss = .ok p ↔ ∃ l, Entries c ss l ∧ p = allPairs l := by
  induction ss with
  | nil =>
    intro c p
    simp only [parseItems, Except.ok.injEq]
    constructor
    · rintro rfl; exact ⟨[], .nil, rfl⟩
    · rintro ⟨l, h, rfl⟩; cases h; rfl
  | cons s ss ih =>
    intro c p
    constructor
    · intro h
      simp only [parseItems] at h
      split at h
      · cases h
      · rename_i cc ev hm
        split at h
        · cases h
        · rename_i k hk
          split at h
          · cases h
          · rename_i a b hr
            split at h
            · cases h
            · rename_i q hq
              simp only [Except.ok.injEq] at h
              obtain ⟨l, hl, rfl⟩ := ih.1 hq
              rcases matchItem_iff.1 hm with ⟨d, r, rfl, h1, h2, rfl, hx⟩ | ⟨rfl, hx⟩
              · simp only at hk
                split at hk
                · rename_i hlt
                  simp only [Except.ok.injEq] at hk
                  subst hk
                  obtain ⟨t, n, rfl, ht, hb, hn⟩ := events_iff.1 ⟨ev, hx, hr⟩
                  refine ⟨(toNat d, a, b) :: l, ?_, h.symm⟩
                  have := Entries.own (c := c) (numeral_iff.2 ⟨h1, h2, rfl⟩) hlt ht hb hn hl
                  simpa using this
                · cases hk
              · simp only at hk
                cases c with
                | none => cases hk
                | some k' =>
                  simp only [Except.ok.injEq] at hk
                  subst hk
                  obtain ⟨t, n, rfl, ht, hb, hn⟩ := events_iff.1 ⟨ev, hx, hr⟩
                  exact ⟨(k', a, b) :: l, .same ht hb hn hl, h.symm⟩
    · rintro ⟨l, h, rfl⟩
      cases h with
      | @own _ t s n k a b _ l h1 h2 h3 h4 h5 h6 =>
        obtain ⟨n1, n2, rfl⟩ := numeral_iff.1 h1
        obtain ⟨ev, he, hr⟩ := events_iff.2 ⟨s, n, rfl, h3, h4, h5⟩
        have hm := matchItem_iff.2 (.inl ⟨t, s ++ n, rfl, n1, n2, rfl, he⟩)
        have hq := ih.2 ⟨l, h6, rfl⟩
        simp only [parseItems, List.append_assoc, List.cons_append, hm, h2, if_true, hr, hq]
        rfl
      | @same s n k a b _ l h1 h2 h3 h4 =>
        obtain ⟨ev, he, hr⟩ := events_iff.2 ⟨s, n, rfl, h1, h2, h3⟩
        have hm := matchItem_iff.2 (.inr ⟨rfl, he⟩)
        have hq := ih.2 ⟨l, h4, rfl⟩
        simp only [parseItems, hm, hr, hq]
        rfl

theorem mem_pairs {k a b : Nat} {x : Nat × Nat} :
    x ∈ pairs k a b ↔ k = x.1 ∧ a ≤ x.2 ∧ x.2 ≤ b := by
  unfold pairs
  simp only [List.mem_map, List.mem_range]
  constructor
  · rintro ⟨i, hi, rfl⟩; exact ⟨rfl, by simp, by simp; omega⟩
  · rintro ⟨rfl, h1, h2⟩
    refine ⟨x.2 - a, by omega, ?_⟩
    rw [show a + (x.2 - a) = x.2 by omega]

theorem mem_allPairs {l : List (Nat × Nat × Nat)} {x : Nat × Nat} : x ∈ allPairs l ↔ InRanges l x := by
  unfold allPairs InRanges
  simp only [List.mem_flatMap, mem_pairs]

end Verif.EvLog
