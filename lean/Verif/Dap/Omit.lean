import Verif.Dap.Round

/-!
Messages that end before their last field.
-/

namespace Verif.Dap

open Verif.Fields

theorem require_ok {b : Bytes} {n : Nat} {u : Unit} (h : require b n = .ok u) : n ≤ b.length := by
  unfold require at h
  split at h
  · cases h
  · omega

theorem require_le {b : Bytes} {n : Nat} (h : n ≤ b.length) : require b n = .ok () := by
  unfold require; rw [if_neg (by omega)]

theorem take_append {b z : Bytes} {n : Nat} (h : n ≤ b.length) : (b ++ z).take n = b.take n := by
  rw [List.take_append_of_le_length h]

theorem drop_append {b z : Bytes} {n : Nat} (h : n ≤ b.length) : (b ++ z).drop n = b.drop n ++ z := by
  rw [List.drop_append_of_le_length h]

theorem exLoop_append {z : Bytes} : ∀ (left i val : Nat) (b : Bytes) (v : Nat) (r : Bytes),
    exLoop left i val b = .ok (v, r) → exLoop left i val (b ++ z) = .ok (v, r ++ z) := by
  intro left
  induction left with
  | zero => intro i val b v r h; simp [exLoop] at h
  | succ l ih =>
    intro i val b v r h
    cases b with
    | nil => simp [exLoop] at h
    | cons x b =>
      simp only [exLoop, List.cons_append] at h ⊢
      split at h
      · rename_i hx
        rw [if_pos hx]
        injection h with h
        injection h with h1 h2
        subst h1 h2; rfl
      · rename_i hx
        rw [if_neg hx]
        split at h
        · cases h
        · rename_i hl
          rw [if_neg hl]
          exact ih _ _ _ _ _ h

theorem iDec_append {m : Nat} {b v r z : Bytes} (h : iDec m b = .ok (v, r)) :
    iDec m (b ++ z) = .ok (v, r ++ z) := by
  cases b with
  | nil => simp [iDec] at h
  | cons x b =>
    simp only [iDec, List.cons_append] at h ⊢
    split at h
    · cases h
    · rename_i h1
      split at h
      · cases h
      · rename_i h2
        rw [not_not] at h2
        have hl : x.toNat ≤ b.length := by
          rw [List.length_take] at h2; omega
        rw [if_neg h1, take_append hl, drop_append hl, if_neg (by rw [not_not]; exact h2)]
        injection h with h
        injection h with h3 h4
        rw [h3, h4]

theorem bvDec_append' {n : Nat} {b v r z : Bytes} (h : bvDec n b = .ok (v, r)) :
    bvDec n (b ++ z) = .ok (v, r ++ z) := by
  unfold bvDec at h ⊢
  rw [bind_ok] at h
  obtain ⟨u, hu, h⟩ := h
  have hl := require_ok hu
  rw [require_le (by rw [List.length_append]; omega), take_append hl, drop_append hl]
  injection h with h
  injection h with h3 h4
  rw [← h3, ← h4]; rfl

theorem bDec_append {n : Nat} {b r z : Bytes} {v : Int} (h : bDec n b = .ok (v, r)) :
    bDec n (b ++ z) = .ok (v, r ++ z) := by
  unfold bDec at h ⊢
  rw [bind_ok] at h
  obtain ⟨u, hu, h⟩ := h
  have hl := require_ok hu
  rw [require_le (by rw [List.length_append]; omega), take_append hl, drop_append hl]
  injection h with h
  injection h with h3 h4
  rw [← h3, ← h4]; rfl

/-- What follows a field does not matter. -/
theorem fld_append {f : Fld} {b r z : Bytes} {v : Val} (hp : f ≠ .payload)
    (h : f.codec.dec b = .ok (v, r)) : f.codec.dec (b ++ z) = .ok (v, r ++ z) := by
  cases f with
  | payload => exact absurd rfl hp
  | b n =>
    simp only [Fld.codec, cB, intCodec] at h ⊢
    rw [map_ok] at h
    obtain ⟨⟨x, y⟩, h1, h2⟩ := h
    injection h2 with h2 h3
    rw [bDec_append h1, map_of_ok]; simp [← h2, ← h3]
  | version =>
    simp only [Fld.codec, cFixed, bytesCodec] at h ⊢
    rw [map_ok] at h
    obtain ⟨⟨x, y⟩, h1, h2⟩ := h
    injection h2 with h2 h3
    rw [bvDec_append' h1, map_of_ok]; simp [← h2, ← h3]
  | i n =>
    simp only [Fld.codec, cI, bytesCodec] at h ⊢
    rw [map_ok] at h
    obtain ⟨⟨x, y⟩, h1, h2⟩ := h
    injection h2 with h2 h3
    rw [iDec_append h1, map_of_ok]; simp [← h2, ← h3]
  | a n =>
    simp only [Fld.codec, cA, aDec] at h ⊢
    rw [map_ok] at h
    obtain ⟨x, h1, h2⟩ := h
    rw [map_ok] at h1
    obtain ⟨⟨y1, y2⟩, h1, rfl⟩ := h1
    injection h2 with h2 h3
    rw [iDec_append h1, map_of_ok, map_of_ok]; simp only [← h2, ← h3]
  | iint n =>
    simp only [Fld.codec, cIint, intCodec, iintDec] at h ⊢
    rw [map_ok] at h
    obtain ⟨x, h1, h2⟩ := h
    rw [map_ok] at h1
    obtain ⟨⟨y1, y2⟩, h1, rfl⟩ := h1
    injection h2 with h2 h3
    rw [iDec_append h1, map_of_ok, map_of_ok]; simp only [← h2, ← h3]
  | av n =>
    simp only [Fld.codec, cAV, avDec] at h ⊢
    rw [map_ok] at h
    obtain ⟨x, h1, h2⟩ := h
    rw [map_ok] at h1
    obtain ⟨⟨y1, y2⟩, h1, rfl⟩ := h1
    injection h2 with h2 h3
    rw [bvDec_append' h1, map_of_ok, map_of_ok]; simp only [← h2, ← h3]

theorem read_append {k : Core} {b r z : Bytes} {ws : List (String × Val)} (hp : k.isPayload = false)
    (h : readCore b k = .ok (ws, r)) : readCore (b ++ z) k = .ok (ws, r ++ z) := by
  cases k with
  | fld n f =>
    simp only [readCore] at h ⊢
    rw [bind_ok] at h
    obtain ⟨⟨v, y⟩, h1, h2⟩ := h
    injection h2 with h2
    injection h2 with h2 h3
    rw [fld_append (by rintro rfl; cases hp) h1, ← h2, ← h3]; rfl
  | bm es =>
    simp only [readCore] at h ⊢
    rw [bind_ok] at h
    obtain ⟨u, hu, h⟩ := h
    have hl := require_ok hu
    rw [require_le (by rw [List.length_append]; omega), take_append hl, drop_append hl]
    injection h with h
    injection h with h3 h4
    rw [← h3, ← h4]; rfl
  | bmex m es =>
    simp only [readCore, exDec] at h ⊢
    rw [bind_ok] at h
    obtain ⟨⟨v, y⟩, h1, h2⟩ := h
    injection h2 with h2
    injection h2 with h2 h3
    rw [exLoop_append _ _ _ _ _ _ h1, ← h2, ← h3]; rfl

/-- Reading a field from the string of zeroes is reading it from as many as it takes. -/
theorem read_zeros {k : Core} {ws : List (String × Val)} {r : Bytes} (hp : k.isPayload = false)
    (hz : k.zeros ≤ 128) (h : readCore dapDefault k = .ok (ws, r)) :
    readCore (List.replicate k.zeros 0) k = .ok (ws, []) := by
  have hD : dapDefault = List.replicate k.zeros 0 ++ List.replicate (128 - k.zeros) 0 := by
    unfold dapDefault; rw [List.replicate_append_replicate]; congr 1; omega
  rw [hD] at h
  suffices hs : ∃ ws', readCore (List.replicate k.zeros 0) k = .ok (ws', []) by
    obtain ⟨ws', hs⟩ := hs
    have := read_append (z := List.replicate (128 - k.zeros) 0) hp hs
    rw [h] at this
    injection this with this
    injection this with h1 _
    rw [h1]; exact hs
  have hi : ∀ n, iDec n [0] = .ok ([], []) := by intro n; simp [iDec]
  have hb : ∀ n, bvDec n (List.replicate n 0) = .ok (List.replicate n 0, []) := by
    intro n; unfold bvDec; rw [require_le (by simp)]; simp
  cases k with
  | fld n f =>
    cases f with
    | payload => cases hp
    | b n =>
      simp only [readCore, Core.zeros, Fld.codec, cB, intCodec, bDec]
      rw [require_le (by simp)]
      simp [Except.map]
    | version =>
      simp only [readCore, Core.zeros, Fld.codec, cFixed, bytesCodec]
      rw [hb 5]; exact ⟨_, rfl⟩
    | av n =>
      simp only [readCore, Core.zeros, Fld.codec, cAV, avDec]
      rw [hb n]; exact ⟨_, rfl⟩
    | a n =>
      simp only [readCore, Core.zeros, Fld.codec, cA, aDec]
      rw [show List.replicate 1 (0 : UInt8) = [0] from rfl, hi n]; exact ⟨_, rfl⟩
    | i n =>
      simp only [readCore, Core.zeros, Fld.codec, cI, bytesCodec]
      rw [show List.replicate 1 (0 : UInt8) = [0] from rfl, hi n]; exact ⟨_, rfl⟩
    | iint n =>
      simp only [readCore, Core.zeros, Fld.codec, cIint, intCodec, iintDec]
      rw [show List.replicate 1 (0 : UInt8) = [0] from rfl, hi n]; exact ⟨_, rfl⟩
  | bm es =>
    simp only [readCore, Core.zeros]
    rw [require_le (by simp)]
    simp only [List.drop_replicate, Nat.sub_self, List.replicate_zero]
    exact ⟨_, rfl⟩
  | bmex m es =>
    cases m with
    | zero => simp only [readCore, exDec, exLoop] at h; cases h
    | succ m =>
      simp only [readCore, Core.zeros, exDec, exLoop, List.replicate_one]
      exact ⟨_, rfl⟩

/-! ## Rows -/

theorem core_of_read {c : PktClass} {buf rest : Bytes} {acc acc' : Attrs} {k : Core}
    (h : decCore c buf acc k = .ok (acc', rest)) :
    ∃ ws, readCore buf k = .ok (ws, rest) ∧ setAll c ws acc = .ok acc' := by
  unfold decCore at h
  rw [bind_ok] at h
  obtain ⟨⟨ws, r⟩, h1, h⟩ := h
  rw [bind_ok] at h
  obtain ⟨a, h2, h⟩ := h
  injection h with h
  injection h with h3 h4
  subst h3 h4
  exact ⟨ws, h1, h2⟩

theorem core_to_read {c : PktClass} {buf rest : Bytes} {acc acc' : Attrs} {k : Core}
    {ws : List (String × Val)} (h : readCore buf k = .ok (ws, rest)) (h2 : setAll c ws acc = .ok acc') :
    decCore c buf acc k = .ok (acc', rest) := by
  simp [decCore, h, h2]

/-- Once the message is at an end. -/
theorem done_rows {c : PktClass} : ∀ {rows : List Row} {x : Bytes} {acc q : Attrs},
    fillOk rows = true → decRows c rows true x acc = .ok q →
    ∃ sub : List Row, sub.Sublist rows ∧ strictRows c rows (sub.map Row.filler).flatten acc = .ok (q, []) := by
  intro rows
  induction rows with
  | nil =>
    intro x acc q _ h
    simp only [decRows] at h
    injection h with h
    subst h
    exact ⟨[], .slnil, rfl⟩
  | cons r rs ih =>
    intro x acc q hok h
    obtain ⟨g, k⟩ := r
    simp only [fillOk, Bool.and_eq_true] at hok
    obtain ⟨⟨hg, hpl⟩, hrs⟩ := hok
    simp only [decRows, if_true, Bool.true_or] at h
    rw [bind_ok] at h
    obtain ⟨⟨a, y⟩, h1, h2⟩ := h
    obtain ⟨sub, hs, h3⟩ := ih hrs h2
    -- the row is read from its filler
    have spelled : decRow c false ((Row.mk g k).filler ++ (sub.map Row.filler).flatten) acc ⟨g, k⟩ =
          .ok (a, (sub.map Row.filler).flatten) →
        ∃ sub : List Row, sub.Sublist (⟨g, k⟩ :: rs) ∧
          strictRows c (⟨g, k⟩ :: rs) (sub.map Row.filler).flatten acc = .ok (q, []) := by
      intro hz
      refine ⟨⟨g, k⟩ :: sub, hs.cons_cons _, ?_⟩
      simp only [strictRows, List.map_cons, List.flatten_cons]
      rw [hz]; exact h3
    have skipped : (∀ z, decRow c false z acc ⟨g, k⟩ = .ok (a, z)) →
        ∃ sub : List Row, sub.Sublist (⟨g, k⟩ :: rs) ∧
          strictRows c (⟨g, k⟩ :: rs) (sub.map Row.filler).flatten acc = .ok (q, []) := by
      intro hz
      refine ⟨sub, hs.cons _, ?_⟩
      simp only [strictRows]
      rw [hz]; exact h3
    have zero : k.isPayload = false → k.zeros ≤ 128 → decCore c dapDefault acc k = .ok (a, y) →
        ∀ z, decCore c (List.replicate k.zeros 0 ++ z) acc k = .ok (a, z) := by
      intro hp hz hd z
      obtain ⟨ws, h4, h5⟩ := core_of_read hd
      exact core_to_read (read_append hp (read_zeros hp hz h4)) h5
    have notP : g ≠ .orElse [] → k.isPayload = false := by
      intro hne
      rw [Bool.or_eq_true, Bool.and_eq_true] at hpl
      rcases hpl with hpl | hpl
      · simpa using hpl
      · exact absurd (by simpa using hpl.2) hne
    have plainP : k.isPayload = true → (sub.map Row.filler).flatten = [] := by
      intro hp
      rw [Bool.or_eq_true, Bool.and_eq_true] at hpl
      rcases hpl with hpl | hpl
      · rw [hp] at hpl; cases hpl
      · have : rs = [] := by simpa using hpl.1
        subst this
        rw [List.sublist_nil.1 hs]; rfl
    cases g with
    | always =>
      simp only [decide_eq_true_eq] at hg
      simp only [decRow] at h1
      exact spelled (zero (notP (by simp)) hg h1 _)
    | when f =>
      simp only [decide_eq_true_eq] at hg
      simp only [decRow] at h1
      by_cases ht : truthy (c.get acc f) = true
      · rw [if_pos ht] at h1
        refine spelled ?_
        simp only [decRow, ht, if_true]
        exact zero (notP (by simp)) hg h1 _
      · rw [if_neg ht] at h1
        injection h1 with h1
        injection h1 with h1 _
        subst h1
        refine skipped (fun z => ?_)
        simp only [decRow]
        rw [if_neg ht]
    | whenElse f d =>
      simp only [decide_eq_true_eq] at hg
      simp only [decRow] at h1
      by_cases ht : truthy (c.get acc f) = true
      · rw [if_pos ht] at h1
        refine spelled ?_
        simp only [decRow, ht, if_true]
        exact zero (notP (by simp)) hg h1 _
      · rw [if_neg ht, bind_ok] at h1
        obtain ⟨⟨a', y'⟩, h4, h5⟩ := h1
        injection h5 with h5
        injection h5 with h5 _
        subst h5
        refine skipped (fun z => ?_)
        simp only [decRow]
        rw [if_neg ht, h4]; rfl
    | orElse d =>
      simp only at hg
      cases hr : readCore d k with
      | error e => rw [hr] at hg; cases hg
      | ok w =>
        obtain ⟨ws, r⟩ := w
        rw [hr] at hg
        have hg : r = [] := by simpa using hg
        subst hg
        simp only [decRow, if_true] at h1
        obtain ⟨ws', h4, h5⟩ := core_of_read h1
        rw [hr] at h4
        injection h4 with h4
        injection h4 with h6 h7
        subst h6
        refine spelled ?_
        simp only [decRow, Row.filler, Bool.false_eq_true, if_false]
        by_cases hp : k.isPayload = true
        · rw [plainP hp, List.append_nil]
          exact core_to_read hr h5
        · exact core_to_read (read_append (by simpa using hp) hr) h5

/-- A row before the end. -/
theorem row_append {c : PktClass} {r : Row} {m m' z : Bytes} {acc a : Attrs}
    (hp : r.core.isPayload = false) (h : decRow c false m acc r = .ok (a, m')) :
    decRow c false (m ++ z) acc r = .ok (a, m' ++ z) := by
  have core : ∀ {m m' : Bytes}, decCore c m acc r.core = .ok (a, m') →
      decCore c (m ++ z) acc r.core = .ok (a, m' ++ z) := by
    intro m m' h
    obtain ⟨ws, h1, h2⟩ := core_of_read h
    exact core_to_read (read_append hp h1) h2
  obtain ⟨g, k⟩ := r
  cases g with
  | always => exact core h
  | orElse d =>
    simp only [decRow, Bool.false_eq_true, if_false] at h ⊢
    exact core h
  | when f =>
    simp only [decRow] at h ⊢
    split at h
    · rename_i ht; rw [if_pos ht]; exact core h
    · rename_i ht; rw [if_neg ht]
      injection h with h; injection h with h1 h2; rw [h1, h2]
  | whenElse f d =>
    simp only [decRow] at h ⊢
    split at h
    · rename_i ht; rw [if_pos ht]; exact core h
    · rename_i ht; rw [if_neg ht]
      rw [bind_ok] at h
      obtain ⟨⟨a', y'⟩, h4, h5⟩ := h
      injection h5 with h5
      injection h5 with h5 h6
      rw [h4, ← h5, ← h6]; rfl

/-- The message read is the message with what is missing spelled out. -/
theorem open_rows {c : PktClass} : ∀ {rows : List Row} {m : Bytes} {acc q : Attrs},
    fillOk rows = true → decRows c rows false m acc = .ok q →
    ∃ (sub : List Row) (rest : Bytes), sub.Sublist rows ∧
      strictRows c rows (m ++ (sub.map Row.filler).flatten) acc = .ok (q, rest) ∧
      (sub ≠ [] → rest = []) := by
  intro rows
  induction rows with
  | nil =>
    intro m acc q _ h
    simp only [decRows] at h
    injection h with h
    subst h
    exact ⟨[], m, .slnil, by simp [strictRows], by simp⟩
  | cons r rs ih =>
    intro m acc q hok h
    simp only [fillOk, Bool.and_eq_true] at hok
    obtain ⟨⟨hg, hpl⟩, hrs⟩ := hok
    simp only [decRows, Bool.false_eq_true, if_false, Bool.false_or] at h
    rw [bind_ok] at h
    obtain ⟨⟨a, m'⟩, h1, h2⟩ := h
    simp only at h2
    by_cases hp : r.core.isPayload = true
    · rw [Bool.or_eq_true, Bool.and_eq_true] at hpl
      rcases hpl with hpl | hpl
      · rw [hp] at hpl; cases hpl
      · have : rs = [] := by simpa using hpl.1
        subst this
        simp only [decRows] at h2
        injection h2 with h2
        subst h2
        exact ⟨[], m', List.nil_sublist _, by simp [strictRows, h1], by simp⟩
    · have hp : r.core.isPayload = false := by simpa using hp
      cases hm : m'.isEmpty with
      | true =>
        rw [hm] at h2
        have hm : m' = [] := by simpa using hm
        subst hm
        obtain ⟨sub, hs, h3⟩ := done_rows hrs h2
        refine ⟨sub, [], hs.cons _, ?_, fun _ => rfl⟩
        simp only [strictRows]
        rw [row_append hp h1]; exact h3
      | false =>
        rw [hm] at h2
        obtain ⟨sub, rest, hs, h3, h4⟩ := ih hrs h2
        refine ⟨sub, rest, hs.cons _, ?_, h4⟩
        simp only [strictRows]
        rw [row_append hp h1]; exact h3

end Verif.Dap
