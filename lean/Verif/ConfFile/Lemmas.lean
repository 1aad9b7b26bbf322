import Verif.ConfFile.Spec

/-! # Lines -/

namespace Verif.ConfFile

variable {V C : Type}

theorem dropWhile_nil_iff (f : Char → Bool) (l : Str) : l.dropWhile f = [] ↔ ∀ c ∈ l, f c = true := by
  induction l with
  | nil => simp
  | cons x t ih =>
    by_cases hx : f x = true
    · rw [List.dropWhile_cons_of_pos hx, ih]; simp [hx]
    · rw [List.dropWhile_cons_of_neg hx]
      simp [hx]

theorem mem_takeWhile_imp {f : Char → Bool} {l : Str} {c : Char} (h : c ∈ l.takeWhile f) : f c = true := by
  induction l with
  | nil => simp at h
  | cons x t ih =>
    by_cases hx : f x = true
    · rw [List.takeWhile_cons_of_pos hx] at h
      rcases List.mem_cons.mp h with rfl | h
      · exact hx
      · exact ih h
    · rw [List.takeWhile_cons_of_neg hx] at h; simp at h

theorem dropWhile_pre (ws : Char → Bool) (a l : Str) (ha : ∀ c ∈ a, ws c = true) (c : Char)
    (hl : l.head? = some c) (hc : ws c = false) : (a ++ l).dropWhile ws = l := by
  induction a with
  | nil =>
    cases l with
    | nil => rfl
    | cons x t => simp at hl; subst hl; simp [hc]
  | cons x t ih =>
    rw [List.cons_append, List.dropWhile_cons_of_pos (ha x (by simp))]
    exact ih fun c hc => ha c (by simp [hc])

theorem strip_contains (ws : Char → Bool) (raw l : Str) (h : Contains ws raw l) : strip ws raw = l := by
  obtain ⟨⟨⟨c, hc, wc⟩, d, hd, wd⟩, a, b, rfl, ha, hb⟩ := h
  unfold strip
  rw [List.append_assoc, dropWhile_pre ws a (l ++ b) ha c (by rw [List.head?_append, hc]; rfl) wc,
    List.reverse_append, dropWhile_pre ws b.reverse l.reverse (fun c hc => hb c (by simpa using hc)) d
      (by rw [List.head?_reverse]; exact hd) wd, List.reverse_reverse]

theorem strip_blank (ws : Char → Bool) (raw : Str) (h : ∀ c ∈ raw, ws c = true) : strip ws raw = [] := by
  unfold strip
  have : raw.dropWhile ws = [] := by
    simpa [dropWhile_nil_iff] using h
  rw [this]; rfl

theorem dropWhile_head (f : Char → Bool) (l : Str) (c : Char) (h : (l.dropWhile f).head? = some c) :
    f c = false := by
  induction l with
  | nil => simp at h
  | cons x t ih =>
    by_cases hx : f x = true
    · rw [List.dropWhile_cons_of_pos hx] at h; exact ih h
    · rw [List.dropWhile_cons_of_neg hx] at h
      simp at h; subst h; simpa using hx

/-- What is stripped is white space, or contains something. -/
theorem strip_cases (ws : Char → Bool) (raw : Str) :
    (∀ c ∈ raw, ws c = true) ∨ (strip ws raw ≠ [] ∧ Contains ws raw (strip ws raw)) := by
  by_cases h : ∀ c ∈ raw, ws c = true
  · exact .inl h
  · right
    have h1 : raw.takeWhile ws ++ raw.dropWhile ws = raw := List.takeWhile_append_dropWhile
    have hne : raw.dropWhile ws ≠ [] := by
      intro e; rw [dropWhile_nil_iff] at e; exact h e
    have h2 := List.takeWhile_append_dropWhile (p := ws) (l := (raw.dropWhile ws).reverse)
    obtain ⟨x, t, hx⟩ := List.exists_cons_of_ne_nil hne
    have wx : ws x = false := dropWhile_head ws raw x (by rw [hx]; rfl)
    have hs : strip ws raw ++ ((raw.dropWhile ws).reverse.takeWhile ws).reverse = raw.dropWhile ws := by
      unfold strip
      rw [← List.reverse_append, h2, List.reverse_reverse]
    have hmem : ∀ c ∈ ((raw.dropWhile ws).reverse.takeWhile ws).reverse, ws c = true := by
      intro c hc; rw [List.mem_reverse] at hc
      exact (mem_takeWhile_imp hc)
    have hsn : strip ws raw ≠ [] := by
      intro e
      rw [e, List.nil_append] at hs
      have := hmem x (by rw [hs, hx]; simp)
      rw [wx] at this; exact absurd this (by simp)
    refine ⟨hsn, ⟨⟨x, ?_, wx⟩, ?_⟩, raw.takeWhile ws, _, ?_, fun c hc => mem_takeWhile_imp hc, hmem⟩
    · obtain ⟨y, u, hy⟩ := List.exists_cons_of_ne_nil hsn
      rw [hy, hx] at hs
      rw [hy]
      have := (List.cons.inj hs).1
      rw [this]; rfl
    · have : (strip ws raw).getLast? = ((raw.dropWhile ws).reverse.dropWhile ws).head? := by
        rw [← List.head?_reverse]; unfold strip; rw [List.reverse_reverse]
      have hne2 : (raw.dropWhile ws).reverse.dropWhile ws ≠ [] := by
        intro e; apply hsn; unfold strip; rw [e]; rfl
      obtain ⟨y, u, hy⟩ := List.exists_cons_of_ne_nil hne2
      exact ⟨y, by rw [this, hy]; rfl, dropWhile_head ws _ y (by rw [hy]; rfl)⟩
    · rw [List.append_assoc, hs, h1]

theorem takeWhile_word (ws : Char → Bool) (w r : Str) (hw : ∀ c ∈ w, ws c = false)
    (hr : r = [] ∨ ∃ c, r.head? = some c ∧ ws c = true) :
    (w ++ r).takeWhile (fun c => !ws c) = w ∧ (w ++ r).dropWhile (fun c => !ws c) = r := by
  induction w with
  | nil =>
    rcases hr with rfl | ⟨c, hc, wc⟩
    · exact ⟨rfl, rfl⟩
    · cases r with
      | nil => simp at hc
      | cons x t => simp at hc; subst hc; simp [wc]
  | cons x t ih =>
    have hx : ws x = false := hw x (by simp)
    have := ih fun c hc => hw c (by simp [hc])
    simp [hx, this.1, this.2]

/-- What the rest of a line makes of it. -/
def restKind (w l : Str) : Str → Kind
  | '@' :: ifn => if ifn = [] then .entry l else .incl ifn (some w)
  | _ => .entry l

theorem kind_word (ws : Char → Bool) (w gap r : Str) (hw : ∀ c ∈ w, ws c = false)
    (hg : gap ≠ [] ∧ ∀ c ∈ gap, ws c = true) (hr : ∃ c, r.head? = some c ∧ ws c = false) :
    kindOf ws (w ++ gap ++ r) = restKind w (w ++ gap ++ r) r := by
  obtain ⟨c, hc, wc⟩ := hr
  obtain ⟨g, gs, rfl⟩ := List.exists_cons_of_ne_nil hg.1
  have h := takeWhile_word ws w (g :: gs ++ r) hw (.inr ⟨g, rfl, hg.2 g (by simp)⟩)
  rw [← List.append_assoc] at h
  have h3 := dropWhile_pre ws (g :: gs) r hg.2 c hc wc
  unfold kindOf restKind
  simp only [h.1, h.2, h3]
  cases r with
  | nil => simp at hc
  | cons x t =>
    by_cases hx : x = '@'
    · subst hx; rfl
    · split <;> simp_all

theorem kind_single_at (ws : Char → Bool) (w : Str) (hw : ∀ c ∈ '@' :: w, ws c = false) (h0 : w ≠ []) :
    kindOf ws ('@' :: w) = .incl w none := by
  have h := takeWhile_word ws ('@' :: w) [] hw (.inl rfl)
  rw [List.append_nil] at h
  unfold kindOf
  simp only [h.2, List.dropWhile_nil, if_neg h0]

theorem kind_single (ws : Char → Bool) (w : Str) (hw : ∀ c ∈ w, ws c = false)
    (h0 : w.head? ≠ some '@' ∨ w = ['@']) : kindOf ws w = .entry w := by
  have h := takeWhile_word ws w [] hw (.inl rfl)
  rw [List.append_nil] at h
  unfold kindOf
  simp only [h.2, List.dropWhile_nil]
  rcases h0 with h0 | rfl
  · split
    · simp at h0
    · rfl
  · rfl

/-- A line is one word, or a word, white space and the rest. -/
theorem word_cases (ws : Char → Bool) (l : Str) (h : Bare ws l) :
    Word ws l ∨ ∃ w gap r, l = w ++ gap ++ r ∧ Word ws w ∧ (gap ≠ [] ∧ ∀ c ∈ gap, ws c = true) ∧
      ∃ c, r.head? = some c ∧ ws c = false := by
  obtain ⟨⟨c, hc, wc⟩, d, hd, wd⟩ := h
  by_cases hw : ∀ c ∈ l, ws c = false
  · exact .inl ⟨by rintro rfl; simp at hc, hw⟩
  · right
    let w := l.takeWhile fun c => !ws c
    let r0 := l.dropWhile fun c => !ws c
    have h0 : w ++ r0 = l := List.takeWhile_append_dropWhile
    have h1 : r0.takeWhile ws ++ r0.dropWhile ws = r0 := List.takeWhile_append_dropWhile
    have hr0 : r0 ≠ [] := by
      intro e; rw [dropWhile_nil_iff] at e
      exact hw fun c hc => by simpa using e c hc
    obtain ⟨x, t, hx⟩ := List.exists_cons_of_ne_nil hr0
    have wx : ws x = true := by
      have := dropWhile_head (fun c => !ws c) l x (by show r0.head? = _; rw [hx]; rfl)
      simpa using this
    refine ⟨w, r0.takeWhile ws, r0.dropWhile ws, by rw [List.append_assoc, h1, h0], ⟨?_, ?_⟩, ⟨?_, ?_⟩, ?_⟩
    · intro e
      rw [e, List.nil_append] at h0
      rw [← h0, hx] at hc; simp at hc; subst hc; rw [wx] at wc; exact absurd wc (by simp)
    · intro c hc; have := mem_takeWhile_imp hc; simpa using this
    · rw [hx, List.takeWhile_cons_of_pos wx]; simp
    · intro c hc; exact mem_takeWhile_imp hc
    · have hne : r0.dropWhile ws ≠ [] := by
        intro e
        rw [dropWhile_nil_iff] at e
        have hl : l.getLast? = r0.getLast? := by
          rw [← h0, List.getLast?_append]
          cases hq : r0.getLast? with
          | none => rw [List.getLast?_eq_none_iff] at hq; exact absurd hq hr0
          | some z => rfl
        rw [hl] at hd
        have := e d (List.mem_of_getLast? hd)
        rw [wd] at this; exact absurd this (by simp)
      obtain ⟨y, u, hy⟩ := List.exists_cons_of_ne_nil hne
      exact ⟨y, by rw [hy]; rfl, dropWhile_head ws _ y (by rw [hy]; rfl)⟩

end Verif.ConfFile
