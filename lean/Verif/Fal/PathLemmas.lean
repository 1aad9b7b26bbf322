import Verif.Fal.PathSpec

/-!
# Lemmas about file names
-/

namespace Verif.Fal

theorem split_ne (s : Str) : split s ≠ [] := by
  cases s with
  | nil => simp [split]
  | cons c s =>
    simp only [split]
    split
    · simp
    · split <;> simp

theorem split_cons_ne {c : Nat} (hc : c ≠ 47) (s : Str) :
    ∃ h t, split s = h :: t ∧ split (c :: s) = (c :: h) :: t := by
  cases hs : split s with
  | nil => exact absurd hs (split_ne s)
  | cons h t => exact ⟨h, t, rfl, by simp [split, hc, hs]⟩

theorem split_slash (s : Str) : split (47 :: s) = [] :: split s := by simp [split]

theorem no_slash (s : Str) : ∀ c ∈ split s, 47 ∉ c := by
  induction s with
  | nil => simp [split]
  | cons a s ih =>
    by_cases ha : a = 47
    · subst ha; rw [split_slash]
      intro c hc
      rcases List.mem_cons.1 hc with h | h
      · subst h; simp
      · exact ih c h
    · obtain ⟨h, t, h1, h2⟩ := split_cons_ne ha s
      rw [h2]
      intro c hc
      rcases List.mem_cons.1 hc with h | h
      · subst h
        have := ih h (by rw [h1]; simp)
        simp only [List.mem_cons, not_or]
        exact ⟨fun h => ha h.symm, this⟩
      · exact ih c (by rw [h1]; exact List.mem_cons_of_mem _ h)

theorem split_plain {c : Str} (h : 47 ∉ c) : split c = [c] := by
  induction c with
  | nil => rfl
  | cons a c ih =>
    simp only [List.mem_cons, not_or] at h
    simp only [split, ih h.2]
    rw [if_neg (fun e => h.1 e.symm)]

theorem split_app {c : Str} (h : 47 ∉ c) (s : Str) : split (c ++ 47 :: s) = c :: split s := by
  induction c with
  | nil => exact split_slash s
  | cons a c ih =>
    simp only [List.mem_cons, not_or] at h
    simp only [List.cons_append, split, ih h.2]
    rw [if_neg (fun e => h.1 e.symm)]

theorem split_app' (a s : Str) : split (a ++ 47 :: s) = split a ++ split s := by
  induction a with
  | nil => simp [split]
  | cons x a ih =>
    by_cases hx : x = 47
    · subst hx; simp [split_slash, ih]
    · obtain ⟨h, t, h1, h2⟩ := split_cons_ne hx a
      rw [h2]
      rw [h1] at ih
      simp [split, hx, ih]

theorem split_join {cs : List Str} (h : ∀ c ∈ cs, 47 ∉ c) (hn : cs ≠ []) : split (join cs) = cs := by
  induction cs with
  | nil => exact absurd rfl hn
  | cons c cs ih =>
    cases cs with
    | nil => exact split_plain (h c (by simp))
    | cons d cs =>
      rw [join, split_app (h c (by simp)), ih (fun x hx => h x (List.mem_cons_of_mem _ hx)) (by simp)]

/-- What is left over of leading `..`. -/
theorem stripUp_tail (s : Str) (n : Nat) (rest : List Str) (h : split s = List.replicate n up ++ rest)
    (hr : up ∉ rest.tail) : up ∉ split (stripUp s) := by
  induction s using stripUp.induct generalizing n rest with
  | case1 x s ih =>
    rw [stripUp]
    by_cases hx : x = 47
    · subst hx
      have e : split (46 :: 46 :: 47 :: s) = up :: split s := by
        have := split_app (c := up) (by decide) s
        simpa [up] using this
      rw [e] at h
      cases n with
      | zero =>
        cases rest with
        | nil => simp at h
        | cons r rest =>
          simp only [List.replicate_zero, List.nil_append, List.cons.injEq] at h
          refine ih 0 (split s) (by simp) ?_
          rw [h.2]
          exact fun hm => hr (List.mem_of_mem_tail hm)
      | succ n =>
        simp only [List.replicate_succ, List.cons_append, List.cons.injEq, true_and] at h
        exact ih n rest h hr
    · obtain ⟨a, t, h1, h2⟩ := split_cons_ne hx s
      obtain ⟨b, u, h3, h4⟩ := split_cons_ne (c := 46) (by decide) (x :: s)
      obtain ⟨d, v, h5, h6⟩ := split_cons_ne (c := 46) (by decide) (46 :: x :: s)
      rw [h2] at h3
      obtain ⟨rfl, rfl⟩ : x :: a = b ∧ t = u := by simpa using h3
      rw [h4] at h5
      obtain ⟨rfl, rfl⟩ : 46 :: x :: a = d ∧ t = v := by simpa using h5
      rw [h6] at h
      cases n with
      | zero =>
        cases rest with
        | nil => simp at h
        | cons r rest =>
          simp only [List.replicate_zero, List.nil_append, List.cons.injEq] at h
          refine ih 0 (split s) (by simp) ?_
          rw [h1, List.tail_cons, h.2]
          exact hr
      | succ n =>
        simp [List.replicate_succ, up] at h
  | case2 => decide
  | case3 s h1 h2 =>
    have hs : stripUp s = s := by
      unfold stripUp
      split
      · exact absurd rfl (h1 _ _)
      · exact absurd rfl h2
      · rfl
    rw [hs]
    cases n with
    | zero =>
      simp only [List.replicate_zero, List.nil_append] at h
      rw [h]
      cases rest with
      | nil => simp
      | cons r rest =>
        simp only [List.tail_cons] at hr
        simp only [List.mem_cons, not_or]
        refine ⟨fun e => ?_, hr⟩
        subst e
        exact first s rest h h1 h2
    | succ n =>
      exact absurd h (fun h => first s _ (by rw [List.replicate_succ, List.cons_append] at h; exact h) h1 h2)
where
  first (s : Str) (rest : List Str) (h : split s = up :: rest)
      (h1 : ∀ x t, s = 46 :: 46 :: x :: t → False) (h2 : s = [46, 46] → False) : False := by
    cases s with
    | nil => simp [split, up] at h
    | cons a s =>
      by_cases ha : a = 47
      · subst ha; rw [split_slash] at h; simp [up] at h
      · obtain ⟨x, t, e1, e2⟩ := split_cons_ne ha s
        rw [e2] at h
        simp only [up, List.cons.injEq] at h
        obtain ⟨⟨rfl, rfl⟩, rfl⟩ := h
        cases s with
        | nil => simp [split] at e1
        | cons b s =>
          by_cases hb : b = 47
          · subst hb; rw [split_slash] at e1; simp at e1
          · obtain ⟨y, u, f1, f2⟩ := split_cons_ne hb s
            rw [f2] at e1
            simp only [List.cons.injEq] at e1
            obtain ⟨⟨rfl, rfl⟩, rfl⟩ := e1
            cases s with
            | nil => exact h2 rfl
            | cons c s => exact h1 c s rfl

/-- The components left by `normpath`: some `..`, then plain names. -/
theorem fold_shape (k : Nat) (cs : List Str) (hcs : ∀ c ∈ cs, 47 ∉ c) :
    ∃ n ps, (cs.foldl (push k) []).reverse = List.replicate n up ++ ps ∧ ∀ c ∈ ps, Plain c := by
  suffices H : ∀ (cs : List Str) (st : List Str), (∀ c ∈ cs, 47 ∉ c) →
      (∃ n ps, st = ps ++ List.replicate n up ∧ ∀ c ∈ ps, Plain c) →
      ∃ n ps, cs.foldl (push k) st = ps ++ List.replicate n up ∧ ∀ c ∈ ps, Plain c by
    obtain ⟨n, ps, h1, h2⟩ := H cs [] hcs ⟨0, [], by simp⟩
    exact ⟨n, ps.reverse, by rw [h1]; simp, by simpa using h2⟩
  intro cs
  induction cs with
  | nil => intro st _ h; exact h
  | cons c cs ih =>
    intro st hs ⟨n, ps, h1, h2⟩
    refine ih _ (fun x hx => hs x (List.mem_cons_of_mem _ hx)) ?_
    unfold push
    split
    · exact ⟨n, ps, h1, h2⟩
    · rename_i hc
      split
      · rename_i hd
        by_cases hu : c = up
        · subst hu
          have hps : ps = [] := by
            rcases hd with h | h | h
            · exact absurd rfl h
            · rw [h1] at h; simpa using (List.append_eq_nil_iff.1 h.2).1
            · cases ps with
              | nil => rfl
              | cons p ps =>
                rw [h1] at h
                simp only [List.cons_append, List.head?_cons, Option.some.injEq] at h
                exact absurd h (h2 p (by simp)).2.2.1
          subst hps
          exact ⟨n + 1, [], by rw [h1]; simp [List.replicate_succ], by simp⟩
        · refine ⟨n, c :: ps, by rw [h1]; rfl, ?_⟩
          intro x hx
          rcases List.mem_cons.1 hx with rfl | hx
          · simp only [not_or] at hc
            exact ⟨hc.1, hc.2, hu, hs x (by simp)⟩
          · exact h2 x hx
      · cases ps with
        | nil =>
          cases n with
          | zero => exact ⟨0, [], by rw [h1]; rfl, by simp⟩
          | succ n => exact ⟨n, [], by rw [h1]; simp [List.replicate_succ], by simp⟩
        | cons p ps =>
          exact ⟨n, ps, by rw [h1]; rfl, fun x hx => h2 x (List.mem_cons_of_mem _ hx)⟩

theorem comps_shape (s : Str) :
    ∃ n ps, comps s = List.replicate n up ++ ps ∧ ∀ c ∈ ps, Plain c :=
  fold_shape _ _ (no_slash s)

/-- A normal form begins with `..` only as whole components. -/
theorem normpath_shape (s : Str) :
    ∃ n rest, split (normpath s) = List.replicate n up ++ rest ∧ up ∉ rest.tail := by
  obtain ⟨n, ps, h1, h2⟩ := comps_shape s
  have hsl : ∀ c ∈ comps s, 47 ∉ c := by
    rw [h1]
    intro c hc
    rcases List.mem_append.1 hc with h | h
    · rw [(List.mem_replicate.1 h).2]; decide
    · exact (h2 c h).2.2.2
  have hps : up ∉ ps := fun h => (h2 up h).2.2.1 rfl
  unfold normpath
  simp only []
  split
  · exact ⟨0, [dot], by decide, by decide⟩
  · rename_i hr
    by_cases h0 : slashes s = 0
    · rw [h0] at hr ⊢
      simp only [List.replicate_zero, List.nil_append] at hr ⊢
      have hn : comps s ≠ [] := by rintro e; rw [e] at hr; exact hr rfl
      rw [split_join hsl hn]
      exact ⟨n, ps, h1, fun h => hps (List.mem_of_mem_tail h)⟩
    · -- the name begins with a slash: no `..` is left
      have hno : up ∉ comps s := by
        intro hm
        have : ∀ (cs : List Str) (st : List Str), up ∉ st → up ∉ cs.foldl (push (slashes s)) st := by
          intro cs
          induction cs with
          | nil => intro st h; exact h
          | cons c cs ih =>
            intro st h
            apply ih
            unfold push
            split
            · exact h
            · split
              · rename_i hd
                simp only [List.mem_cons, not_or]
                refine ⟨fun e => ?_, h⟩
                subst e
                rcases hd with hd | hd | hd
                · exact hd rfl
                · exact h0 hd.1
                · exact h (List.mem_of_mem_head? hd)
              · exact fun hm => h (List.mem_of_mem_tail hm)
        exact this _ [] (by simp) (by simpa [comps] using hm)
      have hk : ∀ (k : Nat) (t : Str), split (List.replicate k 47 ++ t) = List.replicate k [] ++ split t := by
        intro k t
        induction k with
        | zero => simp
        | succ k ih => rw [List.replicate_succ, List.cons_append, split_slash, ih]; rfl
      refine ⟨0, split (List.replicate (slashes s) 47 ++ join (comps s)), by simp, ?_⟩
      rw [hk]
      intro hm
      have hm := List.mem_of_mem_tail hm
      rcases List.mem_append.1 hm with h | h
      · have := (List.mem_replicate.1 h).2
        simp [up] at this
      · by_cases hn : comps s = []
        · rw [hn] at h; revert h; decide
        · rw [split_join hsl hn] at h; exact hno h

theorem slashes_one {c : Str} (h0 : c ≠ []) (h : 47 ∉ c) (s : Str) : slashes (47 :: (c ++ s)) = 1 := by
  cases c with
  | nil => exact absurd rfl h0
  | cons a c =>
    have : a ≠ 47 := by intro e; subst e; simp at h
    simp only [List.cons_append]
    unfold slashes
    split
    · rename_i he; simp only [List.cons.injEq] at he; exact absurd he.2.1 this
    · rename_i he; simp only [List.cons.injEq] at he; exact absurd he.2.1 this
    · rfl
    · rename_i h3
      exact absurd rfl (h3 _)

theorem join_cons (c : Str) (cs : List Str) : ∃ s, join (c :: cs) = c ++ s := by
  cases cs with
  | nil => exact ⟨[], by simp [join]⟩
  | cons d cs => exact ⟨47 :: join (d :: cs), rfl⟩

/-- A slash at the front is the only one. -/
theorem slashes_join {cs : List Str} (hn : cs ≠ []) (h : ∀ c ∈ cs, Plain c) (s : Str) :
    slashes (47 :: join cs ++ s) = 1 := by
  cases cs with
  | nil => exact absurd rfl hn
  | cons c cs =>
    obtain ⟨t, ht⟩ := join_cons c cs
    rw [ht, List.cons_append, List.append_assoc]
    exact slashes_one (h c (by simp)).1 (h c (by simp)).2.2.2 _

theorem push_plain {c : Str} (h : Plain c) (k : Nat) (st : List Str) : push k st c = c :: st := by
  unfold push
  rw [if_neg (by rintro (e | e); exacts [h.1 e, h.2.1 e]), if_pos (Or.inl h.2.2.1)]

theorem foldl_plain (k : Nat) (cs : List Str) (h : ∀ c ∈ cs, Plain c) (st : List Str) :
    cs.foldl (push k) st = cs.reverse ++ st := by
  induction cs generalizing st with
  | nil => rfl
  | cons c cs ih =>
    rw [List.foldl_cons, push_plain (h c (by simp)), ih (fun x hx => h x (List.mem_cons_of_mem _ hx))]
    simp

/-- Names without `..` are only added to. -/
theorem foldl_noup (k : Nat) (cs : List Str) (h : up ∉ cs) (hs : ∀ c ∈ cs, 47 ∉ c) (st : List Str) :
    ∃ ps : List Str, cs.foldl (push k) st = ps.reverse ++ st ∧ ∀ c ∈ ps, Plain c ∧ c ∈ cs := by
  induction cs generalizing st with
  | nil => exact ⟨[], rfl, by simp⟩
  | cons c cs ih =>
    simp only [List.mem_cons, not_or] at h
    have ih := ih h.2 (fun x hx => hs x (List.mem_cons_of_mem _ hx))
    by_cases hc : c = [] ∨ c = dot
    · rw [List.foldl_cons, push, if_pos hc]
      obtain ⟨ps, h1, h2⟩ := ih st
      exact ⟨ps, h1, fun x hx => ⟨(h2 x hx).1, List.mem_cons_of_mem _ (h2 x hx).2⟩⟩
    · have hp : Plain c := by
        simp only [not_or] at hc
        exact ⟨hc.1, hc.2, fun e => h.1 e.symm, hs c (by simp)⟩
      obtain ⟨ps, h1, h2⟩ := ih (c :: st)
      refine ⟨c :: ps, by rw [List.foldl_cons, push_plain hp, h1]; simp, ?_⟩
      intro x hx
      rcases List.mem_cons.1 hx with rfl | hx
      · exact ⟨hp, by simp⟩
      · exact ⟨(h2 x hx).1, List.mem_cons_of_mem _ (h2 x hx).2⟩

/-- Normal forms of absolute names. -/
theorem normpath_abs {cs : List Str} (hn : cs ≠ []) (h : ∀ c ∈ cs, Plain c) :
    normpath (47 :: join cs) = 47 :: join cs := by
  have hs := slashes_join hn h []
  rw [List.append_nil] at hs
  have : comps (47 :: join cs) = cs := by
    unfold comps
    rw [split_slash, split_join (fun c hc => (h c hc).2.2.2) hn, List.foldl_cons]
    rw [show ∀ k, push k [] [] = [] from fun k => rfl, foldl_plain _ _ h]
    simp
  unfold normpath
  rw [this, hs]
  simp

theorem normpath_root {root : Str} {rc : List Str} (hr : Root root rc) (t : Str) (ht : up ∉ split t) :
    ∃ ps, (∀ c ∈ ps, Plain c ∧ c ∈ split t) ∧ normpath (root ++ 47 :: t) = 47 :: join (rc ++ ps) := by
  have hs : slashes (root ++ 47 :: t) = 1 := by rw [hr.name]; exact slashes_join hr.some hr.plain _
  have e : split (root ++ 47 :: t) = [] :: (rc ++ split t) := by
    rw [split_app', hr.name, split_slash, split_join (fun c hc => (hr.plain c hc).2.2.2) hr.some]; rfl
  obtain ⟨ps, h1, h2⟩ := foldl_noup 1 (split t) ht (no_slash t) rc.reverse
  refine ⟨ps, h2, ?_⟩
  have : comps (root ++ 47 :: t) = rc ++ ps := by
    unfold comps
    rw [e, hs, List.foldl_cons, show push 1 [] [] = [] from rfl, List.foldl_append,
      foldl_plain _ _ hr.plain, List.append_nil, h1]
    simp
  unfold normpath
  rw [this, hs]
  simp

theorem head_prefix {s h : Str} {t : List Str} (e : split s = h :: t) : h <+: s := by
  induction s generalizing h t with
  | nil => simp only [split, List.cons.injEq] at e; rw [← e.1]; exact List.prefix_refl _
  | cons a s ih =>
    by_cases ha : a = 47
    · subst ha; rw [split_slash] at e
      simp only [List.cons.injEq] at e
      rw [← e.1]; exact List.nil_prefix
    · obtain ⟨x, u, e1, e2⟩ := split_cons_ne ha s
      rw [e2] at e
      simp only [List.cons.injEq] at e
      rw [← e.1, List.prefix_cons_iff]
      exact Or.inr ⟨x, rfl, ih e1⟩

/-- After the strip the first component does not begin with `..`, the others were there before. -/
theorem stripUp_first (s : Str) :
    ∃ h t, split (stripUp s) = h :: t ∧ ¬ up <+: h ∧ t <:+ (split s).tail := by
  induction s using stripUp.induct with
  | case1 x s ih =>
    rw [stripUp]
    obtain ⟨h, t, i1, i2, i3⟩ := ih
    refine ⟨h, t, i1, i2, ?_⟩
    by_cases hx : x = 47
    · subst hx
      have e : split (46 :: 46 :: 47 :: s) = up :: split s := by
        have := split_app (c := up) (by decide) s
        simpa [up] using this
      rw [e]; exact i3.trans (List.tail_suffix _)
    · obtain ⟨a, t, h1, h2⟩ := split_cons_ne hx s
      obtain ⟨b, u, h3, h4⟩ := split_cons_ne (c := 46) (by decide) (x :: s)
      obtain ⟨d, v, h5, h6⟩ := split_cons_ne (c := 46) (by decide) (46 :: x :: s)
      rw [h2] at h3
      obtain ⟨rfl, rfl⟩ : x :: a = b ∧ t = u := by simpa using h3
      rw [h4] at h5
      obtain ⟨rfl, rfl⟩ : 46 :: x :: a = d ∧ t = v := by simpa using h5
      rw [h6]
      rw [h1] at i3
      exact i3
  | case2 => exact ⟨[], [], rfl, by decide, by decide⟩
  | case3 s h1 h2 =>
    have hs : stripUp s = s := by
      unfold stripUp
      split
      · exact absurd rfl (h1 _ _)
      · exact absurd rfl h2
      · rfl
    rw [hs]
    cases hh : split s with
    | nil => exact absurd hh (split_ne s)
    | cons h t =>
      refine ⟨h, t, rfl, fun hu => ?_, List.suffix_refl _⟩
      obtain ⟨w, hw⟩ := hu.trans (head_prefix hh)
      cases w with
      | nil => exact h2 hw.symm
      | cons x w => exact h1 x w hw.symm

theorem comps_sub (s : Str) : ∀ c ∈ comps s, c ∈ split s := by
  suffices H : ∀ (cs st : List Str) k c, c ∈ cs.foldl (push k) st → c ∈ st ∨ c ∈ cs by
    intro c hc
    rcases H _ _ _ c (List.mem_reverse.1 hc) with h | h
    · simp at h
    · exact h
  intro cs
  induction cs with
  | nil => intro st k c h; exact Or.inl h
  | cons a cs ih =>
    intro st k c h
    rcases ih _ k c h with h | h
    · unfold push at h
      split at h
      · exact Or.inl h
      · split at h
        · rcases List.mem_cons.1 h with rfl | h
          · exact Or.inr (by simp)
          · exact Or.inl h
        · exact Or.inl (List.mem_of_mem_tail h)
    · exact Or.inr (List.mem_cons_of_mem _ h)

theorem normpath_mem (s : Str) : ∀ c ∈ split (normpath s), c = [] ∨ c = dot ∨ c ∈ split s := by
  have hsl : ∀ c ∈ comps s, 47 ∉ c := fun c hc => no_slash s c (comps_sub s c hc)
  have hk : ∀ (k : Nat) (t : Str), split (List.replicate k 47 ++ t) = List.replicate k [] ++ split t := by
    intro k t
    induction k with
    | zero => simp
    | succ k ih => rw [List.replicate_succ, List.cons_append, split_slash, ih]; rfl
  intro c hc
  unfold normpath at hc
  simp only [] at hc
  split at hc
  · rw [show split dot = [dot] from by decide] at hc
    exact Or.inr (Or.inl (List.mem_singleton.1 hc))
  · rw [hk] at hc
    rcases List.mem_append.1 hc with h | h
    · exact Or.inl (List.mem_replicate.1 h).2
    · by_cases hn : comps s = []
      · rw [hn] at h
        simp only [join, split, List.mem_singleton] at h
        exact Or.inl h
      · rw [split_join hsl hn] at h
        exact Or.inr (Or.inr (comps_sub s c h))

/-- **`applyroot`.**  Whatever the file specification, the name is the root and plain names after it; those
that begin with `..` come from the specification. -/
theorem applyroot_eq {root : Str} {rc : List Str} (hr : Root root rc) (spec : Str) :
    ∃ ps, (∀ c ∈ ps, Plain c ∧ (up <+: c → c ∈ split spec)) ∧
      applyroot root spec = 47 :: join (rc ++ ps) := by
  obtain ⟨n, rest, h1, h2⟩ := normpath_shape spec
  obtain ⟨ps, h3, h4⟩ := normpath_root hr _ (stripUp_tail _ n rest h1 h2)
  refine ⟨ps, fun c hc => ⟨(h3 c hc).1, fun hu => ?_⟩, ?_⟩
  · obtain ⟨h, t, f1, f2, f3⟩ := stripUp_first (normpath spec)
    have hm := (h3 c hc).2
    rw [f1] at hm
    rcases List.mem_cons.1 hm with rfl | hm
    · exact absurd hu f2
    · rcases normpath_mem spec c (List.mem_of_mem_tail (f3.subset hm)) with e | e | e
      · exact absurd e (h3 c hc).1.1
      · exact absurd e (h3 c hc).1.2.1
      · exact e
  · unfold applyroot
    rw [h4]
    refine normpath_abs (by simp [hr.some]) ?_
    intro c hc
    rcases List.mem_append.1 hc with h | h
    · exact hr.plain c h
    · exact (h3 c h).1

/-! ## The pattern -/

theorem join_snoc {cs : List Str} (hn : cs ≠ []) (l : Str) : join (cs ++ [l]) = join cs ++ 47 :: l := by
  induction cs with
  | nil => exact absurd rfl hn
  | cons c cs ih =>
    cases cs with
    | nil => rfl
    | cons d cs =>
      have := ih (by simp)
      simp only [List.cons_append] at this ⊢
      simp only [join, this, List.append_assoc, List.cons_append]

/-- The last component of an absolute name. -/
theorem last_comp (cs : List Str) (hs : ∀ c ∈ cs, 47 ∉ c) (l : Str) :
    ∃ a, 47 :: join (cs ++ [l]) = a ++ 47 :: l ∧ split a = [] :: cs := by
  by_cases hn : cs = []
  · subst hn; exact ⟨[], rfl, rfl⟩
  · refine ⟨47 :: join cs, by rw [join_snoc hn]; rfl, ?_⟩
    rw [split_slash, split_join hs hn]

theorem cut_last {x : Str} (hx : 47 ∉ x) (a l : Str) : cut x (a ++ 47 :: l) = a ++ 47 :: cut x l := by
  have hiff : x.isSuffixOf (a ++ 47 :: l) = x.isSuffixOf l := by
    rw [Bool.eq_iff_iff, List.isSuffixOf_iff_suffix, List.isSuffixOf_iff_suffix]
    constructor
    · intro h
      rcases List.suffix_or_suffix_of_suffix h (List.suffix_append a (47 :: l)) with h | h
      · rcases List.suffix_cons_iff.1 h with h | h
        · rw [h] at hx; simp at hx
        · exact h
      · exact absurd (h.subset (by simp)) hx
    · intro h
      exact h.trans ((List.suffix_cons 47 l).trans (List.suffix_append _ _))
  unfold cut
  rw [hiff]
  split
  · rename_i h
    have hl := (List.isSuffixOf_iff_suffix.1 h).length_le
    rw [List.take_append, show (a ++ 47 :: l).length - x.length - a.length = (l.length - x.length) + 1 from by
      simp only [List.length_append, List.length_cons]; omega]
    rw [List.take_succ_cons, List.take_of_length_le]
    simp only [List.length_append, List.length_cons]; omega
  · rfl

theorem cut_cases (x l : Str) : cut x l = l ∨ l = cut x l ++ x := by
  unfold cut
  split
  · rename_i h
    right
    obtain ⟨t, ht⟩ := List.isSuffixOf_iff_suffix.1 h
    rw [← ht]
    simp
  · exact Or.inl rfl

theorem cut_mem (x l : Str) : ∀ c ∈ cut x l, c ∈ l := by
  unfold cut
  split
  · exact fun c hc => List.mem_of_mem_take hc
  · exact fun c hc => hc

/-- The name before wild cards are looked at: the root, plain names, and one more name that may be
anything. -/
theorem cut_shape {root : Str} {rc : List Str} (hr : Root root rc) (spec : Str) :
    ∃ cs, split (cut [42, 46, 42] (cut [59, 42] (applyroot root spec))) = [] :: (rc ++ cs) ∧
      (∀ c ∈ cs.dropLast, Plain c) ∧
      ∀ d, cs.getLast? = some d → 47 ∉ d ∧ (d = up → ∃ c ∈ split spec,
        c = up ++ [59, 42] ∨ c = up ++ [42, 46, 42] ∨ c = up ++ [42, 46, 42] ++ [59, 42]) := by
  obtain ⟨ps, h1, h2⟩ := applyroot_eq hr spec
  rw [h2]
  have hpl : ∀ c ∈ rc ++ ps, 47 ∉ c := by
    intro c hc
    rcases List.mem_append.1 hc with h | h
    · exact (hr.plain c h).2.2.2
    · exact (h1 c h).1.2.2.2
  rcases List.eq_nil_or_concat ps with hp | ⟨ps0, l, hp⟩
  · subst hp
    rcases List.eq_nil_or_concat rc with hc | ⟨rc0, l, hc⟩
    · exact absurd hc hr.some
    · rw [List.concat_eq_append] at hc
      have hl : 42 ∉ l := (hr.tame l (by rw [hc]; simp)).1
      obtain ⟨a, e1, e2⟩ := last_comp rc0 (fun c h => hpl c (by rw [hc]; simp [h])) l
      have e3 : cut [42, 46, 42] (cut [59, 42] l) = l := by
        rcases cut_cases [59, 42] l with h | h
        · rw [h]
          rcases cut_cases [42, 46, 42] l with h | h
          · exact h
          · rw [h] at hl; simp at hl
        · rw [h] at hl; simp at hl
      refine ⟨[], ?_, by simp, by simp⟩
      rw [List.append_nil, hc, e1, cut_last (by decide), cut_last (by decide), e3, split_app', e2,
        split_plain (hpl l (by rw [hc]; simp))]
      simp
  · rw [List.concat_eq_append] at hp
    obtain ⟨a, e1, e2⟩ := last_comp (rc ++ ps0)
      (fun c h => hpl c (by rw [hp, ← List.append_assoc]; exact List.mem_append_left _ h)) l
    rw [hp, ← List.append_assoc, e1, cut_last (by decide), cut_last (by decide), split_app', e2]
    have hl : Plain l := (h1 l (by rw [hp]; simp)).1
    have hd : 47 ∉ cut [42, 46, 42] (cut [59, 42] l) := fun h =>
      hl.2.2.2 (cut_mem _ _ _ (cut_mem _ _ _ h))
    refine ⟨ps0 ++ [cut [42, 46, 42] (cut [59, 42] l)], ?_, ?_, ?_⟩
    · rw [split_plain hd]; simp
    · rw [List.dropLast_concat]
      exact fun c hc => (h1 c (by rw [hp]; simp [hc])).1
    · intro d hd'
      rw [List.getLast?_concat, Option.some.injEq] at hd'
      subst hd'
      refine ⟨hd, fun hu => ?_⟩
      have hlu : l = up ++ [59, 42] ∨ l = up ++ [42, 46, 42] ∨ l = up ++ [42, 46, 42] ++ [59, 42] := by
        rcases cut_cases [59, 42] l with e | e
        · rw [e] at hu
          rcases cut_cases [42, 46, 42] l with f | f
          · rw [f] at hu; exact absurd hu hl.2.2.1
          · rw [hu] at f; exact Or.inr (Or.inl f)
        · rcases cut_cases [42, 46, 42] (cut [59, 42] l) with f | f
          · rw [f] at hu; rw [hu] at e; exact Or.inl e
          · rw [hu] at f; rw [f] at e; exact Or.inr (Or.inr e)
      refine ⟨l, (h1 l (by rw [hp]; simp)).2 ?_, hlu⟩
      rcases hlu with e | e | e <;> rw [e] <;> simp

/-! ## Where names lead -/

theorem walk_noup (cs : List Str) (h : up ∉ cs) (st : List Str) : ∃ w, cs.foldl walk st = w ++ st := by
  induction cs generalizing st with
  | nil => exact ⟨[], rfl⟩
  | cons c cs ih =>
    simp only [List.mem_cons, not_or] at h
    obtain ⟨w, hw⟩ := ih h.2 (walk st c)
    rw [List.foldl_cons, hw]
    unfold walk
    rw [if_neg (fun e : c = up => h.1 e.symm)]
    split
    · exact ⟨w, rfl⟩
    · exact ⟨w ++ [c], by simp⟩

theorem walk_plain (cs : List Str) (h : ∀ c ∈ cs, Plain c) (st : List Str) :
    cs.foldl walk st = cs.reverse ++ st := by
  induction cs generalizing st with
  | nil => rfl
  | cons c cs ih =>
    have hc := h c (by simp)
    rw [List.foldl_cons, ih (fun x hx => h x (List.mem_cons_of_mem _ hx)), walk,
      if_neg (by rintro (e | e); exacts [hc.1 e, hc.2.1 e]), if_neg hc.2.2.1]
    simp

theorem place_root {root : Str} {rc : List Str} (hr : Root root rc) : place root = rc := by
  unfold place
  rw [hr.name, split_slash, split_join (fun c hc => (hr.plain c hc).2.2.2) hr.some, List.foldl_cons,
    show walk [] [] = [] from rfl, walk_plain _ hr.plain]
  simp

theorem place_app {rc : List Str} (h : ∀ c ∈ rc, Plain c) {f : Str} {cs : List Str}
    (hf : split f = [] :: (rc ++ cs)) : place f = (cs.foldl walk rc.reverse).reverse := by
  unfold place
  rw [hf, List.foldl_cons, show walk [] [] = [] from rfl, List.foldl_append, walk_plain _ h,
    List.append_nil]

theorem inside_noup {root : Str} {rc : List Str} (hr : Root root rc) {f : Str} {cs : List Str}
    (hf : split f = [] :: (rc ++ cs)) (hu : up ∉ cs) : Inside root f := by
  unfold Inside
  rw [place_root hr, place_app hr.plain hf]
  obtain ⟨w, hw⟩ := walk_noup cs hu rc.reverse
  rw [hw]
  simp

/-! ## What `glob` finds -/

theorem forall_tame {R : Str → Str → Prop} (rc : List Str) (h : ∀ c ∈ rc, ∀ b, R c b → b = c)
    (cs fs : List Str) (hf : List.Forall₂ R (rc ++ cs) fs) :
    ∃ gs, fs = rc ++ gs ∧ List.Forall₂ R cs gs := by
  induction rc generalizing fs with
  | nil => exact ⟨fs, rfl, hf⟩
  | cons c rc ih =>
    cases hf with
    | cons hab ht =>
      obtain ⟨gs, e, hg⟩ := ih (fun x hx => h x (List.mem_cons_of_mem _ hx)) _ ht
      exact ⟨gs, by rw [h c (by simp) _ hab, e]; rfl, hg⟩

theorem found {fs : Fs} (hfs : fs.Ok) {root : Str} {rc : List Str} (hr : Root root rc) {p f : Str}
    (hf : f ∈ fs.glob p) {cs : List Str} (hp : split p = [] :: (rc ++ cs)) :
    ∃ gs, split f = [] :: (rc ++ gs) ∧ List.Forall₂ (fun a b => b = a ∨ Plain b) cs gs := by
  have h := hfs.glob p f hf
  rw [hp] at h
  obtain ⟨gs, e, hg⟩ := forall_tame ([] :: rc) (by
    intro c hc b hb
    rcases hb with hb | hb
    · exact hb.2.2.2
    · rcases List.mem_cons.1 hc with rfl | hc
      · simp at hb
      · have := hr.tame c hc
        rcases hb.1 with h | h | h
        · exact absurd h this.1
        · exact absurd h this.2.1
        · exact absurd h this.2.2) cs _ h
  refine ⟨gs, e, hg.imp ?_⟩
  rintro a b (h | h)
  · exact Or.inl h.2.2.2
  · exact Or.inr h.2

theorem found_plain {cs gs : List Str} (hg : List.Forall₂ (fun a b => b = a ∨ Plain b) cs gs)
    (h : up ∉ cs) : up ∉ gs := by
  induction hg with
  | nil => simp
  | cons hab _ ih =>
    simp only [List.mem_cons, not_or] at h ⊢
    refine ⟨fun e => ?_, ih h.2⟩
    rcases hab with e' | e'
    · exact h.1 (e.trans e')
    · exact e'.2.2.1 e.symm

end Verif.Fal
