import Verif.Fal.PathLemmas

/-!
# What the file access listener lets others see

The listener may be given a root directory, outside of which default users are to see nothing.
-/

namespace Verif.Fal

theorem join_split (s : Str) : join (split s) = s := by
  induction s with
  | nil => rfl
  | cons a s ih =>
    by_cases ha : a = 47
    · subst ha
      rw [split_slash]
      cases hs : split s with
      | nil => exact absurd hs (split_ne s)
      | cons h t => rw [hs] at ih; simp only [join, ih, List.nil_append]
    · obtain ⟨h, t, h1, h2⟩ := split_cons_ne ha s
      rw [h2]
      rw [h1] at ih
      cases t with
      | nil => simp only [join] at ih ⊢; rw [ih]
      | cons u t => simp only [join, List.cons_append] at ih ⊢; rw [ih]

theorem split_last {s : Str} {cs : List Str} {d : Str} (hs : split s = cs ++ [d]) (hn : cs ≠ []) :
    ∃ a, s = a ++ 47 :: d ∧ split a = cs := by
  refine ⟨join cs, ?_, ?_⟩
  · rw [← join_snoc hn, ← hs, join_split]
  · refine split_join (fun c hc => no_slash s c ?_) hn
    rw [hs]; exact List.mem_append_left _ hc

/-- The default name in a directory. -/
theorem split_joinStar {s : Str} {cs : List Str} {d : Str} (hs : split s = cs ++ [d]) (hn : cs ≠ []) :
    split (joinStar s) = if d = [] then cs ++ [[42]] else cs ++ [d, [42]] := by
  obtain ⟨a, h1, h2⟩ := split_last hs hn
  have hd : 47 ∉ d := no_slash s d (by rw [hs]; simp)
  unfold joinStar
  by_cases h : d = []
  · subst h
    rw [if_pos rfl, h1, if_pos, show a ++ [47] ++ [42] = a ++ 47 :: [42] from by simp, split_app', h2]
    · rfl
    · rw [List.isSuffixOf_iff_suffix]; exact List.suffix_append _ _
  · rw [if_neg h, if_neg]
    · rw [split_app', hs]; simp [split]
    · rw [List.isSuffixOf_iff_suffix, h1]
      rintro ⟨t, ht⟩
      rcases List.eq_nil_or_concat d with e | ⟨d0, x, e⟩
      · exact h e
      · rw [List.concat_eq_append] at e
        rw [e] at ht hd
        have := congrArg List.getLast? ht
        rw [List.getLast?_concat, show a ++ 47 :: (d0 ++ [x]) = (a ++ 47 :: d0) ++ [x] from by simp,
          List.getLast?_concat, Option.some.injEq] at this
        exact hd (by rw [← this]; simp)

theorem forall_app {R : Str → Str → Prop} (as bs gs : List Str) (h : List.Forall₂ R (as ++ bs) gs) :
    ∃ g0 g', List.Forall₂ R as g0 ∧ List.Forall₂ R bs g' ∧ gs = g0 ++ g' := by
  induction as generalizing gs with
  | nil => exact ⟨[], gs, .nil, h, rfl⟩
  | cons a as ih =>
    cases h with
    | cons hab ht =>
      obtain ⟨g0, g', h1, h2, rfl⟩ := ih _ ht
      exact ⟨_ :: g0, g', .cons hab h1, h2, rfl⟩

/-- **Only files inside the root are opened.**  Whatever file specification is asked for, with any number of
`..` in it, every file that is opened for reading lies under the root directory. -/
theorem opened_inside {fs : Fs} (hfs : fs.Ok) {root : Str} {rc : List Str} (hr : Root root rc) (spec : Str) :
    ∀ f ∈ chosen fs root false spec, Inside root f := by
  intro f hf
  unfold chosen at hf
  rw [List.mem_filter] at hf
  obtain ⟨hf, hd⟩ := hf
  simp only [Bool.false_or, Bool.not_eq_eq_eq_not, Bool.not_true] at hd
  obtain ⟨cs, h1, h2, h3⟩ := cut_shape hr spec
  have hp : pattern fs root false spec = cut [42, 46, 42] (cut [59, 42] (applyroot root spec)) := by
    simp [pattern]
  rw [hp] at hf
  obtain ⟨gs, g1, g2⟩ := found hfs hr hf h1
  refine inside_noup hr g1 ?_
  rcases List.eq_nil_or_concat cs with hc | ⟨cs0, d, hc⟩
  · subst hc; cases g2; simp
  · rw [List.concat_eq_append] at hc
    subst hc
    rw [List.dropLast_concat] at h2
    obtain ⟨g0, g', ga, gb, rfl⟩ := forall_app _ _ _ g2
    cases gb with
    | cons hab ht =>
      cases ht
      rename_i g
      intro hu
      rcases List.mem_append.1 hu with hu | hu
      · exact found_plain ga (fun h => (h2 _ h).2.2.1 rfl) hu
      · rw [List.mem_singleton] at hu
        have := hfs.dir _ f hf (by
          rw [g1, ← hu, ← List.append_assoc, ← List.cons_append, List.getLast?_concat])
        rw [hd] at this
        exact absurd this (by decide)

/-- What is listed: names below the root, with one component in between that need not be plain. -/
theorem listed_shape {fs : Fs} (hfs : fs.Ok) {root : Str} {rc : List Str} (hr : Root root rc) (spec : Str) :
    ∀ f ∈ chosen fs root true spec, ∃ as bs, split f = [] :: (rc ++ (as ++ bs)) ∧ up ∉ as ∧
      ((up ∉ bs) ∨ (∃ cs, bs = up :: cs ∧ up ∉ cs ∧ ∃ c ∈ split spec,
        c = up ++ [59, 42] ∨ c = up ++ [42, 46, 42] ∨ c = up ++ [42, 46, 42] ++ [59, 42])) := by
  intro f hf
  unfold chosen at hf
  rw [List.mem_filter] at hf
  obtain ⟨hf, -⟩ := hf
  obtain ⟨cs, h1, h2, h3⟩ := cut_shape hr spec
  have hp : (∃ cs', split (pattern fs root true spec) = [] :: (rc ++ cs') ∧
      ∃ as bs, cs' = as ++ bs ∧ up ∉ as ∧ (up ∉ bs ∨ ∃ bs', bs = up :: bs' ∧ up ∉ bs' ∧ cs.getLast? = some up)) := by
    unfold pattern
    simp only [Bool.true_and]
    rcases List.eq_nil_or_concat cs with hc | ⟨cs0, d, hc⟩
    · subst hc
      split
      · rcases List.eq_nil_or_concat rc with hc | ⟨rc0, l, hc⟩
        · exact absurd hc hr.some
        · rw [List.concat_eq_append] at hc
          have hl := (hr.plain l (by rw [hc]; simp)).1
          rw [List.append_nil, hc, ← List.cons_append] at h1
          refine ⟨[[42]], ?_, [[42]], [], rfl, by decide, Or.inl (by simp)⟩
          rw [split_joinStar h1 (by simp), if_neg hl, hc]
          simp
      · exact ⟨[], h1, [], [], rfl, by simp, Or.inl (by simp)⟩
    · rw [List.concat_eq_append] at hc
      subst hc
      rw [List.dropLast_concat] at h2
      have hu0 : up ∉ cs0 := fun h => (h2 _ h).2.2.1 rfl
      split
      · have e := split_joinStar (cs := [] :: (rc ++ cs0)) (d := d) (by rw [h1]; simp) (by simp)
        by_cases hd : d = []
        · rw [if_pos hd] at e
          exact ⟨cs0 ++ [[42]], by rw [e]; simp, cs0, [[42]], rfl, hu0, Or.inl (by decide)⟩
        · rw [if_neg hd] at e
          refine ⟨cs0 ++ [d, [42]], by rw [e]; simp, cs0, [d, [42]], rfl, hu0, ?_⟩
          by_cases hdu : d = up
          · subst hdu; exact Or.inr ⟨[[42]], rfl, by decide, by simp⟩
          · left
            simp only [List.mem_cons, List.not_mem_nil, or_false, not_or]
            exact ⟨fun h => hdu h.symm, by decide⟩
      · refine ⟨cs0 ++ [d], h1, cs0, [d], rfl, hu0, ?_⟩
        by_cases hdu : d = up
        · subst hdu; exact Or.inr ⟨[], rfl, by simp, by simp⟩
        · left
          simp only [List.mem_cons, List.not_mem_nil, or_false]
          exact fun h => hdu h.symm
  obtain ⟨cs', e1, as, bs, rfl, ha, hb⟩ := hp
  obtain ⟨gs, g1, g2⟩ := found hfs hr hf e1
  obtain ⟨g0, g', ga, gb, rfl⟩ := forall_app _ _ _ g2
  refine ⟨g0, g', g1, found_plain ga ha, ?_⟩
  rcases hb with hb | ⟨bs', rfl, hb, hl⟩
  · exact Or.inl (found_plain gb hb)
  · cases gb with
    | cons hab ht =>
      rename_i g gs'
      rcases hab with e | e
      · subst e
        exact Or.inr ⟨gs', rfl, found_plain ht hb, (h3 _ hl).2 rfl⟩
      · left
        simp only [List.mem_cons, not_or]
        exact ⟨fun h => e.2.2.1 h.symm, found_plain ht hb⟩

/-- **Listings stay inside the root** if no component of the file specification is `..;*`, `..*.*` or
`..*.*;*`.  Missing from the full claim: those three, for which see `listing_escapes`. -/
theorem listed_inside_partial {fs : Fs} (hfs : fs.Ok) {root : Str} {rc : List Str} (hr : Root root rc)
    (spec : Str) (hspec : ∀ c ∈ split spec, c ≠ up ++ [59, 42] ∧ c ≠ up ++ [42, 46, 42] ∧
      c ≠ up ++ [42, 46, 42] ++ [59, 42]) :
    ∀ f ∈ chosen fs root true spec, Inside root f := by
  intro f hf
  obtain ⟨as, bs, h1, h2, h3⟩ := listed_shape hfs hr spec f hf
  rcases h3 with h3 | ⟨_, _, _, c, hc, h⟩
  · refine inside_noup hr h1 ?_
    simp [h2, h3]
  · have := hspec c hc
    rcases h with h | h | h
    · exact absurd h this.1
    · exact absurd h this.2.1
    · exact absurd h this.2.2

/-- **And never further than its parent.**  Whatever is asked for, what is listed lies in the directory that
has the root in it, or below. -/
theorem listed_parent {fs : Fs} (hfs : fs.Ok) {root : Str} {rc : List Str} (hr : Root root rc) (spec : Str) :
    ∀ f ∈ chosen fs root true spec, (place root).dropLast <+: place f := by
  intro f hf
  obtain ⟨as, bs, h1, h2, h3⟩ := listed_shape hfs hr spec f hf
  rw [place_root hr]
  rcases h3 with h3 | ⟨cs, rfl, h3, _⟩
  · have := inside_noup hr h1 (by simp [h2, h3])
    unfold Inside at this
    rw [place_root hr] at this
    exact (List.dropLast_prefix rc).trans this
  · rw [place_app hr.plain h1, List.foldl_append, List.foldl_cons]
    obtain ⟨w, hw⟩ := walk_noup as h2 rc.reverse
    obtain ⟨v, hv⟩ := walk_noup cs h3 (walk (as.foldl walk rc.reverse) up)
    rw [hv, hw]
    have e : walk (w ++ rc.reverse) up = (w ++ rc.reverse).tail := by
      unfold walk; rw [if_neg (by decide), if_pos rfl]
    rw [e, List.reverse_append]
    refine List.IsPrefix.trans ?_ (List.prefix_append _ _)
    cases w with
    | nil =>
      simp only [List.nil_append]
      rw [List.tail_reverse, List.reverse_reverse]
      exact List.prefix_refl _
    | cons x w =>
      simp only [List.cons_append, List.tail_cons, List.reverse_append, List.reverse_reverse]
      exact (List.dropLast_prefix rc).trans (List.prefix_append _ _)

/-- `/srv/fal`, and a disk on which `/srv` has the directory `fal` and a file `s` in it. -/
def aRoot : Str := [47, 115, 114, 118, 47, 102, 97, 108]
def aFs : Fs where
  isdir f := f == aRoot ++ [47, 46, 46]
  glob p := if p = aRoot ++ [47, 46, 46, 47, 42] then [aRoot ++ [47, 46, 46, 47, 115]] else []

theorem aRoot_ok : Root aRoot [[115, 114, 118], [102, 97, 108]] := by
  constructor
  · decide
  · decide
  · intro c hc
    revert c; unfold Plain; decide
  · decide

theorem aFs_ok : aFs.Ok := by
  constructor
  · intro p f hf
    simp only [aFs] at hf
    split at hf
    · rename_i hp
      rw [List.mem_singleton] at hf
      subst hf; subst hp
      rw [show split (aRoot ++ [47, 46, 46, 47, 42]) = [[], [115, 114, 118], [102, 97, 108], [46, 46], [42]] from
        by decide, show split (aRoot ++ [47, 46, 46, 47, 115]) =
        [[], [115, 114, 118], [102, 97, 108], [46, 46], [115]] from by decide]
      refine .cons ?_ (.cons ?_ (.cons ?_ (.cons ?_ (.cons ?_ .nil))))
      · exact Or.inl (by decide)
      · exact Or.inl (by decide)
      · exact Or.inl (by decide)
      · exact Or.inl (by decide)
      · exact Or.inr ⟨by decide, by decide, by decide, by decide, by decide⟩
    · simp at hf
  · intro p f hf hu
    simp only [aFs] at hf
    split at hf
    · rw [List.mem_singleton] at hf
      subst hf
      revert hu
      decide
    · simp at hf

/-- **A listing outside the root.**  With the root `/srv/fal`, a directory request for `/..;*` lists what is in
`/srv`: the leading slash keeps `applyroot` from seeing `..`, which `..;*` is not, and then `;*` is cut off. -/
theorem listing_escapes :
    chosen aFs aRoot true [47, 46, 46, 59, 42] = [aRoot ++ [47, 46, 46, 47, 115]] ∧
      ¬ Inside aRoot (aRoot ++ [47, 46, 46, 47, 115]) := by
  constructor
  · decide
  · unfold Inside; decide

/-- **Files inside are found.**  A specification made of names that do not begin with `..`, and whose last
name has no version or `*.*` to cut off, stands for the file of that name under the root. -/
theorem names_kept {root : Str} {rc : List Str} (hr : Root root rc) (cs : List Str) (l : Str)
    (hc : ∀ c ∈ cs ++ [l], Plain c) (h0 : ∀ c, (cs ++ [l]).head? = some c → ¬ up <+: c)
    (h1 : ¬ [59, 42] <:+ l) (h2 : ¬ [42, 46, 42] <:+ l) (fs : Fs) :
    pattern fs root false (join (cs ++ [l])) = root ++ 47 :: join (cs ++ [l]) := by
  have hne : cs ++ [l] ≠ [] := by simp
  obtain ⟨c, t, ht⟩ := List.exists_cons_of_ne_nil hne
  have hcp := hc c (by rw [ht]; simp)
  have hsp : split (join (cs ++ [l])) = cs ++ [l] := split_join (fun x hx => (hc x hx).2.2.2) hne
  obtain ⟨w, hw⟩ := join_cons c t
  rw [← ht] at hw
  have hs0 : slashes (join (cs ++ [l])) = 0 := by
    rw [hw]
    cases c with
    | nil => exact absurd rfl hcp.1
    | cons a c =>
      have ha : a ≠ 47 := fun e => hcp.2.2.2 (by rw [e]; simp)
      unfold slashes
      split
      · rename_i he; simp only [List.cons_append, List.cons.injEq] at he; exact absurd he.1 ha
      · rename_i he; simp only [List.cons_append, List.cons.injEq] at he; exact absurd he.1 ha
      · rename_i he; simp only [List.cons_append, List.cons.injEq] at he; exact absurd he.1 ha
      · rfl
  have hn : normpath (join (cs ++ [l])) = join (cs ++ [l]) := by
    unfold normpath comps
    rw [hsp, hs0, foldl_plain _ _ hc]
    simp only [List.replicate_zero, List.append_nil, List.reverse_reverse, List.nil_append]
    rw [if_neg]
    intro e
    rw [hw] at e
    exact hcp.1 (List.append_eq_nil_iff.1 e).1
  have hst : stripUp (join (cs ++ [l])) = join (cs ++ [l]) := by
    have hnu : ¬ up <+: join (cs ++ [l]) := by
      intro hu
      have hu1 := h0 c (by rw [ht]; rfl)
      -- a prefix of two dots of the whole name is one of its first component
      rw [hw] at hu
      cases c with
      | nil => exact hcp.1 rfl
      | cons a c =>
        cases c with
        | nil =>
          obtain ⟨v, hv⟩ := hu
          simp only [up, List.cons_append, List.nil_append, List.cons.injEq] at hv
          exact hcp.2.1 (by rw [← hv.1]; rfl)
        | cons b c =>
          obtain ⟨v, hv⟩ := hu
          simp only [up, List.cons_append, List.nil_append, List.cons.injEq] at hv
          exact hu1 ⟨c, by rw [← hv.1, ← hv.2.1]; rfl⟩
    unfold stripUp
    split
    · rename_i x s he; exact absurd (by rw [he]; exact ⟨x :: s, rfl⟩) hnu
    · rename_i he; exact absurd (by rw [he]; exact ⟨[], rfl⟩) hnu
    · rfl
  have hall : ∀ x ∈ rc ++ (cs ++ [l]), Plain x := by
    intro x hx
    rcases List.mem_append.1 hx with h | h
    · exact hr.plain x h
    · exact hc x h
  have hroot : root ++ 47 :: join (cs ++ [l]) = 47 :: join (rc ++ (cs ++ [l])) := by
    have e1 : split (root ++ 47 :: join (cs ++ [l])) = [] :: (rc ++ (cs ++ [l])) := by
      rw [split_app', hsp, hr.name, split_slash, split_join (fun c hc => (hr.plain c hc).2.2.2) hr.some]; rfl
    have e2 : split (47 :: join (rc ++ (cs ++ [l]))) = [] :: (rc ++ (cs ++ [l])) := by
      rw [split_slash, split_join (fun c hc => (hall c hc).2.2.2) (by simp)]
    rw [← join_split (root ++ 47 :: join (cs ++ [l])), e1, ← e2, join_split]
  have ha : applyroot root (join (cs ++ [l])) = root ++ 47 :: join (cs ++ [l]) := by
    unfold applyroot
    rw [hn, hst, hroot, normpath_abs (by simp) hall, normpath_abs (by simp) hall]
  unfold pattern
  simp only [Bool.false_and]
  rw [ha]
  obtain ⟨a, ea, -⟩ := last_comp (rc ++ cs) (fun x hx => (hall x (by
    rw [← List.append_assoc]; exact List.mem_append_left _ hx)).2.2.2) l
  have e0 : root ++ 47 :: join (cs ++ [l]) = a ++ 47 :: l := by rw [hroot, ← List.append_assoc, ea]
  rw [e0]
  rw [cut_last (by decide)]
  have c1 : cut [59, 42] l = l := by
    unfold cut; rw [if_neg (by rw [List.isSuffixOf_iff_suffix]; exact h1)]
  rw [c1, cut_last (by decide)]
  have c2 : cut [42, 46, 42] l = l := by
    unfold cut; rw [if_neg (by rw [List.isSuffixOf_iff_suffix]; exact h2)]
  rw [c2]
  simp

/-- `d/s`, under that root. -/
example : pattern aFs aRoot false [100, 47, 115] = aRoot ++ [47, 100, 47, 115] :=
  names_kept aRoot_ok [[100]] [115]
    (by intro c hc; revert c; unfold Plain; decide)
    (by intro c hc; simp at hc; subst hc; decide) (by decide) (by decide) aFs

/-- `../../etc` stays in the root. -/
example : pattern aFs aRoot false [46, 46, 47, 46, 46, 47, 101, 116, 99] = aRoot ++ [47, 101, 116, 99] := by decide

end Verif.Fal
