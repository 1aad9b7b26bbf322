import Verif.Ncp.Dict

/-!
# What abbreviated keywords stand for
-/

namespace Verif.Ncp

variable {α : Type}

/-! ## Specification -/

/-- A token stands for a keyword: it is the keyword, in any case, or its beginning, of at least three letters. -/
def Abbr (tok name : Str) : Prop :=
  lower tok <+: lower name ∧ (3 ≤ tok.length ∨ tok.length = name.length)

instance (a b : Str) : Decidable (Abbr a b) := by unfold Abbr; infer_instance

/-- Two keywords begin with the same three letters. -/
def Alike (a b : Str) : Prop := (lower a).take 3 = (lower b).take 3

instance (a b : Str) : Decidable (Alike a b) := by unfold Alike; infer_instance

/-- What a keyword stands for after a history (the latest action is first): the latest one entered that begins with
the same three letters counts, unless it has been taken away since by an abbreviation of it. -/
def latest (tok : Str) : List (Act α) → Option (Str × α)
  | [] => none
  | .set k v :: as => if Alike k tok then some (k, v) else latest tok as
  | .del k :: as =>
    match latest tok as with
    | none => none
    | some (n, v) => if Alike k n ∧ lower k <+: lower n then none else some (n, v)

/-! ## Proofs -/

theorem low_idem (c : Char) : low (low c) = low c := by
  unfold low
  by_cases h : 'A' ≤ c ∧ c ≤ 'Z'
  · rw [if_pos h]
    have h1 : 65 ≤ c.toNat := h.1
    have h2 : c.toNat ≤ 90 := h.2
    rw [if_neg]
    rintro ⟨a, b⟩
    have hv : (c.toNat + 32).isValidChar := by left; omega
    have e : (Char.ofNat (c.toNat + 32)).toNat = c.toNat + 32 := by
      rw [Char.ofNat, dif_pos hv]; rfl
    have : (Char.ofNat (c.toNat + 32)).toNat ≤ 90 := b
    omega
  · rw [if_neg h, if_neg h]

theorem lower_idem (s : Str) : lower (lower s) = lower s := by
  simp [lower, low_idem]

theorem lower_take (s : Str) (n : Nat) : lower (s.take n) = (lower s).take n := by
  simp [lower, List.map_take]

theorem lower_length (s : Str) : (lower s).length = s.length := by simp [lower]

/-- What `get` looks up. -/
def look (d : I3 α) (k : Str) : Option (Str × α) := (d.find? fun p => p.1 == k).map (·.2)

theorem get_look (d : I3 α) (key : Str) :
    d.get key = (look d ((lower key).take 3)).bind fun p => if lower key <+: p.1 then some p.2 else none := by
  unfold I3.get look
  cases h : d.find? fun p => p.1 == (lower key).take 3 with
  | none => rfl
  | some p => simp [List.isPrefixOf_iff_prefix]

theorem look_map (d : I3 α) (k k' : Str) (v : Str × α) :
    look (d.map fun p => if p.1 == k then (k, v) else p) k' =
      if k = k' ∧ d.any (fun p => p.1 == k) then some v else look d k' := by
  induction d with
  | nil => simp [look]
  | cons p d ih =>
    unfold look at ih ⊢
    simp only [List.map_cons, List.find?_cons, List.any_cons]
    by_cases hp : p.1 = k
    · simp only [hp, beq_self_eq_true, if_true, Bool.true_or, and_true]
      by_cases hk : k = k'
      · simp [hk]
      · have : (k == k') = false := by simp [hk]
        simp only [this, hk, if_false]
        rw [ih]; simp [hk]
    · have : (p.1 == k) = false := by simp [hp]
      simp only [this, Bool.false_eq_true, if_false, Bool.false_or]
      by_cases hk : p.1 = k'
      · have hkk : k ≠ k' := fun e => hp (by rw [hk, e])
        simp [hk, hkk]
      · have : (p.1 == k') = false := by simp [hk]
        simp only [this]
        exact ih

theorem look_set (d : I3 α) (key k' : Str) (v : α) :
    look (d.set key v) k' = if (lower key).take 3 = k' then some (lower key, v) else look d k' := by
  unfold I3.set rawSet
  split
  · rename_i h
    rw [look_map]; simp [h]
  · rename_i h
    have hn : ∀ p ∈ d, p.1 ≠ (lower key).take 3 := by
      intro p hp e; exact h (List.any_eq_true.2 ⟨p, hp, by simp [e]⟩)
    unfold look
    rw [List.find?_append]
    by_cases hk : (lower key).take 3 = k'
    · rw [if_pos hk]
      have : d.find? (fun p => p.1 == k') = none := by
        rw [List.find?_eq_none]; intro p hp; simp [hk ▸ hn p hp]
      simp [this, hk]
    · rw [if_neg hk]
      simp [hk]

theorem look_filter (d : I3 α) (k k' : Str) :
    look (d.filter fun p => p.1 != k) k' = if k = k' then none else look d k' := by
  unfold look
  rw [List.find?_filter]
  split
  · rename_i h
    subst h
    simp
  · rename_i h
    congr 1
    congr 1
    funext p
    by_cases hp : p.1 = k'
    · simp [hp, Ne.symm h]
    · have : (p.1 == k') = false := by simp [hp]
      simp [this]

/-- The entry under the first three letters of a token is the latest one that counts. -/
theorem look_run (acts : List (Act α)) (tok : Str) :
    look (I3.run acts) ((lower tok).take 3) = (latest tok acts.reverse).map fun p => (lower p.1, p.2) := by
  unfold I3.run
  rw [← List.foldr_reverse]
  generalize acts.reverse = as
  induction as with
  | nil => rfl
  | cons a as ih =>
    rw [List.foldr_cons]
    generalize hd : as.foldr (fun x y => I3.act y x) ([] : I3 α) = d at ih ⊢
    cases a with
    | set k v =>
      simp only [latest, I3.act]
      rw [look_set]
      by_cases h : Alike k tok
      · rw [if_pos h, if_pos (show (lower k).take 3 = _ from h)]; rfl
      · rw [if_neg h, if_neg (show ¬ (lower k).take 3 = _ from h), ih]
    | del k =>
      simp only [latest, I3.act]
      have hg := get_look d k
      cases hl : latest tok as with
      | none =>
        rw [hl] at ih
        simp only [Option.map_none] at ih ⊢
        unfold I3.del
        cases I3.get d k with
        | none => exact ih
        | some x => simp only [Option.getD_some]; rw [look_filter, ih]; simp
      | some p =>
        obtain ⟨n, v⟩ := p
        rw [hl] at ih
        simp only [Option.map_some] at ih
        have hn : Alike n tok := by
          clear ih hg hd
          induction as with
          | nil => cases hl
          | cons a as ih =>
            cases a with
            | set k v =>
              simp only [latest] at hl
              split at hl
              · rename_i h; cases hl; exact h
              · exact ih hl
            | del k =>
              simp only [latest] at hl
              cases h : latest tok as with
              | none => rw [h] at hl; cases hl
              | some q =>
                rw [h] at hl
                simp only at hl
                split at hl
                · cases hl
                · cases hl; exact ih h
        unfold I3.del
        show look _ _ = Option.map _ (if Alike k n ∧ lower k <+: lower n then none else some (n, v))
        by_cases hk : Alike k n ∧ lower k <+: lower n
        · rw [if_pos hk]
          have hkt : (lower k).take 3 = (lower tok).take 3 := hk.1.trans hn
          rw [hkt, ih] at hg
          simp only [Option.bind_some, if_pos hk.2] at hg
          rw [hg]
          simp only [Option.getD_some]
          rw [look_filter, lower_take, if_pos hkt]
          rfl
        · rw [if_neg hk]
          simp only [Option.map_some]
          cases hx : I3.get d k with
          | none => exact ih
          | some x =>
            simp only [Option.getD_some]
            rw [look_filter, lower_take]
            by_cases hkt : (lower k).take 3 = (lower tok).take 3
            · exfalso
              rw [hkt, ih, hx] at hg
              simp only [Option.bind_some] at hg
              split at hg
              · rename_i h; exact hk ⟨hkt.trans hn.symm, h⟩
              · cases hg
            · rw [if_neg hkt]; exact ih

/-- After any history a token finds the latest keyword entered with its first three letters that has not been taken
away, if it is the beginning of it, and else nothing. -/
theorem keyword_found (acts : List (Act α)) (tok : Str) :
    (I3.run acts).get tok =
      (latest tok acts.reverse).bind fun p => if lower tok <+: lower p.1 then some p.2 else none := by
  rw [get_look, look_run]
  cases latest tok acts.reverse <;> rfl

/-- Case does not matter. -/
theorem case_ignored (d : I3 α) (a b : Str) (h : lower a = lower b) : d.get a = d.get b := by
  unfold I3.get; rw [h]

/-- `ofList` is such a history. -/
theorem ofList_run (l : List (Str × α)) : I3.ofList l = I3.run (l.map fun p => .set p.1 p.2) := by
  unfold I3.ofList I3.run
  rw [List.foldl_map]
  rfl

theorem latest_sets (tok : Str) (l : List (Str × α)) :
    latest tok (l.map fun p => .set p.1 p.2) = l.find? fun p => Alike p.1 tok := by
  induction l with
  | nil => rfl
  | cons p l ih =>
    simp only [List.map_cons, latest, List.find?_cons]
    by_cases h : Alike p.1 tok
    · simp [h]
    · simp [h, ih]

theorem alike_of_abbr {tok name : Str} (h : lower tok <+: lower name) :
    Alike name tok ↔ (3 ≤ tok.length ∨ tok.length = name.length) := by
  obtain ⟨t, ht⟩ := h
  have hl : tok.length + t.length = name.length := by
    have := congrArg List.length ht; simpa [lower] using this
  unfold Alike
  rw [← ht]
  constructor
  · intro e
    have := congrArg List.length e
    simp only [List.length_take, List.length_append, lower_length] at this
    omega
  · rintro (h | h)
    · rw [List.take_append_of_le_length (by rw [lower_length]; exact h)]
    · have : t = [] := List.eq_nil_of_length_eq_zero (by omega)
      simp [this]

/-- In a table without two keywords that begin with the same three letters, a token finds exactly the keyword it is an
abbreviation of. -/
theorem abbreviation_iff (l : List (Str × α)) (hl : l.Pairwise fun p q => ¬ Alike p.1 q.1) (tok : Str) (v : α) :
    (I3.ofList l).get tok = some v ↔ ∃ name, (name, v) ∈ l ∧ Abbr tok name := by
  rw [ofList_run, keyword_found, ← List.map_reverse, latest_sets]
  constructor
  · intro h
    obtain ⟨p, hp, h⟩ := Option.bind_eq_some_iff.1 h
    have hm := List.mem_of_find?_eq_some hp
    have ha := List.find?_some hp
    simp only [decide_eq_true_eq] at ha
    split at h
    · rename_i hpre
      cases h
      exact ⟨p.1, by simpa using hm, hpre, (alike_of_abbr hpre).1 ha⟩
    · cases h
  · rintro ⟨name, hm, hpre, hlen⟩
    have ha : Alike name tok := (alike_of_abbr hpre).2 hlen
    have hf : l.reverse.find? (fun p => decide (Alike p.1 tok)) = some (name, v) := by
      have hu : ∀ q ∈ l, Alike q.1 tok → q = (name, v) := by
        intro q hq hqa
        induction l with
        | nil => cases hq
        | cons x l ih =>
          rw [List.pairwise_cons] at hl
          rcases List.mem_cons.1 hm with rfl | hm' <;> rcases List.mem_cons.1 hq with rfl | hq'
          · rfl
          · exact absurd (ha.trans hqa.symm) (hl.1 q hq')
          · exact absurd (hqa.trans ha.symm) (hl.1 _ hm')
          · exact ih hl.2 hm' hq'
      cases h : l.reverse.find? (fun p => decide (Alike p.1 tok)) with
      | none =>
        rw [List.find?_eq_none] at h
        exact absurd ha (by simpa using h (name, v) (by simpa using hm))
      | some q =>
        have := List.find?_some h
        rw [hu q (by simpa using List.mem_of_find?_eq_some h) (by simpa using this)]
    rw [hf]
    simp [hpre]

/-- Of two keywords that begin with the same three letters the one entered first cannot be found any more, not even in
full. -/
theorem alike_lost (l : List (Str × α)) (a b : Str) (v w : α) (h : Alike a b) (hne : ¬ lower a <+: lower b) :
    (I3.ofList (l ++ [(a, v), (b, w)])).get a = none := by
  rw [ofList_run, keyword_found, ← List.map_reverse, latest_sets]
  have : Alike b a := h.symm
  simp [this, hne]

/-- A keyword of three letters or more is not found by one or two of them. -/
theorem short_not_found (d : List (Str × α)) (tok : Str) (hd : ∀ p ∈ d, 3 ≤ p.1.length) (ht : tok.length < 3) :
    (I3.ofList d).get tok = none := by
  rw [ofList_run, keyword_found, ← List.map_reverse, latest_sets]
  have : d.reverse.find? (fun p => decide (Alike p.1 tok)) = none := by
    rw [List.find?_eq_none]
    intro p hp
    simp only [decide_eq_true_eq]
    intro ha
    have := congrArg List.length ha
    have h3 := hd p (by simpa using hp)
    simp only [List.length_take, lower_length] at this
    omega
  rw [this]; rfl

/-- `contains` and `del` agree with `get`; what is taken away is not found again by what it was found by. -/
theorem taken_away (d : I3 α) (tok : Str) :
    (d.contains tok = true ↔ (d.get tok).isSome) ∧ ((d.del tok).isSome ↔ d.contains tok = true) ∧
      ∀ d', d.del tok = some d' → d'.get tok = none := by
  refine ⟨Iff.rfl, ?_, ?_⟩
  · unfold I3.del I3.contains; cases d.get tok <;> simp
  · intro d' h
    unfold I3.del at h
    split at h
    · cases h
    · cases h
      rw [get_look, look_filter, lower_take, if_pos rfl]
      rfl

/-- Words of the same meaning as in `i3eq`: any beginning counts, even of one letter or none. -/
theorem words_match (a b : List Str) :
    i3eq a b = true ↔ b.length ≤ a.length ∧ ∀ i (h : i < b.length) (h' : i < a.length), lower a[i] <+: b[i] := by
  unfold i3eq
  split
  · rename_i h
    simp only [Bool.false_eq_true, false_iff]
    rintro ⟨h1, -⟩; omega
  · rename_i h
    have hle : b.length ≤ a.length := by omega
    simp only [List.all_eq_true, hle, true_and]
    constructor
    · intro hz i hb ha
      have := hz (a[i], b[i]) (by
        rw [List.mem_iff_getElem]
        exact ⟨i, by simp; omega, by simp⟩)
      simpa [i3eq1, List.isPrefixOf_iff_prefix] using this
    · intro hz p hp
      obtain ⟨i, hi, rfl⟩ := List.mem_iff_getElem.1 hp
      simp only [List.length_zip] at hi
      have := hz i (by omega) (by omega)
      simpa [i3eq1, List.isPrefixOf_iff_prefix] using this

/-- `setdefault` cannot be used. -/
theorem setdefault_raises (d : I3 α) (key : Str) (v : α) : d.setdefault key v = none := rfl

/-! ## A table -/

/-- Three keywords; one is replaced, one is found by three letters in any case, one is not found by two. -/
example : (I3.ofList [("show".toList, 1), ("set".toList, 2), ("clear".toList, 3)]).get "SHO".toList = some 1 :=
  (abbreviation_iff _ (by decide) _ _).2 ⟨"show".toList, by decide, by decide⟩

end Verif.Ncp
