import Verif.AppApi.Inv

/-!
# Properties of the programming interface for applications
-/

namespace Verif.AppApi

theorem not_live {s : State} {h : Nat} (hl : h ∉ live s) :
    h ∉ s.owned.map (·.2.1) ∧ h ∉ s.sess.map (·.1) := by
  simpa [live, not_or] using hl

/-- A new connection of an application that has not failed. -/
theorem add_inv {s : State} {bad : List Nat} (hi : Inv s bad) {k c : Nat} (hl : c ∉ live s) (hk : k ∉ bad) :
    Inv { s with sess := s.sess ++ [(c, k)], owned := s.owned ++ [(k, c, .conn)] } bad := by
  obtain ⟨h1, h2⟩ := not_live hl
  constructor
  · exact hi.up
  · simp only [List.map_append, List.map_cons, List.map_nil]
    exact List.nodup_append.2 ⟨hi.nodup, by simp, by rintro a ha b hb rfl; rw [List.mem_singleton.1 hb] at ha; exact h1 ha⟩
  · simp only [List.map_append, List.map_cons, List.map_nil]
    exact List.nodup_append.2 ⟨hi.sessNodup, by simp, by rintro a ha b hb rfl; rw [List.mem_singleton.1 hb] at ha; exact h2 ha⟩
  · intro k' c' hm hb
    simp only [List.mem_append, List.mem_singleton, Prod.mk.injEq, and_true] at hm ⊢
    rcases hm with hm | ⟨rfl, rfl⟩
    · exact .inl (hi.conn k' c' hm hb)
    · exact .inr ⟨rfl, rfl⟩
  · intro c' k' hm
    simp only [List.mem_append, List.mem_singleton, Prod.mk.injEq, and_true] at hm ⊢
    rcases hm with hm | ⟨rfl, rfl⟩
    · exact ⟨.inl (hi.sess c' k' hm).1, (hi.sess c' k' hm).2⟩
    · exact ⟨.inr ⟨rfl, rfl⟩, hk⟩
  · intro k' h n m hm
    simp only [List.mem_append, List.mem_singleton, Prod.mk.injEq, reduceCtorEq, and_false, or_false] at hm
    exact hi.num k' h n m hm
  · intro k' h n m hm
    simp only [List.mem_append, List.mem_singleton, Prod.mk.injEq, reduceCtorEq, and_false, or_false] at hm
    exact hi.name k' h n m hm
  · intro n k' h hg
    obtain ⟨x, y, m, z⟩ := hi.numOf n k' h hg
    exact ⟨x, y, m, List.mem_append.2 (.inl z)⟩
  · intro n k' h hg
    obtain ⟨x, y, m, z⟩ := hi.nameOf n k' h hg
    exact ⟨x, y, m, List.mem_append.2 (.inl z)⟩
  · exact hi.zero
  · exact hi.empty

/-- A connection is closed. -/
theorem close_inv {s : State} {bad : List Nat} (hi : Inv s bad) {k c : Nat} (hc : (k, c, .conn) ∈ s.owned) :
    Inv { s with
      sess := s.sess.filter (·.1 ≠ c)
      owned := s.owned.filter fun e => ¬ (e.1 = k ∧ e.2.1 = c) } bad := by
  have huniq : ∀ k' e, (k', c, e) ∈ s.owned → k' = k ∧ e = .conn := by
    intro k' e hm
    have h1 : (c, k', e) ∈ s.owned.map fun x => (x.2.1, x.1, x.2.2) := List.mem_map.2 ⟨_, hm, rfl⟩
    have h2 : (c, k, Entry.conn) ∈ s.owned.map fun x => (x.2.1, x.1, x.2.2) := List.mem_map.2 ⟨_, hc, rfl⟩
    have hn : ((s.owned.map fun x => (x.2.1, x.1, x.2.2)).map (·.1)).Nodup := by
      rw [List.map_map]; exact hi.nodup
    have := get_of_nodup hn h1
    rw [get_of_nodup hn h2] at this
    cases this
    exact ⟨rfl, rfl⟩
  constructor
  · exact hi.up
  · exact hi.nodup.sublist (List.filter_sublist.map _)
  · exact hi.sessNodup.sublist (List.filter_sublist.map _)
  · intro k' c' hm hb
    obtain ⟨hm1, hne⟩ := List.mem_filter.1 hm
    refine List.mem_filter.2 ⟨hi.conn k' c' hm1 hb, ?_⟩
    simp only [ne_eq, decide_not, Bool.not_eq_true', decide_eq_false_iff_not]
    rintro rfl
    obtain ⟨rfl, -⟩ := huniq k' _ hm1
    simp at hne
  · intro c' k' hm
    obtain ⟨hm, hne⟩ := List.mem_filter.1 hm
    simp only [ne_eq, decide_not, Bool.not_eq_true', decide_eq_false_iff_not] at hne
    obtain ⟨h1, h2⟩ := hi.sess c' k' hm
    exact ⟨List.mem_filter.2 ⟨h1, by simp [hne]⟩, h2⟩
  · intro k' h n m hm
    exact hi.num k' h n m (List.mem_filter.1 hm).1
  · intro k' h n m hm
    exact hi.name k' h n m (List.mem_filter.1 hm).1
  · intro n k' h hg
    obtain ⟨x, y, m, z⟩ := hi.numOf n k' h hg
    refine ⟨x, y, m, List.mem_filter.2 ⟨z, ?_⟩⟩
    simp only [not_and, decide_eq_true_eq]
    rintro rfl rfl
    exact absurd (huniq _ _ z).2 (by simp)
  · intro n k' h hg
    obtain ⟨x, y, m, z⟩ := hi.nameOf n k' h hg
    refine ⟨x, y, m, List.mem_filter.2 ⟨z, ?_⟩⟩
    simp only [not_and, decide_eq_true_eq]
    rintro rfl rfl
    exact absurd (huniq _ _ z).2 (by simp)
  · exact hi.zero
  · exact hi.empty

/-- A binding with its name in upper case. -/
theorem bound_inv {s : State} {bad : List Nat} (hi : Inv s bad) {k h : Nat} {num : Int} {name : Str}
    (hl : h ∉ live s) (hk : k ∉ bad) (hu : upper name = name) (hok : bindOk s num name = true) :
    Inv (bound s k num name h) bad ∧
      ∀ key, lookup (bound s k num name h) key =
        if names key num name then some (.app k h) else lookup s key := by
  obtain ⟨h1, h2⟩ := not_live hl
  simp only [bindOk, Bool.and_eq_true, Option.isNone_iff_eq_none, decide_eq_true_eq, Bool.or_eq_true] at hok
  obtain ⟨⟨⟨hn1, hn2⟩, hn3⟩, hn4⟩ := hok
  have hgn : ∀ x, get (bound s k num name h).nums x =
      if x = num ∧ num ≠ 0 then some (.app k h) else get s.nums x := by
    intro x
    simp only [bound]
    by_cases h0 : num = 0
    · simp [h0]
    · simp [h0, get_put]
  have hgm : ∀ x, get (bound s k num name h).names x =
      if x = name ∧ name ≠ [] then some (.app k h) else get s.names x := by
    intro x
    simp only [bound, hu]
    by_cases h0 : name = []
    · simp [h0]
    · simp [h0, get_put]
  have hold : ∀ k' h', (k', h', Entry.listener num name) ∈ s.owned → k' ∉ bad → False := by
    intro k' h' hm hb
    rcases hn3 with h0 | h0
    · have := hi.num k' h' _ _ hm hb h0; rw [hn2] at this; cases this
    · have := hi.name k' h' _ _ hm hb h0; rw [hn1] at this; cases this
  refine ⟨?_, ?_⟩
  · constructor
    · exact hi.up
    · simp only [bound, List.map_append, List.map_cons, List.map_nil]
      exact List.nodup_append.2 ⟨hi.nodup, by simp, by rintro a ha b hb rfl; rw [List.mem_singleton.1 hb] at ha; exact h1 ha⟩
    · exact hi.sessNodup
    · intro k' c' hm hb
      simp only [bound, List.mem_append, List.mem_singleton, Prod.mk.injEq, reduceCtorEq, and_false,
        or_false] at hm
      exact hi.conn k' c' hm hb
    · intro c' k' hm
      obtain ⟨x, y⟩ := hi.sess c' k' hm
      exact ⟨List.mem_append.2 (.inl x), y⟩
    · intro k' h' n m hm hb h0
      rw [hgn]
      simp only [bound, hu, List.mem_append, List.mem_singleton, Prod.mk.injEq, Entry.listener.injEq] at hm
      rcases hm with hm | ⟨rfl, rfl, rfl, rfl⟩
      · have hg := hi.num k' h' n m hm hb h0
        rw [if_neg, hg]
        rintro ⟨rfl, -⟩
        rw [hn2] at hg; cases hg
      · rw [if_pos ⟨rfl, h0⟩]
    · intro k' h' n m hm hb h0
      rw [hgm]
      simp only [bound, hu, List.mem_append, List.mem_singleton, Prod.mk.injEq, Entry.listener.injEq] at hm
      rcases hm with hm | ⟨rfl, rfl, rfl, rfl⟩
      · have hg := hi.name k' h' n m hm hb h0
        rw [if_neg, hg]
        rintro ⟨rfl, -⟩
        rw [hn1] at hg; cases hg
      · rw [if_pos ⟨rfl, h0⟩]
    · intro n k' h' hg
      rw [hgn] at hg
      split at hg
      · rename_i hx
        obtain ⟨rfl, h0⟩ := hx
        cases hg
        exact ⟨hk, h0, name, List.mem_append.2 (.inr (by simp [hu]))⟩
      · obtain ⟨x, y, m, z⟩ := hi.numOf n k' h' hg
        exact ⟨x, y, m, List.mem_append.2 (.inl z)⟩
    · intro n k' h' hg
      rw [hgm] at hg
      split at hg
      · rename_i hx
        obtain ⟨rfl, h0⟩ := hx
        cases hg
        exact ⟨hk, h0, num, List.mem_append.2 (.inr (by simp [hu]))⟩
      · obtain ⟨x, y, m, z⟩ := hi.nameOf n k' h' hg
        exact ⟨x, y, m, List.mem_append.2 (.inl z)⟩
    · rw [hgn, if_neg (by rintro ⟨rfl, h0⟩; exact h0 rfl)]; exact hi.zero
    · rw [hgm, if_neg (by rintro ⟨rfl, h0⟩; exact h0 rfl)]; exact hi.empty
  · intro key
    cases key with
    | num n => simp only [lookup, hgn, names, decide_eq_true_eq]
    | name m => simp only [lookup, hgm, names, hu, decide_eq_true_eq]

/-- The applications that have failed, after an event. -/
def fallen (bad : List Nat) (os : List Out) : List Nat :=
  match failed os with
  | some k => k :: bad
  | none => bad

theorem holds_aborted (f : Key → Option Holder) (a : Act) (k : Nat) (cs : List Nat) (key : Key) :
    holds f a [.aborted k cs] key = (match f key with
      | some (.app k' h) => if k' = k then none else some (.app k' h)
      | x => x) := by
  unfold holds
  cases a with
  | req k t r => cases r <;> rfl
  | exit k => rfl
  | incoming c k => rfl
  | packet c k => rfl

/-- One event: the invariant goes on, and the tables say what the specification says. -/
theorem step_inv {s : State} {bad : List Nat} (hi : Inv s bad) (a : Act)
    (hc : ∀ k, a.client = some k → k ∉ bad)
    (hu : ∀ k tag num name h, a = .req k tag (.bind num name h) → upper name = name) :
    Inv (step s a).1 (fallen bad (step s a).2) ∧
    ∀ key, lookup (step s a).1 key = holds (lookup s) a (step s a).2 key := by
  have hfail : ∀ k, k ∉ bad → ∀ b : Act,
      Inv (fail s k).1 (fallen bad (fail s k).2) ∧ ∀ key, lookup (fail s k).1 key = holds (lookup s) b (fail s k).2 key := by
    intro k hk b
    obtain ⟨s', h1, h2, h3⟩ := fail_inv hi hk
    rw [h1]
    refine ⟨h2, ?_⟩
    intro key
    rw [h3, holds_aborted]
    cases lookup s key with
    | none => rfl
    | some y => cases y <;> rfl
  have hsame : ∀ (b : Act) os, failed os = none →
      (∀ k tag n m h, b = .req k tag (.bind n m h) → ∀ k t h, os ≠ [.reply k t (.bound h)]) →
      ∀ key, lookup s key = holds (lookup s) b os key := by
    intro b os hf hb key
    unfold holds
    split
    · rename_i k tag n m h k' t' h'
      exact absurd rfl (hb k tag n m h rfl _ _ _)
    · simp [failed] at hf
    · rfl
  cases a with
  | req k tag r =>
    have hk : k ∉ bad := hc k rfl
    simp only [step, hi.up, ↓reduceIte]
    cases r with
    | bind num name h =>
      simp only [request]
      by_cases hl : h ∈ live s
      · rw [if_pos hl]
        exact ⟨hi, hsame _ _ rfl (by intros; simp)⟩
      · rw [if_neg hl]
        by_cases hok : bindOk s num name = true
        · rw [if_pos hok]
          obtain ⟨h1, h2⟩ := bound_inv hi hl hk (hu _ _ _ _ _ rfl) hok
          exact ⟨h1, fun key => by rw [h2]; rfl⟩
        · rw [if_neg hok]
          exact ⟨hi, hsame _ _ rfl (by intros; simp)⟩
    | connect r =>
      cases r with
      | ok h =>
        simp only [request]
        by_cases hl : h ∈ live s
        · rw [if_pos hl]
          exact ⟨hi, hsame _ _ rfl (by intros; simp)⟩
        · rw [if_neg hl]
          exact ⟨add_inv hi hl hk, hsame _ _ rfl (by intros; simp)⟩
      | unknownNode => exact ⟨hi, hsame _ _ rfl (by rintro _ _ _ _ _ ⟨⟩)⟩
      | dna => exact ⟨hi, hsame _ _ rfl (by rintro _ _ _ _ _ ⟨⟩)⟩
      | other => exact hfail k hk _
    | call what h r =>
      simp only [request]
      cases hg : get (entries s k) h with
      | none => exact hfail k hk _
      | some e =>
        cases e with
        | listener n m => exact hfail k hk _
        | conn =>
          simp only
          cases r with
          | dna => exact ⟨hi, hsame _ _ rfl (by intros; simp)⟩
          | other => exact hfail k hk _
          | ok =>
            simp only
            have ho := (get_entries hi.nodup).1 hg
            have hd : del s.sess h = some (s.sess.filter (·.1 ≠ h)) :=
              del_some.2 ⟨⟨_, get_of_nodup hi.sessNodup (hi.conn k h ho hk)⟩, rfl⟩
            cases what.closes with
            | true =>
              simp only [hd, ↓reduceIte]
              exact ⟨close_inv hi ho, hsame _ _ rfl (by intros; simp)⟩
            | false => exact ⟨hi, hsame _ _ rfl (by intros; simp)⟩
    | unknown => exact ⟨hi, hsame _ _ rfl (by rintro _ _ _ _ _ ⟨⟩)⟩
    | malformed => exact hfail k hk _
  | exit k =>
    simp only [step, hi.up, ↓reduceIte]
    exact hfail k (hc k rfl) _
  | incoming c key =>
    unfold step
    by_cases hl : c ∈ live s
    · simp only [hl, or_true, ↓reduceIte]
      exact ⟨hi, hsame _ _ rfl (by intros; simp)⟩
    · simp only [hi.up, not_true_eq_false, hl, or_self, ↓reduceIte]
      cases hg : lookup s key with
      | none => exact ⟨hi, hsame _ _ rfl (by intros; simp)⟩
      | some y =>
        cases y with
        | config i => exact ⟨hi, hsame _ _ rfl (by intros; simp)⟩
        | app k h =>
          have hk : k ∉ bad := by
            cases key with
            | num n => exact (hi.numOf n k h hg).1
            | name m => exact (hi.nameOf _ k h hg).1
          have := add_inv hi hl hk
          rw [hi.up] at this
          exact ⟨this, hsame _ _ rfl (by intros; simp)⟩
  | packet c closes =>
    simp only [step, hi.up, not_true_eq_false, ↓reduceIte]
    cases hg : get s.sess c with
    | none => exact ⟨hi, hsame _ _ rfl (by intros; simp)⟩
    | some k =>
      have ho := (hi.sess c k (get_mem hg)).1
      have he := (get_entries hi.nodup).2 ho
      cases closes with
      | true =>
        simp only [↓reduceIte, he]
        have := close_inv hi ho
        rw [hi.up] at this
        exact ⟨this, hsame _ _ rfl (by intros; simp)⟩
      | false =>
        simp only [Bool.false_eq_true, ↓reduceIte, he, Option.isSome_some]
        exact ⟨hi, hsame _ _ rfl (by intros; simp)⟩

theorem run_cons (s : State) (a : Act) (as : List Act) :
    (run s (a :: as)).1 = (run (step s a).1 as).1 := by
  have aux : ∀ (as : List Act) (s : State) (o o' : List Out),
      (as.foldl (fun p a => let r := step p.1 a; (r.1, p.2 ++ r.2)) (s, o)).1 =
        (as.foldl (fun p a => let r := step p.1 a; (r.1, p.2 ++ r.2)) (s, o')).1 := by
    intro as
    induction as with
    | nil => intro s o o'; rfl
    | cons a as ih => intro s o o'; exact ih _ _ _
  exact aux as _ _ _

theorem run_inv : ∀ (as : List Act) (s : State) (bad : List Nat), Inv s bad →
    (∀ x ∈ trace s as, ∀ k, x.1.client = some k → k ∉ bad) → Silent (trace s as) → Upper as →
    (∃ bad', Inv (run s as).1 bad') ∧
      ∀ key, lookup (run s as).1 key = holder (lookup s) (trace s as) key := by
  intro as
  induction as with
  | nil => intro s bad hi _ _ _; exact ⟨⟨bad, hi⟩, fun _ => rfl⟩
  | cons a as ih =>
    intro s bad hi hb hs hu
    obtain ⟨h1, h2⟩ := step_inv hi a (fun k hk => hb _ (List.mem_cons_self ..) k hk)
      (fun k tag num name h he => hu k tag num name h (by rw [he]; simp))
    rw [run_cons]
    have ht : trace s (a :: as) = (a, (step s a).2) :: trace (step s a).1 as := rfl
    rw [ht] at hs hb ⊢
    obtain ⟨h3, h4⟩ := ih (step s a).1 _ h1 (by
      intro x hx k hk
      have hk' := hb x (List.mem_cons_of_mem _ hx) k hk
      unfold fallen
      cases hf : failed (step s a).2 with
      | none => exact hk'
      | some j =>
        simp only [List.mem_cons, not_or]
        refine ⟨?_, hk'⟩
        rintro rfl
        exact hs.1 k hf x hx hk) hs.2 (fun k tag num name h he => hu k tag num name h (by simp [he]))
    refine ⟨h3, ?_⟩
    intro key
    rw [h4]
    show _ = List.foldl _ (holds (lookup s) a (step s a).2) _ key
    have : lookup (step s a).1 = holds (lookup s) a (step s a).2 := funext h2
    rw [this]
    rfl

theorem get_map_config {α} [DecidableEq α] (l : List (α × Nat)) (x : α) (k h : Nat) :
    get (l.map fun y => (y.1, Holder.config y.2)) x ≠ some (.app k h) := by
  intro hg
  have := get_mem hg
  simp at this

theorem start_inv {nums : List (Int × Nat)} {nms : List (Str × Nat)} (hc : Configured nums nms) :
    Inv (start nums nms) [] := by
  constructor
  · rfl
  · simp [start]
  · simp [start]
  · intro k c h; simp [start] at h
  · intro k c h; simp [start] at h
  · intro k h n m hh; simp [start] at hh
  · intro k h n m hh; simp [start] at hh
  · intro n k h hg; exact absurd hg (get_map_config nums n k h)
  · intro n k h hg; exact absurd hg (get_map_config nms n k h)
  · rw [get_none]
    intro v hv
    simp only [start, List.mem_map, Prod.mk.injEq] at hv
    obtain ⟨y, hy, h0, -⟩ := hv
    exact hc.1 y hy h0
  · rw [get_none]
    intro v hv
    simp only [start, List.mem_map, Prod.mk.injEq] at hv
    obtain ⟨y, hy, h0, -⟩ := hv
    exact (hc.2 y hy).1 h0

/-- C88, as far as it holds: names of bindings in upper case, and applications that make no request after
one has failed.  A connect from the network is given to the application which holds the object (and which
was told so), with the handle of that binding; to the configured object if no application holds it;
otherwise it is refused.  And the node goes on. -/
theorem connect_to_holder_partial {nums : List (Int × Nat)} {nms : List (Str × Nat)}
    (hc : Configured nums nms) (as : List Act) (hu : Upper as) (hs : Silent (trace (start nums nms) as))
    (key : Key) (c : Nat) :
    let s := (run (start nums nms) as).1
    s.up = true ∧ (c ∉ live s →
      (step s (.incoming c key)).2 =
        match holder (lookup (start nums nms)) (trace (start nums nms) as) key with
        | some (.app k h) => [.connect k c h]
        | some (.config i) => [.toConfig i c]
        | none => [.refused c]) := by
  obtain ⟨⟨bad, hi⟩, hl⟩ := run_inv as _ [] (start_inv hc) (by simp) hs hu
  refine ⟨hi.up, fun hc => ?_⟩
  rw [← hl key]
  simp only [step, hi.up, not_true_eq_false, false_or]
  rw [if_neg hc]
  cases lookup (run (start nums nms) as).1 key with
  | none => rfl
  | some y => cases y <;> rfl

/-- C88: a binding is granted exactly if it has a number or a name, the name is not too long, and nobody
holds either. -/
theorem bind_iff_partial {nums : List (Int × Nat)} {nms : List (Str × Nat)}
    (hc : Configured nums nms) (as : List Act) (hu : Upper as) (hs : Silent (trace (start nums nms) as))
    (k : Nat) (tag : Option Nat) (num : Int) (name : Str) (h : Nat) (hn : upper name = name) :
    let s := (run (start nums nms) as).1
    let f := holder (lookup (start nums nms)) (trace (start nums nms) as)
    h ∉ live s →
      (step s (.req k tag (.bind num name h))).2 =
        if (num ≠ 0 ∨ name ≠ []) ∧ name.length ≤ 16 ∧ (num ≠ 0 → f (.num num) = none) ∧
          (name ≠ [] → f (.name name) = none)
        then [.reply k tag (.bound h)] else [.reply k tag .error] := by
  intro s f hl
  obtain ⟨⟨bad, hi⟩, hk⟩ := run_inv as _ [] (start_inv hc) (by simp) hs hu
  have h1 : f (.num num) = get s.nums num := (hk _).symm
  have h2 : f (.name name) = get s.names name := by
    have := hk (.name name)
    simp only [lookup, hn] at this
    exact this.symm
  have e1 : (num ≠ 0 → f (.num num) = none) ↔ get s.nums num = none := by
    rw [h1]
    refine ⟨fun x => ?_, fun x _ => x⟩
    by_cases h0 : num = 0
    · rw [h0]; exact hi.zero
    · exact x h0
  have e2 : (name ≠ [] → f (.name name) = none) ↔ get s.names name = none := by
    rw [h2]
    refine ⟨fun x => ?_, fun x _ => x⟩
    by_cases h0 : name = []
    · rw [h0]; exact hi.empty
    · exact x h0
  have hb : bindOk s num name = true ↔ (num ≠ 0 ∨ name ≠ []) ∧ name.length ≤ 16 ∧
      (num ≠ 0 → f (.num num) = none) ∧ (name ≠ [] → f (.name name) = none) := by
    rw [e1, e2]
    simp only [bindOk, hn, Bool.and_eq_true, Option.isNone_iff_eq_none, decide_eq_true_eq, Bool.or_eq_true]
    constructor
    · rintro ⟨⟨⟨a, b⟩, c⟩, d⟩; exact ⟨c, d, b, a⟩
    · rintro ⟨c, d, b, a⟩; exact ⟨⟨⟨a, b⟩, c⟩, d⟩
  have hup : s.up = true := hi.up
  simp only [step, hup, ↓reduceIte, request]
  rw [if_neg hl]
  by_cases hok : bindOk s num name = true
  · rw [if_pos hok, if_pos (hb.1 hok)]
  · rw [if_neg hok, if_neg (fun x => hok (hb.2 x))]

end Verif.AppApi
