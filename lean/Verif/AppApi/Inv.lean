import Verif.AppApi.Lemmas
import Verif.AppApi.Spec

namespace Verif.AppApi

/-- What holds as long as every application is silent after its failure (those in `bad` have failed). -/
structure Inv (s : State) (bad : List Nat) : Prop where
  up : s.up = true
  nodup : (s.owned.map (·.2.1)).Nodup
  sessNodup : (s.sess.map (·.1)).Nodup
  conn : ∀ k c, (k, c, .conn) ∈ s.owned → k ∉ bad → (c, k) ∈ s.sess
  sess : ∀ c k, (c, k) ∈ s.sess → (k, c, .conn) ∈ s.owned ∧ k ∉ bad
  num : ∀ k h n m, (k, h, .listener n m) ∈ s.owned → k ∉ bad → n ≠ 0 → get s.nums n = some (.app k h)
  name : ∀ k h n m, (k, h, .listener n m) ∈ s.owned → k ∉ bad → m ≠ [] → get s.names m = some (.app k h)
  numOf : ∀ n k h, get s.nums n = some (.app k h) →
    k ∉ bad ∧ n ≠ 0 ∧ ∃ m, (k, h, .listener n m) ∈ s.owned
  nameOf : ∀ m k h, get s.names m = some (.app k h) →
    k ∉ bad ∧ m ≠ [] ∧ ∃ n, (k, h, .listener n m) ∈ s.owned
  zero : get s.nums 0 = none
  empty : get s.names [] = none

theorem release_spec {s : State} {k h : Nat} {n : Int} {m : Str}
    (hn : n ≠ 0 → get s.nums n = some (.app k h)) (hm : m ≠ [] → get s.names m = some (.app k h)) :
    ∃ s', release s n m = some s' ∧ s'.sess = s.sess ∧ s'.owned = s.owned ∧ s'.up = s.up ∧
      (∀ x, get s'.nums x = if x = n ∧ n ≠ 0 then none else get s.nums x) ∧
      (∀ x, get s'.names x = if x = m ∧ m ≠ [] then none else get s.names x) := by
  unfold release
  by_cases h1 : n = 0
  · by_cases h2 : m = []
    · subst h1 h2
      exact ⟨s, by simp, rfl, rfl, rfl, by simp, by simp⟩
    · have hd : del s.names m = some (s.names.filter (·.1 ≠ m)) := del_some.2 ⟨⟨_, hm h2⟩, rfl⟩
      subst h1
      refine ⟨{ s with names := s.names.filter (·.1 ≠ m) }, ?_, rfl, rfl, rfl, ?_, ?_⟩
      · simp [h2, hd]
      · simp
      · intro x
        simp only [get_filter, ne_eq, h2, not_false_eq_true, and_true]
  · have hdn : del s.nums n = some (s.nums.filter (·.1 ≠ n)) := del_some.2 ⟨⟨_, hn h1⟩, rfl⟩
    by_cases h2 : m = []
    · subst h2
      refine ⟨{ s with nums := s.nums.filter (·.1 ≠ n) }, ?_, rfl, rfl, rfl, ?_, ?_⟩
      · simp [h1, hdn]
      · intro x
        simp only [get_filter, ne_eq, h1, not_false_eq_true, and_true]
      · simp
    · have hd : del s.names m = some (s.names.filter (·.1 ≠ m)) := del_some.2 ⟨⟨_, hm h2⟩, rfl⟩
      refine ⟨{ s with nums := s.nums.filter (·.1 ≠ n), names := s.names.filter (·.1 ≠ m) }, ?_, rfl, rfl, rfl,
        ?_, ?_⟩
      · simp [h1, h2, hd, hdn]
      · intro x
        simp only [get_filter, ne_eq, h1, not_false_eq_true, and_true]
      · intro x
        simp only [get_filter, ne_eq, h2, not_false_eq_true, and_true]

open Classical in
theorem cleanup_spec (k : Nat) : ∀ (es : List (Nat × Entry)) (s : State), (es.map (·.1)).Nodup →
    (s.sess.map (·.1)).Nodup →
    (∀ c, (c, .conn) ∈ es → (c, k) ∈ s.sess) →
    (∀ h n m, (h, .listener n m) ∈ es → n ≠ 0 → get s.nums n = some (.app k h)) →
    (∀ h n m, (h, .listener n m) ∈ es → m ≠ [] → get s.names m = some (.app k h)) →
    ∃ s', cleanup s es = some s' ∧ s'.owned = s.owned ∧ s'.up = s.up ∧
      (∀ x, x ∈ s'.sess ↔ x ∈ s.sess ∧ (x.1, .conn) ∉ es) ∧ s'.sess.Sublist s.sess ∧
      (∀ x, get s'.nums x = if x ≠ 0 ∧ ∃ h m, (h, .listener x m) ∈ es then none else get s.nums x) ∧
      (∀ x, get s'.names x = if x ≠ [] ∧ ∃ h n, (h, .listener n x) ∈ es then none else get s.names x) := by
  intro es
  induction es with
  | nil =>
    intro s _ _ _ _ _
    exact ⟨s, rfl, rfl, rfl, by simp, List.Sublist.refl _, by simp, by simp⟩
  | cons e es ih =>
    intro s hn hs hc hl hm
    simp only [List.map_cons, List.nodup_cons] at hn
    obtain ⟨hh, hn⟩ := hn
    have hnot : ∀ x, (e.1, x) ∉ es := fun x hx => hh (List.mem_map.2 ⟨_, hx, rfl⟩)
    obtain ⟨c, e⟩ := e
    simp only at hnot
    cases e with
    | conn =>
      have hg := get_of_nodup hs (hc c (by simp))
      have hd : del s.sess c = some (s.sess.filter (·.1 ≠ c)) := del_some.2 ⟨⟨_, hg⟩, rfl⟩
      have hsub : (s.sess.filter (·.1 ≠ c)).Sublist s.sess := List.filter_sublist
      obtain ⟨s', h1, h2, h3, h4, h5, h6, h7⟩ := ih { s with sess := s.sess.filter (·.1 ≠ c) } hn
        (hs.sublist (hsub.map _))
        (by
          intro c' hc'
          refine List.mem_filter.2 ⟨hc c' (by simp [hc']), ?_⟩
          simp only [ne_eq, decide_not, Bool.not_eq_true', decide_eq_false_iff_not]
          rintro rfl; exact hnot _ hc')
        (fun h n m he => hl h n m (by simp [he]))
        (fun h n m he => hm h n m (by simp [he]))
      refine ⟨s', by simp only [cleanup, hd]; exact h1, h2, h3, ?_, h5.trans hsub, ?_, ?_⟩
      · rintro ⟨a, b⟩
        rw [h4]
        simp only [List.mem_filter, List.mem_cons, Prod.mk.injEq, and_true, not_or, ne_eq, decide_not,
          Bool.not_eq_true', decide_eq_false_iff_not]
        constructor
        · rintro ⟨⟨x, y⟩, z⟩; exact ⟨x, y, z⟩
        · rintro ⟨x, y, z⟩; exact ⟨⟨x, y⟩, z⟩
      · intro x
        rw [h6]
        simp [List.mem_cons]
      · intro x
        rw [h7]
        simp [List.mem_cons]
    | listener n m =>
      obtain ⟨s1, r1, r2, r3, r4, r5, r6⟩ := release_spec (s := s) (k := k) (h := c) (n := n) (m := m)
        (hl c n m (by simp)) (hm c n m (by simp))
      obtain ⟨s', h1, h2, h3, h4, h5, h6, h7⟩ := ih s1 hn (by rw [r2]; exact hs)
        (by intro c' hc'; rw [r2]; exact hc c' (by simp [hc']))
        (by
          intro h n' m' he hn0
          rw [r5]
          have hg := hl h n' m' (by simp [he]) hn0
          rw [if_neg, hg]
          rintro ⟨rfl, -⟩
          have := hl c n' m (by simp) hn0
          rw [hg] at this
          cases this
          exact hnot _ he)
        (by
          intro h n' m' he hm0
          rw [r6]
          have hg := hm h n' m' (by simp [he]) hm0
          rw [if_neg, hg]
          rintro ⟨rfl, -⟩
          have := hm c n m' (by simp) hm0
          rw [hg] at this
          cases this
          exact hnot _ he)
      refine ⟨s', by simp only [cleanup, r1]; exact h1, by rw [h2, r3], by rw [h3, r4], ?_, ?_, ?_, ?_⟩
      · intro x
        rw [h4, r2]
        simp
      · rw [← r2]; exact h5
      · intro x
        rw [h6, r5]
        by_cases hx : x ≠ 0 ∧ ∃ h m, (h, Entry.listener x m) ∈ es
        · rw [if_pos hx, if_pos]
          obtain ⟨h0, h, m', he⟩ := hx
          exact ⟨h0, h, m', by simp [he]⟩
        · rw [if_neg hx]
          by_cases hy : x = n ∧ n ≠ 0
          · obtain ⟨rfl, h0⟩ := hy
            rw [if_pos ⟨rfl, h0⟩, if_pos ⟨h0, c, m, by simp⟩]
          · rw [if_neg hy, if_neg]
            rintro ⟨h0, h, m', he⟩
            simp only [List.mem_cons, Prod.mk.injEq, Entry.listener.injEq] at he
            rcases he with ⟨-, rfl, -⟩ | he
            · exact hy ⟨rfl, h0⟩
            · exact hx ⟨h0, h, m', he⟩
      · intro x
        rw [h7, r6]
        by_cases hx : x ≠ [] ∧ ∃ h n, (h, Entry.listener n x) ∈ es
        · rw [if_pos hx, if_pos]
          obtain ⟨h0, h, m', he⟩ := hx
          exact ⟨h0, h, m', by simp [he]⟩
        · rw [if_neg hx]
          by_cases hy : x = m ∧ m ≠ []
          · obtain ⟨rfl, h0⟩ := hy
            rw [if_pos ⟨rfl, h0⟩, if_pos ⟨h0, c, n, by simp⟩]
          · rw [if_neg hy, if_neg]
            rintro ⟨h0, h, n', he⟩
            simp only [List.mem_cons, Prod.mk.injEq, Entry.listener.injEq] at he
            rcases he with ⟨-, -, rfl⟩ | he
            · exact hy ⟨rfl, h0⟩
            · exact hx ⟨h0, h, n', he⟩

open Classical in
/-- A failure of a client that has not failed before. -/
theorem fail_inv {s : State} {bad : List Nat} (hi : Inv s bad) {k : Nat} (hk : k ∉ bad) :
    ∃ s', fail s k = (s', [.aborted k (connsOf s k)]) ∧ Inv s' (k :: bad) ∧
      ∀ key, lookup s' key = (match lookup s key with
        | some (.app k' h) => if k' = k then none else some (.app k' h)
        | x => x) := by
  obtain ⟨s', h1, h2, h3, h4, h5, h6, h7⟩ := cleanup_spec k (entries s k) s (entries_nodup hi.nodup k)
    hi.sessNodup (fun c hc => hi.conn k c (mem_entries.1 hc) hk)
    (fun h n m he => hi.num k h n m (mem_entries.1 he) hk)
    (fun h n m he => hi.name k h n m (mem_entries.1 he) hk)
  have hnum : ∀ n k' h, get s.nums n = some (.app k' h) →
      ((n ≠ 0 ∧ ∃ h m, (h, Entry.listener n m) ∈ entries s k) ↔ k' = k) := by
    intro n k' h hg
    obtain ⟨hb, h0, m, he⟩ := hi.numOf n k' h hg
    constructor
    · rintro ⟨-, h', m', he'⟩
      have := hi.num k h' n m' (mem_entries.1 he') hk h0
      rw [hg] at this
      cases this
      rfl
    · rintro rfl; exact ⟨h0, h, m, mem_entries.2 he⟩
  have hname : ∀ n k' h, get s.names n = some (.app k' h) →
      ((n ≠ [] ∧ ∃ h m, (h, Entry.listener m n) ∈ entries s k) ↔ k' = k) := by
    intro n k' h hg
    obtain ⟨hb, h0, m, he⟩ := hi.nameOf n k' h hg
    constructor
    · rintro ⟨-, h', m', he'⟩
      have := hi.name k h' m' n (mem_entries.1 he') hk h0
      rw [hg] at this
      cases this
      rfl
    · rintro rfl; exact ⟨h0, h, m, mem_entries.2 he⟩
  have hnum' : ∀ n, get s'.nums n = (match get s.nums n with
      | some (.app k' h) => if k' = k then none else some (.app k' h)
      | x => x) := by
    intro n
    rw [h6]
    cases hg : get s.nums n with
    | none =>
      simp
    | some y =>
      cases y with
      | config i =>
        rw [if_neg]
        rintro ⟨h0, h, m, he⟩
        have := hi.num k h n m (mem_entries.1 he) hk h0
        rw [hg] at this
        cases this
      | app k' h =>
        by_cases hkk : k' = k
        · rw [if_pos ((hnum n k' h hg).2 hkk)]
          simp [hkk]
        · rw [if_neg (fun x => hkk ((hnum n k' h hg).1 x))]
          simp [hkk]
  have hname' : ∀ n, get s'.names n = (match get s.names n with
      | some (.app k' h) => if k' = k then none else some (.app k' h)
      | x => x) := by
    intro n
    rw [h7]
    cases hg : get s.names n with
    | none =>
      simp
    | some y =>
      cases y with
      | config i =>
        rw [if_neg]
        rintro ⟨h0, h, m, he⟩
        have := hi.name k h m n (mem_entries.1 he) hk h0
        rw [hg] at this
        cases this
      | app k' h =>
        by_cases hkk : k' = k
        · rw [if_pos ((hname n k' h hg).2 hkk)]
          simp [hkk]
        · rw [if_neg (fun x => hkk ((hname n k' h hg).1 x))]
          simp [hkk]
  have hnumApp : ∀ n k' h, get s'.nums n = some (.app k' h) ↔
      get s.nums n = some (.app k' h) ∧ k' ≠ k := by
    intro n k' h
    rw [hnum']
    cases hg : get s.nums n with
    | none => simp
    | some y =>
      cases y with
      | config i => simp
      | app k2 h2 =>
        by_cases hkk : k2 = k
        · subst hkk
          simp only [↓reduceIte, reduceCtorEq, Option.some.injEq, Holder.app.injEq, false_iff, not_and,
            ne_eq, Decidable.not_not, and_imp]
          intro x _; exact x.symm
        · simp only [hkk, ↓reduceIte, Option.some.injEq, Holder.app.injEq, ne_eq]
          constructor
          · rintro ⟨rfl, rfl⟩; exact ⟨⟨rfl, rfl⟩, hkk⟩
          · rintro ⟨x, -⟩; exact x
  have hnameApp : ∀ n k' h, get s'.names n = some (.app k' h) ↔
      get s.names n = some (.app k' h) ∧ k' ≠ k := by
    intro n k' h
    rw [hname']
    cases hg : get s.names n with
    | none => simp
    | some y =>
      cases y with
      | config i => simp
      | app k2 h2 =>
        by_cases hkk : k2 = k
        · subst hkk
          simp only [↓reduceIte, reduceCtorEq, Option.some.injEq, Holder.app.injEq, false_iff, not_and,
            ne_eq, Decidable.not_not, and_imp]
          intro x _; exact x.symm
        · simp only [hkk, ↓reduceIte, Option.some.injEq, Holder.app.injEq, ne_eq]
          constructor
          · rintro ⟨rfl, rfl⟩; exact ⟨⟨rfl, rfl⟩, hkk⟩
          · rintro ⟨x, -⟩; exact x
  refine ⟨s', by simp [fail, h1], ?_, ?_⟩
  · constructor
    · rw [h3]; exact hi.up
    · rw [h2]; exact hi.nodup
    · exact hi.sessNodup.sublist (h5.map _)
    · intro k' c hc hb
      rw [h2] at hc
      simp only [List.mem_cons, not_or] at hb
      rw [h4]
      refine ⟨hi.conn k' c hc hb.2, fun he => ?_⟩
      have hm := hi.conn k c (mem_entries.1 he) hk
      have hm' := hi.conn k' c hc hb.2
      have := get_of_nodup hi.sessNodup hm
      rw [get_of_nodup hi.sessNodup hm'] at this
      cases this
      exact hb.1 rfl
    · intro c k' hc
      obtain ⟨hc, hne⟩ := (h4 _).1 hc
      obtain ⟨ho, hb⟩ := hi.sess c k' hc
      rw [h2]
      refine ⟨ho, ?_⟩
      simp only [List.mem_cons, not_or]
      refine ⟨?_, hb⟩
      rintro rfl
      exact hne (mem_entries.2 ho)
    · intro k' h n m he hb hn0
      rw [h2] at he
      simp only [List.mem_cons, not_or] at hb
      exact (hnumApp _ _ _).2 ⟨hi.num k' h n m he hb.2 hn0, hb.1⟩
    · intro k' h n m he hb hn0
      rw [h2] at he
      simp only [List.mem_cons, not_or] at hb
      exact (hnameApp _ _ _).2 ⟨hi.name k' h n m he hb.2 hn0, hb.1⟩
    · intro n k' h hg
      obtain ⟨hg, hkk⟩ := (hnumApp _ _ _).1 hg
      obtain ⟨hb, h0, m, he⟩ := hi.numOf n k' h hg
      exact ⟨by simp [hkk, hb], h0, m, by rw [h2]; exact he⟩
    · intro n k' h hg
      obtain ⟨hg, hkk⟩ := (hnameApp _ _ _).1 hg
      obtain ⟨hb, h0, m, he⟩ := hi.nameOf n k' h hg
      exact ⟨by simp [hkk, hb], h0, m, by rw [h2]; exact he⟩
    · rw [hnum', hi.zero]
    · rw [hname', hi.empty]
  · intro key
    cases key with
    | num n => exact hnum' n
    | name m => exact hname' (upper m)

end Verif.AppApi
