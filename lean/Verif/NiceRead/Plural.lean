import Verif.NiceRead.Phases

/-!
# Reading off the answer to a plural request
-/

namespace Verif.NiceRead

variable {w : World} {db0 : Db}

theorem fold_isSome {k : Nat} : ∀ (as : List Act) (r : Option Rec),
    (∀ a ∈ as, ∀ x, x.isSome = true → (a.2 x).isSome = true) →
    ((as.foldl (Act.on k) r).isSome = true ↔
      r.isSome = true ∨ ∃ a ∈ as, a.1 = k ∧ (a.2 none).isSome = true)
  | [], r, _ => by simp
  | a :: as, r, h => by
    rw [List.foldl_cons, fold_isSome as _ (fun b hb => h b (by simp [hb]))]
    simp only [Act.on, List.mem_cons, exists_eq_or_imp]
    by_cases hk : a.1 = k
    · simp only [hk, ↓reduceIte, true_and]
      cases r with
      | none => simp
      | some v => simp [h a (by simp) (some v) rfl]
    · simp [hk]

theorem fold_keep {α : Type} {k : Nat} (φ : Option Rec → α) : ∀ (as : List Act) (r : Option Rec),
    (∀ a ∈ as, a.1 = k → ∀ x, φ (a.2 x) = φ x) → φ (as.foldl (Act.on k) r) = φ r
  | [], _, _ => rfl
  | a :: as, r, h => by
    rw [List.foldl_cons, fold_keep φ as _ (fun b hb => h b (by simp [hb]))]
    unfold Act.on
    by_cases hk : a.1 = k
    · rw [if_pos hk, h a (by simp) hk]
    · rw [if_neg hk]

theorem fold_none {k : Nat} (as : List Act) (r : Option Rec) (h : ∀ a ∈ as, a.1 ≠ k) :
    as.foldl (Act.on k) r = r :=
  fold_keep (k := k) id as r (fun a ha hk => absurd hk (h a ha))

theorem fold_at {k : Nat} (f : Nat → List Act) (i : Nat) : ∀ (is : List Nat) (r : Option Rec),
    is.Nodup → i ∈ is → (∀ j ∈ is, j ≠ i → ∀ a ∈ f j, a.1 ≠ k) →
    (is.flatMap f).foldl (Act.on k) r = (f i).foldl (Act.on k) r
  | [], _, _, h, _ => by simp at h
  | j :: is, r, nd, hi, h => by
    rw [List.flatMap_cons, List.foldl_append]
    rw [List.nodup_cons] at nd
    by_cases hj : j = i
    · subst hj
      rw [fold_none (is.flatMap f)]
      intro a ha
      obtain ⟨m, hm, ham⟩ := List.mem_flatMap.1 ha
      exact h m (by simp [hm]) (fun e => nd.1 (e ▸ hm)) a ham
    · have hi' : i ∈ is := by
        rcases List.mem_cons.1 hi with e | e
        · exact absurd e.symm hj
        · exact e
      rw [fold_none (f j) r (h j (by simp) hj)]
      exact fold_at f i is r nd.2 hi' (fun m hm => h m (by simp [hm]))

/-! ## The keys -/

theorem eclWants_iff {q : Req} (hq : q.adj = false) {n : Node} :
    w.eclWants q n = true ↔ Shown w q.code q.info n := by
  have hc : (w.links n.addr ≠ 0) ↔ n.addr ∈ w.conns := by
    unfold World.links
    rw [Nat.ne_zero_iff_zero_lt, List.countP_pos_iff]
    simp
  have ha : q.code ≠ -4 := by simpa [Req.adj] using hq
  unfold World.eclWants Shown
  simp only [Req.known, Req.loop, Req.sig, Req.counters, Req.sumstat]
  by_cases h1 : q.code = -1
  · simp [h1]
  by_cases h6 : q.code = -6
  · simp [h6]
  by_cases h7 : q.code = -7
  · simp [h7]
  by_cases h3 : q.code = -3
  · simp [h3, Option.ne_none_iff_isSome]
  by_cases he : n.addr = w.exec
  · simp [he, ha, h1, h3, h6, h7]
  by_cases h5 : q.code = -5
  · by_cases hp : (q.info = 3 ∧ n.used = true) ∨ (q.info ≤ 1 ∧ n.delay ≠ 0)
    · have hp' : (q.info == 3 && n.used || decide (q.info < 2) && n.delay != 0) = true := by
        simp only [Bool.or_eq_true, Bool.and_eq_true, beq_iff_eq, decide_eq_true_eq, bne_iff_ne]
        rcases hp with h | h
        · exact .inl h
        · exact .inr ⟨by omega, h.2⟩
      simp [h5, he, hp, hp']
    · have hp' : (q.info == 3 && n.used || decide (q.info < 2) && n.delay != 0) = false := by
        rw [Bool.eq_false_iff]
        simp only [ne_eq, Bool.or_eq_true, Bool.and_eq_true, beq_iff_eq, decide_eq_true_eq, bne_iff_ne]
        intro h
        apply hp
        rcases h with h | h
        · exact .inl h
        · exact .inr ⟨by omega, h.2⟩
      simp [h5, he, hp, hp', ← hc]
  · simp [he, ha, h1, h3, h6, h7, h5, ← hc]

theorem pick_none {q : Req} (h : q.pick = none) (c : Str) : ¬Admits q.qual c := by
  unfold Req.pick at h
  intro ha
  cases hq : q.qual with
  | none => simp [hq] at h
  | some p =>
    obtain ⟨code, v⟩ := p
    rcases ha code v hq with h1 | h1
    · simp [hq, h1] at h
    · have : ¬code < 0 := by omega
      simp only [hq, this, if_false] at h
      split at h <;> simp at h

theorem pick_some {q : Req} {p : Option Str} (h : q.pick = some p) (c : Str) :
    Admits q.qual c ↔ p = none ∨ p = some c := by
  unfold Req.pick at h
  unfold Admits
  cases hq : q.qual with
  | none =>
    simp only [hq, Option.some.injEq] at h
    simp [← h]
  | some x =>
    obtain ⟨code, v⟩ := x
    simp only [hq] at h
    by_cases h1 : code = -1
    · simp only [h1, ↓reduceIte, Option.some.injEq] at h
      simp [← h, h1]
    · by_cases h2 : code < 0
      · simp [h1, h2] at h
      · simp only [h1, if_false, h2, Option.some.injEq] at h
        subst h
        simp only [Option.some.injEq, Prod.mk.injEq, reduceCtorEq, false_or]
        constructor
        · intro hh
          rcases hh code v ⟨rfl, rfl⟩ with h3 | h3
          · exact absurd h3 h1
          · exact h3.2
        · rintro rfl c' v' ⟨rfl, rfl⟩
          exact .inr ⟨by omega, rfl⟩

theorem pick_known {q : Req} {p : Option Str} (h : q.pick = some p) :
    ∀ c v, q.qual = some (c, v) → c = -1 ∨ 0 ≤ c := by
  intro c v hq
  unfold Req.pick at h
  simp only [hq] at h
  by_cases h1 : c = -1
  · exact .inl h1
  · by_cases h2 : c < 0
    · simp [h1, h2] at h
    · exact .inr (by omega)

theorem pick_ne_nil {q : Req} (hd : Decoded q.qual) {p : Option Str} (h : q.pick = some p) : p ≠ some [] := by
  rintro rfl
  unfold Req.pick at h
  cases hq : q.qual with
  | none => simp [hq] at h
  | some x =>
    obtain ⟨c, v⟩ := x
    simp only [hq] at h
    split at h
    · simp at h
    · split at h
      · simp at h
      · simp only [Option.some.injEq] at h
        exact hd c v hq (by omega) h

theorem circActs_key {q : Req} {name : Str} {c : Circ} {k : Nat} :
    (∃ a ∈ circActs db0 q name c, a.1 = k ∧ (a.2 none).isSome = true) ↔ Neighbour k c := by
  cases c with
  | ptp running id ph ty =>
    unfold circActs Neighbour
    cases running <;> simp [setAct]
  | lan adjs cost =>
    unfold circActs Neighbour
    simp only [List.mem_map, List.mem_filter, List.mem_mergeSort]
    constructor
    · rintro ⟨_, ⟨x, ⟨h1, h2⟩, rfl⟩, h3, _⟩
      exact ⟨x, h1, h2, h3⟩
    · rintro ⟨x, h1, h2, h3⟩
      exact ⟨_, ⟨x, ⟨h1, h2⟩, rfl⟩, h3, rfl⟩

theorem reachActs_key (g : w.Good db0) {q : Req} (hd : Decoded q.qual) {p : Option Str} (hp : q.pick = some p)
    {k : Nat} :
    (∃ a ∈ tableActs w db0 q p, a.1 = k ∧ (a.2 none).isSome = true) ↔ Routed w q.code q.qual k := by
  have hx := g.exec.1.1
  have hsz := g.size
  unfold tableActs Routed
  by_cases hr : w.Router
  · simp only [hr, ↓reduceIte, List.mem_flatMap, true_and]
    constructor
    · rintro ⟨a, ⟨i, hi, ha⟩, hk, hsome⟩
      have hi' := List.mem_range'_1.1 hi
      have hki : k = w.exec / 1024 * 1024 + i → k / 1024 = w.exec / 1024 ∧ k % 1024 = i := by omega
      unfold reachActs at ha
      cases ho : w.oadj i with
      | none =>
        simp only [ho, List.mem_singleton] at ha
        subst ha
        simp only [World.at] at hk
        obtain ⟨h1, h2⟩ := hki hk.symm
        have hne : k ≠ w.exec := by
          intro e
          have := (g.here i hi'.1 (by omega)).2 (by omega)
          rw [ho] at this
          cases this
        refine ⟨h1, by omega, by omega, hne, .inr ⟨by rw [h2]; exact ho, ?_, pick_known hp⟩⟩
        by_cases hc : q.code = -1
        · exact hc
        · simp [hc] at hsome
      | some hop =>
        cases hop with
        | self => simp [ho] at ha
        | via b =>
          simp only [ho] at ha
          by_cases hq : (p.isSome && p != some [] && p != some b.circuit) = true
          · simp [hq] at ha
          · simp only [hq, Bool.false_eq_true, if_false, List.mem_singleton] at ha
            subst ha
            simp only [setAct, World.at] at hk
            obtain ⟨h1, h2⟩ := hki hk.symm
            have hne : k ≠ w.exec := by
              intro e
              have := (g.here i hi'.1 (by omega)).2 (by omega)
              rw [ho] at this
              cases this
            refine ⟨h1, by omega, by omega, hne, .inl ⟨b, by rw [h2]; exact ho, ?_⟩⟩
            rw [pick_some hp]
            simp only [Bool.and_eq_true, bne_iff_ne, ne_eq, not_and, Classical.not_not] at hq
            cases hpn : p with
            | none => exact .inl rfl
            | some v =>
              right
              rw [← hpn]
              exact hq ⟨by simp [hpn], pick_ne_nil hd hp⟩
    · rintro ⟨h1, h2, h3, hne, h4⟩
      have hmem : k % 1024 ∈ List.range' 1 w.maxnodes := List.mem_range'_1.2 ⟨h2, by omega⟩
      have hk : w.at (k % 1024) = k := by unfold World.at; omega
      rcases h4 with ⟨b, ho, hb⟩ | ⟨ho, hc, _⟩
      · refine ⟨setAct db0 k (w.reachSet q (k % 1024) b), ⟨k % 1024, hmem, ?_⟩, rfl, rfl⟩
        unfold reachActs
        simp only [ho]
        have hq : ¬(p.isSome && p != some [] && p != some b.circuit) = true := by
          rw [pick_some hp] at hb
          rcases hb with e | e
          · simp [e]
          · simp [e]
        simp only [hq, Bool.false_eq_true, if_false, List.mem_singleton, hk]
      · have hin : ∃ a ∈ reachActs w db0 q p (k % 1024), a.1 = k ∧ (a.2 none).isSome = true := by
          unfold reachActs
          simp only [ho]
          exact ⟨_, List.mem_singleton.2 rfl, hk, by simp [hc]⟩
        obtain ⟨a, ha, hh⟩ := hin
        exact ⟨a, ⟨k % 1024, hmem, ha⟩, hh⟩
  · simp [hr]

theorem acts_mono {q : Req} : ∀ a ∈ acts w db0 q, ∀ x, x.isSome = true → (a.2 x).isSome = true := by
  intro a ha x hx
  unfold acts at ha
  simp only [List.mem_append, List.mem_singleton] at ha
  have hset : ∀ k f, (setAct db0 k f).2 x |>.isSome := fun _ _ => rfl
  rcases ha with (ha | ha) | ha
  · unfold nspActs at ha
    split at ha
    · simp at ha
    · obtain ⟨n, _, rfl⟩ := List.mem_map.1 ha
      exact hset _ _
  · unfold routActs at ha
    split at ha
    · simp at ha
    · rcases List.mem_append.1 ha with ha | ha
      · split at ha
        · simp at ha
        · obtain ⟨c, _, hc⟩ := List.mem_flatMap.1 ha
          unfold circActs at hc
          split at hc
          · split at hc
            · rw [List.mem_singleton.1 hc]; exact hset _ _
            · simp at hc
          · obtain ⟨n, _, rfl⟩ := List.mem_map.1 hc
            exact hset _ _
      · split at ha
        · simp at ha
        · unfold tableActs at ha
          split at ha
          · obtain ⟨i, _, hi⟩ := List.mem_flatMap.1 ha
            unfold reachActs at hi
            split at hi
            · simp at hi
            · split at hi
              · simp at hi
              · rw [List.mem_singleton.1 hi]; exact hset _ _
            · rw [List.mem_singleton.1 hi]
              simp [hx]
          · simp at ha
  · subst ha
    simpa [endAct] using hx

/-- The records present at the end. -/
theorem present_iff (g : w.Good db0) {q : Req} (hd : Decoded q.qual) {k : Nat} :
    ((acts w db0 q).foldl (Act.on k) none).isSome = true ↔ Listed w db0 q.code q.info q.qual k := by
  rw [fold_isSome _ _ acts_mono]
  unfold acts Listed
  simp only [Option.isSome_none, Bool.false_eq_true, false_or, List.mem_append, or_assoc, or_and_right, exists_or]
  have h1 : (∃ a ∈ nspActs w db0 q, a.1 = k ∧ (a.2 none).isSome = true) ↔
      ∃ n ∈ db0.byid, n.addr = k ∧ Shown w q.code q.info n := by
    unfold nspActs
    cases ha : q.adj with
    | true =>
      have : q.code = -4 := by simpa [Req.adj] using ha
      simp [Shown, this]
    | false =>
      simp only [eclActs, Bool.false_eq_true, if_false, List.mem_map, List.mem_filter]
      constructor
      · rintro ⟨a, ⟨n, ⟨hn, hw⟩, rfl⟩, hk, _⟩
        exact ⟨n, hn, hk, (eclWants_iff ha).1 hw⟩
      · rintro ⟨n, hn, hk, hw⟩
        exact ⟨_, ⟨n, ⟨hn, (eclWants_iff ha).2 hw⟩, rfl⟩, hk, rfl⟩
  have h3 : ¬∃ a ∈ [endAct w q], a.1 = k ∧ (a.2 none).isSome = true := by
    simp [endAct]
  have hloop : q.loop = true ↔ q.code = -3 := by simp [Req.loop]
  have hadj : q.adj = true ↔ q.code = -4 := by simp [Req.adj]
  have h2 : (∃ a ∈ routActs w db0 q, a.1 = k ∧ (a.2 none).isSome = true) ↔
      (q.code ≠ -3 ∧ ∃ c ∈ w.circuits, Admits q.qual c.1 ∧ Neighbour k c.2) ∨
      (q.code ≠ -3 ∧ q.code ≠ -4 ∧ Routed w q.code q.qual k) := by
    unfold routActs
    cases hp : q.pick with
    | none =>
      simp only [List.not_mem_nil, false_and, exists_false, false_iff]
      rintro (⟨_, c, _, hc, _⟩ | ⟨_, _, _, _, _, _, _, h | h⟩)
      · exact pick_none hp _ hc
      · obtain ⟨a, _, ha⟩ := h
        exact pick_none hp _ ha
      · have := h.2.2
        unfold Req.pick at hp
        cases hq : q.qual with
        | none => simp [hq] at hp
        | some x =>
          obtain ⟨c, v⟩ := x
          simp only [hq] at hp
          rcases this c v hq with e | e
          · simp [e] at hp
          · have : ¬c < 0 := by omega
            simp only [this, if_false] at hp
            split at hp <;> simp at hp
    | some p =>
      simp only [List.mem_append, or_and_right, exists_or]
      apply or_congr
      · cases hl : q.loop with
        | true => simp [hloop.1 hl]
        | false =>
          have : q.code ≠ -3 := by rw [ne_eq, ← hloop, hl]; simp
          simp only [Bool.false_eq_true, if_false, List.mem_flatMap, ne_eq, this, not_false_eq_true, true_and]
          constructor
          · rintro ⟨a, ⟨c, hc, ha⟩, hk⟩
            simp only [chosen, List.mem_filter] at hc
            refine ⟨c, hc.1, ?_, (circActs_key (db0 := db0) (q := q) (name := c.1)).1 ⟨a, ha, hk⟩⟩
            rw [pick_some hp]
            have := hc.2
            simp only [Bool.or_eq_true, Option.isNone_iff_eq_none, beq_iff_eq] at this
            exact this
          · rintro ⟨c, hc, ha, hn⟩
            obtain ⟨a, ha1, ha2⟩ := (circActs_key (db0 := db0) (q := q) (name := c.1)).2 hn
            refine ⟨a, ⟨c, ?_, ha1⟩, ha2⟩
            simp only [chosen, List.mem_filter, Bool.or_eq_true, Option.isNone_iff_eq_none, beq_iff_eq]
            exact ⟨hc, (pick_some hp _).1 ha⟩
      · cases hl : (q.adj || q.loop) with
        | true =>
          have : q.code = -3 ∨ q.code = -4 := by
            rw [Bool.or_eq_true] at hl
            rcases hl with h | h
            · exact .inr (hadj.1 h)
            · exact .inl (hloop.1 h)
          simp only [↓reduceIte, List.not_mem_nil, false_and, exists_false, false_iff]
          rintro ⟨h1, h2, _⟩
          rcases this with h | h
          · exact h1 h
          · exact h2 h
        | false =>
          have h1 : q.code ≠ -3 := by
            intro e
            rw [hloop.2 e] at hl
            simp at hl
          have h2 : q.code ≠ -4 := by
            intro e
            rw [hadj.2 e] at hl
            simp at hl
          simp only [Bool.false_eq_true, if_false, ne_eq, h1, h2, not_false_eq_true, true_and]
          exact reachActs_key g hd hp
  rw [h1, h2]
  simp only [h3, or_false]

end Verif.NiceRead
