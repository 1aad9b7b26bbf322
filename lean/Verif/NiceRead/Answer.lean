import Verif.NiceRead.Fields

/-!
# From the layers to the answer
-/

namespace Verif.NiceRead

variable {w : World} {db : Db}

theorem nodup_fst {l : List (Nat × Rec)} (h : (l.map (·.1)).Nodup) {x y : Nat × Rec} (hx : x ∈ l) (hy : y ∈ l)
    (e : x.1 = y.1) : x = y := by
  induction l with
  | nil => simp at hx
  | cons a l ih =>
    rw [List.map_cons, List.nodup_cons] at h
    rcases List.mem_cons.1 hx with rfl | hx' <;> rcases List.mem_cons.1 hy with rfl | hy'
    · rfl
    · exact absurd (List.mem_map.2 ⟨y, hy', e.symm⟩) h.1
    · exact absurd (List.mem_map.2 ⟨x, hx', e⟩) h.1
    · exact ih h.2 hx' hy'

theorem mem_resp {l : Resp} (h : (l.map (·.1)).Nodup) {p : Nat × Rec} : p ∈ l ↔ l.get p.1 = some p.2 := by
  unfold Resp.get
  constructor
  · intro hp
    cases hf : l.find? (fun y => y.1 == p.1) with
    | none =>
      rw [List.find?_eq_none] at hf
      exact absurd (beq_self_eq_true p.1) (hf p hp)
    | some x =>
      have h1 := List.mem_of_find?_eq_some hf
      have h2 : x.1 = p.1 := by simpa using List.find?_some hf
      rw [nodup_fst h h1 hp h2]
      rfl
  · intro hp
    rw [Option.map_eq_some_iff] at hp
    obtain ⟨x, hx, hx2⟩ := hp
    have h1 := List.mem_of_find?_eq_some hx
    have h2 : x.1 = p.1 := by simpa using List.find?_some hx
    have : x = p := Prod.ext h2 hx2
    exact this ▸ h1

theorem matches_iff {q : Req} {k : Nat} : q.matches k = true ↔ Fits q.code q.value k := by
  simp only [Req.matches, Fits, Bool.or_eq_true, decide_eq_true_eq, Bool.and_eq_true, beq_iff_eq, ge_iff_le, or_assoc]

theorem resolve_asks {e : Ent} {code : Int} {value : Nat} (h : Asks w e code value) (info : Nat)
    (qual : Option (Int × Str)) : w.resolve db info qual e = some ⟨code, value, [], info, qual⟩ ∧ code < 0 := by
  cases h with
  | plural _ h1 h2 => exact ⟨rfl, h2⟩
  | wild _ _ h1 h2 => exact ⟨by simp [World.resolve, h2], by omega⟩
  | here _ h1 => exact ⟨by simp [World.resolve], by omega⟩

/-- The keys of the answer, with the records. -/
theorem answer_recs {e : Ent} {code : Int} {value info : Nat} {qual : Option (Int × Str)} (g : w.Good db)
    (ha : Asks w e code value) (hi : info ≤ 1) :
    ∃ l : List (Nat × Rec), w.answer db e info qual = .ok (.recs (l.map (·.2))) ∧
      (∀ p, p ∈ l ↔ final w db ⟨code, value, [], info, qual⟩ p.1 = some p.2 ∧ Fits code value p.1) ∧
      InOrder w.exec (l.map (·.1)) := by
  obtain ⟨hr, hneg⟩ := resolve_asks (db := db) ha info qual
  generalize hq : (⟨code, value, [], info, qual⟩ : Req) = q at hr ⊢
  have hm : q.mult = true := by subst hq; simpa [Req.mult] using hneg
  have hs : q.sumstat = true := by subst hq; simp [Req.sumstat]; omega
  have hcode : q.code = code := by subst hq; rfl
  have hval : q.value = value := by subst hq; rfl
  obtain ⟨s, e1, i1, g1⟩ := layers_does g q hm hs
  have g1' : ∀ k, s.resp.get k = final w db q k := g1
  refine ⟨w.sorted q s.resp, ?_, ?_, ?_⟩
  · unfold World.answer
    rw [hr]
    have : ¬info = 4 := by omega
    simp only [this, if_false, e1, hm, Bool.not_true, Bool.and_false, Bool.false_eq_true]
  · intro p
    have hmem := mem_resp i1.keys (p := p)
    rw [g1'] at hmem
    have hfit := matches_iff (q := q) (k := p.1)
    rw [hcode, hval] at hfit
    simp only [World.sorted, List.mem_append, List.mem_filter, List.mem_mergeSort, Bool.and_eq_true, beq_iff_eq,
      bne_iff_ne, hmem, hfit]
    by_cases hpe : p.1 = w.exec <;> simp [hpe]
  · have hnd : ((s.resp.mergeSort fun a b => decide (a.1 ≤ b.1)).map (·.1)).Nodup :=
      ((List.mergeSort_perm s.resp _).map _).nodup_iff.2 i1.keys
    have hsort : (s.resp.mergeSort fun a b => decide (a.1 ≤ b.1)).Pairwise fun a b => a.1 ≤ b.1 := by
      have := List.pairwise_mergeSort (le := fun a b : Nat × Rec => decide (a.1 ≤ b.1))
        (by intro a b c h1 h2; simp only [decide_eq_true_eq] at *; omega)
        (by intro a b; simp only [Bool.or_eq_true, decide_eq_true_eq]; omega) s.resp
      exact this.imp (by simp)
    refine ⟨((s.resp.mergeSort fun a b => decide (a.1 ≤ b.1)).filter
      fun p => p.1 != w.exec && q.matches p.1).map (·.1), ?_, ?_, ?_⟩
    · have hsub : ((s.resp.filter fun p => p.1 == w.exec && q.matches p.1).map (·.1)).Nodup :=
        i1.keys.sublist (List.filter_sublist.map _)
      have hall : ∀ x ∈ (s.resp.filter fun p => p.1 == w.exec && q.matches p.1).map (·.1), x = w.exec := by
        intro x hx
        obtain ⟨p, hp, rfl⟩ := List.mem_map.1 hx
        have := (List.mem_filter.1 hp).2
        simp only [Bool.and_eq_true, beq_iff_eq] at this
        exact this.1
      simp only [World.sorted, List.map_append]
      revert hsub hall
      generalize (s.resp.filter fun p => p.1 == w.exec && q.matches p.1).map (·.1) = m
      intro hsub hall
      match m, hsub, hall with
      | [], _, _ => exact .inl rfl
      | [x], _, hall => rw [hall x (by simp)]; exact .inr rfl
      | x :: y :: m, hsub, hall =>
        exfalso
        rw [List.nodup_cons] at hsub
        apply hsub.1
        rw [hall x (by simp), hall y (by simp)]
        simp
    · intro hx
      obtain ⟨p, hp, hpe⟩ := List.mem_map.1 hx
      have := (List.mem_filter.1 hp).2
      simp [hpe] at this
    · rw [List.pairwise_map]
      have h2 : (s.resp.mergeSort fun a b => decide (a.1 ≤ b.1)).Pairwise fun a b => a.1 ≠ b.1 := by
        rw [List.nodup_iff_pairwise_ne, List.pairwise_map] at hnd
        exact hnd
      have h3 : (s.resp.mergeSort fun a b => decide (a.1 ≤ b.1)).Pairwise fun a b => a.1 < b.1 :=
        (hsort.and h2).imp (by intro a b h; omega)
      exact h3.sublist List.filter_sublist

/-- The address of a record is its key. -/
theorem final_addr {q : Req} {k : Nat} {r : Rec} (h : final w db q k = some r) : r.addr = k := by
  refine final_inv (w := w) (db0 := db) (q := q) (k := k) (fun r => r.addr = k) rfl ?_ ?_ ?_ ?_ ?_ ?_ h
  · intro n _ hn _ r _
    unfold World.eclSet
    split
    · exact hn
    · split <;> exact hn
  · intro n id ph ty r hr; unfold ptpSet; split <;> exact hr
  · intro n c a r hr; unfold lanSet; split <;> exact hr
  · intro i a r hr; unfold World.reachSet; split <;> exact hr
  · intro r hr; exact hr
  · intro _ r hr; exact hr

/-- A record of an answer is the record of its address. -/
theorem mem_answer {e : Ent} {code : Int} {value info : Nat} {qual : Option (Int × Str)} (g : w.Good db)
    (ha : Asks w e code value) (hi : info ≤ 1) {rs : List Rec} (h : w.answer db e info qual = .ok (.recs rs)) {r : Rec} :
    r ∈ rs ↔ final w db ⟨code, value, [], info, qual⟩ r.addr = some r ∧ Fits code value r.addr := by
  obtain ⟨l, hl, hm, _⟩ := answer_recs (qual := qual) g ha hi
  rw [hl] at h
  simp only [Except.ok.injEq, Reply.recs.injEq] at h
  subst h
  constructor
  · intro hr
    obtain ⟨p, hp, rfl⟩ := List.mem_map.1 hr
    have := (hm p).1 hp
    rwa [final_addr this.1]
  · intro hr
    exact List.mem_map.2 ⟨(r.addr, r), (hm _).2 hr, rfl⟩

/-- Once a field has a value it keeps one. -/
theorem fold_once {k : Nat} (Q : Option Rec → Prop) : ∀ (as : List Act) (r : Option Rec),
    (∀ a ∈ as, a.1 = k → ∀ x, Q x → Q (a.2 x)) → (∃ a ∈ as, a.1 = k ∧ ∀ x, Q (a.2 x)) → Q (as.foldl (Act.on k) r)
  | [], _, _, h => by obtain ⟨a, ha, _⟩ := h; simp at ha
  | b :: as, r, hk, h => by
    rw [List.foldl_cons]
    by_cases h' : ∃ a ∈ as, a.1 = k ∧ ∀ x, Q (a.2 x)
    · exact fold_once Q as _ (fun c hc => hk c (by simp [hc])) h'
    · obtain ⟨a, ha, h1, h2⟩ := h
      rcases List.mem_cons.1 ha with rfl | ha'
      · apply fold_inv Q as _ (fun c hc => hk c (by simp [hc]))
        unfold Act.on
        rw [if_pos h1]
        exact h2 r
      · exact absurd ⟨a, ha', h1, h2⟩ h'

/-- A field that NSP, the circuits and the table never take away again. -/
theorem final_once {q : Req} {k : Nat} (Q : Rec → Prop)
    (hn : ∀ n, n.addr = k → ∀ r, Q r → Q (w.eclSet q n r))
    (hp : ∀ n id ph ty r, Q r → Q (ptpSet n id ph ty q r)) (hl : ∀ n c a r, Q r → Q (lanSet n c a q r))
    (hr : ∀ i a r, Q r → Q (w.reachSet q i a r)) (h5 : ∀ r : Rec, Q r → Q { r with state := some 5 })
    (he : k = w.exec → ∀ r, Q r → Q (execSet w q r))
    (h : ∃ f : Rec → Rec, setAct db k f ∈ acts w db q ∧ ∀ r, Q (f r)) {r : Rec} (hf : final w db q k = some r) :
    Q r := by
  have key : ∃ v, final w db q k = some v ∧ Q v := by
    refine fold_once (k := k) (fun x => ∃ v, x = some v ∧ Q v) _ _ ?_ ?_
    · intro a ha hk x hx
      obtain ⟨v, rfl, hv⟩ := hx
      rcases acts_cases ha with ⟨n, hn1, hn2, rfl⟩ | ⟨name, id, ph, ty, _, _, rfl⟩ |
        ⟨name, adjs, cost, y, _, _, _, _, rfl⟩ | ⟨i, b, _, _, _, rfl⟩ | ⟨i, _, _, _, rfl⟩ | rfl
      · exact ⟨_, rfl, hn n hk _ hv⟩
      · exact ⟨_, rfl, hp _ _ _ _ _ hv⟩
      · exact ⟨_, rfl, hl _ _ _ _ hv⟩
      · exact ⟨_, rfl, hr _ _ _ hv⟩
      · exact ⟨{ v with state := some 5 }, by simp, h5 _ hv⟩
      · exact ⟨_, rfl, he hk.symm _ hv⟩
    · obtain ⟨f, hf1, hf2⟩ := h
      exact ⟨_, hf1, rfl, fun x => ⟨_, rfl, hf2 _⟩⟩
  obtain ⟨v, h1, h2⟩ := key
  rw [hf] at h1
  cases h1
  exact h2

end Verif.NiceRead
