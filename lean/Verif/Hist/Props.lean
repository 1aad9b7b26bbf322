import Verif.Hist.Model

/-!
# Properties: histograms of work times (C138)
-/

namespace Verif.Hist

/-- The samples a table stands for. -/
def expand (t : Table) : List Int := t.flatMap fun x => List.replicate x.2 x.1

theorem expand_cons (x : Int × Nat) (t : Table) : expand (x :: t) = List.replicate x.2 x.1 ++ expand t := rfl

theorem expand_count (k : Int) (t : Table) : (expand (count k t)).Perm (k :: expand t) := by
  induction t with
  | nil => exact List.Perm.refl _
  | cons x r ih =>
    obtain ⟨a, n⟩ := x
    unfold count
    split
    · next h =>
      subst h
      rw [expand_cons, expand_cons, List.replicate_succ]
      exact List.Perm.refl _
    · rw [expand_cons, expand_cons]
      exact (List.Perm.append_left _ ih).trans List.perm_middle

theorem count_pos (k : Int) (t : Table) (h : ∀ x ∈ t, 0 < x.2) : ∀ x ∈ count k t, 0 < x.2 := by
  induction t with
  | nil => intro x hx; rw [count, List.mem_singleton] at hx; subst hx; exact Nat.one_pos
  | cons y r ih =>
    obtain ⟨a, n⟩ := y
    intro x hx
    unfold count at hx
    split at hx
    · rcases List.mem_cons.1 hx with rfl | hx
      · exact Nat.succ_pos n
      · exact h x (List.mem_cons_of_mem _ hx)
    · rcases List.mem_cons.1 hx with rfl | hx
      · exact h _ (List.mem_cons_self ..)
      · exact ih (fun z hz => h z (List.mem_cons_of_mem _ hz)) x hx

theorem table_spec (l : List Int) : (expand (table l)).Perm l ∧ ∀ x ∈ table l, 0 < x.2 := by
  have key : ∀ (l : List Int) (t : Table), (∀ x ∈ t, 0 < x.2) →
      (expand (l.foldl (fun t k => count k t) t)).Perm (expand t ++ l) ∧
        ∀ x ∈ l.foldl (fun t k => count k t) t, 0 < x.2 := by
    intro l
    induction l with
    | nil => intro t h; simp only [List.foldl_nil, List.append_nil]; exact ⟨List.Perm.refl _, h⟩
    | cons k l ih =>
      intro t h
      obtain ⟨h1, h2⟩ := ih (count k t) (count_pos k t h)
      refine ⟨h1.trans ?_, h2⟩
      exact ((expand_count k t).append_right l).trans List.perm_middle.symm
  exact key l [] (by simp)

theorem expand_sorted (t : Table) (h : t.Pairwise fun a b => a.1 ≤ b.1) : (expand t).Pairwise (· ≤ ·) := by
  induction t with
  | nil => exact .nil
  | cons x r ih =>
    rw [expand_cons, List.pairwise_append]
    rw [List.pairwise_cons] at h
    refine ⟨?_, ih h.2, ?_⟩
    · rw [List.pairwise_replicate]; exact .inr (Int.le_refl _)
    · intro a ha b hb
      rw [(List.mem_replicate.1 ha).2]
      obtain ⟨y, hy, hb⟩ := List.mem_flatMap.1 hb
      rw [(List.mem_replicate.1 hb).2]
      exact h.1 y hy

theorem sums_expand (t : Table) : sums t = ((expand t).length, (expand t).sum) := by
  have key : ∀ (t : Table) (a : Nat × Int), t.foldl (fun (a : Nat × Int) (x : Int × Nat) => (a.1 + x.2, a.2 + x.1 * (x.2 : Int))) a =
      (a.1 + (expand t).length, a.2 + (expand t).sum) := by
    intro t
    induction t with
    | nil => intro a; simp [expand]
    | cons x r ih =>
      intro a
      rw [List.foldl_cons, ih, expand_cons, List.length_append, List.length_replicate, List.sum_append]
      have : (List.replicate x.2 x.1).sum = x.1 * x.2 := by
        generalize x.2 = n
        induction n with
        | zero => simp
        | succ n ih => rw [List.replicate_succ, List.sum_cons, ih]; push_cast; rw [Int.mul_add]; omega
      rw [this]
      ext <;> simp <;> omega
  have := key t (0, 0)
  simpa [sums] using this

theorem med_at (h : Nat) : ∀ (t : Table) (c : Nat), c < h → h ≤ c + (expand t).length →
    med h c t = (expand t)[h - c - 1]?
  | [], c, h1, h2 => by simp [expand] at h2; omega
  | (k, v) :: r, c, h1, h2 => by
    unfold med
    rw [expand_cons] at h2 ⊢
    rw [List.length_append, List.length_replicate] at h2
    split
    · next hv =>
      rw [List.getElem?_append_left (by rw [List.length_replicate]; simp only; omega), List.getElem?_replicate]
      rw [if_pos (by simp only; omega)]
    · next hv =>
      rw [med_at h r (c + v) (by omega) (by simp only at h2; omega),
        List.getElem?_append_right (by rw [List.length_replicate]; simp only; omega), List.length_replicate]
      congr 1
      simp only
      omega

theorem expand_head (t : Table) (h : ∀ x ∈ t, 0 < x.2) : (expand t).head? = t.head?.map (·.1) := by
  cases t with
  | nil => rfl
  | cons x r =>
    rw [expand_cons]
    obtain ⟨n, hn⟩ := Nat.exists_eq_succ_of_ne_zero (Nat.ne_of_gt (h x (by simp)))
    rw [hn, List.replicate_succ]
    rfl

theorem expand_last (t : Table) (h : ∀ x ∈ t, 0 < x.2) : (expand t).getLast? = t.getLast?.map (·.1) := by
  induction t with
  | nil => rfl
  | cons x r ih =>
    rw [expand_cons, List.getLast?_append, ih (fun y hy => h y (by simp [hy])), List.getLast?_cons]
    cases hr : r.getLast? with
    | some y => rfl
    | none =>
      obtain ⟨n, hn⟩ := Nat.exists_eq_succ_of_ne_zero (Nat.ne_of_gt (h x (by simp)))
      rw [hn, List.getLast?_replicate]
      simp

theorem perm_sum {a b : List Int} (h : a.Perm b) : a.sum = b.sum := by
  induction h with
  | nil => rfl
  | cons x _ ih => rw [List.sum_cons, List.sum_cons, ih]
  | swap x y l => simp only [List.sum_cons]; omega
  | trans _ _ h1 h2 => exact h1.trans h2

/-- **What a histogram shows (C138).**  For any samples: the least, the greatest, their sum and number, and the one at place
`n / 2` counted from one (the first, if there is one only) when they are put in order. -/
theorem shown (l : List Int) (h0 : l ≠ []) :
    ∃ (S : List Int) (s : Stats), S.Perm l ∧ S.Pairwise (· ≤ ·) ∧ stats (table l) = some s ∧
      S.head? = some s.min ∧ S.getLast? = some s.max ∧ s.sum = l.sum ∧ s.total = l.length ∧
      S[l.length / 2 - 1]? = some s.median := by
  obtain ⟨hp, hpos⟩ := table_spec l
  have mp := List.mergeSort_perm (table l) (fun a b => decide (a.1 ≤ b.1))
  have ms := List.pairwise_mergeSort (le := fun a b : Int × Nat => decide (a.1 ≤ b.1))
    (by intro a b c; simp only [decide_eq_true_eq]; exact Int.le_trans)
    (by intro a b; simp only [Bool.or_eq_true, decide_eq_true_eq]; exact Int.le_total a.1 b.1) (table l)
  generalize hD : (table l).mergeSort (fun a b => decide (a.1 ≤ b.1)) = D at mp ms
  have hSp : (expand D).Perm l := (List.Perm.flatMap_right _ mp).trans hp
  have hSs : (expand D).Pairwise (· ≤ ·) := expand_sorted D (ms.imp (by simp))
  have hDpos : ∀ x ∈ D, 0 < x.2 := fun x hx => hpos x (mp.mem_iff.1 hx)
  have hlen : (expand D).length = l.length := hSp.length_eq
  have hlp : 0 < l.length := List.length_pos_iff.2 h0
  have hsum : (expand D).sum = l.sum := perm_sum hSp
  have hne : D ≠ [] := by rintro rfl; simp [expand] at hlen; omega
  have hmed : med (l.length / 2) 0 D = (expand D)[l.length / 2 - 1]? := by
    by_cases hh : l.length / 2 = 0
    · rw [hh]
      have := expand_head D hDpos
      cases D with
      | nil => exact absurd rfl hne
      | cons x r =>
        rw [List.head?_eq_getElem?] at this
        unfold med
        rw [if_pos (Nat.zero_le _)]
        exact this.symm
    · rw [med_at _ D 0 (by omega) (by omega)]
      rfl
  have hx : l.length / 2 - 1 < (expand D).length := by omega
  obtain ⟨a, ha⟩ : ∃ a, D.head? = some a := by cases D with
    | nil => exact absurd rfl hne
    | cons x r => exact ⟨x, rfl⟩
  obtain ⟨b, hb⟩ : ∃ b, D.getLast? = some b := ⟨D.getLast hne, List.getLast?_eq_some_getLast hne⟩
  refine ⟨expand D, ⟨a.1, b.1, l.sum, l.length, (expand D)[l.length / 2 - 1]⟩, hSp, hSs, ?_, ?_, ?_, rfl, rfl, ?_⟩
  · unfold stats
    simp only [hD, ha, hb, sums_expand, hlen, hsum, hmed, List.getElem?_eq_getElem hx]
  · rw [expand_head D hDpos, ha]; rfl
  · rw [expand_last D hDpos, hb]; rfl
  · rw [List.getElem?_eq_getElem hx]

example : ∃ (S : List Int) (s : Stats), S.Perm [3, 1, 3, 2] ∧ S.Pairwise (· ≤ ·) ∧ stats (table [3, 1, 3, 2]) = some s ∧
    S.head? = some s.min ∧ S.getLast? = some s.max ∧ s.sum = 9 ∧ s.total = 4 ∧ S[1]? = some s.median :=
  shown _ (by simp)

/-- A value with at least half of the samples on either side. -/
def Median (l : List Int) (m : Int) : Prop :=
  l.length ≤ 2 * (l.filter (· ≤ m)).length ∧ l.length ≤ 2 * (l.filter (m ≤ ·)).length

theorem filter_take {S : List Int} (hs : S.Pairwise (· ≤ ·)) {i : Nat} {m : Int} (hm : S[i]? = some m) :
    i + 1 ≤ (S.filter (· ≤ m)).length ∧ S.length - i ≤ (S.filter (m ≤ ·)).length := by
  obtain ⟨hlt, rfl⟩ := List.getElem?_eq_some_iff.1 hm
  have hp := List.pairwise_iff_getElem.1 hs
  constructor
  · have h1 : ((S.take (i + 1)).filter (· ≤ S[i])).length ≤ (S.filter (· ≤ S[i])).length :=
      ((List.take_sublist _ _).filter _).length_le
    have h2 : (S.take (i + 1)).filter (· ≤ S[i]) = S.take (i + 1) := by
      rw [List.filter_eq_self]
      intro x hx
      obtain ⟨j, hj, rfl⟩ := List.mem_iff_getElem.1 hx
      rw [List.length_take] at hj
      rw [List.getElem_take]
      simp only [decide_eq_true_eq]
      rcases Nat.lt_or_ge j i with h | h
      · exact hp j i (by omega) hlt h
      · have : j = i := by omega
        subst this; exact Int.le_refl _
    rw [h2, List.length_take] at h1
    omega
  · have h1 : ((S.drop i).filter (S[i] ≤ ·)).length ≤ (S.filter (S[i] ≤ ·)).length :=
      ((List.drop_sublist _ _).filter _).length_le
    have h2 : (S.drop i).filter (S[i] ≤ ·) = S.drop i := by
      rw [List.filter_eq_self]
      intro x hx
      obtain ⟨j, hj, rfl⟩ := List.mem_iff_getElem.1 hx
      rw [List.length_drop] at hj
      rw [List.getElem_drop]
      simp only [decide_eq_true_eq]
      rcases Nat.eq_zero_or_pos j with h | h
      · subst h; exact Int.le_refl _
      · exact hp i (i + j) hlt (by omega) (by omega)
    rw [h2, List.length_drop] at h1
    omega

/-- **The median of an even number of samples (C138)** is one. -/
theorem median_even_partial (l : List Int) (h0 : l ≠ []) (he : l.length % 2 = 0) :
    ∃ s, stats (table l) = some s ∧ Median l s.median := by
  obtain ⟨S, s, hp, hs, h1, _, _, _, _, h6⟩ := shown l h0
  have hl := hp.length_eq
  have hpos : 0 < l.length := List.length_pos_iff.2 h0
  obtain ⟨a, b⟩ := filter_take hs h6
  refine ⟨s, h1, ?_, ?_⟩
  · rw [← (hp.filter _).length_eq]; omega
  · rw [← (hp.filter _).length_eq]; omega

example : ∃ s, stats (table [4, 1, 3, 2]) = some s ∧ Median [4, 1, 3, 2] s.median :=
  median_even_partial _ (by simp) rfl

/-- **The median of an odd number of samples (C138, negation).**  For three or more, all different, what is shown is never
the median, but the sample before it. -/
theorem median_odd_wrong (l : List Int) (hn : l.Nodup) (ho : l.length % 2 = 1) (h3 : 3 ≤ l.length) :
    ∃ s, stats (table l) = some s ∧ ¬ Median l s.median := by
  have h0 : l ≠ [] := by rintro rfl; simp at h3
  obtain ⟨S, s, hp, hs, h1, _, _, _, _, h6⟩ := shown l h0
  have hl := hp.length_eq
  refine ⟨s, h1, fun hm => ?_⟩
  have hc := hm.1
  rw [← (hp.filter _).length_eq] at hc
  obtain ⟨hlt, hx⟩ := List.getElem?_eq_some_iff.1 h6
  have hnd : S.Nodup := hp.nodup_iff.2 hn
  have hle : (S.filter (· ≤ s.median)).length ≤ l.length / 2 := by
    rw [← List.take_append_drop (l.length / 2) S, List.filter_append]
    have hd : (S.drop (l.length / 2)).filter (· ≤ s.median) = [] := by
      rw [List.filter_eq_nil_iff]
      intro x hx'
      obtain ⟨j, hj, rfl⟩ := List.mem_iff_getElem.1 hx'
      rw [List.length_drop] at hj
      rw [List.getElem_drop]
      simp only [decide_eq_true_eq]
      intro hle
      have a1 := List.pairwise_iff_getElem.1 hs (l.length / 2 - 1) (l.length / 2 + j) hlt (by omega) (by omega)
      have a2 := List.pairwise_iff_getElem.1 hnd (l.length / 2 - 1) (l.length / 2 + j) hlt (by omega) (by omega)
      rw [hx] at a1 a2
      exact a2 (Int.le_antisymm a1 hle)
    rw [hd, List.append_nil]
    refine Nat.le_trans (List.length_filter_le _ _) ?_
    rw [List.length_take]
    omega
  omega

example : ∃ s, stats (table [5, 1, 3]) = some s ∧ ¬ Median [5, 1, 3] s.median :=
  median_odd_wrong _ (by decide) rfl (by simp)

/-- **When there is nothing to show (C138).**  An exception, exactly if there was no sample; so the page of timers fails
before the first tick. -/
theorem raises_iff (l : List Int) : stats (table l) = none ↔ l = [] := by
  constructor
  · intro h
    apply Classical.byContradiction
    intro h0
    obtain ⟨_, s, _, _, hs, _⟩ := shown l h0
    rw [h] at hs
    cases hs
  · rintro rfl
    simp [table, stats]

example : stats (table []) = none := (raises_iff []).2 rfl

/-! ## Work items -/

theorem leText_total : ∀ a b, leText a b = true ∨ leText b a = true
  | [], _ => .inl rfl
  | _ :: _, [] => .inr rfl
  | a :: x, b :: y => by
    unfold leText
    by_cases h1 : a < b
    · simp [h1]
    · by_cases h2 : b < a
      · simp [h2]
      · simp only [h1, h2, if_false]; exact leText_total x y

theorem leText_trans : ∀ a b c, leText a b = true → leText b c = true → leText a c = true
  | [], _, _, _, _ => rfl
  | _ :: _, [], _, h, _ => by cases h
  | _ :: _, _ :: _, [], _, h => by cases h
  | a :: x, b :: y, c :: z, h1, h2 => by
    unfold leText at h1 h2 ⊢
    split at h1
    · split at h2
      · rw [if_pos (by omega)]
      · split at h2
        · cases h2
        · rw [if_pos (by omega)]
    · split at h1
      · cases h1
      · split at h2
        · rw [if_pos (by omega)]
        · split at h2
          · cases h2
          · rw [if_neg (by omega), if_neg (by omega)]
            exact leText_trans x y z h1 h2

theorem leText_antisymm : ∀ a b, leText a b = true → leText b a = true → a = b
  | [], [], _, _ => rfl
  | [], _ :: _, _, h => by cases h
  | _ :: _, [], h, _ => by cases h
  | a :: x, b :: y, h1, h2 => by
    unfold leText at h1 h2
    by_cases e1 : a < b
    · rw [if_neg (by omega), if_pos e1] at h2; cases h2
    · by_cases e2 : b < a
      · rw [if_neg e1, if_pos e2] at h1; cases h1
      · rw [if_neg e1, if_neg e2] at h1
        rw [if_neg e2, if_neg e1] at h2
        rw [leText_antisymm x y h1 h2]
        congr 1
        omega

theorem leKey_total (a b : Key) : leKey a b = true ∨ leKey b a = true := by
  unfold leKey
  by_cases h : a.1 = b.1
  · rw [if_pos h, if_pos h.symm]; exact leText_total _ _
  · rw [if_neg h, if_neg (fun e => h e.symm)]; exact leText_total _ _

theorem leKey_trans (a b c : Key) (h1 : leKey a b = true) (h2 : leKey b c = true) : leKey a c = true := by
  unfold leKey at *
  by_cases e1 : a.1 = b.1 <;> by_cases e2 : b.1 = c.1
  · rw [if_pos e1] at h1; rw [if_pos e2] at h2; rw [if_pos (e1.trans e2)]; exact leText_trans _ _ _ h1 h2
  · rw [if_neg e2] at h2; rw [if_neg (fun e => e2 (e1.symm.trans e)), e1]; exact h2
  · rw [if_neg e1] at h1; rw [if_neg (fun e => e1 (e.trans e2.symm)), ← e2]; exact h1
  · rw [if_neg e1] at h1; rw [if_neg e2] at h2
    by_cases e : a.1 = c.1
    · exact absurd (leText_antisymm _ _ h1 (e ▸ h2)) e1
    · rw [if_neg e]; exact leText_trans _ _ _ h1 h2

/-- Order of rows: by owner, then by kind. -/
def Less (a b : Key) : Prop := a.1 < b.1 ∨ a.1 = b.1 ∧ a.2 < b.2

theorem leText_lt : ∀ a b, leText a b = true → a ≠ b → a < b
  | [], [], _, h => absurd rfl h
  | [], _ :: _, _, _ => List.nil_lt_cons _ _
  | _ :: _, [], h, _ => by cases h
  | a :: x, b :: y, h, hn => by
    rw [List.cons_lt_cons_iff]
    unfold leText at h
    split at h
    · next h1 => exact .inl h1
    · split at h
      · cases h
      · have : a = b := by omega
        subst this
        exact .inr ⟨rfl, leText_lt x y h fun e => hn (by rw [e])⟩

theorem leKey_less (a b : Key) (h : leKey a b = true) (hn : a ≠ b) : Less a b := by
  unfold leKey at h
  by_cases e : a.1 = b.1
  · rw [if_pos e] at h
    exact .inr ⟨e, leText_lt _ _ h fun e2 => hn (Prod.ext e e2)⟩
  · rw [if_neg e] at h
    exact .inl (leText_lt _ _ h e)

/-- The table of a pair. -/
def get (w : List (Key × Table)) (k : Key) : Table := ((w.find? (fun x => x.1 = k)).map (·.2)).getD []

theorem get_add (k y : Key) (v : Int) (w : List (Key × Table)) :
    get (add k v w) y = if y = k then count v (get w k) else get w y := by
  induction w with
  | nil =>
    unfold add get
    by_cases h : y = k
    · subst h; simp
    · have h' : ¬ k = y := fun e => h e.symm
      simp [h, h']
  | cons x r ih =>
    obtain ⟨a, t⟩ := x
    unfold add
    by_cases ha : a = k
    · subst ha
      rw [if_pos rfl]
      by_cases h : y = a
      · subst h; simp [get]
      · have h' : ¬ a = y := fun e => h e.symm
        simp [get, h, h']
    · rw [if_neg ha]
      by_cases hy : a = y
      · subst hy
        rw [if_neg ha]
        simp [get]
      · have e1 : ∀ r', get ((a, t) :: r') y = get r' y := fun r' => by simp [get, hy]
        have e2 : get ((a, t) :: r) k = get r k := by simp [get, ha]
        rw [e1, e1, e2, ih]

theorem keys_add (k : Key) (v : Int) (w : List (Key × Table)) :
    (add k v w).map (·.1) = if k ∈ w.map (·.1) then w.map (·.1) else w.map (·.1) ++ [k] := by
  induction w with
  | nil => rfl
  | cons x r ih =>
    obtain ⟨a, t⟩ := x
    unfold add
    by_cases ha : a = k
    · subst ha
      rw [if_pos rfl]; simp
    · rw [if_neg ha, List.map_cons, ih, List.map_cons]
      have : (k ∈ a :: r.map (·.1)) ↔ k ∈ r.map (·.1) := by
        rw [List.mem_cons]
        exact ⟨fun h => h.resolve_left fun e => ha e.symm, .inr⟩
      by_cases hk : k ∈ r.map (·.1)
      · rw [if_pos hk, if_pos (this.2 hk)]
      · rw [if_neg hk, if_neg (fun h => hk (this.1 h))]; rfl

/-- The samples of a pair. -/
def samples (l : List (Key × Int)) (k : Key) : List Int := (l.filter (fun e => e.1 = k)).map (·.2)

theorem work_spec (l : List (Key × Int)) : ((work l).map (·.1)).Nodup ∧
    (∀ k, k ∈ (work l).map (·.1) ↔ samples l k ≠ []) ∧ ∀ k, get (work l) k = table (samples l k) := by
  have key : ∀ (l : List (Key × Int)) (w : List (Key × Table)) (p : List (Key × Int)), (w.map (·.1)).Nodup →
      (∀ k, k ∈ w.map (·.1) ↔ samples p k ≠ []) → (∀ k, get w k = table (samples p k)) →
      ((l.foldl (fun w e => add e.1 e.2 w) w).map (·.1)).Nodup ∧
      (∀ k, k ∈ (l.foldl (fun w e => add e.1 e.2 w) w).map (·.1) ↔ samples (p ++ l) k ≠ []) ∧
      ∀ k, get (l.foldl (fun w e => add e.1 e.2 w) w) k = table (samples (p ++ l) k) := by
    intro l
    induction l with
    | nil => intro w p h1 h2 h3; rw [List.append_nil]; exact ⟨h1, h2, h3⟩
    | cons e l ih =>
      intro w p h1 h2 h3
      have hs : ∀ k, samples (p ++ [e]) k = if e.1 = k then samples p k ++ [e.2] else samples p k := by
        intro k
        unfold samples
        by_cases h : e.1 = k <;> simp [h]
      have := ih (add e.1 e.2 w) (p ++ [e]) ?_ ?_ ?_
      · rw [List.append_assoc] at this; exact this
      · rw [keys_add]
        split
        · exact h1
        · next hk =>
          rw [List.nodup_append]
          refine ⟨h1, by simp, ?_⟩
          intro a ha b hb e'
          rw [List.mem_singleton] at hb
          exact hk (hb ▸ e' ▸ ha)
      · intro k
        rw [keys_add, hs]
        by_cases hk : e.1 = k
        · subst hk
          rw [if_pos rfl]
          split
          · next h => simp [h]
          · simp
        · rw [if_neg hk, ← h2]
          split
          · exact Iff.rfl
          · rw [List.mem_append, List.mem_singleton]
            exact ⟨fun h => h.resolve_right fun e' => hk e'.symm, .inl⟩
      · intro k
        rw [get_add, hs]
        by_cases hk : e.1 = k
        · subst hk
          rw [if_pos rfl, if_pos rfl, h3]
          simp [table]
        · rw [if_neg (fun e' => hk e'.symm), if_neg hk, h3]
  exact key l [] [] (by simp) (by simp [samples]) (fun k => rfl)

theorem mem_get {w : List (Key × Table)} (hn : (w.map (·.1)).Nodup) {k : Key} {t : Table} :
    (k, t) ∈ w ↔ k ∈ w.map (·.1) ∧ t = get w k := by
  induction w with
  | nil => simp
  | cons x r ih =>
    obtain ⟨a, u⟩ := x
    rw [List.map_cons, List.nodup_cons] at hn
    by_cases ha : a = k
    · subst ha
      simp only [List.mem_cons, Prod.mk.injEq, true_and, List.map_cons, true_or, get, List.find?_cons, decide_true,
        Option.map_some, Option.getD_some]
      exact ⟨fun h => h.resolve_right fun hm => hn.1 (List.mem_map.2 ⟨_, hm, rfl⟩), .inl⟩
    · have e1 : get ((a, u) :: r) k = get r k := by simp [get, ha]
      rw [e1, List.mem_cons, List.map_cons, List.mem_cons]
      have n1 : ¬ ((k, t) = (a, u)) := fun e => ha (congrArg Prod.fst e).symm
      have n2 : ¬ (k = a) := fun e => ha e.symm
      simp only [n1, n2, false_or]
      exact ih hn.2

/-- **Work items of a node (C138).**  There is one row for each owner and kind of which there was a work item; it shows
the times of those items and no others; the rows are in strict order of owner and kind, so there is only one. -/
theorem work_rows (l : List (Key × Int)) :
    ((rows l).Pairwise fun a b => Less a.1 b.1) ∧
    ∀ k x, (k, x) ∈ rows l ↔ (∃ e ∈ l, e.1 = k) ∧ x = stats (table (samples l k)) ∧ x ≠ none := by
  obtain ⟨h1, h2, h3⟩ := work_spec l
  have mp := List.mergeSort_perm (work l) (fun a b => leKey a.1 b.1)
  have ms := List.pairwise_mergeSort (le := fun a b : Key × Table => leKey a.1 b.1)
    (fun a b c => leKey_trans a.1 b.1 c.1)
    (fun a b => by rw [Bool.or_eq_true]; exact leKey_total a.1 b.1) (work l)
  unfold rows
  refine ⟨?_, fun k x => ?_⟩
  · have hnd := (mp.map (·.1)).nodup_iff.2 h1
    rw [List.Nodup, List.pairwise_map] at hnd
    rw [List.pairwise_map]
    exact (ms.and hnd).imp fun h => leKey_less _ _ h.1 h.2
  · have hs : samples l k ≠ [] ↔ ∃ e ∈ l, e.1 = k := by
      unfold samples
      rw [Ne, List.map_eq_nil_iff, List.filter_eq_nil_iff]
      constructor
      · intro h
        apply Classical.byContradiction
        intro hn
        exact h fun e he => by simp only [decide_eq_true_eq]; exact fun hk => hn ⟨e, he, hk⟩
      · rintro ⟨e, he, hk⟩ h
        exact h e he (by simp [hk])
    rw [← hs, List.mem_map]
    constructor
    · rintro ⟨⟨k', t⟩, hm, e⟩
      rw [Prod.mk.injEq] at e
      obtain ⟨rfl, rfl⟩ := e
      obtain ⟨a, b⟩ := (mem_get h1).1 (mp.mem_iff.1 hm)
      have hne := (h2 _).1 a
      refine ⟨hne, by rw [b, h3], ?_⟩
      show stats t ≠ none
      rw [b, h3]
      exact fun e => hne ((raises_iff _).1 e)
    · rintro ⟨a, b, _⟩
      refine ⟨(k, get (work l) k), mp.mem_iff.2 ((mem_get h1).2 ⟨(h2 k).2 a, rfl⟩), ?_⟩
      rw [b, h3]

example : ∃ x, (([1], [2]), x) ∈ rows [(([1], [2]), 4), (([0], [2]), 5), (([1], [2]), 6)] ∧
    x = stats (table [4, 6]) :=
  ⟨_, ((work_rows _).2 ([1], [2]) _).2 ⟨⟨(([1], [2]), 4), by simp, rfl⟩, rfl, fun e => by
    have := (raises_iff _).1 e
    simp [samples] at this⟩, rfl⟩

end Verif.Hist
