import Verif.Route.Model

namespace Verif.Route

def Col.best (c : Col) : Best := ⟨c.hops, c.cost, c.adj⟩

/-- Columns that offer something have an adjacency. -/
def WfCols (cols : List Col) : Prop := ∀ c ∈ cols, c.cost < INFCOST → c.adj ≠ none

structure FoldInv (b : Best) (seen : List Col) : Prop where
  le : ∀ x ∈ seen, b.cost ≤ x.cost
  inf : b.cost ≤ INFCOST
  first : b.cost < INFCOST → ∃ pre c post, seen = pre ++ c :: post ∧ b = c.best ∧ ∀ x ∈ pre, c.cost < x.cost

theorem fold_inv (cols : List Col) (hw : WfCols cols) : FoldInv (cols.foldl stepCol unreachable) cols := by
  suffices h : ∀ (rest seen : List Col) (b : Best), WfCols (seen ++ rest) → FoldInv b seen →
      FoldInv (rest.foldl stepCol b) (seen ++ rest) by
    have := h cols [] unreachable (by simpa using hw)
      ⟨(by simp), (by simp [unreachable]), fun h => absurd h (by simp [unreachable])⟩
    simpa using this
  intro rest
  induction rest with
  | nil => intro seen b _ h; simpa using h
  | cons r rest ih =>
    intro seen b hw h
    have e : seen ++ r :: rest = (seen ++ [r]) ++ rest := by simp
    rw [e] at hw ⊢
    rw [List.foldl_cons]
    refine ih (seen ++ [r]) _ hw ?_
    unfold stepCol
    by_cases hc : r.cost < b.cost ∨ (r.cost = b.cost ∧ b.adj = none)
    · rw [if_pos hc]
      have hle : r.cost ≤ b.cost := by omega
      have hi := h.inf
      refine ⟨?_, by simp only; omega, ?_⟩
      · intro x hx
        simp only [List.mem_append, List.mem_singleton] at hx
        rcases hx with hx | rfl
        · have := h.le x hx
          simp only
          omega
        · exact Nat.le_refl _
      · intro hlt
        simp only at hlt
        have hlt' : r.cost < b.cost := by
          rcases hc with hc | ⟨hc, hn⟩
          · exact hc
          · exfalso
            obtain ⟨pre, c, post, e, eb, _⟩ := h.first (by omega)
            refine hw c ?_ ?_ ?_
            · rw [e]; simp
            · rw [eb] at hc; simp only [Col.best] at hc; omega
            · rw [eb] at hn; exact hn
        refine ⟨seen, r, [], rfl, rfl, ?_⟩
        intro x hx
        have := h.le x hx
        omega
    · rw [if_neg hc]
      refine ⟨?_, h.inf, ?_⟩
      · intro x hx
        simp only [List.mem_append, List.mem_singleton] at hx
        rcases hx with hx | rfl
        · exact h.le x hx
        · omega
      · intro hlt
        obtain ⟨pre, c, post, e, eb, hp⟩ := h.first hlt
        exact ⟨pre, c, post ++ [r], by rw [e]; simp, eb, hp⟩

/-- The first column with the least cost. -/
def FirstMin (cols : List Col) (c : Col) : Prop :=
  ∃ pre post, cols = pre ++ c :: post ∧ (∀ x ∈ pre, c.cost < x.cost) ∧ ∀ x ∈ post, c.cost ≤ x.cost

theorem FirstMin.mem {cols c} (h : FirstMin cols c) : c ∈ cols := by
  obtain ⟨pre, post, rfl, _⟩ := h; simp

theorem FirstMin.le {cols c} (h : FirstMin cols c) : ∀ x ∈ cols, c.cost ≤ x.cost := by
  obtain ⟨pre, post, rfl, h1, h2⟩ := h
  intro x hx
  simp only [List.mem_append, List.mem_cons] at hx
  rcases hx with hx | rfl | hx
  · exact Nat.le_of_lt (h1 x hx)
  · exact Nat.le_refl _
  · exact h2 x hx

theorem FirstMin.unique {cols c d} (h : FirstMin cols c) (h' : FirstMin cols d) : c = d := by
  obtain ⟨pre, post, e, h1, h2⟩ := h
  obtain ⟨pre', post', e', h1', h2'⟩ := h'
  subst e
  rcases List.append_eq_append_iff.1 e' with ⟨m, rfl, e2⟩ | ⟨m, rfl, e2⟩
  · cases m with
    | nil => simp at e2; exact e2.1
    | cons x m =>
      simp only [List.cons_append, List.cons.injEq] at e2
      obtain ⟨rfl, rfl⟩ := e2
      have := h1' c (by simp)
      have := h2 d (by simp)
      omega
  · cases m with
    | nil => simp at e2; exact e2.1.symm
    | cons x m =>
      simp only [List.cons_append, List.cons.injEq] at e2
      obtain ⟨rfl, rfl⟩ := e2
      have := h1 d (by simp)
      have := h2' c (by simp)
      omega

theorem FirstMin.exists {cols : List Col} (h : cols ≠ []) : ∃ c, FirstMin cols c := by
  induction cols with
  | nil => exact absurd rfl h
  | cons x l ih =>
    by_cases hl : l = []
    · subst hl; exact ⟨x, [], [], rfl, by simp, by simp⟩
    obtain ⟨c, hc⟩ := ih hl
    by_cases hx : x.cost ≤ c.cost
    · exact ⟨x, [], l, rfl, by simp, fun y hy => Nat.le_trans hx (hc.le y hy)⟩
    · obtain ⟨pre, post, rfl, h1, h2⟩ := hc
      refine ⟨c, x :: pre, post, rfl, ?_, h2⟩
      intro y hy
      simp only [List.mem_cons] at hy
      rcases hy with rfl | hy
      · omega
      · exact h1 y hy

/-- The decision in terms of the first column with least cost. -/
theorem decision_eq {lim : Lim} {cols : List Col} (hw : WfCols cols) (hm : lim.maxcost < INFCOST) :
    (∃ c, FirstMin cols c ∧ c.cost ≤ lim.maxcost ∧ c.hops ≤ lim.maxhops ∧ decision lim cols = c.best) ∨
    ((∀ c, FirstMin cols c → lim.maxcost < c.cost ∨ lim.maxhops < c.hops) ∧ decision lim cols = unreachable) := by
  have h := fold_inv cols hw
  unfold decision
  simp only
  by_cases hb : (cols.foldl stepCol unreachable).cost > lim.maxcost ∨
      (cols.foldl stepCol unreachable).hops > lim.maxhops
  · rw [if_pos hb]
    right
    refine ⟨?_, rfl⟩
    intro c hc
    by_cases hlt : (cols.foldl stepCol unreachable).cost < INFCOST
    · obtain ⟨pre, d, post, e, eb, hp⟩ := h.first hlt
      have hd : FirstMin cols d := by
        refine ⟨pre, post, e, hp, ?_⟩
        intro x hx
        have := h.le x (by rw [e]; simp [hx])
        rw [eb] at this
        exact this
      rw [hc.unique hd]
      rw [eb] at hb
      exact hb
    · left
      have := h.le c hc.mem
      omega
  · rw [if_neg hb]
    left
    have hlt : (cols.foldl stepCol unreachable).cost < INFCOST := by omega
    obtain ⟨pre, d, post, e, eb, hp⟩ := h.first hlt
    refine ⟨d, ⟨pre, post, e, hp, ?_⟩, ?_, ?_, eb⟩
    · intro x hx
      have := h.le x (by rw [e]; simp [hx])
      rw [eb] at this
      exact this
    · rw [eb] at hb; simp only [Col.best] at hb; omega
    · rw [eb] at hb; simp only [Col.best] at hb; omega

/-- Columns at infinity do not matter. -/
theorem decision_congr {lim : Lim} {cols cols' : List Col} (hw : WfCols cols) (hw' : WfCols cols')
    (hm : lim.maxcost < INFCOST) (h : cols.filter (·.cost < INFCOST) = cols'.filter (·.cost < INFCOST)) :
    decision lim cols = decision lim cols' := by
  have key : ∀ c l, c.cost < INFCOST → (FirstMin l c ↔ FirstMin (l.filter (·.cost < INFCOST)) c) := by
    intro c l hc
    constructor
    · rintro ⟨pre, post, rfl, h1, h2⟩
      refine ⟨pre.filter (·.cost < INFCOST), post.filter (·.cost < INFCOST), ?_, ?_, ?_⟩
      · rw [List.filter_append, List.filter_cons_of_pos (by simpa using hc)]
      · intro x hx; exact h1 x (List.mem_filter.1 hx).1
      · intro x hx; exact h2 x (List.mem_filter.1 hx).1
    · intro hf
      obtain ⟨d, hd⟩ := FirstMin.exists (cols := l) (by
        rintro rfl
        obtain ⟨_, _, e, _⟩ := hf
        simp at e)
      have hdc : d.cost ≤ c.cost := hd.le c (List.mem_filter.1 hf.mem).1
      have : d.cost < INFCOST := by omega
      have hd' : FirstMin (l.filter (·.cost < INFCOST)) d := by
        obtain ⟨pre, post, rfl, h1, h2⟩ := hd
        refine ⟨pre.filter (·.cost < INFCOST), post.filter (·.cost < INFCOST), ?_, ?_, ?_⟩
        · rw [List.filter_append, List.filter_cons_of_pos (by simpa using this)]
        · intro x hx; exact h1 x (List.mem_filter.1 hx).1
        · intro x hx; exact h2 x (List.mem_filter.1 hx).1
      rw [hf.unique hd']
      exact hd
  rcases decision_eq hw hm with ⟨c, hc, h1, h2, e⟩ | ⟨h1, e⟩ <;>
    rcases decision_eq hw' hm with ⟨d, hd, h1', h2', e'⟩ | ⟨h1', e'⟩
  · have hc' := (key c cols (by omega)).1 hc
    rw [h] at hc'
    have hd' := (key d cols' (by omega)).1 hd
    rw [e, e', hc'.unique hd']
  · exfalso
    have hc' := (key c cols (by omega)).1 hc
    rw [h] at hc'
    have := h1' c ((key c cols' (by omega)).2 hc')
    omega
  · exfalso
    have hd' := (key d cols' (by omega)).1 hd
    rw [← h] at hd'
    have := h1 d ((key d cols (by omega)).2 hd')
    omega
  · rw [e, e']

/-! ## Dictionaries -/

theorem lookup_dput_self {V} (l : List (Adj × V)) (k : Adj) (v : V) : (dput l k v).lookup k = some v := by
  induction l with
  | nil => simp [dput]
  | cons p l ih =>
    obtain ⟨a, x⟩ := p
    simp only [dput]
    by_cases h : a = k
    · rw [if_pos h]; subst h; simp
    · rw [if_neg h, List.lookup_cons]
      have : (k == a) = false := by simpa using Ne.symm h
      rw [this]
      exact ih

theorem lookup_dput_ne {V} (l : List (Adj × V)) {k j : Adj} (v : V) (h : j ≠ k) :
    (dput l k v).lookup j = l.lookup j := by
  induction l with
  | nil =>
    have : (j == k) = false := by simpa using h
    simp [dput, List.lookup_cons, this]
  | cons p l ih =>
    obtain ⟨a, x⟩ := p
    simp only [dput]
    by_cases ha : a = k
    · rw [if_pos ha]
      subst ha
      have : (j == a) = false := by simpa using h
      simp [List.lookup_cons, this]
    · rw [if_neg ha, List.lookup_cons, List.lookup_cons, ih]

theorem lookup_ddel_ne {V} (l : List (Adj × V)) {k j : Adj} (h : j ≠ k) :
    (ddel l k).lookup j = l.lookup j := by
  induction l with
  | nil => rfl
  | cons p l ih =>
    obtain ⟨a, x⟩ := p
    unfold ddel at ih ⊢
    by_cases ha : a = k
    · rw [List.filter_cons_of_neg (by simp [ha]), List.lookup_cons, ih]
      have : (j == a) = false := by rw [ha]; simpa using h
      rw [this]
    · rw [List.filter_cons_of_pos (by simpa using ha), List.lookup_cons, List.lookup_cons, ih]

theorem mem_dput {V} {l : List (Adj × V)} {k : Adj} {v : V} {p : Adj × V} (h : p ∈ dput l k v) :
    p = (k, v) ∨ p ∈ l := by
  induction l with
  | nil => simp only [dput, List.mem_singleton] at h; exact Or.inl h
  | cons q l ih =>
    obtain ⟨a, x⟩ := q
    simp only [dput] at h
    by_cases ha : a = k
    · rw [if_pos ha] at h
      simp only [List.mem_cons] at h
      rcases h with h | h
      · left; rw [h, ha]
      · right; simp [h]
    · rw [if_neg ha] at h
      simp only [List.mem_cons] at h
      rcases h with h | h
      · right; simp [h]
      · rcases ih h with h | h
        · exact Or.inl h
        · right; simp [h]

/-- Entering a vector that agrees at `i` with the old one, or is infinite there when there was no old
one, does not change what the columns offer at `i`. -/
theorem offers_dput {l : List (Adj × Vec)} {k : Adj} {v : Vec} {i : Nat}
    (h : (l.lookup k).elim (INFCOST ≤ (v i).2) (fun w => w i = v i)) :
    ((dput l k v).map (fun p => (⟨(p.2 i).1, (p.2 i).2, some p.1⟩ : Col))).filter (·.cost < INFCOST) =
      (l.map (fun p => (⟨(p.2 i).1, (p.2 i).2, some p.1⟩ : Col))).filter (·.cost < INFCOST) := by
  induction l with
  | nil =>
    simp only [List.lookup_nil, Option.elim] at h
    simp only [dput, List.map_cons, List.map_nil]
    rw [List.filter_cons_of_neg (by simpa using h)]
  | cons p l ih =>
    obtain ⟨a, x⟩ := p
    simp only [dput]
    by_cases ha : a = k
    · subst ha
      rw [List.lookup_cons, beq_self_eq_true] at h
      simp only [Option.elim] at h
      rw [if_pos rfl, List.map_cons, List.map_cons]
      simp only [h]
    · rw [if_neg ha, List.map_cons, List.map_cons]
      have : (k == a) = false := by simpa using Ne.symm ha
      rw [List.lookup_cons, this] at h
      by_cases hc : (x i).2 < INFCOST
      · rw [List.filter_cons_of_pos (by simpa using hc), List.filter_cons_of_pos (by simpa using hc), ih h]
      · rw [List.filter_cons_of_neg (by simpa using hc), List.filter_cons_of_neg (by simpa using hc), ih h]

end Verif.Route
