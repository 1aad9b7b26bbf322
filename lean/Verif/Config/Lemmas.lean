import Verif.Config.Model

/-! # Helper lemmas: dictionaries, and the tables after a history of accepted entries -/

namespace Verif.Config

theorem get_put {K V : Type} [DecidableEq K] (d : Dict K V) (k k' : K) (v : V) :
    get (put d k v) k' = if k = k' then some v else get d k' := by
  induction d with
  | nil => simp [put, get]
  | cons p r ih =>
    obtain ⟨a, b⟩ := p
    by_cases h : a = k
    · subst h
      simp only [put, if_true, get]
      split <;> rfl
    · simp only [put, if_neg h, get, ih]
      by_cases h2 : a = k'
      · subst h2
        rw [if_pos rfl, if_pos rfl, if_neg (fun e => h e.symm)]
      · rw [if_neg h2, if_neg h2]

/-- `b` keeps every attribute that `a` defines. -/
def Keeps (a b : Ent) : Prop :=
  a.id = b.id ∧ a.name = b.name ∧
  (∀ x, a.outv = some x → b.outv = some x) ∧ (∀ x, a.inv = some x → b.inv = some x)

theorem Keeps.refl (a : Ent) : Keeps a a := ⟨rfl, rfl, fun _ h => h, fun _ h => h⟩

theorem Keeps.trans {a b c : Ent} (h : Keeps a b) (g : Keeps b c) : Keeps a c :=
  ⟨h.1.trans g.1, h.2.1.trans g.2.1, fun x hx => g.2.2.1 x (h.2.2.1 x hx),
    fun x hx => g.2.2.2 x (h.2.2.2 x hx)⟩

theorem clash_false {A : Type} [DecidableEq A] {o n : Option A} :
    clash o n = false ↔ ∀ x, o = some x → n = some x := by
  cases o with
  | none => simp [clash]
  | some a =>
    simp only [clash, Option.isSome_some, Bool.true_and, decide_eq_false_iff_not, ne_eq,
      Classical.not_not, Option.some.injEq]
    constructor
    · intro h x hx; rw [← h, hx]
    · intro h; exact (h a rfl).symm

theorem conflict_false {a b : Ent} : conflict a b = false ↔ Keeps a b := by
  unfold conflict
  simp only [Bool.or_eq_false_iff, clash_false]
  constructor
  · intro ⟨⟨⟨h1, h2⟩, h3⟩, h4⟩
    have e1 := h1 _ rfl
    have e3 := h3 _ rfl
    injection e1 with e1
    injection e3 with e3
    exact ⟨e1.symm, e3.symm, h4, h2⟩
  · intro ⟨h1, h2, h3, h4⟩
    refine ⟨⟨⟨?_, h4⟩, ?_⟩, h3⟩ <;> intro x hx
    · rw [← h1]; exact hx
    · rw [← h2]; exact hx

theorem setItem_some {K : Type} [DecidableEq K] {d : Dict K Ent} {k : K} {v : Ent} :
    (∃ d', setItem d k v = some d') ↔ ∀ e, get d k = some e → Keeps e v := by
  unfold setItem
  cases h : get d k with
  | none => simp
  | some e =>
    simp only [Option.some.injEq]
    by_cases he : e = v
    · subst he; simp [Keeps.refl]
    · simp only [if_neg he]
      cases hc : conflict e v with
      | true =>
        have : ¬ Keeps e v := fun hk => by rw [conflict_false.mpr hk] at hc; cases hc
        simp [this]
      | false =>
        have := conflict_false.mp hc
        simp [this]

theorem setItem_get {K : Type} [DecidableEq K] {d d' : Dict K Ent} {k : K} {v : Ent}
    (h : setItem d k v = some d') (k' : K) :
    get d' k' = if k = k' then some v else get d k' := by
  unfold setItem at h
  cases hg : get d k with
  | none =>
    rw [hg] at h; simp only [Option.some.injEq] at h
    rw [← h, get_put]
  | some e =>
    rw [hg] at h
    simp only at h
    by_cases he : e = v
    · rw [if_pos he] at h
      injection h with h
      subst h
      by_cases hk : k = k'
      · subst hk; rw [if_pos rfl, hg, he]
      · rw [if_neg hk]
    · rw [if_neg he] at h
      cases hc : conflict e v with
      | true => rw [hc] at h; cases h
      | false =>
        rw [hc] at h
        injection h with h
        rw [← h, get_put]

theorem put_keys {K V : Type} [DecidableEq K] (d : Dict K V) (k : K) (v : V) :
    (put d k v).map Prod.fst = if k ∈ d.map Prod.fst then d.map Prod.fst else d.map Prod.fst ++ [k] := by
  induction d with
  | nil => simp [put]
  | cons p r ih =>
    obtain ⟨a, b⟩ := p
    by_cases h : a = k
    · subst h; simp [put]
    · simp only [put, if_neg h, List.map_cons, ih, List.mem_cons]
      have : ¬ k = a := fun e => h e.symm
      by_cases hm : k ∈ r.map Prod.fst
      · rw [if_pos hm, if_pos (Or.inr hm)]
      · rw [if_neg hm, if_neg (by simp only [this, hm, or_self, not_false_iff])]; rfl

theorem put_nodup {K V : Type} [DecidableEq K] {d : Dict K V} (h : (d.map Prod.fst).Nodup) (k : K)
    (v : V) : ((put d k v).map Prod.fst).Nodup := by
  rw [put_keys]
  split
  · exact h
  · rename_i hm
    rw [List.nodup_append]
    refine ⟨h, by simp, ?_⟩
    intro a ha b hb
    simp at hb
    subst hb
    intro e
    exact hm (e ▸ ha)

theorem setItem_nodup {K : Type} [DecidableEq K] {d d' : Dict K Ent} {k : K} {v : Ent}
    (hn : (d.map Prod.fst).Nodup) (h : setItem d k v = some d') : (d'.map Prod.fst).Nodup := by
  unfold setItem at h
  cases hg : get d k with
  | none =>
    rw [hg] at h; simp only [Option.some.injEq] at h
    rw [← h]; exact put_nodup hn k v
  | some e =>
    rw [hg] at h
    simp only at h
    by_cases he : e = v
    · rw [if_pos he] at h
      injection h with h
      exact h ▸ hn
    · rw [if_neg he] at h
      cases hc : conflict e v with
      | true => rw [hc] at h; cases h
      | false =>
        rw [hc] at h
        injection h with h
        rw [← h]; exact put_nodup hn k v

theorem mem_iff_get {K V : Type} [DecidableEq K] {d : Dict K V} (h : (d.map Prod.fst).Nodup) (k : K)
    (v : V) : (k, v) ∈ d ↔ get d k = some v := by
  induction d with
  | nil => simp [get]
  | cons p r ih =>
    obtain ⟨a, b⟩ := p
    simp only [List.map_cons, List.nodup_cons] at h
    simp only [get, List.mem_cons, Prod.mk.injEq]
    by_cases ha : a = k
    · subst ha
      rw [if_pos rfl]
      constructor
      · rintro (⟨_, rfl⟩ | hm)
        · rfl
        · exact absurd (List.mem_map_of_mem (f := Prod.fst) hm) h.1
      · intro e; injection e with e; exact .inl ⟨rfl, e.symm⟩
    · rw [if_neg ha, ← ih h.2]
      constructor
      · rintro (⟨e, _⟩ | hm)
        · exact absurd e.symm ha
        · exact hm
      · exact .inr


/-- `d` maps every key to an entry of the history that keeps everything said under that key. -/
def Best {K : Type} [DecidableEq K] (d : Dict K Ent) (key : Ent → K) (h : List Ent) : Prop :=
  ∀ k, match get d k with
    | none => ∀ a ∈ h, key a ≠ k
    | some e => e ∈ h ∧ key e = k ∧ ∀ a ∈ h, key a = k → Keeps a e

theorem Best.ok_iff {K : Type} [DecidableEq K] {d : Dict K Ent} {key : Ent → K} {h : List Ent}
    (b : Best d key h) (v : Ent) :
    (∀ e, get d (key v) = some e → Keeps e v) ↔ ∀ a ∈ h, key a = key v → Keeps a v := by
  have := b (key v)
  cases hg : get d (key v) with
  | none =>
    rw [hg] at this
    constructor
    · intro _ a ha hk; exact absurd hk (this a ha)
    · intro _ e he; cases he
  | some e =>
    rw [hg] at this
    obtain ⟨h1, h2, h3⟩ := this
    constructor
    · intro hk a ha hka; exact (h3 a ha hka).trans (hk e rfl)
    · intro hk e' he'; injection he' with he'; subst he'; exact hk e h1 h2

theorem Best.step {K : Type} [DecidableEq K] {d d' : Dict K Ent} {key : Ent → K} {h : List Ent}
    (b : Best d key h) {v : Ent} (hs : setItem d (key v) v = some d') : Best d' key (h ++ [v]) := by
  have hk := (b.ok_iff v).mp (setItem_some.mp ⟨d', hs⟩)
  intro k
  rw [setItem_get hs]
  by_cases hkv : key v = k
  · rw [if_pos hkv]
    refine ⟨by simp, hkv, ?_⟩
    intro a ha hka
    rcases List.mem_append.mp ha with h1 | h1
    · exact hk a h1 (hka.trans hkv.symm)
    · simp at h1; subst h1; exact Keeps.refl _
  · rw [if_neg hkv]
    have := b k
    cases hg : get d k with
    | none =>
      rw [hg] at this
      intro a ha
      rcases List.mem_append.mp ha with h1 | h1
      · exact this a h1
      · simp at h1; subst h1; exact hkv
    | some e =>
      rw [hg] at this
      refine ⟨by simp [this.1], this.2.1, ?_⟩
      intro a ha hka
      rcases List.mem_append.mp ha with h1 | h1
      · exact this.2.2 a h1 hka
      · simp at h1; subst h1; exact absurd hka hkv

end Verif.Config
