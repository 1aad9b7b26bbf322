import Verif.Mapper.Spec

/-!
# Lemmas about the tables of the map
-/

namespace Verif.Mapper

section Dict
variable {α β : Type} [DecidableEq α]

theorem get_mem {d : List (α × β)} {k : α} {v : β} (h : get d k = some v) : (k, v) ∈ d := by
  induction d with
  | nil => simp [get] at h
  | cons a r ih =>
    obtain ⟨a, b⟩ := a
    simp only [get] at h
    split at h
    · next e => subst e; simp at h; subst h; simp
    · exact List.mem_cons_of_mem _ (ih h)

theorem get_none {d : List (α × β)} {k : α} : get d k = none ↔ k ∉ d.map Prod.fst := by
  induction d with
  | nil => simp [get]
  | cons a r ih =>
    obtain ⟨a, b⟩ := a
    simp only [get]
    split
    · next e => subst e; simp
    · next e =>
      rw [ih]
      simp only [List.map_cons, List.mem_cons, not_or]
      exact ⟨fun h => ⟨fun h' => e h'.symm, h⟩, fun h => h.2⟩

theorem put_mem {d : List (α × β)} {k : α} {v : β} {e : α × β} (h : e ∈ put d k v) :
    e ∈ d ∨ e = (k, v) := by
  induction d with
  | nil => simp [put] at h; exact Or.inr h
  | cons a r ih =>
    obtain ⟨a, b⟩ := a
    simp only [put] at h
    split at h
    · next e' =>
      subst e'
      rcases List.mem_cons.1 h with h | h
      · exact Or.inr h
      · exact Or.inl (List.mem_cons_of_mem _ h)
    · rcases List.mem_cons.1 h with h | h
      · exact Or.inl (by simp [h])
      · rcases ih h with h | h
        · exact Or.inl (List.mem_cons_of_mem _ h)
        · exact Or.inr h

theorem put_keys {d : List (α × β)} {k : α} {v : β} :
    (put d k v).map Prod.fst = if k ∈ d.map Prod.fst then d.map Prod.fst else d.map Prod.fst ++ [k] := by
  induction d with
  | nil => simp [put]
  | cons a r ih =>
    obtain ⟨a, b⟩ := a
    simp only [put]
    split
    · next e => subst e; simp
    · next e =>
      have e' : ¬ k = a := fun h => e h.symm
      simp only [List.map_cons, List.mem_cons, ih]
      by_cases h : k ∈ r.map Prod.fst
      · simp [h]
      · simp [h, e']

theorem put_nodup {d : List (α × β)} {k : α} {v : β} (h : (d.map Prod.fst).Nodup) :
    ((put d k v).map Prod.fst).Nodup := by
  rw [put_keys]
  split
  · exact h
  · next hk =>
    rw [List.nodup_append]
    exact ⟨h, by simp, by intro a ha b hb; simp at hb; subst hb; intro e; subst e; exact hk ha⟩

/-- With distinct keys, other entries are those that were there. -/
theorem put_mem_nodup {d : List (α × β)} {k : α} {v : β} (h : (d.map Prod.fst).Nodup)
    {e : α × β} : e ∈ put d k v ↔ (e ∈ d ∧ e.1 ≠ k) ∨ e = (k, v) := by
  induction d with
  | nil => simp [put]
  | cons a r ih =>
    obtain ⟨a, b⟩ := a
    simp only [List.map_cons, List.nodup_cons] at h
    simp only [put]
    split
    · next e' =>
      subst e'
      simp only [List.mem_cons]
      constructor
      · rintro (h' | h')
        · exact Or.inr h'
        · refine Or.inl ⟨Or.inr h', fun e' => h.1 (e' ▸ List.mem_map_of_mem h')⟩
      · rintro (⟨h' | h', h2⟩ | h')
        · subst h'; exact absurd rfl h2
        · exact Or.inr h'
        · exact Or.inl h'
    · next e' =>
      simp only [List.mem_cons, ih h.2]
      constructor
      · rintro (h' | ⟨h', h2⟩ | h')
        · subst h'; exact Or.inl ⟨Or.inl rfl, e'⟩
        · exact Or.inl ⟨Or.inr h', h2⟩
        · exact Or.inr h'
      · rintro (⟨h' | h', h2⟩ | h')
        · exact Or.inl h'
        · exact Or.inr (Or.inl ⟨h', h2⟩)
        · exact Or.inr (Or.inr h')

theorem get_of_mem {d : List (α × β)} (h : (d.map Prod.fst).Nodup) {k : α} {v : β}
    (hm : (k, v) ∈ d) : get d k = some v := by
  induction d with
  | nil => simp at hm
  | cons a r ih =>
    obtain ⟨a, b⟩ := a
    simp only [List.map_cons, List.nodup_cons] at h
    simp only [get]
    rcases List.mem_cons.1 hm with h' | h'
    · cases h'; simp
    · have : ¬ a = k := fun e => h.1 (e ▸ List.mem_map_of_mem h')
      rw [if_neg this]
      exact ih h.2 h'

theorem get_put {d : List (α × β)} {k j : α} {v : β} :
    get (put d k v) j = if k = j then some v else get d j := by
  induction d with
  | nil => simp [put, get]
  | cons a r ih =>
    obtain ⟨a, b⟩ := a
    simp only [put]
    split
    · next e => subst e; simp only [get]; split <;> rfl
    · next e =>
      simp only [get, ih]
      by_cases h1 : a = j
      · subst h1
        have : ¬ k = a := fun h => e h.symm
        simp [this]
      · simp [h1]

theorem del_mem {d : List (α × β)} {k : α} {e : α × β} (h : e ∈ del d k) : e ∈ d :=
  (List.mem_filter.1 h).1

theorem del_nodup {d : List (α × β)} {k : α} (h : (d.map Prod.fst).Nodup) :
    ((del d k).map Prod.fst).Nodup :=
  h.sublist ((List.filter_sublist (p := fun e : α × β => decide (e.1 ≠ k)) (l := d)).map Prod.fst)

end Dict

/-! ## Objects -/

theorem mod_obj (m : Map) (r : Nat) (f : MNode → MNode) (k : Nat) :
    (m.mod r f).obj k = if k = r then f (m.obj r) else m.obj k := rfl

@[simp] theorem mod_next (m : Map) (r : Nat) (f : MNode → MNode) : (m.mod r f).next = m.next := rfl
@[simp] theorem mod_nodes (m : Map) (r : Nat) (f : MNode → MNode) : (m.mod r f).nodes = m.nodes := rfl
@[simp] theorem mod_names (m : Map) (r : Nat) (f : MNode → MNode) : (m.mod r f).names = m.names := rfl

@[simp] theorem enter_obj (m : Map) (r : Nat) : (m.enter r).obj = m.obj := by
  unfold Map.enter; simp only; split
  · rfl
  · split <;> rfl

@[simp] theorem enter_next (m : Map) (r : Nat) : (m.enter r).next = m.next := by
  unfold Map.enter; simp only; split
  · rfl
  · split <;> rfl

theorem enter_nodes_mem {m : Map} {r : Nat} {e : Id × Nat} (h : e ∈ (m.enter r).nodes) :
    e ∈ m.nodes ∨ e = ((m.obj r).id, r) := by
  unfold Map.enter at h
  simp only at h
  split at h
  · exact put_mem h
  · split at h
    · exact put_mem h
    · exact put_mem (del_mem h)

theorem enter_nodup {m : Map} {r : Nat} (h : (m.nodes.map Prod.fst).Nodup) :
    (((m.enter r).nodes).map Prod.fst).Nodup := by
  unfold Map.enter
  simp only
  split
  · exact put_nodup h
  · split
    · exact put_nodup h
    · exact del_nodup (put_nodup h)

theorem enter_names_mem {m : Map} {r : Nat} {e : String × Nat} (h : e ∈ (m.enter r).names) :
    e ∈ m.names ∨ e.2 = r := by
  unfold Map.enter at h
  simp only at h
  split at h
  · exact Or.inl h
  · split at h <;>
    · rcases put_mem h with h | h
      · exact Or.inl h
      · exact Or.inr (by rw [h])

/-- What `mapnode` does: nothing if the node is there, else a new object. -/
theorem mapnode_some {m : Map} {i : Id} {nm : String} {r : Nat} (h : get m.nodes i = some r) :
    m.mapnode i nm = (m, r) := by
  simp [Map.mapnode, h]

theorem mapnode_none {m : Map} {i : Id} {nm : String} (h : get m.nodes i = none) :
    m.mapnode i nm = (({ m with
      obj := fun k => if k = m.next then { id := i, name := nm } else m.obj k
      next := m.next + 1 } : Map).enter m.next, m.next) := by
  simp [Map.mapnode, h, Map.addnode]

end Verif.Mapper
