import Verif.Mapper.MapInv

/-!
# The end of a scan
-/

namespace Verif.Mapper

/-- The map after `testdown` of all nodes (mapper.py:1471-1473). -/
def Map.down (m : Map) (ts : Nat) : Map :=
  { m with obj := fun k => if m.nodes.any (fun e => e.2 = k)
      then (m.obj k).testdown ts else m.obj k }

theorem before_testdown {T ts : Nat} {i : Item} (h : i.Before T) (ht : ts ≤ T) :
    (i.testdown ts).Before T := by
  unfold Item.testdown; split
  · exact before_update h ht false
  · exact h

/-- After the end, up is what was seen. -/
theorem scan_testdown {ts : Nat} {a : Prop} {i : Item} (h : i.Scan ts a) :
    ((i.testdown ts).down < (i.testdown ts).up ↔ a) := by
  unfold Item.testdown Item.update
  by_cases ha : a
  · obtain ⟨h1, h2, h3⟩ := h.1 ha
    have : ¬ i.seen < ts := by omega
    rw [if_neg this]; exact ⟨fun _ => ha, fun _ => h2⟩
  · obtain ⟨h1, h2, h3⟩ := h.2 ha
    rw [if_pos h1]
    simp only [Bool.false_eq_true, if_false]
    split
    · simp only; exact ⟨fun h => by omega, fun h => absurd h ha⟩
    · next hh => exact ⟨fun h => by simp only at h; omega, fun h => absurd h ha⟩

theorem MI.down {C : Prop} {full : Bool} {ts T : Nat} {m : Map} {L : List Out}
    (h : MI C full ts T m L) : MI C false ts T (m.down ts) L where
  refs := by
    intro i k hk
    obtain ⟨h5, h6⟩ := h.refs i k hk
    refine ⟨h5, ?_⟩
    simp only [Map.down]; split
    · exact h6
    · exact h6
  nodup := h.nodup
  names := h.names
  keys := by
    intro k
    simp only [Map.down]; split
    · simp only [MNode.testdown, List.map_map]; exact h.keys k
    · exact h.keys k
  times := by
    intro hc k
    simp only [Map.down]; split
    · exact before_testdown (h.times hc k) (h.stamp hc)
    · exact h.times hc k
  adjs := by
    intro hc k e
    simp only [Map.down]; split
    · intro he
      simp only [MNode.testdown, List.mem_map] at he
      obtain ⟨a, ha, rfl⟩ := he
      exact before_testdown (h.adjs hc k a ha) (h.stamp hc)
    · exact h.adjs hc k e
  stamp := h.stamp
  pos := fun _ hf => by simp at hf
  fresh := fun _ hf => by simp at hf
  freshA := fun _ hf => by simp at hf
  outs := h.outs
  outsA := h.outsA

/-- What `update_map` does to a map: new empty entries. -/
theorem updateMap_spec {m : Map} (hr : ∀ i r, (i, r) ∈ m.nodes → r < m.next) :
    (∀ r, r < m.next → m.updateMap.obj r = m.obj r) ∧ m.next ≤ m.updateMap.next ∧
    (∀ e, e ∈ m.nodes → e ∈ m.updateMap.nodes) ∧
    (∀ e, e ∈ m.updateMap.nodes → e ∈ m.nodes ∨
      (m.next ≤ e.2 ∧ e.2 < m.updateMap.next ∧ (m.updateMap.obj e.2) = { id := e.1, name := "" })) := by
  unfold Map.updateMap
  generalize (m.nodes.flatMap fun e => (m.obj e.2).adj.map fun a => a.1.2) = js
  induction js generalizing m with
  | nil => exact ⟨fun _ _ => rfl, Nat.le_refl _, fun _ h => h, fun _ h => Or.inl h⟩
  | cons j r ih =>
    rw [List.foldl_cons]
    cases hg : get m.nodes j with
    | some x => rw [mapnode_some hg]; exact ih hr
    | none =>
      rw [mapnode_none hg]
      have he : ({ m with
        obj := fun k => if k = m.next then ({ id := j, name := "" } : MNode) else m.obj k
        next := m.next + 1 } : Map).enter m.next = { m with
        obj := fun k => if k = m.next then ({ id := j, name := "" } : MNode) else m.obj k
        next := m.next + 1
        nodes := put m.nodes j m.next } := by
        simp [Map.enter]
      rw [he]
      have hk : j ∉ m.nodes.map Prod.fst := get_none.1 hg
      have hput : put m.nodes j m.next = m.nodes ++ [(j, m.next)] := by
        clear he ih hr hg
        revert hk
        generalize m.nodes = d
        induction d with
        | nil => intro _; rfl
        | cons a q ih =>
          intro hk
          obtain ⟨a, b⟩ := a
          simp only [List.map_cons, List.mem_cons, not_or] at hk
          simp only [put, if_neg (Ne.symm hk.1), List.cons_append, ih hk.2]
      obtain ⟨h1, h2, h3, h4⟩ := ih (m := { m with
        obj := fun k => if k = m.next then ({ id := j, name := "" } : MNode) else m.obj k
        next := m.next + 1
        nodes := put m.nodes j m.next }) (by
          intro i k hk
          rw [hput] at hk
          simp only [List.mem_append, List.mem_singleton, Prod.mk.injEq] at hk
          rcases hk with hk | hk
          · have := hr i k hk; simp only; omega
          · simp only; omega)
      refine ⟨?_, Nat.le_trans (Nat.le_succ _) h2, ?_, ?_⟩
      · intro k hk
        rw [h1 k (by simp only; omega)]
        have : ¬ k = m.next := by omega
        simp only [if_neg this]
      · intro e he
        refine h3 e ?_
        simp only [hput, List.mem_append]; exact Or.inl he
      · intro e he
        rcases h4 e he with hm | ⟨h5, h6, h7⟩
        · simp only [hput, List.mem_append, List.mem_singleton] at hm
          rcases hm with hm | hm
          · exact Or.inl hm
          · refine Or.inr ⟨by rw [hm]; exact Nat.le_refl _, ?_, ?_⟩
            · rw [hm]; simp only at h2 ⊢; omega
            · rw [hm]; rw [h1 m.next (by simp)]; simp
        · exact Or.inr ⟨by simp only at h5; omega, h6, h7⟩

/-- What the map says after a full scan. -/
theorem MI.result {C : Prop} (hc : C) {ts T : Nat} {m : Map} {L : List Out} (h : MI C true ts T m L)
    {i : Id} {r : Nat} (hi : (i, r) ∈ ((m.down ts).updateMap).nodes) :
    let n := (m.down ts).updateMap.obj r
    (n.it.down < n.it.up ↔ Out.saw r ∈ L) ∧
    ∀ e ∈ n.adj, (e.2.down < e.2.up ↔ Out.sawAdj r e.1.1 e.1.2 ∈ L) := by
  have hu := updateMap_spec (m := m.down ts) (fun i r hi => (h.down.refs i r hi).1)
  intro n
  rcases hu.2.2.2 _ hi with hm | ⟨h1, h2, h3⟩
  · have hlt : r < m.next := (h.refs i r hm).1
    have hn : n = (m.obj r).testdown ts := by
      show (m.down ts).updateMap.obj r = _
      rw [hu.1 r hlt]
      have : m.nodes.any (fun e => e.2 = r) = true := by
        rw [List.any_eq_true]; exact ⟨(i, r), hm, by simp⟩
      simp only [Map.down, this, if_true]
    rw [hn]
    refine ⟨scan_testdown (h.fresh hc rfl r), ?_⟩
    intro e he
    simp only [MNode.testdown, List.mem_map] at he
    obtain ⟨a, ha, rfl⟩ := he
    exact scan_testdown (h.freshA hc rfl r a ha)
  · have hn : n = { id := i, name := "" } := h3
    rw [hn]
    refine ⟨⟨fun hh => by simp at hh, fun hh => ?_⟩, fun e he => by simp at he⟩
    have := h.outs r hh
    simp only [Map.down] at h1; omega

end Verif.Mapper
