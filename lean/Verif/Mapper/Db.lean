import Verif.Mapper.MapInv

/-!
# C116: updates from the node database

One record at a time; `n` is the object made of it (mapper.py:1678-1712).
-/

namespace Verif.Mapper

/-- C116.  An entry of another node, which does not have the name of the
record, is left as it is. -/
theorem dbupdate_others_partial (t : Nat) (m : Map) (h : m.Loaded t) (n : MNode) (i : Id) (r : Nat)
    (hi : (i, r) ∈ m.nodes) (hne : i ≠ n.id)
    (hname : n.name = "" ∨ ∀ o, get m.names n.name = some o → (m.obj o).id ≠ i ∧ o ≠ r) :
    get (m.addnode n).1.nodes i = some r ∧ (m.addnode n).1.obj r = m.obj r := by
  have hr : r < m.next := (h.refs i r hi).1
  have hrn : ¬ r = m.next := by omega
  have hget : get m.nodes i = some r := get_of_mem h.nodup hi
  -- entering an object whose name is that of the record
  have henter : ∀ m' : Map, m'.nodes = m.nodes → m'.names = m.names → m'.obj m.next = n →
      (∀ o, get m.names n.name = some o → n.name = "" ∨ (m'.obj o).id ≠ i) →
      get (m'.enter m.next).nodes i = some r := by
    intro m' e1 e2 e3 e4
    unfold Map.enter
    simp only [e3, e1, e2]
    have hp : get (put m.nodes n.id m.next) i = some r := by
      rw [get_put, if_neg (Ne.symm hne)]; exact hget
    split
    · exact hp
    · next hnm =>
      cases hg : get m.names n.name with
      | none => exact hp
      | some o =>
        simp only
        have ho : (m'.obj o).id ≠ i := (e4 o hg).resolve_left hnm
        have hmem : (i, r) ∈ del (put m.nodes n.id m.next) (m'.obj o).id := by
          unfold del
          rw [List.mem_filter]
          exact ⟨get_mem hp, by simpa using Ne.symm ho⟩
        exact get_of_mem (del_nodup (put_nodup h.nodup)) hmem
  unfold Map.addnode
  simp only
  cases hg : get m.nodes n.id with
  | none =>
    simp only
    refine ⟨henter _ rfl rfl (by simp) ?_, by simp [hrn]⟩
    intro o ho
    by_cases hnm : n.name = ""
    · exact Or.inl hnm
    · right
      have hon : o < m.next := h.names _ _ (get_mem ho)
      have : ¬ o = m.next := by omega
      simp only [if_neg this]
      exact ((hname.resolve_left hnm) o ho).1
  | some o =>
    simp only
    have hon : o < m.next := (h.refs _ _ (get_mem hg)).1
    have hro : ¬ r = o := by
      intro hh
      have h1 := (h.refs _ _ (get_mem hg)).2
      have h2 := (h.refs i r hi).2
      rw [hh] at h2; exact hne (h2.symm.trans h1)
    have hobj : (Map.mod { m with obj := fun k => if k = m.next then n else m.obj k, next := m.next + 1 } o
        fun old => n.over old).obj r = m.obj r := by
      rw [mod_obj, if_neg hro]; simp only [if_neg hrn]
    split
    · split
      · exact ⟨hget, hobj⟩
      · split
        · omega
        · omega
    · by_cases hsame : (m.obj o).name = ((Map.mod
        { m with obj := fun k => if k = m.next then n else m.obj k, next := m.next + 1 } o
        (fun old => n.over old)).obj o).name
      · rw [if_pos hsame]; exact ⟨hget, hobj⟩
      · rw [if_neg hsame]
        split
        · refine ⟨henter _ rfl rfl ?_ ?_, by rw [enter_obj]; exact hobj⟩
          · rw [mod_obj, if_neg (by omega)]; simp
          · intro o' ho'
            by_cases hnm : n.name = ""
            · exact Or.inl hnm
            · right
              have hon' : o' < m.next := h.names _ _ (get_mem ho')
              have : ¬ o' = m.next := by omega
              rw [mod_obj]
              split
              · simp only [MNode.over]
                split
                · omega
                · have := (h.refs _ _ (get_mem hg)).2
                  rw [this]; exact Ne.symm hne
              · simp only [if_neg this]
                exact ((hname.resolve_left hnm) o' ho').1
        · exact ⟨hget, hobj⟩

theorem addnode_same (t : Nat) (m : Map) (h : m.Loaded t) (n : MNode) (r : Nat)
    (hi : (n.id, r) ∈ m.nodes) (hname : (m.obj r).name = n.name) : (m.addnode n).1 = Map.mod
      { m with obj := fun k => if k = m.next then n else m.obj k, next := m.next + 1 } r fun old => n.over old := by
  have hr : r < m.next := (h.refs _ r hi).1
  have hrn : ¬ r = m.next := by omega
  have hg : get m.nodes n.id = some r := get_of_mem h.nodup hi
  unfold Map.addnode
  simp only [hg]
  have : (if r = m.next then n else m.obj r).name = ((Map.mod
      { m with obj := fun k => if k = m.next then n else m.obj k, next := m.next + 1 } r
      (fun old => n.over old)).obj r).name := by
    rw [mod_obj, if_pos rfl, if_neg hrn, hname]; rfl
  rw [if_pos this]

/-- C116.  Type, owner, time and place of an entry stay if the record does not say them, and are those of
the record if it does; name, identification and location are those of the record. -/
theorem dbupdate_takes (t : Nat) (m : Map) (h : m.Loaded t) (n : MNode) (r : Nat)
    (hi : (n.id, r) ∈ m.nodes) (hname : (m.obj r).name = n.name) :
    let o := (m.addnode n).1.obj r
    (∀ x, o.typ = some x ↔ n.typ = some x ∨ n.typ = none ∧ (m.obj r).typ = some x) ∧
    (∀ x, o.owner = some x ↔ n.owner = some x ∨ n.owner = none ∧ (m.obj r).owner = some x) ∧
    (∀ x, o.time = some x ↔ n.time = some x ∨ n.time = none ∧ (m.obj r).time = some x) ∧
    (∀ x, o.latlong = some x ↔ n.latlong = some x ∨ n.latlong = none ∧ (m.obj r).latlong = some x) ∧
    o.id = n.id ∧ o.name = n.name ∧ o.ident = n.ident ∧ o.loc = n.loc := by
  have hid : (m.obj r).id = n.id := (h.refs _ r hi).2
  have hadd := addnode_same t m h n r hi hname
  have hrn : ¬ r = m.next := by have := (h.refs _ r hi).1; omega
  intro o
  have ho : o = n.over (m.obj r) := by
    show (m.addnode n).1.obj r = _
    rw [hadd, mod_obj, if_pos rfl]
    simp only [if_neg hrn]
  rw [ho]
  refine ⟨?_, ?_, ?_, ?_, hid, rfl, rfl, rfl⟩ <;> intro x <;> unfold MNode.over
  · cases n.typ <;> simp [Option.orElse]
  · cases n.owner <;> simp [Option.orElse]
  · cases n.time <;> simp [Option.orElse]
  · cases n.latlong <;> simp [Option.orElse]

/-- C116, what is not so: that an update of the database leaves what has been
observed.  The record of a node that is in the map under the same name takes
away its history and all its circuits, for every map. -/
theorem dbupdate_wipes (t : Nat) (m : Map) (h : m.Loaded t) (n : MNode) (r : Nat)
    (hi : (n.id, r) ∈ m.nodes) (hname : (m.obj r).name = n.name) (h1 : n.it = {}) (h2 : n.adj = []) :
    get (m.addnode n).1.nodes n.id = some r ∧
    ((m.addnode n).1.obj r).it = {} ∧ ((m.addnode n).1.obj r).adj = [] := by
  have hr : r < m.next := (h.refs _ r hi).1
  have hrn : ¬ r = m.next := by omega
  have hg : get m.nodes n.id = some r := get_of_mem h.nodup hi
  have hadd : (m.addnode n).1 = Map.mod
      { m with obj := fun k => if k = m.next then n else m.obj k, next := m.next + 1 } r fun old => n.over old := by
    unfold Map.addnode
    simp only [hg]
    have : (if r = m.next then n else m.obj r).name = ((Map.mod
        { m with obj := fun k => if k = m.next then n else m.obj k, next := m.next + 1 } r
        (fun old => n.over old)).obj r).name := by
      rw [mod_obj, if_pos rfl, if_neg hrn, hname]; rfl
    rw [if_pos this]
  rw [hadd]
  refine ⟨hg, ?_, ?_⟩
  · rw [mod_obj, if_pos rfl]; exact h1
  · rw [mod_obj, if_pos rfl]; exact h2

/-- A case: a node that has been up since time 5, with a circuit. -/
def exUp : Map where
  obj := fun _ => { id := 1025, name := "A", it := { seen := 9, up := 5 }, adj := [(("C", 1026), { seen := 9, up := 5 })] }
  next := 1
  nodes := [(1025, 0)]
  names := [("A", 0)]

example : ((exUp.obj 0).it.health 9 = .up) ∧
    (((exUp.addnode { id := 1025, name := "A" }).1.obj 0).it.health 9 = .down) ∧
    (((exUp.addnode { id := 1025, name := "A" }).1.obj 0).adj = []) := by decide

example : (exUp.Loaded 20) ∧ ((exUp.addnode { id := 1025, name := "A", owner := some "B" }).1.obj 0).owner = some "B" := by
  refine ⟨⟨?_, by decide, ?_, ?_, ?_, ?_⟩, by decide⟩
  all_goals simp [exUp, Item.Before]

/-- A record with a name that another node has removes that node. -/
theorem dbupdate_removes :
    (exUp.addnode { id := 1030, name := "A" }).1.nodes = [(1030, 1)] := by decide

end Verif.Mapper
