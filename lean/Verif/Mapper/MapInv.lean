import Verif.Mapper.Lemmas

/-!
# The invariant of the map
-/

namespace Verif.Mapper

/-- An item during a full scan stamped `ts`: seen in it or not. -/
def Item.Scan (ts : Nat) (seen : Prop) (i : Item) : Prop :=
  (seen → i.seen = ts ∧ i.down < i.up ∧ i.down < ts) ∧
  (¬ seen → i.seen < ts ∧ i.up < ts ∧ i.down < ts)

/-- The invariant: structure of the tables, and, if the clock goes forward (`C`), times not later than `T`, and,
during a full scan stamped `ts`, what the items say of what was seen (`L`). -/
structure MI (C : Prop) (full : Bool) (ts T : Nat) (m : Map) (L : List Out) : Prop where
  refs : ∀ i r, (i, r) ∈ m.nodes → r < m.next ∧ (m.obj r).id = i
  nodup : (m.nodes.map Prod.fst).Nodup
  names : ∀ n r, (n, r) ∈ m.names → r < m.next
  keys : ∀ r, ((m.obj r).adj.map Prod.fst).Nodup
  times : C → ∀ r, (m.obj r).it.Before T
  adjs : C → ∀ r e, e ∈ (m.obj r).adj → e.2.Before T
  stamp : C → ts ≤ T
  pos : C → full = true → 0 < ts
  fresh : C → full = true → ∀ r, (m.obj r).it.Scan ts (Out.saw r ∈ L)
  freshA : C → full = true → ∀ r e, e ∈ (m.obj r).adj → e.2.Scan ts (Out.sawAdj r e.1.1 e.1.2 ∈ L)
  outs : ∀ r, Out.saw r ∈ L → r < m.next
  outsA : ∀ r c j, Out.sawAdj r c j ∈ L → r < m.next

theorem Item.Scan.congr {ts : Nat} {a b : Prop} {i : Item} (h : i.Scan ts a) (e : a ↔ b) :
    i.Scan ts b := by
  rw [Item.Scan, ← e]; exact h

theorem scan_new {ts : Nat} (h : 0 < ts) {a : Prop} (ha : ¬ a) : ({} : Item).Scan ts a :=
  ⟨fun h => absurd h ha, fun _ => ⟨h, h, h⟩⟩

theorem scan_update {ts : Nat} {a : Prop} {i : Item} (h : i.Scan ts a) {b : Prop} (hb : b) :
    (i.update true ts).1.Scan ts b := by
  refine ⟨fun _ => ?_, fun h => absurd hb h⟩
  by_cases ha : a
  · obtain ⟨_, h2, h3⟩ := h.1 ha
    have : ¬ i.up ≤ i.down := by omega
    simp only [Item.update, if_true, if_neg this]
    exact ⟨trivial, h2, h3⟩
  · obtain ⟨_, h2, h3⟩ := h.2 ha
    by_cases hh : i.up ≤ i.down
    · simp only [Item.update, if_true, if_pos hh]; exact ⟨trivial, h3, h3⟩
    · simp only [Item.update, if_true, if_neg hh]; exact ⟨trivial, by omega, h3⟩

theorem before_new (T : Nat) : ({} : Item).Before T := ⟨Nat.zero_le _, Nat.zero_le _, Nat.zero_le _⟩

theorem before_update {T ts : Nat} {i : Item} (h : i.Before T) (ht : ts ≤ T) (b : Bool) :
    (i.update b ts).1.Before T := by
  obtain ⟨h1, h2, h3⟩ := h
  unfold Item.update
  cases b
  · simp only [Bool.false_eq_true, if_false]
    split <;> exact ⟨by assumption, by first | assumption | exact ht, by assumption⟩
  · simp only [if_true]
    split <;> exact ⟨ht, by assumption, by first | exact ht | assumption⟩

theorem before_mono {T T' : Nat} {i : Item} (h : i.Before T) (ht : T ≤ T') : i.Before T' :=
  ⟨Nat.le_trans h.1 ht, Nat.le_trans h.2.1 ht, Nat.le_trans h.2.2 ht⟩

/-- Later times, and more things seen that do not concern items. -/
theorem MI.more {C : Prop} {full : Bool} {ts T T' : Nat} {m : Map} {L L' : List Out}
    (h : MI C full ts T m L) (ht : T ≤ T')
    (h1 : ∀ r, Out.saw r ∈ L' ↔ Out.saw r ∈ L)
    (h2 : ∀ r c j, Out.sawAdj r c j ∈ L' ↔ Out.sawAdj r c j ∈ L) : MI C full ts T' m L' where
  refs := h.refs
  nodup := h.nodup
  names := h.names
  keys := h.keys
  times := fun hc r => before_mono (h.times hc r) ht
  adjs := fun hc r e he => before_mono (h.adjs hc r e he) ht
  stamp := fun hc => Nat.le_trans (h.stamp hc) ht
  pos := h.pos
  fresh := fun hc hf r => (h.fresh hc hf r).congr (h1 r).symm
  freshA := fun hc hf r e he => (h.freshA hc hf r e he).congr (h2 _ _ _).symm
  outs := fun r hr => h.outs r ((h1 r).1 hr)
  outsA := fun r c j hr => h.outsA r c j ((h2 r c j).1 hr)

/-- Changing an object in other ways. -/
theorem MI.mod_keep {C : Prop} {full : Bool} {ts T : Nat} {m : Map} {L : List Out}
    (h : MI C full ts T m L) (r : Nat) (f : MNode → MNode)
    (h1 : (f (m.obj r)).id = (m.obj r).id) (h2 : (f (m.obj r)).it = (m.obj r).it)
    (h3 : ∀ e, e ∈ (f (m.obj r)).adj → e ∈ (m.obj r).adj)
    (h4 : ((f (m.obj r)).adj.map Prod.fst).Nodup) : MI C full ts T (m.mod r f) L where
  refs := by
    intro i k hk
    obtain ⟨h5, h6⟩ := h.refs i k hk
    refine ⟨h5, ?_⟩
    rw [mod_obj]; split
    · next e => subst e; rw [h1]; exact h6
    · exact h6
  nodup := h.nodup
  names := h.names
  keys := by
    intro k; rw [mod_obj]; split
    · exact h4
    · exact h.keys k
  times := by
    intro hc k; rw [mod_obj]; split
    · rw [h2]; exact h.times hc r
    · exact h.times hc k
  adjs := by
    intro hc k e; rw [mod_obj]; split
    · intro he; exact h.adjs hc r e (h3 e he)
    · exact h.adjs hc k e
  stamp := h.stamp
  pos := h.pos
  fresh := by
    intro hc hf k; rw [mod_obj]; split
    · next e => subst e; rw [h2]; exact h.fresh hc hf k
    · exact h.fresh hc hf k
  freshA := by
    intro hc hf k e; rw [mod_obj]; split
    · next e' => subst e'; intro he; exact h.freshA hc hf k e (h3 e he)
    · exact h.freshA hc hf k e
  outs := h.outs
  outsA := h.outsA

/-- A node is seen. -/
theorem MI.seen {C : Prop} {full : Bool} {ts T : Nat} {m : Map} {L : List Out}
    (h : MI C full ts T m L) (r : Nat) (hr : r < m.next) :
    MI C full ts T (m.nodeUpdate r true ts) (L ++ [.saw r]) where
  refs := by
    intro i k hk
    obtain ⟨h5, h6⟩ := h.refs i k hk
    refine ⟨h5, ?_⟩
    rw [Map.nodeUpdate, mod_obj]; split
    · next e => subst e; exact h6
    · exact h6
  nodup := h.nodup
  names := h.names
  keys := by
    intro k; rw [Map.nodeUpdate, mod_obj]; split
    · exact h.keys r
    · exact h.keys k
  times := by
    intro hc k; rw [Map.nodeUpdate, mod_obj]; split
    · exact before_update (h.times hc r) (h.stamp hc) true
    · exact h.times hc k
  adjs := by
    intro hc k e; rw [Map.nodeUpdate, mod_obj]; split
    · exact h.adjs hc r e
    · exact h.adjs hc k e
  stamp := h.stamp
  pos := h.pos
  fresh := by
    intro hc hf k; rw [Map.nodeUpdate, mod_obj]; split
    · next e => subst e; exact scan_update (h.fresh hc hf k) (by simp)
    · next e => exact (h.fresh hc hf k).congr (by simp [e])
  freshA := by
    intro hc hf k e; rw [Map.nodeUpdate, mod_obj]; split
    · next e' => subst e'; intro he; exact (h.freshA hc hf k e he).congr (by simp)
    · intro he; exact (h.freshA hc hf k e he).congr (by simp)
  outs := by
    intro k hk
    simp only [List.mem_append, List.mem_singleton, Out.saw.injEq] at hk
    rcases hk with hk | hk
    · exact h.outs k hk
    · subst hk; exact hr
  outsA := by
    intro k c j hk
    simp at hk; exact h.outsA k c j hk

theorem mem_put_adj {d : List ((String × Id) × Item)} (hd : (d.map Prod.fst).Nodup)
    {k : String × Id} {v : Item} {e : (String × Id) × Item} (h : e ∈ put d k v) :
    (e ∈ d ∧ e.1 ≠ k) ∨ e = (k, v) := (put_mem_nodup hd).1 h

/-- A circuit is seen. -/
theorem MI.seenAdj {C : Prop} {full : Bool} {ts T : Nat} {m : Map} {L : List Out}
    (h : MI C full ts T m L) (r : Nat) (hr : r < m.next) (c : String) (j : Id) :
    MI C full ts T (m.adjUpdate r c j true ts).1 (L ++ [.sawAdj r c j]) where
  refs := by
    intro i k hk
    obtain ⟨h5, h6⟩ := h.refs i k hk
    refine ⟨h5, ?_⟩
    rw [Map.adjUpdate, mod_obj]; split
    · next e => subst e; exact h6
    · exact h6
  nodup := h.nodup
  names := h.names
  keys := by
    intro k; rw [Map.adjUpdate, mod_obj]; split
    · exact put_nodup (h.keys r)
    · exact h.keys k
  times := by
    intro hc k; rw [Map.adjUpdate, mod_obj]; split
    · exact h.times hc r
    · exact h.times hc k
  adjs := by
    intro hc k e; rw [Map.adjUpdate, mod_obj]; split
    · intro he
      rcases put_mem he with he | he
      · exact h.adjs hc r e he
      · rw [he]
        refine before_update ?_ (h.stamp hc) true
        cases hg : get (m.obj r).adj (c, j) with
        | none => exact before_new T
        | some v => exact h.adjs hc r _ (get_mem hg)
    · exact h.adjs hc k e
  stamp := h.stamp
  pos := h.pos
  fresh := by
    intro hc hf k; rw [Map.adjUpdate, mod_obj]; split
    · next e => subst e; exact (h.fresh hc hf k).congr (by simp)
    · exact (h.fresh hc hf k).congr (by simp)
  freshA := by
    intro hc hf k e; rw [Map.adjUpdate, mod_obj]; split
    · next e' =>
      subst e'; intro he
      rcases mem_put_adj (h.keys k) he with ⟨he, hne⟩ | he
      · refine (h.freshA hc hf k e he).congr ?_
        have : ¬ (e.1.1 = c ∧ e.1.2 = j) := fun hh => hne (by rw [← hh.1, ← hh.2])
        simp [this]
      · rw [he]
        cases hg : get (m.obj k).adj (c, j) with
        | none => exact scan_update (scan_new (h.pos hc hf) (a := False) id) (by simp)
        | some v => exact scan_update (h.freshA hc hf k _ (get_mem hg)) (by simp)
    · next e' => intro he; exact (h.freshA hc hf k e he).congr (by simp [e'])
  outs := by
    intro k hk
    simp at hk; exact h.outs k hk
  outsA := by
    intro k c' j' hk
    simp only [List.mem_append, List.mem_singleton, Out.sawAdj.injEq] at hk
    rcases hk with hk | hk
    · exact h.outsA k c' j' hk
    · rw [hk.1]; exact hr

/-- A new object, entered in the tables. -/
theorem MI.newobj {C : Prop} {full : Bool} {ts T : Nat} {m : Map} {L : List Out}
    (h : MI C full ts T m L) (n : MNode) (h1 : n.it = {}) (h2 : n.adj = []) :
    MI C full ts T { m with obj := fun k => if k = m.next then n else m.obj k, next := m.next + 1 } L where
  refs := by
    intro i k hk
    obtain ⟨h5, h6⟩ := h.refs i k hk
    have : ¬ k = m.next := by omega
    refine ⟨by simp only; omega, ?_⟩
    simp only [if_neg this]; exact h6
  nodup := h.nodup
  names := fun n r hr => by have := h.names n r hr; simp only; omega
  keys := by
    intro k; simp only; split
    · rw [h2]; simp
    · exact h.keys k
  times := by
    intro hc k; simp only; split
    · rw [h1]; exact before_new T
    · exact h.times hc k
  adjs := by
    intro hc k e; simp only; split
    · rw [h2]; simp
    · exact h.adjs hc k e
  stamp := h.stamp
  pos := h.pos
  fresh := by
    intro hc hf k; simp only; split
    · next e =>
      rw [h1]
      exact scan_new (h.pos hc hf) (fun hh => by have := h.outs k hh; omega)
    · exact h.fresh hc hf k
  freshA := by
    intro hc hf k e; simp only; split
    · rw [h2]; simp
    · exact h.freshA hc hf k e
  outs := fun r hr => by have := h.outs r hr; simp only; omega
  outsA := fun r c j hr => by have := h.outsA r c j hr; simp only; omega

theorem MI.enter {C : Prop} {full : Bool} {ts T : Nat} {m : Map} {L : List Out}
    (h : MI C full ts T m L) (r : Nat) (hr : r < m.next) : MI C full ts T (m.enter r) L where
  refs := by
    intro i k hk
    rw [enter_next, enter_obj]
    rcases enter_nodes_mem hk with hk | hk
    · exact h.refs i k hk
    · cases hk; exact ⟨hr, rfl⟩
  nodup := enter_nodup h.nodup
  names := by
    intro n k hk
    rw [enter_next]
    rcases enter_names_mem hk with hk | hk
    · exact h.names n k hk
    · simp only at hk; rw [hk]; exact hr
  keys := by rw [enter_obj]; exact h.keys
  times := by rw [enter_obj]; exact h.times
  adjs := by rw [enter_obj]; exact h.adjs
  stamp := h.stamp
  pos := h.pos
  fresh := by rw [enter_obj]; exact h.fresh
  freshA := by rw [enter_obj]; exact h.freshA
  outs := by rw [enter_next]; exact h.outs
  outsA := by rw [enter_next]; exact h.outsA

theorem MI.mapnode {C : Prop} {full : Bool} {ts T : Nat} {m : Map} {L : List Out}
    (h : MI C full ts T m L) (i : Id) (nm : String) :
    MI C full ts T (m.mapnode i nm).1 L ∧ (m.mapnode i nm).2 < (m.mapnode i nm).1.next ∧
    m.next ≤ (m.mapnode i nm).1.next := by
  cases hg : get m.nodes i with
  | some r =>
    rw [mapnode_some hg]
    exact ⟨h, (h.refs i r (get_mem hg)).1, Nat.le_refl _⟩
  | none =>
    rw [mapnode_none hg]
    refine ⟨(h.newobj { id := i, name := nm } rfl rfl).enter m.next (by simp), ?_, ?_⟩
    · simp
    · simp

/-- `mapnode` adds no other nodes. -/
theorem mapnode_mem {m : Map} {i : Id} {nm : String} {e : Id × Nat}
    (h : e ∈ (m.mapnode i nm).1.nodes) : e ∈ m.nodes ∨ e.1 = i := by
  cases hg : get m.nodes i with
  | some r => rw [mapnode_some hg] at h; exact Or.inl h
  | none =>
    rw [mapnode_none hg] at h
    rcases enter_nodes_mem h with h | h
    · exact Or.inl h
    · exact Or.inr (by rw [h]; simp)

/-- Updates at other times, outside full scans. -/
theorem MI.later {C : Prop} {ts T : Nat} {m : Map} {L : List Out}
    (h : MI C false ts T m L) (T' : Nat) (hT : T ≤ T') (r : Nat) (b : Bool) (now : Nat)
    (hn : now ≤ T') : MI C false ts T' (m.nodeUpdate r b now) L where
  refs := by
    intro i k hk
    obtain ⟨h5, h6⟩ := h.refs i k hk
    refine ⟨h5, ?_⟩
    rw [Map.nodeUpdate, mod_obj]; split
    · next e => subst e; exact h6
    · exact h6
  nodup := h.nodup
  names := h.names
  keys := by
    intro k; rw [Map.nodeUpdate, mod_obj]; split
    · exact h.keys r
    · exact h.keys k
  times := by
    intro hc k; rw [Map.nodeUpdate, mod_obj]; split
    · exact before_update (before_mono (h.times hc r) hT) hn b
    · exact before_mono (h.times hc k) hT
  adjs := by
    intro hc k e; rw [Map.nodeUpdate, mod_obj]; split
    · exact fun he => before_mono (h.adjs hc r e he) hT
    · exact fun he => before_mono (h.adjs hc k e he) hT
  stamp := fun hc => Nat.le_trans (h.stamp hc) hT
  pos := fun _ hf => by simp at hf
  fresh := fun _ hf => by simp at hf
  freshA := fun _ hf => by simp at hf
  outs := h.outs
  outsA := h.outsA

theorem MI.laterAdj {C : Prop} {ts T : Nat} {m : Map} {L : List Out}
    (h : MI C false ts T m L) (T' : Nat) (hT : T ≤ T') (r : Nat) (c : String) (j : Id) (b : Bool)
    (now : Nat) (hn : now ≤ T') : MI C false ts T' (m.adjUpdate r c j b now).1 L where
  refs := by
    intro i k hk
    obtain ⟨h5, h6⟩ := h.refs i k hk
    refine ⟨h5, ?_⟩
    rw [Map.adjUpdate, mod_obj]; split
    · next e => subst e; exact h6
    · exact h6
  nodup := h.nodup
  names := h.names
  keys := by
    intro k; rw [Map.adjUpdate, mod_obj]; split
    · exact put_nodup (h.keys r)
    · exact h.keys k
  times := by
    intro hc k; rw [Map.adjUpdate, mod_obj]; split
    · exact before_mono (h.times hc r) hT
    · exact before_mono (h.times hc k) hT
  adjs := by
    intro hc k e; rw [Map.adjUpdate, mod_obj]; split
    · intro he
      rcases put_mem he with he | he
      · exact before_mono (h.adjs hc r e he) hT
      · rw [he]
        refine before_update ?_ hn b
        cases hg : get (m.obj r).adj (c, j) with
        | none => exact before_new T'
        | some v => exact before_mono (h.adjs hc r _ (get_mem hg)) hT
    · exact fun he => before_mono (h.adjs hc k e he) hT
  stamp := fun hc => Nat.le_trans (h.stamp hc) hT
  pos := fun _ hf => by simp at hf
  fresh := fun _ hf => by simp at hf
  freshA := fun _ hf => by simp at hf
  outs := h.outs
  outsA := h.outsA

/-- Entries of the node database, outside full scans. -/
theorem MI.addnode {C : Prop} {ts T : Nat} {m : Map} {L : List Out}
    (h : MI C false ts T m L) (n : MNode) (h1 : n.it = {}) (h2 : n.adj = []) :
    MI C false ts T (m.addnode n).1 L := by
  have h0 := h.newobj n h1 h2
  unfold Map.addnode
  simp only
  cases hg : get m.nodes n.id with
  | none => exact h0.enter m.next (by simp)
  | some o =>
    simp only
    have hm : MI C false ts T (Map.mod
        { m with obj := fun k => if k = m.next then n else m.obj k, next := m.next + 1 } o
        fun old => n.over old) L := by
      have hid : ∀ k, (Map.mod
        { m with obj := fun k => if k = m.next then n else m.obj k, next := m.next + 1 } o
        (fun old => n.over old)).obj k =
          if k = o then n.over (if o = m.next then n else m.obj o)
          else if k = m.next then n else m.obj k := fun k => rfl
      refine ⟨?_, h0.nodup, h0.names, ?_, ?_, ?_, h0.stamp, fun _ hf => by simp at hf,
        fun _ hf => by simp at hf, fun _ hf => by simp at hf, h0.outs, h0.outsA⟩
      · intro i k hk
        obtain ⟨h5, h6⟩ := h0.refs i k hk
        refine ⟨h5, ?_⟩
        rw [mod_obj]; split
        · next e => subst e; exact h6
        · exact h6
      · intro k; rw [mod_obj]; split
        · simp [MNode.over, h2]
        · exact h0.keys k
      · intro hc k; rw [mod_obj]; split
        · simp only [MNode.over, h1]; exact before_new T
        · exact h0.times hc k
      · intro hc k e; rw [mod_obj]; split
        · simp [MNode.over, h2]
        · exact h0.adjs hc k e
    by_cases hn : (if o = m.next then n else m.obj o).name = ((Map.mod
        { m with obj := fun k => if k = m.next then n else m.obj k, next := m.next + 1 } o
        (fun old => n.over old)).obj o).name
    · rw [if_pos hn]; exact hm
    · rw [if_neg hn]
      split
      · exact hm.enter m.next (by simp)
      · refine ⟨hm.refs, hm.nodup, ?_, hm.keys, hm.times, hm.adjs, hm.stamp, hm.pos, hm.fresh,
          hm.freshA, hm.outs, hm.outsA⟩
        intro nm r hr
        rcases put_mem hr with hr | hr
        · exact hm.names nm r (del_mem hr)
        · cases hr
          have := (h.refs n.id o (get_mem hg)).1
          simp only [mod_next]; omega

theorem addnode_next (m : Map) (n : MNode) : m.next ≤ (m.addnode n).1.next := by
  unfold Map.addnode
  simp only
  cases get m.nodes n.id with
  | none => simp
  | some o =>
    simp only
    repeat' split
    all_goals simp

theorem MI.updateMap {C : Prop} {full : Bool} {ts T : Nat} {m : Map} {L : List Out}
    (h : MI C full ts T m L) : MI C full ts T m.updateMap L := by
  unfold Map.updateMap
  generalize (m.nodes.flatMap fun e => (m.obj e.2).adj.map fun a => a.1.2) = js
  induction js generalizing m with
  | nil => exact h
  | cons j r ih => exact ih (h.mapnode j "").1

/-- A full scan begins. -/
theorem MI.begin {C : Prop} {full : Bool} {ts T : Nat} {m : Map} {L : List Out}
    (h : MI C full ts T m L) {now : Nat} (hn : C → T < now) : MI C true now now m [] where
  refs := h.refs
  nodup := h.nodup
  names := h.names
  keys := h.keys
  times := fun hc r => before_mono (h.times hc r) (by have := hn hc; omega)
  adjs := fun hc r e he => before_mono (h.adjs hc r e he) (by have := hn hc; omega)
  stamp := fun hc => Nat.le_refl _
  pos := fun hc _ => by have := hn hc; omega
  fresh := fun hc _ r => ⟨fun hh => by simp at hh, fun _ => by
    have := hn hc
    obtain ⟨h1, h2, h3⟩ := h.times hc r; exact ⟨by omega, by omega, by omega⟩⟩
  freshA := fun hc _ r e he => ⟨fun hh => by simp at hh, fun _ => by
    have := hn hc
    obtain ⟨h1, h2, h3⟩ := h.adjs hc r e he; exact ⟨by omega, by omega, by omega⟩⟩
  outs := fun r hr => by simp at hr
  outsA := fun r c j hr => by simp at hr

/-- An incremental scan begins. -/
theorem MI.beginInc {C : Prop} {ts T : Nat} {m : Map} {L : List Out}
    (h : MI C false ts T m L) {now : Nat} (hn : C → T < now) : MI C false now now m [] where
  refs := h.refs
  nodup := h.nodup
  names := h.names
  keys := h.keys
  times := fun hc r => before_mono (h.times hc r) (by have := hn hc; omega)
  adjs := fun hc r e he => before_mono (h.adjs hc r e he) (by have := hn hc; omega)
  stamp := fun hc => Nat.le_refl _
  pos := fun _ hf => by simp at hf
  fresh := fun _ hf => by simp at hf
  freshA := fun _ hf => by simp at hf
  outs := fun r hr => by simp at hr
  outsA := fun r c j hr => by simp at hr

/-- A full scan is over. -/
theorem MI.over {C : Prop} {full : Bool} {ts T : Nat} {m : Map} {L : List Out}
    (h : MI C full ts T m L) : MI C false ts T m L where
  refs := h.refs
  nodup := h.nodup
  names := h.names
  keys := h.keys
  times := h.times
  adjs := h.adjs
  stamp := h.stamp
  pos := fun _ hf => by simp at hf
  fresh := fun _ hf => by simp at hf
  freshA := fun _ hf => by simp at hf
  outs := h.outs
  outsA := h.outsA

end Verif.Mapper
