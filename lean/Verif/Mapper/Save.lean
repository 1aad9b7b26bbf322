import Verif.Mapper.Spec
import Verif.Mapper.Lemmas

/-!
# C117: the map on disk
-/

namespace Verif.Mapper

/-! ## Model -/

/-- What a file of the map has: data, or the beginning of some. -/
inductive File (α : Type) where
  | data (d : α)
  | part
  deriving DecidableEq, Repr

/-- The files `fn`, `fn.new` and `fn~` (mapper.py:720-736). -/
structure Disk (α : Type) where
  cur : Option (File α)
  new : Option (File α)
  bak : Option (File α)
  deriving DecidableEq, Repr

/-- mapper.py:729-732: the first rename; if there is no file it fails, which is
ignored. -/
def Disk.backup {α : Type} (k : Disk α) : Disk α :=
  match k.cur with
  | none => k
  | some f => { k with cur := none, bak := some f }

/-- mapper.py:720-736 `save`: the state of the disk after each of its steps,
the first being the state before.  A crash leaves one of them.  Operations on
the disk are taken to happen in order (the code does not ask for that: there is
no `fsync`). -/
def Disk.saving {α : Type} (k : Disk α) (d : α) : List (Disk α) :=
  let k1 := { k with new := some .part }
  let k2 := { k1 with new := some (.data d) }
  let k3 := k2.backup
  [k, k1, k2, k3, { k3 with cur := k3.new, new := none }]

/-- `save` to its end (mapper.py:720-736). -/
def Disk.save {α : Type} (k : Disk α) (d : α) : Disk α :=
  let k3 := { k with new := some (.data d) }.backup
  { k3 with cur := k3.new, new := none }

/-- mapper.py:738-745 `load`: `some none` is "null data"; `none` is an
exception of the decoder. -/
def Disk.load {α : Type} (k : Disk α) : Option (Option α) :=
  match k.cur with
  | none => some none
  | some (.data d) => some (some d)
  | some .part => none

/-- Sorting by address (mapper.py:748, `sorted`). -/
def insertBy (e : Id × Nat) : List (Id × Nat) → List (Id × Nat)
  | [] => [e]
  | a :: r => if e.1 ≤ a.1 then e :: a :: r else a :: insertBy e r

/-- The same (mapper.py:748). -/
def sortBy (l : List (Id × Nat)) : List (Id × Nat) := l.foldr insertBy []

/-- mapper.py:747-751 `encode_json`, with mapper.py:635-638: the nodes by
address; the text of JSON is not modelled, and addresses stand for what is
written of them. -/
def Map.encode (m : Map) : List MNode := (sortBy m.nodes).map fun e => m.obj e.2

/-- mapper.py:601-608 `decode_neighbors`. -/
def decodeAdj (l : List ((String × Id) × Item)) : List ((String × Id) × Item) :=
  l.foldl (fun d e => put d e.1 e.2) []

/-- mapper.py:757-769, one node. -/
def Map.loadNode (m : Map) (n : MNode) : Map where
  obj := fun k => if k = m.next then { n with adj := decodeAdj n.adj } else m.obj k
  next := m.next + 1
  nodes := put m.nodes n.id m.next
  names := put m.names n.name m.next

/-- mapper.py:753-772 `decode_json`. -/
def Map.decode (l : List MNode) : Map :=
  l.foldl Map.loadNode { obj := fun _ => { id := 0, name := "" }, next := 0, nodes := [], names := [] }

/-! ## Crashes -/

/-- C117.  At whatever point a save is interrupted, what is loaded afterwards
is what was there or what was to be saved; or it is between the two renames,
and then the two are in the other files. -/
theorem save_crash_partial {α : Type} (k : Disk α) (d0 d : α) (h : k.cur = some (.data d0))
    (x : Disk α) (hx : x ∈ k.saving d) :
    x.load = some (some d0) ∨ x.load = some (some d) ∨
    (x.load = some none ∧ x.bak = some (.data d0) ∧ x.new = some (.data d)) := by
  simp only [Disk.saving, Disk.backup, h, List.mem_cons, List.not_mem_nil, or_false] at hx
  rcases hx with rfl | rfl | rfl | rfl | rfl
  · left; simp [Disk.load, h]
  · left; simp [Disk.load]
  · left; simp [Disk.load]
  · right; right; simp [Disk.load]
  · right; left; simp [Disk.load]

/-- What a save that is not interrupted leaves. -/
theorem save_load {α : Type} (k : Disk α) (d : α) :
    (k.save d).load = some (some d) ∧ (∀ f, k.cur = some f → (k.save d).bak = some f) ∧
    k.save d ∈ k.saving d := by
  refine ⟨?_, ?_, ?_⟩
  · simp only [Disk.save, Disk.backup, Disk.load]
    cases k.cur <;> rfl
  · intro f hf
    simp [Disk.save, Disk.backup, hf]
  · simp [Disk.saving, Disk.save]

/-- C117, what is not so: that a crash loses nothing.  Between the two renames
there is no current file; the mapper starts with nothing, and after its second
save the old data are in no file. -/
theorem save_crash_loses {α : Type} (k : Disk α) (d0 d d1 d2 : α) (h : k.cur = some (.data d0)) :
    ∃ x ∈ k.saving d, x.load = some none ∧
      (x.save d1).cur = some (.data d1) ∧ (x.save d1).bak = some (.data d0) ∧
      ((x.save d1).save d2) = { cur := some (.data d2), new := none, bak := some (.data d1) } := by
  refine ⟨{ cur := none, new := some (.data d), bak := some (.data d0) }, ?_, rfl, ?_, ?_, ?_⟩
  · simp [Disk.saving, Disk.backup, h]
  · simp [Disk.save, Disk.backup]
  · simp [Disk.save, Disk.backup]
  · simp [Disk.save, Disk.backup]

example : ({ cur := some (.data 1), new := none, bak := none } : Disk Nat).load = some (some 1) := rfl

/-! ## What is loaded is what was saved -/

theorem insertBy_perm (e : Id × Nat) (l : List (Id × Nat)) : (insertBy e l).Perm (e :: l) := by
  induction l with
  | nil => exact List.Perm.refl _
  | cons a r ih =>
    simp only [insertBy]
    split
    · exact List.Perm.refl _
    · exact (List.Perm.cons a ih).trans (List.Perm.swap e a r)

theorem sortBy_perm (l : List (Id × Nat)) : (sortBy l).Perm l := by
  induction l with
  | nil => exact List.Perm.refl _
  | cons a r ih =>
    simp only [sortBy, List.foldr_cons]
    exact (insertBy_perm a _).trans (List.Perm.cons a ih)

theorem put_new {α β : Type} [DecidableEq α] {d : List (α × β)} {k : α} {v : β}
    (h : k ∉ d.map Prod.fst) : put d k v = d ++ [(k, v)] := by
  induction d with
  | nil => rfl
  | cons a r ih =>
    obtain ⟨a, b⟩ := a
    simp only [List.map_cons, List.mem_cons, not_or] at h
    simp only [put, if_neg (Ne.symm h.1), List.cons_append, ih h.2]

theorem decodeAdj_id (l : List ((String × Id) × Item)) (h : (l.map Prod.fst).Nodup) :
    decodeAdj l = l := by
  have : ∀ (l d : List ((String × Id) × Item)), ((d ++ l).map Prod.fst).Nodup →
      l.foldl (fun d e => put d e.1 e.2) d = d ++ l := by
    intro l
    induction l with
    | nil => intro d _; simp
    | cons e r ih =>
      intro d hd
      rw [List.foldl_cons]
      have hne : e.1 ∉ d.map Prod.fst := by
        rw [List.map_append, List.nodup_append] at hd
        intro hh
        exact hd.2.2 e.1 hh e.1 (by simp) rfl
      rw [put_new hne, ih]
      · simp
      · simpa using hd
  exact this l [] h

/-- What loading a list of nodes makes. -/
theorem decode_spec (l : List MNode) (hid : (l.map MNode.id).Nodup)
    (hk : ∀ n ∈ l, (n.adj.map Prod.fst).Nodup) (m : Map)
    (hm : ∀ i ∈ m.nodes.map Prod.fst, i ∉ l.map MNode.id) :
    let m' := l.foldl Map.loadNode m
    m'.next = m.next + l.length ∧
    m'.nodes = m.nodes ++ (l.map MNode.id).zip (List.range' m.next l.length) ∧
    (∀ k, k < m.next → m'.obj k = m.obj k) ∧
    (∀ j (hj : j < l.length), m'.obj (m.next + j) = l[j]) ∧
    (∀ k, m.next + l.length ≤ k → m'.obj k = m.obj k) := by
  induction l generalizing m with
  | nil => simp
  | cons n r ih =>
    simp only [List.map_cons, List.nodup_cons] at hid
    have hadj : decodeAdj n.adj = n.adj := decodeAdj_id _ (hk n (by simp))
    have hnew : n.id ∉ m.nodes.map Prod.fst := fun hh => hm n.id hh (by simp)
    have hnodes : (m.loadNode n).nodes = m.nodes ++ [(n.id, m.next)] := by
      simp only [Map.loadNode]; exact put_new hnew
    obtain ⟨i1, i2, i3, i4, i5⟩ := ih hid.2 (fun x hx => hk x (by simp [hx])) (m.loadNode n) (by
      intro i hi
      rw [hnodes] at hi
      simp only [List.map_append, List.map_cons, List.map_nil, List.mem_append, List.mem_singleton] at hi
      rcases hi with hi | hi
      · exact fun hh => hm i hi (by simp [hh])
      · rw [hi]; exact hid.1)
    have hnx : (m.loadNode n).next = m.next + 1 := rfl
    simp only [List.foldl_cons]
    refine ⟨?_, ?_, ?_, ?_, ?_⟩
    · rw [i1, hnx, List.length_cons]; omega
    · rw [i2, hnodes, hnx, List.length_cons, List.range'_succ]
      simp
    · intro k hlt
      rw [i3 k (by rw [hnx]; omega)]
      have : ¬ k = m.next := by omega
      simp only [Map.loadNode, if_neg this]
    · intro j hj
      cases j with
      | zero =>
        rw [Nat.add_zero, i3 m.next (by rw [hnx]; omega)]
        simp only [Map.loadNode, if_true, hadj, List.getElem_cons_zero]
      | succ j =>
        have := i4 j (by simp only [List.length_cons] at hj; omega)
        rw [hnx] at this
        rw [show m.next + (j + 1) = m.next + 1 + j by omega, this]
        rfl
    · intro k hk
      rw [List.length_cons] at hk
      rw [i5 k (by rw [hnx]; omega)]
      have : ¬ k = m.next := by omega
      simp only [Map.loadNode, if_neg this]

theorem mem_zip_range {α : Type} (l : List α) (s : Nat) (x : α) (r : Nat) :
    (x, r) ∈ l.zip (List.range' s l.length) ↔ ∃ j, ∃ h : j < l.length, r = s + j ∧ l[j] = x := by
  induction l generalizing s with
  | nil => simp
  | cons a q ih =>
    have e0 : (a :: q).zip (List.range' s (a :: q).length) = (a, s) :: q.zip (List.range' (s + 1) q.length) := by
      rw [List.length_cons, List.range'_succ, List.zip_cons_cons]
    rw [e0, List.mem_cons, ih]
    constructor
    · rintro (h | ⟨j, h, h1, h2⟩)
      · cases h; exact ⟨0, by simp, by simp, rfl⟩
      · exact ⟨j + 1, by simp; omega, by omega, h2⟩
    · rintro ⟨j, h, h1, h2⟩
      cases j with
      | zero => left; simp at h1 h2; rw [h1, h2]
      | succ j => right; exact ⟨j, by simp at h; omega, by omega, h2⟩

/-- C117.  Loading what was saved gives every node with all that is known of
it, and no others; and a map fit to start with. -/
theorem load_save (t : Nat) (m : Map) (h : m.Loaded t) :
    (∀ i, (get (Map.decode m.encode).nodes i).map (Map.decode m.encode).obj = (get m.nodes i).map m.obj) ∧
    (Map.decode m.encode).Loaded t := by
  have hperm := sortBy_perm m.nodes
  have hmem : ∀ e, e ∈ sortBy m.nodes ↔ e ∈ m.nodes := fun e => hperm.mem_iff
  have hids : (m.encode.map MNode.id) = (sortBy m.nodes).map Prod.fst := by
    unfold Map.encode
    rw [List.map_map]
    apply List.map_congr_left
    intro e he
    exact (h.refs e.1 e.2 ((hmem e).1 he)).2
  have hnd : (m.encode.map MNode.id).Nodup := by
    rw [hids]
    exact ((hperm.map Prod.fst).nodup_iff).2 h.nodup
  obtain ⟨d1, d2, d3, d4, d5⟩ := decode_spec m.encode hnd (by
      intro n hn
      obtain ⟨e, _, rfl⟩ := List.mem_map.1 hn
      exact h.keys e.2)
    { obj := fun _ => { id := 0, name := "" }, next := 0, nodes := [], names := [] } (by simp)
  change (Map.decode m.encode).next = _ at d1
  change (Map.decode m.encode).nodes = _ at d2
  simp only [Nat.zero_add, List.nil_append] at d1 d2 d4 d5
  have hlen : m.encode.length = (m.encode.map MNode.id).length := by simp
  have hin : ∀ i r, (i, r) ∈ (Map.decode m.encode).nodes ↔
      ∃ hj : r < m.encode.length, (m.encode[r]).id = i := by
    intro i r
    have e0 : (m.encode.map MNode.id).zip (List.range' 0 m.encode.length) =
        (m.encode.map MNode.id).zip (List.range' 0 (m.encode.map MNode.id).length) := by
      rw [← hlen]
    rw [d2, e0, mem_zip_range]
    constructor
    · rintro ⟨j, hj, h1, h2⟩
      have : r = j := by omega
      subst this
      exact ⟨by simpa using hj, by simpa using h2⟩
    · rintro ⟨hj, h2⟩
      exact ⟨r, by simpa using hj, by omega, by simpa using h2⟩
  have hobj : ∀ r (hr : r < m.encode.length), (Map.decode m.encode).obj r = m.encode[r] := d4
  have hnodup : ((Map.decode m.encode).nodes.map Prod.fst).Nodup := by
    rw [d2]
    have : ((m.encode.map MNode.id).zip (List.range' 0 m.encode.length)).map Prod.fst = m.encode.map MNode.id := by
      rw [List.map_fst_zip]; simp
    rw [this]; exact hnd
  have henc : ∀ r (hr : r < m.encode.length), ∃ e ∈ m.nodes, m.encode[r] = m.obj e.2 ∧ (m.encode[r]).id = e.1 := by
    intro r hr
    have : m.encode[r] ∈ m.encode := List.getElem_mem hr
    obtain ⟨e, he, heq⟩ := List.mem_map.1 this
    have he' := (hmem e).1 he
    exact ⟨e, he', heq.symm, by rw [← heq]; exact (h.refs e.1 e.2 he').2⟩
  have hpast : ∀ r, ¬ r < m.encode.length → (Map.decode m.encode).obj r = { id := 0, name := "" } := by
    intro r hr
    exact d5 r (by omega)
  refine ⟨?_, ?_, hnodup, ?_, ?_, ?_, ?_⟩
  · intro i
    cases hg : get m.nodes i with
    | none =>
      have : get (Map.decode m.encode).nodes i = none := by
        rw [get_none]
        rw [get_none] at hg
        intro hh
        obtain ⟨⟨a, r⟩, he, rfl⟩ := List.mem_map.1 hh
        obtain ⟨hr, hid⟩ := (hin a r).1 he
        obtain ⟨e, he1, _, he3⟩ := henc r hr
        exact hg (List.mem_map.2 ⟨e, he1, by rw [← he3, hid]⟩)
      rw [this]; rfl
    | some r =>
      have hm := get_mem hg
      have : m.obj r ∈ m.encode := List.mem_map.2 ⟨(i, r), (hmem _).2 hm, rfl⟩
      obtain ⟨j, hj, hje⟩ := List.getElem_of_mem this
      have hget : get (Map.decode m.encode).nodes i = some j :=
        get_of_mem hnodup ((hin i j).2 ⟨hj, by rw [hje]; exact (h.refs i r hm).2⟩)
      rw [hget]
      simp only [Option.map_some, hobj j hj, hje]
  · intro i r hi
    obtain ⟨hr, hid⟩ := (hin i r).1 hi
    exact ⟨by rw [d1]; exact hr, by rw [hobj r hr]; exact hid⟩
  · have : ∀ (l : List MNode) (m : Map), (∀ n r, (n, r) ∈ m.names → r < m.next) →
        ∀ n r, (n, r) ∈ (l.foldl Map.loadNode m).names → r < (l.foldl Map.loadNode m).next := by
      intro l
      induction l with
      | nil => intro m hm; exact hm
      | cons a q ih =>
        intro m hm
        refine ih (m.loadNode a) ?_
        intro n r hr
        rcases put_mem hr with hr | hr
        · have := hm n r hr; simp only [Map.loadNode]; omega
        · cases hr; simp only [Map.loadNode]; omega
    exact this m.encode _ (by simp)
  · intro r
    by_cases hr : r < m.encode.length
    · rw [hobj r hr]
      obtain ⟨e, _, he, _⟩ := henc r hr
      rw [he]; exact h.times e.2
    · rw [hpast r hr]; exact ⟨Nat.zero_le _, Nat.zero_le _, Nat.zero_le _⟩
  · intro r a ha
    by_cases hr : r < m.encode.length
    · rw [hobj r hr] at ha
      obtain ⟨e, _, he, _⟩ := henc r hr
      rw [he] at ha; exact h.adjs e.2 a ha
    · rw [hpast r hr] at ha; simp at ha
  · intro r
    by_cases hr : r < m.encode.length
    · rw [hobj r hr]
      obtain ⟨e, _, he, _⟩ := henc r hr
      rw [he]; exact h.keys e.2
    · rw [hpast r hr]; simp

/-- A case: two nodes, one with a neighbour. -/
def exMap : Map where
  obj := fun k => if k = 0 then { id := 1026, name := "B", it := { seen := 3, up := 3 } }
    else { id := 1025, name := "A", adj := [(("C", 1026), { seen := 3, up := 2 })] }
  next := 2
  nodes := [(1026, 0), (1025, 1)]
  names := []

example : exMap.Loaded 5 where
  refs := by intro i r h; simp only [exMap, List.mem_cons, Prod.mk.injEq, List.not_mem_nil, or_false] at h
             rcases h with ⟨rfl, rfl⟩ | ⟨rfl, rfl⟩ <;> simp [exMap]
  nodup := by decide
  names := by intro n r h; simp [exMap] at h
  times := by intro r; simp only [exMap]; split <;> simp [Item.Before]
  adjs := by intro r e; simp only [exMap]; split <;> simp [Item.Before]
             intro h; simp [h]
  keys := by intro r; simp only [exMap]; split <;> simp

example : (Map.decode exMap.encode).nodes = [(1025, 0), (1026, 1)] := by decide

end Verif.Mapper
