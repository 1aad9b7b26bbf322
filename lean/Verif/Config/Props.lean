import Verif.Config.Lemmas

/-!
# C55: the node name and address tables

Specification: a list of node entries is *consistent* if, whenever an entry shares its address or
its name with an earlier one, it agrees with that one on address and name and repeats every
verification value the earlier one gives.
-/

namespace Verif.Config

/-- Later entry `b` does not contradict earlier entry `a`. -/
def Agrees (a b : Ent) : Prop :=
  (a.id = b.id ∨ a.name = b.name) →
    a.id = b.id ∧ a.name = b.name ∧
    (∀ x, a.outv = some x → b.outv = some x) ∧ (∀ x, a.inv = some x → b.inv = some x)

/-- The state after a history that was accepted entirely. -/
private structure Tables (s : Nodes) (h : List Ent) : Prop where
  names : Best s.names (·.name) h
  ids : Best s.ids (·.id) h
  nd : (s.names.map Prod.fst).Nodup
  pair : h.Pairwise Agrees

private theorem add_ok_iff {s : Nodes} {h : List Ent} (t : Tables s h) (v : Ent) :
    (add s v).2 = true ↔ ∀ a ∈ h, Agrees a v := by
  have key : (∀ a ∈ h, Agrees a v) ↔
      (∀ a ∈ h, a.id = v.id → Keeps a v) ∧ (∀ a ∈ h, a.name = v.name → Keeps a v) := by
    constructor
    · intro g
      exact ⟨fun a ha hi => g a ha (.inl hi), fun a ha hi => g a ha (.inr hi)⟩
    · rintro ⟨g1, g2⟩ a ha (hi | hi)
      · exact g1 a ha hi
      · exact g2 a ha hi
  rw [key, ← t.ids.ok_iff v, ← t.names.ok_iff v, ← setItem_some, ← setItem_some]
  unfold add
  cases h1 : setItem s.ids v.id v with
  | none => simp
  | some d1 => cases h2 : setItem s.names v.name v <;> simp

private theorem add_tables {s : Nodes} {h : List Ent} (t : Tables s h) {v : Ent}
    (hv : (add s v).2 = true) : Tables (add s v).1 (h ++ [v]) := by
  have hag := (add_ok_iff t v).mp hv
  unfold add at hv ⊢
  cases h1 : setItem s.ids v.id v with
  | none => rw [h1] at hv; cases hv
  | some d1 =>
    cases h2 : setItem s.names v.name v with
    | none => rw [h1, h2] at hv; cases hv
    | some d2 =>
      refine ⟨t.names.step h2, t.ids.step h1, setItem_nodup t.nd h2, ?_⟩
      rw [List.pairwise_append]
      exact ⟨t.pair, List.pairwise_singleton _ _, fun a ha b hb => by
        simp at hb; subst hb; exact hag a ha⟩

private theorem scan_false (vs : List Ent) : ∀ s, (scan s false vs).2 = false := by
  induction vs with
  | nil => intro s; rfl
  | cons v vs ih => intro s; simp only [scan, Bool.and_false]; exact ih _

private theorem scan_spec (vs : List Ent) : ∀ {s : Nodes} {h : List Ent}, Tables s h →
    ((scan s true vs).2 = true ↔ (h ++ vs).Pairwise Agrees) ∧
    ((scan s true vs).2 = true → Tables (scan s true vs).1 (h ++ vs)) := by
  induction vs with
  | nil => intro s h t; simp only [scan, List.append_nil]; exact ⟨⟨fun _ => t.pair, fun _ => trivial⟩, fun _ => t⟩
  | cons v vs ih =>
    intro s h t
    simp only [scan, Bool.and_true]
    by_cases hv : (add s v).2 = true
    · rw [hv]
      have := ih (add_tables t hv)
      rw [List.append_assoc] at this
      exact this
    · have hv' : (add s v).2 = false := by simpa using hv
      rw [hv']
      constructor
      · rw [scan_false]
        constructor
        · intro hc; cases hc
        · intro hp
          exfalso
          apply hv
          rw [add_ok_iff t v]
          rw [List.pairwise_append] at hp
          exact fun a ha => hp.2.2 a ha v (by simp)
      · rw [scan_false]; intro hc; cases hc

private theorem tables_empty : Tables ⟨[], []⟩ [] :=
  ⟨fun k => by simp [get], fun k => by simp [get], by simp, .nil⟩

/-- **C55, what is accepted.**  A configuration is accepted exactly if its node entries are
consistent: no entry contradicts an earlier one for the same address or the same name.  In
particular identical repetitions are accepted. -/
theorem accepted_iff (vs : List Ent) :
    (scan ⟨[], []⟩ true vs).2 = true ↔ vs.Pairwise Agrees := by
  have := (scan_spec vs tables_empty).1
  simpa using this

/-- **C55, the tables.**  After an accepted configuration the entry found under a name (an address)
is one of those configured, has that name (address), and keeps every value that any entry gave for
that name (address); a name or address that was not configured is not found; and name and address
tables agree: an address has one name and a name has one address. -/
theorem tables_consistent {vs : List Ent} {s : Nodes} (h : scan ⟨[], []⟩ true vs = (s, true)) :
    (∀ n e, get s.names n = some e → e ∈ vs ∧ e.name = n ∧ ∀ a ∈ vs, a.name = n →
      a.id = e.id ∧ (∀ x, a.outv = some x → e.outv = some x) ∧ (∀ x, a.inv = some x → e.inv = some x)) ∧
    (∀ i e, get s.ids i = some e → e ∈ vs ∧ e.id = i ∧ ∀ a ∈ vs, a.id = i →
      a.name = e.name ∧ (∀ x, a.outv = some x → e.outv = some x) ∧ (∀ x, a.inv = some x → e.inv = some x)) ∧
    (∀ a ∈ vs, (get s.names a.name).isSome ∧ (get s.ids a.id).isSome) ∧
    (∀ a ∈ vs, ∀ b ∈ vs, a.id = b.id ↔ a.name = b.name) := by
  have t := (scan_spec vs tables_empty).2 (by rw [h])
  rw [h] at t
  simp only [List.nil_append] at t
  have hn : ∀ n e, get s.names n = some e → e ∈ vs ∧ e.name = n ∧ ∀ a ∈ vs, a.name = n → Keeps a e := by
    intro n e he
    have := t.names n
    rw [he] at this
    exact this
  have hi : ∀ n e, get s.ids n = some e → e ∈ vs ∧ e.id = n ∧ ∀ a ∈ vs, a.id = n → Keeps a e := by
    intro n e he
    have := t.ids n
    rw [he] at this
    exact this
  have hs1 : ∀ a ∈ vs, ∃ e, get s.names a.name = some e := by
    intro a ha
    cases hg : get s.names a.name with
    | some e => exact ⟨e, rfl⟩
    | none => have := t.names a.name; rw [hg] at this; exact absurd rfl (this a ha)
  have hs2 : ∀ a ∈ vs, ∃ e, get s.ids a.id = some e := by
    intro a ha
    cases hg : get s.ids a.id with
    | some e => exact ⟨e, rfl⟩
    | none => have := t.ids a.id; rw [hg] at this; exact absurd rfl (this a ha)
  refine ⟨?_, ?_, ?_, ?_⟩
  · intro n e he
    obtain ⟨h1, h2, h3⟩ := hn n e he
    exact ⟨h1, h2, fun a ha hk => ⟨(h3 a ha hk).1, (h3 a ha hk).2.2⟩⟩
  · intro n e he
    obtain ⟨h1, h2, h3⟩ := hi n e he
    exact ⟨h1, h2, fun a ha hk => (h3 a ha hk).2⟩
  · intro a ha
    obtain ⟨e, he⟩ := hs1 a ha
    obtain ⟨e', he'⟩ := hs2 a ha
    simp [he, he']
  · intro a ha b hb
    constructor
    · intro hab
      obtain ⟨e, he⟩ := hs2 a ha
      obtain ⟨_, _, h3⟩ := hi _ e he
      exact (h3 a ha rfl).2.1.trans (h3 b hb hab.symm).2.1.symm
    · intro hab
      obtain ⟨e, he⟩ := hs1 a ha
      obtain ⟨_, _, h3⟩ := hn _ e he
      exact (h3 a ha rfl).1.trans (h3 b hb hab.symm).1.symm

/-! ## The node database made from the tables -/

private structure DbOf (d : Db) (l : List Info) : Prop where
  byname : ∀ n, match get d.byname n with
    | none => ∀ i ∈ l, i.name ≠ n
    | some i => i ∈ l ∧ i.name = n
  byid : ∀ n, match get d.byid n with
    | none => ∀ i ∈ l, i.num ≠ n
    | some i => i ∈ l ∧ i.num = n

private theorem foldl_db (area : Nat) (ps : List (String × Ent)) : ∀ (d : Db) (l : List Info), DbOf d l →
    DbOf (ps.foldl (fun d p => addInfo d (mkInfo area p.2)) d) (l ++ ps.map fun p => mkInfo area p.2) := by
  induction ps with
  | nil => intro d l h; simpa using h
  | cons p ps ih =>
    intro d l h
    have hstep : DbOf (addInfo d (mkInfo area p.2)) (l ++ [mkInfo area p.2]) := by
      constructor
      · intro n
        simp only [addInfo, get_put]
        have := h.byname n
        by_cases hn : (mkInfo area p.2).name = n
        · rw [if_pos hn]; exact ⟨by simp, hn⟩
        · rw [if_neg hn]
          cases hg : get d.byname n with
          | none =>
            rw [hg] at this
            intro i hi
            rcases List.mem_append.mp hi with h1 | h1
            · exact this i h1
            · simp at h1; subst h1; exact hn
          | some i => rw [hg] at this; exact ⟨by simp [this.1], this.2⟩
      · intro n
        simp only [addInfo, get_put]
        have := h.byid n
        by_cases hn : (mkInfo area p.2).num = n
        · rw [if_pos hn]; exact ⟨by simp, hn⟩
        · rw [if_neg hn]
          cases hg : get d.byid n with
          | none =>
            rw [hg] at this
            intro i hi
            rcases List.mem_append.mp hi with h1 | h1
            · exact this i h1
            · simp at h1; subst h1; exact hn
          | some i => rw [hg] at this; exact ⟨by simp [this.1], this.2⟩
    have := ih _ _ hstep
    simpa using this

/-- The full claim for the node database: looking up the name of a configured node and looking up
its number give the same entry. -/
def DatabaseConsistent (d : Db) : Prop :=
  (∀ n i, lookupName d n = some i → (lookupId d i.num false).2 = i) ∧
  (∀ n i, get d.byid n = some i → lookupName d i.name = some i)

/-- **C55 for the node database, partial.**  If no two configured nodes get the same number once the
default area is supplied, the database of the running node is consistent: name and number lookups
agree, and every configured node is found under its name.  Missing: without that condition the
claim is false, see `default_area_collision`. -/
theorem database_consistent_partial {vs : List Ent} {s : Nodes} (area : Nat)
    (h : scan ⟨[], []⟩ true vs = (s, true))
    (hc : ∀ a ∈ vs, ∀ b ∈ vs, withArea area a.id = withArea area b.id → a.id = b.id) :
    DatabaseConsistent (build area s) ∧
    ∀ a ∈ vs, ∃ i, lookupName (build area s) a.name = some i ∧ i.num = withArea area a.id := by
  have t := (scan_spec vs tables_empty).2 (by rw [h])
  rw [h] at t
  simp only [List.nil_append] at t
  obtain ⟨c1, _, c3, c4⟩ := tables_consistent h
  have hdb : DbOf (build area s) (s.names.map fun p => mkInfo area p.2) := by
    have := foldl_db area s.names ⟨[], []⟩ [] ⟨fun n => by simp [get], fun n => by simp [get]⟩
    simpa [build] using this
  -- the entries of the table
  have hmem : ∀ i, i ∈ (s.names.map fun p => mkInfo area p.2) →
      ∃ e ∈ vs, get s.names e.name = some e ∧ i = mkInfo area e := by
    intro i hi
    obtain ⟨⟨n, e⟩, hp, rfl⟩ := List.mem_map.mp hi
    have hg := (mem_iff_get t.nd n e).mp hp
    obtain ⟨h1, h2, _⟩ := c1 n e hg
    exact ⟨e, h1, by rw [h2]; exact hg, rfl⟩
  have huniq : ∀ i j, i ∈ (s.names.map fun p => mkInfo area p.2) →
      j ∈ (s.names.map fun p => mkInfo area p.2) → (i.name = j.name ∨ i.num = j.num) → i = j := by
    intro i j hi hj hij
    obtain ⟨e, he, hge, rfl⟩ := hmem i hi
    obtain ⟨f, hf, hgf, rfl⟩ := hmem j hj
    have hname : e.name = f.name := by
      rcases hij with g | g
      · exact g
      · exact (c4 e he f hf).mp (hc e he f hf g)
    rw [hname, hgf] at hge
    injection hge with hge
    rw [hge]
  refine ⟨⟨?_, ?_⟩, ?_⟩
  · intro n i hl
    have h1 := hdb.byname n
    unfold lookupName at hl
    rw [hl] at h1
    have h2 := hdb.byid i.num
    unfold lookupId
    cases hg : get (build area s).byid i.num with
    | none => rw [hg] at h2; exact absurd rfl (h2 i h1.1)
    | some j =>
      rw [hg] at h2
      exact huniq j i h2.1 h1.1 (.inr h2.2)
  · intro n i hl
    have h1 := hdb.byid n
    rw [hl] at h1
    have h2 := hdb.byname i.name
    unfold lookupName
    cases hg : get (build area s).byname i.name with
    | none => rw [hg] at h2; exact absurd rfl (h2 i h1.1)
    | some j =>
      rw [hg] at h2
      rw [huniq j i h2.1 h1.1 (.inl h2.2)]
  · intro a ha
    have h3 := (c3 a ha).1
    obtain ⟨e, he⟩ := Option.isSome_iff_exists.mp h3
    obtain ⟨h4, h5, h6⟩ := c1 _ e he
    have hp := (mem_iff_get t.nd a.name e).mpr he
    have hin : mkInfo area e ∈ (s.names.map fun p => mkInfo area p.2) :=
      List.mem_map.mpr ⟨(a.name, e), hp, rfl⟩
    have h7 := hdb.byname a.name
    unfold lookupName
    cases hg : get (build area s).byname a.name with
    | none => rw [hg] at h7; exact absurd h5 (h7 _ hin)
    | some j =>
      rw [hg] at h7
      have : j = mkInfo area e := huniq j _ h7.1 hin (.inl (h7.2.trans h5.symm))
      exact ⟨j, rfl, by rw [this, (h6 a ha rfl).1]; rfl⟩

/-- **C55 for the node database, own area not needed.**  If all addresses are given with their area
(or the node itself has area 0), the condition of `database_consistent_partial` holds. -/
theorem explicit_areas_suffice {vs : List Ent} (area : Nat)
    (hv : area = 0 ∨ ∀ a ∈ vs, a.id / 1024 ≠ 0) :
    ∀ a ∈ vs, ∀ b ∈ vs, withArea area a.id = withArea area b.id → a.id = b.id := by
  intro a ha b hb hab
  rcases hv with rfl | hv
  · unfold withArea at hab
    split at hab <;> split at hab <;> omega
  · unfold withArea at hab
    rw [if_neg (hv a ha), if_neg (hv b hb)] at hab
    omega

/-- **Finding.**  A configuration with `node 5 FOO` and `node 1.5 BAR` is accepted by a node in area
1, although both names then mean node 1.5: FOO is found by name with number 1.5, but number 1.5 is
BAR. -/
theorem default_area_collision :
    ∃ (vs : List Ent) (s : Nodes), scan ⟨[], []⟩ true vs = (s, true) ∧
      ¬ DatabaseConsistent (build 1 s) ∧
      (lookupName (build 1 s) "FOO").map (·.num) = some 1029 ∧
      (lookupId (build 1 s) 1029 false).2.name = "BAR" := by
  refine ⟨[⟨5, "FOO", none, none⟩, ⟨1029, "BAR", none, none⟩], _, rfl, ?_, rfl, by decide⟩
  intro h
  have := h.1 "FOO" ⟨1029, "FOO", none, none, false⟩ (by decide)
  revert this
  decide

/-- **Finding.**  A loop node with the name of a configured node replaces that node in lookups by
name; no check is made. -/
theorem loop_node_hides_node (d : Db) (n : String) :
    (lookupName (addLoop d n) n).map (·.loop) = some true := by
  simp [lookupName, addLoop, get_put]

/-- Looking up an unknown number returns an entry with that number, and with `add` the same entry is
found again; entries for other numbers are not touched. -/
theorem lookup_unknown (d : Db) (n : Nat) (h : get d.byid n = none) :
    (lookupId d n true).2.num = n ∧
    (lookupId (lookupId d n true).1 n true) = ((lookupId d n true).1, (lookupId d n true).2) ∧
    ∀ m, m ≠ n → get (lookupId d n true).1.byid m = get d.byid m := by
  have h1 : lookupId d n true =
      ({ d with byid := put d.byid n ⟨n, "", none, none, false⟩ }, ⟨n, "", none, none, false⟩) := by
    unfold lookupId; rw [h]; rfl
  rw [h1]
  refine ⟨rfl, ?_, ?_⟩
  · unfold lookupId; simp only [get_put, if_true]
  · intro m hm
    simp only [get_put]
    rw [if_neg (fun e => hm e.symm)]

/-- A verification value may be added later, but not changed or left out. -/
example : (scan ⟨[], []⟩ true
    [⟨1029, "FOO", none, none⟩, ⟨1029, "FOO", some "X", none⟩, ⟨1029, "FOO", some "X", none⟩]).2 = true ∧
  (scan ⟨[], []⟩ true [⟨1029, "FOO", some "X", none⟩, ⟨1029, "FOO", none, none⟩]).2 = false ∧
  (scan ⟨[], []⟩ true [⟨1029, "FOO", none, none⟩, ⟨1030, "FOO", none, none⟩]).2 = false ∧
  (scan ⟨[], []⟩ true [⟨1029, "FOO", none, none⟩, ⟨1029, "BAR", none, none⟩]).2 = false := by decide

end Verif.Config
