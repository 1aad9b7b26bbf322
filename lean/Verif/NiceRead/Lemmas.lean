import Verif.NiceRead.Spec

/-!
# Actions on the dictionary of replies
-/

namespace Verif.NiceRead

theorem validAddr_iff {a : Nat} : validAddr a = true ↔ Address a := by
  simp only [validAddr, Address, Bool.and_eq_true, decide_eq_true_eq, Bool.or_eq_true, bne_iff_ne, beq_iff_eq]
  omega

/-- The name found for an address. -/
def Db.nameOf (db : Db) (a : Nat) : Str := ((db.find a).map (·.name)).getD []

theorem find_some {db : Db} {a : Nat} {n : Node} (h : db.find a = some n) :
    n ∈ db.byid ∧ n.loop = none ∧ n.addr = a := by
  have h1 := List.mem_of_find?_eq_some h
  have h2 := List.find?_some h
  simp only [Bool.and_eq_true, Option.isNone_iff_eq_none, beq_iff_eq] at h2
  exact ⟨h1, h2.1, h2.2⟩

theorem find_none {db : Db} {a : Nat} : db.find a = none ↔ ∀ n ∈ db.byid, n.loop = none → n.addr ≠ a := by
  simp only [Db.find, List.find?_eq_none, Bool.and_eq_true, Option.isNone_iff_eq_none, beq_iff_eq, not_and]

theorem nameOf_in (db : Db) (a : Nat) : nameIn db a (db.nameOf a) := by
  unfold Db.nameOf nameIn
  cases h : db.find a with
  | none => exact .inr ⟨find_none.1 h, rfl⟩
  | some n =>
    obtain ⟨h1, h2, h3⟩ := find_some h
    exact .inl ⟨n, h1, h2, h3, rfl⟩

theorem find_of_mem {w : World} {db : Db} (g : w.Good db) {n : Node} (hn : n ∈ db.byid) (hl : n.loop = none) :
    db.find n.addr = some n := by
  cases h : db.find n.addr with
  | none => exact absurd rfl (find_none.1 h n hn hl)
  | some m =>
    obtain ⟨h1, h2, h3⟩ := find_some h
    rw [g.unique m h1 n hn h2 hl h3]

theorem nodeinfo_ok (db : Db) {a : Nat} (name : Str) (h : Address a) :
    ∃ n db', db.nodeinfo a name = .ok (n, db') ∧ n.addr = a ∧ n.name = ((db.find a).map (·.name)).getD name ∧
      db'.find a = some n ∧ (∀ b, b ≠ a → db'.find b = db.find b) := by
  unfold Db.nodeinfo
  cases hf : db.find a with
  | some n => exact ⟨n, db, rfl, (find_some hf).2.2, rfl, hf, fun _ _ => rfl⟩
  | none =>
    simp only [validAddr_iff.2 h, ↓reduceIte]
    refine ⟨_, _, rfl, rfl, rfl, ?_, ?_⟩
    · unfold Db.find at hf ⊢
      rw [List.find?_append, hf]
      simp
    · intro b hb
      unfold Db.find
      simp only [List.find?_append]
      cases db.byid.find? (fun n => n.loop.isNone && n.addr == b) with
      | some m => rfl
      | none => simp [Ne.symm hb]

/-- Keys are distinct, and every address but zero has the name it has in `db0`. -/
structure Inv (db0 : Db) (s : St) : Prop where
  keys : (s.resp.map (·.1)).Nodup
  names : ∀ a, a ≠ 0 → s.db.nameOf a = db0.nameOf a

/-- A new record. -/
def fresh (db0 : Db) (k : Nat) : Rec := { addr := k, name := db0.nameOf k }

abbrev Act := Nat × (Option Rec → Option Rec)

def Act.on (k : Nat) (r : Option Rec) (a : Act) : Option Rec := if a.1 = k then a.2 r else r

/-- `s'` is `s` after the actions. -/
def Does (db0 : Db) (acts : List Act) (s s' : St) : Prop :=
  Inv db0 s → Inv db0 s' ∧ ∀ k, s'.resp.get k = acts.foldl (Act.on k) (s.resp.get k)

theorem Does.nil (db0 : Db) (s : St) : Does db0 [] s s := fun h => ⟨h, fun _ => rfl⟩

theorem Does.append {db0 : Db} {as bs : List Act} {s s' s'' : St} (h1 : Does db0 as s s') (h2 : Does db0 bs s' s'') :
    Does db0 (as ++ bs) s s'' := by
  intro i
  obtain ⟨i1, g1⟩ := h1 i
  obtain ⟨i2, g2⟩ := h2 i1
  refine ⟨i2, fun k => ?_⟩
  rw [g2, g1, List.foldl_append]

theorem has_iff {r : Resp} {k : Nat} : r.has k = true ↔ k ∈ r.map (·.1) := by
  simp only [Resp.has, List.any_eq_true, beq_iff_eq, List.mem_map]

theorem get_isSome {r : Resp} {k : Nat} : (r.get k).isSome = r.has k := by
  simp only [Resp.get, Option.isSome_map, Resp.has]
  induction r with
  | nil => rfl
  | cons p r ih =>
    simp only [List.find?_cons, List.any_cons]
    cases h : p.1 == k with
    | true => simp
    | false => simpa using ih

theorem get_upd (r : Resp) (k k' : Nat) (f : Rec → Rec) :
    (r.upd k f).get k' = if k' = k then (r.get k').map f else r.get k' := by
  induction r with
  | nil => simp [Resp.upd, Resp.get]
  | cons p r ih =>
    simp only [Resp.upd, Resp.get, List.map_cons, List.find?_cons] at ih ⊢
    by_cases h1 : p.1 = k
    · by_cases h2 : p.1 = k'
      · simp [← h2, h1]
      · have h3 : ¬k' = k := by omega
        simp only [h1, beq_self_eq_true, ↓reduceIte]
        have : (k == k') = false := by simp; omega
        simp only [this]
        simpa [h3] using ih
    · by_cases h2 : p.1 = k'
      · have h3 : ¬k' = k := by omega
        simp [h2, h3]
      · have : (p.1 == k') = false := by simpa using h2
        have h4 : (p.1 == k) = false := by simpa using h1
        simp only [h4, Bool.false_eq_true, if_false, this]
        exact ih

theorem keys_upd (r : Resp) (k : Nat) (f : Rec → Rec) : (r.upd k f).map (·.1) = r.map (·.1) := by
  simp only [Resp.upd, List.map_map]
  apply List.map_congr_left
  intro p _
  simp only [Function.comp]
  split <;> rfl

theorem get_append (r : Resp) (k k' : Nat) (v : Rec) (h : r.has k = false) :
    Resp.get (r ++ [(k, v)]) k' = if k' = k then some v else r.get k' := by
  simp only [Resp.get, List.find?_append]
  by_cases hk : k' = k
  · subst hk
    have : r.find? (fun p => p.1 == k') = none := by
      simp only [Resp.has, List.any_eq_false] at h
      simpa [List.find?_eq_none] using h
    simp [this]
  · have : (k == k') = false := by simp; omega
    cases hf : r.find? (fun p => p.1 == k') with
    | none => simp [hk, this]
    | some p => simp [hk]

/-- `resp[k]` and setting attributes. -/
theorem set_does (db0 : Db) (s : St) {k : Nat} {nm : Str} {f : Rec → Rec} (hk : Address k)
    (hn : k ≠ 0 → nm = [] ∨ nm = db0.nameOf k)
    (hf : k = 0 → ∀ n n', f { addr := 0, name := n } = f { addr := 0, name := n' }) :
    ∃ s', s.set k nm f = .ok s' ∧ Does db0 [(k, fun r => some (f (r.getD (fresh db0 k))))] s s' := by
  unfold St.set
  cases hh : s.resp.has k with
  | true =>
    refine ⟨_, by simp only [↓reduceIte]; rfl, ?_⟩
    intro i
    refine ⟨⟨?_, i.names⟩, ?_⟩
    · simpa [keys_upd] using i.keys
    · intro k'
      simp only [get_upd, List.foldl_cons, List.foldl_nil, Act.on]
      by_cases h : k' = k
      · subst h
        simp only [↓reduceIte]
        have := get_isSome (r := s.resp) (k := k')
        rw [hh] at this
        obtain ⟨v, hv⟩ := Option.isSome_iff_exists.1 this
        simp [hv]
      · simp [h, Ne.symm h]
  | false =>
    obtain ⟨n, db', h1, h2, h3, h4, h5⟩ := nodeinfo_ok s.db nm hk
    simp only [Bool.false_eq_true, validAddr_iff.2 hk, ↓reduceIte, h1, Except.map]
    refine ⟨_, rfl, ?_⟩
    intro i
    have hname : k ≠ 0 → n.name = db0.nameOf k := by
      intro k0
      have hi := i.names k k0
      rcases hn k0 with h | h
      · rw [h3, h, ← hi]; rfl
      · rw [h3]
        cases hs : s.db.find k with
        | none => simpa using h
        | some m => rw [← hi, Db.nameOf, hs]; rfl
    refine ⟨⟨?_, ?_⟩, ?_⟩
    · simp only [List.map_append, List.map_cons, List.map_nil]
      rw [List.nodup_append]
      refine ⟨i.keys, by simp, ?_⟩
      intro a ha b hb
      simp only [List.mem_singleton] at hb
      subst hb
      intro hab
      subst hab
      have := has_iff.2 ha
      rw [hh] at this
      exact absurd this (by simp)
    · intro a a0
      by_cases hak : a = k
      · subst hak
        show ((db'.find a).map (·.name)).getD [] = _
        rw [h4]
        exact hname a0
      · show ((db'.find a).map (·.name)).getD [] = _
        rw [h5 a hak]
        exact i.names a a0
    · intro k'
      rw [get_append _ _ _ _ hh]
      simp only [List.foldl_cons, List.foldl_nil, Act.on]
      by_cases h : k' = k
      · subst h
        simp only [↓reduceIte]
        have hnone : s.resp.get k' = none := by
          have := get_isSome (r := s.resp) (k := k')
          rw [hh] at this
          simpa using this
        simp only [hnone, Option.getD_none, fresh, h2]
        by_cases k0 : k' = 0
        · subst k0
          rw [hf rfl]
        · rw [hname k0]
      · simp [h, Ne.symm h]

/-- Only the database may grow. -/
theorem grow_does (db0 : Db) (s : St) {a : Nat} (ha : Address a) (a0 : a ≠ 0) :
    ∃ n db', s.db.nodeinfo a = .ok (n, db') ∧ n.addr = a ∧ Does db0 [] s { s with db := db' } := by
  obtain ⟨n, db', h1, h2, h3, h4, h5⟩ := nodeinfo_ok s.db [] ha
  refine ⟨n, db', h1, h2, ?_⟩
  intro i
  refine ⟨⟨i.keys, ?_⟩, fun _ => rfl⟩
  intro b b0
  by_cases hb : b = a
  · subst hb
    show ((db'.find b).map (·.name)).getD [] = _
    rw [h4, Option.map_some, Option.getD_some, h3]
    exact i.names b b0
  · show ((db'.find b).map (·.name)).getD [] = _
    rw [h5 b hb]
    exact i.names b b0

end Verif.NiceRead
