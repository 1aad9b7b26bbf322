import Verif.Mapper.Model

/-!
# C118: the reply of the node database
-/

namespace Verif.Mapper

/-! ## Model -/

/-- A line of the reply (mapper.py:1666-1702), its value already converted.
`bad`: a value that cannot be converted; `other`: a line of another form, or
with another key. -/
inductive Line where
  | node (name : String)
  | address (i : Id)
  | owner (s : String)
  | time (t : Nat)
  | loc (s : String)
  | coord (c : Int × Int)
  | current (t : Nat)
  | bad
  | other
  deriving DecidableEq, Repr

/-- The variables of the loop (mapper.py:1660-1661). -/
structure Rec where
  name : Option String := none
  addr : Option Id := none
  owner : Option String := none
  time : Option Nat := none
  loc : Option String := none
  coord : Int × Int := (0, 0)
  deriving DecidableEq, Repr

/-- A run of the update: objects passed to `addnode`, and `upd`. -/
structure Upd where
  cur : Rec := {}
  upd : Option Nat := none
  nodes : List MNode := []
  deriving DecidableEq, Repr

/-- Is the location "scrapped", in whatever case (mapper.py:1678)?  Letters of
ASCII are lowered. -/
def scrapped (s : String) : Bool := s.toLower == "scrapped"

/-- mapper.py:1678-1690 and 1703-1712: the record that has been read, if there
is one.  The second part: the variables are reset (only if a node was made).
`none` is an exception: there is no location, or no address. -/
def Rec.flush (r : Rec) : Option (List MNode × Bool) :=
  match r.name with
  | none => some ([], false)
  | some name =>
    if name = "" then some ([], false)
    else match r.loc with
      | none => none
      | some loc =>
        if scrapped loc then some ([], false)
        else match r.addr with
          | none => none
          | some a => some ([{ id := a, name := name, loc := loc, owner := r.owner, time := r.time
                               latlong := if r.coord = (0, 0) then none else some r.coord }], true)

/-- One line (mapper.py:1662-1702). -/
def Upd.line (u : Upd) : Line → Option Upd
  | .node v => match u.cur.flush with
    | none => none
    | some (ns, reset) => some { u with
        nodes := u.nodes ++ ns
        cur := if reset then { name := some v } else { u.cur with name := some v } }
  | .address i => some { u with cur := { u.cur with addr := some i } }
  | .owner s => some { u with cur := { u.cur with owner := some s } }
  | .time t => some { u with cur := { u.cur with time := some t } }
  | .loc s => some { u with cur := { u.cur with loc := some s } }
  | .coord c => some { u with cur := { u.cur with coord := c } }
  | .current t => some { u with upd := some t }
  | .bad => none
  | .other => some u

/-- mapper.py:1660-1713: the reply up to "Done".  The nodes that are added,
and the new time of the last update, or none if an exception ends it. -/
def Upd.run : List Line → Upd → List MNode × Option Nat
  | [], u => match u.cur.flush with
    | none => (u.nodes, none)
    | some (ns, _) => (u.nodes ++ ns, u.upd)
  | l :: ls, u => match u.line l with
    | none => (u.nodes, none)
    | some u => Upd.run ls u

/-! ## Specification -/

/-- An entry of the database. -/
structure Entry where
  name : String
  addr : Id
  loc : String
  owner : Option String
  time : Option Nat
  coord : Option (Int × Int)
  deriving DecidableEq, Repr

/-- How the server sends it; fields that are not known are not sent. -/
def Entry.lines (e : Entry) : List Line :=
  [.node e.name, .address e.addr] ++ (e.owner.map Line.owner).toList ++ (e.time.map Line.time).toList ++
  [.loc e.loc] ++ (e.coord.map Line.coord).toList

/-- What is to become of it in the map. -/
def Entry.node (e : Entry) : MNode :=
  { id := e.addr, name := e.name, loc := e.loc, owner := e.owner, time := e.time, latlong := e.coord }

/-- Entries that are usable: a name, and coordinates that are not both 0. -/
def Entry.Good (e : Entry) : Prop := e.name ≠ "" ∧ e.coord ≠ some (0, 0)

/-- Everything is known of the entry. -/
def Entry.Complete (e : Entry) : Prop := e.owner ≠ none ∧ e.time ≠ none ∧ e.coord ≠ none

/-- After an entry that is scrapped comes one that is complete, or also
scrapped. -/
def Spaced : List Entry → Prop
  | [] => True
  | e :: es => (scrapped e.loc = true → ∀ f ∈ es.head?, f.Complete ∨ scrapped f.loc = true) ∧ Spaced es

/-! ## Proofs -/

/-- The variables after an entry that was read from a clean state. -/
def Entry.vars (e : Entry) : Rec where
  name := some e.name
  addr := some e.addr
  owner := e.owner
  time := e.time
  loc := some e.loc
  coord := e.coord.getD (0, 0)

theorem flush_good (e : Entry) (h : e.Good) :
    e.vars.flush = if scrapped e.loc then some ([], false) else some ([e.node], true) := by
  simp only [Rec.flush, Entry.vars, if_neg h.1, Entry.node]
  split
  · rfl
  · have : (if e.coord.getD (0, 0) = (0, 0) then none else some (e.coord.getD (0, 0))) = e.coord := by
      cases hc : e.coord with
      | none => rfl
      | some c =>
        have : c ≠ (0, 0) := fun hh => h.2 (by rw [hc, hh])
        simp [this]
    exact congrArg (fun x => some ([({ id := e.addr, name := e.name, loc := e.loc, owner := e.owner, time := e.time, latlong := x } : MNode)], true)) this

theorem run_append (l1 : List Line) : ∀ (l2 : List Line) (u : Upd) (u' : Upd),
    l1.foldl (fun u l => u.bind fun u => u.line l) (some u) = some u' →
    Upd.run (l1 ++ l2) u = Upd.run l2 u' := by
  induction l1 with
  | nil => intro l2 u u' h; cases h; rfl
  | cons l r ih =>
    intro l2 u u' h
    simp only [List.foldl_cons, Option.bind_some] at h
    simp only [List.cons_append, Upd.run]
    cases hl : u.line l with
    | none =>
      rw [hl] at h
      have : ∀ r : List Line, r.foldl (fun (u : Option Upd) l => u.bind fun u => u.line l) none = none := by
        intro r; induction r with
        | nil => rfl
        | cons a q ih => simpa using ih
      rw [this] at h; cases h
    | some v => rw [hl] at h; exact ih l2 v u' h

/-- The rest of an entry, given the variables. -/
theorem entry_rest (e : Entry) (u : Upd) (hcl : e.Complete ∨
    (u.cur.owner = none ∧ u.cur.time = none ∧ u.cur.coord = (0, 0))) (hn : u.cur.name = some e.name) :
    (e.lines.tail).foldl (fun (u : Option Upd) l => u.bind fun u => u.line l) (some u) =
      some { u with cur := e.vars } := by
  obtain ⟨⟨name, addr, owner, time, loc, coord⟩, upd, nodes⟩ := u
  obtain ⟨en, ea, el, eo, et, ec⟩ := e
  simp only at hn hcl
  subst hn
  rcases hcl with ⟨h1, h2, h3⟩ | ⟨h1, h2, h3⟩
  · cases eo with
    | none => exact absurd rfl h1
    | some eo =>
    cases et with
    | none => exact absurd rfl h2
    | some et =>
    cases ec with
    | none => exact absurd rfl h3
    | some ec =>
    simp [Entry.lines, Upd.line, Entry.vars]
  · subst h1 h2 h3
    cases eo <;> cases et <;> cases ec <;> simp [Entry.lines, Upd.line, Entry.vars]

/-- The same for any entry that is scrapped: its location stays. -/
theorem entry_rest_scr (e : Entry) (u : Upd) (hn : u.cur.name = some e.name) :
    ∃ r : Rec, (e.lines.tail).foldl (fun (u : Option Upd) l => u.bind fun u => u.line l) (some u) =
      some { u with cur := r } ∧ r.name = some e.name ∧ r.loc = some e.loc := by
  obtain ⟨⟨name, addr, owner, time, loc, coord⟩, upd, nodes⟩ := u
  obtain ⟨en, ea, el, eo, et, ec⟩ := e
  simp only at hn
  subst hn
  cases eo <;> cases et <;> cases ec <;> simp [Entry.lines, Upd.line]

/-- After an entry: either the variables are those of the entry, or it is
scrapped. -/
def After (e : Entry) (r : Rec) : Prop :=
  r = e.vars ∨ (scrapped e.loc = true ∧ r.name = some e.name ∧ r.loc = some e.loc)

theorem flush_after (e : Entry) (h : e.Good) (r : Rec) (hr : After e r) :
    r.flush = if scrapped e.loc then some ([], false) else some ([e.node], true) := by
  rcases hr with hr | ⟨h1, h2, h3⟩
  · rw [hr]; exact flush_good e h
  · rw [if_pos h1]
    simp only [Rec.flush, h2, if_neg h.1, h3, if_pos h1]

theorem run_entries (es : List Entry) : ∀ (e : Entry) (u : Upd), e.Good → (∀ f ∈ es, f.Good) →
    Spaced (e :: es) → After e u.cur →
    Upd.run (es.flatMap Entry.lines) u =
      (u.nodes ++ ((e :: es).filter fun f => !scrapped f.loc).map Entry.node, u.upd) := by
  induction es with
  | nil =>
    intro e u he _ _ ha
    simp only [List.flatMap_nil, Upd.run, flush_after e he _ ha]
    cases hs : scrapped e.loc <;> simp [hs]
  | cons f r ih =>
    intro e u he hes hsp ha
    have hf := hes f (by simp)
    rw [List.flatMap_cons]
    have hl : f.lines = .node f.name :: f.lines.tail := by
      simp [Entry.lines]
    cases hs : scrapped e.loc with
    | false =>
      have h1 : u.line (.node f.name) = some { u with nodes := u.nodes ++ [e.node], cur := { name := some f.name } } := by
        simp [Upd.line, flush_after e he _ ha, hs]
      have h2 := entry_rest f { u with nodes := u.nodes ++ [e.node], cur := { name := some f.name } }
        (Or.inr ⟨rfl, rfl, rfl⟩) rfl
      rw [run_append f.lines _ u { u with nodes := u.nodes ++ [e.node], cur := f.vars } (by
        rw [hl, List.foldl_cons]
        simp only [Option.bind_some, h1]; exact h2)]
      rw [ih f _ hf (fun g hg => hes g (by simp [hg])) hsp.2 (Or.inl rfl)]
      simp [List.filter_cons, hs]
    | true =>
      have h1 : u.line (.node f.name) = some { u with cur := { u.cur with name := some f.name } } := by
        simp [Upd.line, flush_after e he _ ha, hs]
      have hsp1 := hsp.1 hs f (by simp)
      have : ∃ q : Rec, (f.lines.tail).foldl (fun (u : Option Upd) l => u.bind fun u => u.line l)
          (some { u with cur := { u.cur with name := some f.name } }) = some { u with cur := q } ∧ After f q := by
        rcases hsp1 with hc | hc
        · exact ⟨f.vars, entry_rest f { u with cur := { u.cur with name := some f.name } } (Or.inl hc) rfl, Or.inl rfl⟩
        · obtain ⟨q, hq, h3, h4⟩ := entry_rest_scr f { u with cur := { u.cur with name := some f.name } } rfl
          exact ⟨q, hq, Or.inr ⟨hc, h3, h4⟩⟩
      obtain ⟨q, hq, haq⟩ := this
      rw [run_append f.lines _ u { u with cur := q } (by
        rw [hl, List.foldl_cons]
        simp only [Option.bind_some, h1]; exact hq)]
      rw [ih f _ hf (fun g hg => hes g (by simp [hg])) hsp.2 haq]
      simp [List.filter_cons, hs]

/-- C118.  If every entry that follows a scrapped one is complete (or scrapped
itself), the nodes that are added are the entries of the database that are not
scrapped, each with its own attributes, in order; and the time of the server
is remembered. -/
theorem dbreply_partial (es : List Entry) (now : Nat) (hg : ∀ e ∈ es, e.Good) (hs : Spaced es) :
    Upd.run (.current now :: es.flatMap Entry.lines) {} =
      ((es.filter fun e => !scrapped e.loc).map Entry.node, some now) := by
  rw [Upd.run]
  simp only [Upd.line]
  cases es with
  | nil => rfl
  | cons e r =>
    have hl : e.lines = .node e.name :: e.lines.tail := by simp [Entry.lines]
    rw [List.flatMap_cons]
    have h2 := entry_rest e ({ upd := some now, cur := { name := some e.name } } : Upd) (Or.inr ⟨rfl, rfl, rfl⟩) rfl
    rw [run_append e.lines _ _ { upd := some now, cur := e.vars } (by
      rw [hl, List.foldl_cons]
      exact h2)]
    rw [run_entries r e _ (hg e (by simp)) (fun f hf => hg f (by simp [hf])) hs (Or.inl rfl)]
    simp

/-- C118, what is not so: a node that comes after a scrapped one takes over
what the database does not say of it: here the owner. -/
theorem leftover :
    Upd.run (.current 9 :: ([{ name := "OLD", addr := 1025, loc := "Scrapped", owner := some "Ann", time := none, coord := none },
        { name := "NEW", addr := 1026, loc := "Here", owner := none, time := none, coord := none }] : List Entry).flatMap
          Entry.lines) {} =
      ([{ id := 1026, name := "NEW", loc := "Here", owner := some "Ann" }], some 9) := by
  decide +kernel

/-- C118, what is not so: that the update goes on.  A record without location
ends it: nothing that follows is added, and the time of the last update stays
what it was, so that the next update fails in the same way. -/
theorem no_location_stops (pre : List Entry) (now : Nat) (name : String) (a : Id) (rest : List Line)
    (n2 : String) (hg : ∀ e ∈ pre, e.Good) (hs : ∀ e ∈ pre, scrapped e.loc = false) (hn : name ≠ "") :
    Upd.run (.current now :: (pre.flatMap Entry.lines ++ .node name :: .address a :: .node n2 :: rest)) {} =
      (pre.map Entry.node, none) := by
  have hmain : ∀ (es : List Entry) (e : Entry) (u : Upd), e.Good → scrapped e.loc = false → (∀ f ∈ es, f.Good) →
      (∀ f ∈ es, scrapped f.loc = false) → u.cur = e.vars →
      Upd.run (es.flatMap Entry.lines ++ .node name :: .address a :: .node n2 :: rest) u =
        (u.nodes ++ (e :: es).map Entry.node, none) := by
    intro es
    induction es with
    | nil =>
      intro e u he hse _ _ hu
      simp only [List.flatMap_nil, List.nil_append, Upd.run, Upd.line, hu, flush_good e he, hse,
        Bool.false_eq_true, if_false, if_true]
      simp [Rec.flush, hn]
    | cons f r ih =>
      intro e u he hse hes hss hu
      have hl : f.lines = .node f.name :: f.lines.tail := by simp [Entry.lines]
      rw [List.flatMap_cons, List.append_assoc]
      have h1 : u.line (.node f.name) = some { u with nodes := u.nodes ++ [e.node], cur := { name := some f.name } } := by
        simp [Upd.line, hu, flush_good e he, hse]
      have h2 := entry_rest f { u with nodes := u.nodes ++ [e.node], cur := { name := some f.name } }
        (Or.inr ⟨rfl, rfl, rfl⟩) rfl
      rw [run_append f.lines _ u { u with nodes := u.nodes ++ [e.node], cur := f.vars } (by
        rw [hl, List.foldl_cons]
        simp only [Option.bind_some, h1]; exact h2)]
      rw [ih f _ (hes f (by simp)) (hss f (by simp)) (fun g hg => hes g (by simp [hg]))
        (fun g hg => hss g (by simp [hg])) rfl]
      simp
  rw [Upd.run]
  simp only [Upd.line]
  cases pre with
  | nil =>
    simp only [List.flatMap_nil, List.nil_append, Upd.run, Upd.line]
    simp [Rec.flush, hn]
  | cons e r =>
    have hl : e.lines = .node e.name :: e.lines.tail := by simp [Entry.lines]
    rw [List.flatMap_cons, List.append_assoc]
    have h2 := entry_rest e ({ upd := some now, cur := { name := some e.name } } : Upd) (Or.inr ⟨rfl, rfl, rfl⟩) rfl
    rw [run_append e.lines _ _ { upd := some now, cur := e.vars } (by
      rw [hl, List.foldl_cons]
      exact h2)]
    rw [hmain r e _ (hg e (by simp)) (hs e (by simp)) (fun f hf => hg f (by simp [hf]))
      (fun f hf => hs f (by simp [hf])) rfl]
    simp

/-- A case of the hypotheses. -/
def exEntries : List Entry :=
  [{ name := "A", addr := 1025, loc := "Here", owner := none, time := none, coord := none },
   { name := "B", addr := 1026, loc := "scrapped", owner := none, time := none, coord := none },
   { name := "C", addr := 1027, loc := "There", owner := some "Ann", time := some 5, coord := some (1, 2) }]

example : (∀ e ∈ exEntries, e.Good) ∧ Spaced exEntries ∧ (exEntries.filter fun e => !scrapped e.loc).length = 2 := by
  have h1 : scrapped "Here" = false := by decide +kernel
  have h2 : scrapped "scrapped" = true := by decide +kernel
  have h3 : scrapped "There" = false := by decide +kernel
  refine ⟨?_, ?_, by simp [exEntries, h1, h2, h3]⟩
  · simp [exEntries, Entry.Good]
  · simp [exEntries, Spaced, Entry.Complete, h1, h2, h3]

end Verif.Mapper
