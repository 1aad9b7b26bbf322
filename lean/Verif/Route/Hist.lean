import Verif.Route.Lemmas

/-!
# The routing tables over a whole history

Specification: what the neighbours have offered, read off the history of events.
-/
namespace Verif.Route

/-! ## Specification -/

/-- The adjacencies which are up after a history (latest event first). -/
def upOf : List Ev → Nat → Option AdjInfo
  | [], _ => none
  | .up a :: h, k => if a.key = k then some a else upOf h k
  | .down a :: h, k => if a.key = k then none else upOf h k
  | .msg1 _ _ :: h, k => upOf h k
  | .msg2 _ _ :: h, k => upOf h k

/-- The last value a message gives for a destination. -/
def lastEntry (i : Nat) : List (Nat × Nat × Nat) → Option (Nat × Nat)
  | [] => none
  | (k, v) :: es => (lastEntry i es).or (if k = i then some v else none)

/-- What neighbour `k` has said about destination `i` since its adjacency came up: level 1
(only messages from our own area count) and level 2. -/
def said (l2 : Bool) (area : Nat) : List Ev → Nat → Nat → Nat × Nat
  | [], _, _ => (INFHOPS, INFCOST)
  | .up a :: h, k, i => if a.key = k then (INFHOPS, INFCOST) else said l2 area h k i
  | .down _ :: h, k, i => said l2 area h k i
  | .msg1 a es :: h, k, i =>
    if l2 = false ∧ a.key = k ∧ a.area = area then (lastEntry i es).getD (said l2 area h k i)
    else said l2 area h k i
  | .msg2 a es :: h, k, i =>
    if l2 = true ∧ a.key = k then (lastEntry i es).getD (said l2 area h k i)
    else said l2 area h k i

/-- The end node adjacency last heard of for an address, if that was that it came up. -/
def endOf : List Ev → Nat → Option AdjInfo
  | [], _ => none
  | .up a :: h, i => if a.ntype = .other ∧ a.tid = i then some a else endOf h i
  | .down a :: h, i => if a.ntype = .other ∧ a.tid = i then none else endOf h i
  | .msg1 _ _ :: h, i => endOf h i
  | .msg2 _ _ :: h, i => endOf h i

/-- Histories a router can see: adjacencies come up when they are not, go down and send messages when
they are up, circuits have a cost of at least one (config.py), and area zero is not in level 2
messages (`Verif.Route.level2_ids`). -/
def Valid : List Ev → Prop
  | [] => True
  | .up a :: h => upOf h a.key = none ∧ 1 ≤ a.cost ∧ Valid h
  | .down a :: h => upOf h a.key = some a ∧ Valid h
  | .msg1 a es :: h => upOf h a.key = some a ∧ (∀ e ∈ es, 1 ≤ e.2.2) ∧ Valid h
  | .msg2 a es :: h => upOf h a.key = some a ∧ (∀ e ∈ es, 1 ≤ e.1 ∧ 1 ≤ e.2.2) ∧ Valid h

/-- A router of our area. -/
def Router1 (c : Cfg) (a : AdjInfo) : Prop := (a.ntype = .l1 ∨ a.ntype = .l2) ∧ a.area = c.area

instance (c a) : Decidable (Router1 c a) := by unfold Router1; infer_instance

/-- The offers for a node of our own area (or for "the nearest level 2 router", 0). -/
inductive Offers1 (c : Cfg) (h : List Ev) (attached : Bool) (i : Nat) : Adj → Nat → Nat → Prop
  | own : i = c.tid → Offers1 c h attached i .self 0 0
  | nearest : attached = true → i = 0 → Offers1 c h attached i .self 0 0
  | endnode (a : AdjInfo) : endOf h i = some a → Offers1 c h attached i (.nbr a.key) 1 a.cost
  | router (a : AdjInfo) : upOf h a.key = some a → Router1 c a →
      Offers1 c h attached i (.nbr a.key) (said false c.area h a.key i).1 (said false c.area h a.key i).2

/-- The offers for an area. -/
inductive Offers2 (c : Cfg) (h : List Ev) (i : Nat) : Adj → Nat → Nat → Prop
  | own : i = c.area → Offers2 c h i .self 0 0
  | router (a : AdjInfo) : upOf h a.key = some a → a.ntype = .l2 →
      Offers2 c h i (.nbr a.key) (said true c.area h a.key i).1 (said true c.area h a.key i).2

/-- A table entry is right for a set of offers. -/
structure Selected (lim : Lim) (offers : Adj → Nat → Nat → Prop) (b : Best) : Prop where
  /-- an output is one of the offers, within the limits, and none is cheaper -/
  reach : ∀ a, b.adj = some a → offers a b.hops b.cost ∧ b.cost ≤ lim.maxcost ∧ b.hops ≤ lim.maxhops ∧
    ∀ a' h' c', offers a' h' c' → b.cost ≤ c'
  /-- no output: infinite, and every offer exceeds the cost limit or a cheapest one exceeds the hop limit -/
  unreach : b.adj = none → b.hops = INFHOPS ∧ b.cost = INFCOST ∧
    ((∀ a' h' c', offers a' h' c' → lim.maxcost < c') ∨
     ∃ a' h' c', offers a' h' c' ∧ lim.maxhops < h' ∧ ∀ a'' h'' c'', offers a'' h'' c'' → c' ≤ c'')

def run (c : Cfg) : List Ev → Option Router
  | [] => some (init c)
  | e :: h => (run c h).bind (·.step e)

/-! ## Decision against offers -/

theorem selected_of {lim : Lim} {cols : List Col} {offers : Adj → Nat → Nat → Prop} (hw : WfCols cols)
    (hm : lim.maxcost < INFCOST)
    (h1 : ∀ c ∈ cols, ∀ a, c.adj = some a → c.cost < INFCOST → offers a c.hops c.cost)
    (h2 : ∀ a h c, offers a h c → c < INFCOST → ⟨h, c, some a⟩ ∈ cols) :
    Selected lim offers (decision lim cols) := by
  rcases decision_eq hw hm with ⟨c, hc, hcost, hhops, e⟩ | ⟨hn, e⟩
  · rw [e]
    have hadj := hw c hc.mem (by omega)
    constructor
    · intro a ha
      refine ⟨h1 c hc.mem a ha (by omega), hcost, hhops, ?_⟩
      intro a' h' c' ho
      by_cases hlt : c' < INFCOST
      · exact hc.le _ (h2 _ _ _ ho hlt)
      · simp only [Col.best]; omega
    · intro ha; exact absurd ha hadj
  · rw [e]
    refine ⟨fun a ha => by simp [unreachable] at ha, fun _ => ⟨rfl, rfl, ?_⟩⟩
    by_cases hex : ∀ a' h' c', offers a' h' c' → lim.maxcost < c'
    · exact Or.inl hex
    · right
      have : ∃ a' h' c', offers a' h' c' ∧ c' ≤ lim.maxcost := by
        apply Classical.byContradiction
        intro hcon
        apply hex
        intro a' h' c' ho
        apply Classical.byContradiction
        intro hlt
        exact hcon ⟨a', h', c', ho, by omega⟩
      obtain ⟨a', h', c', ho, hle⟩ := this
      have hmem := h2 a' h' c' ho (by omega)
      obtain ⟨d, hd⟩ := FirstMin.exists (List.ne_nil_of_mem hmem)
      have hdle := hd.le _ hmem
      simp only at hdle
      rcases hn d hd with hgt | hgt
      · omega
      · cases hda : d.adj with
        | none => exact absurd hda (hw d hd.mem (by omega))
        | some x =>
          refine ⟨x, d.hops, d.cost, h1 d hd.mem x hda (by omega), hgt, ?_⟩
          intro a'' h'' c'' ho''
          by_cases hlt : c'' < INFCOST
          · exact hd.le _ (h2 _ _ _ ho'' hlt)
          · omega

/-! ## Dictionaries, continued -/

def keys {V} (l : List (Adj × V)) : List Adj := l.map (·.1)

theorem keys_dput {V} (l : List (Adj × V)) (k : Adj) (v : V) :
    keys (dput l k v) = if k ∈ keys l then keys l else keys l ++ [k] := by
  induction l with
  | nil => simp [keys, dput]
  | cons p l ih =>
    obtain ⟨a, x⟩ := p
    simp only [dput]
    by_cases ha : a = k
    · rw [if_pos ha, if_pos (by simp [keys, ha])]
      simp [keys]
    · rw [if_neg ha]
      have : (k ∈ keys ((a, x) :: l)) ↔ k ∈ keys l := by
        simp only [keys, List.map_cons, List.mem_cons]
        constructor
        · rintro (h | h)
          · exact absurd h.symm ha
          · exact h
        · exact Or.inr
      have e : ∀ m : List (Adj × V), keys ((a, x) :: m) = a :: keys m := fun m => rfl
      rw [e, ih]
      by_cases hk : k ∈ keys l
      · rw [if_pos hk, if_pos (this.2 hk), e]
      · rw [if_neg hk, if_neg (fun h => hk (this.1 h)), e]; rfl

theorem nodup_dput {V} {l : List (Adj × V)} (h : (keys l).Nodup) (k : Adj) (v : V) :
    (keys (dput l k v)).Nodup := by
  rw [keys_dput]
  by_cases hk : k ∈ keys l
  · rw [if_pos hk]; exact h
  · rw [if_neg hk]
    rw [List.nodup_append]
    refine ⟨h, by simp, ?_⟩
    intro a ha b hb
    simp only [List.mem_singleton] at hb
    subst hb
    intro e
    exact hk (e ▸ ha)

theorem nodup_ddel {V} {l : List (Adj × V)} (h : (keys l).Nodup) (k : Adj) : (keys (ddel l k)).Nodup := by
  unfold keys ddel
  exact h.sublist (List.filter_sublist.map _)

theorem lookup_of_mem {V} {l : List (Adj × V)} (h : (keys l).Nodup) {k : Adj} {v : V} (hm : (k, v) ∈ l) :
    l.lookup k = some v := by
  induction l with
  | nil => simp at hm
  | cons p l ih =>
    obtain ⟨a, x⟩ := p
    simp only [keys, List.map_cons, List.nodup_cons] at h
    simp only [List.mem_cons] at hm
    rcases hm with hm | hm
    · cases hm; simp
    · have hne : k ≠ a := by
        rintro rfl
        exact h.1 (List.mem_map_of_mem hm)
      rw [List.lookup_cons]
      have : (k == a) = false := by simpa using hne
      rw [this]
      exact ih h.2 hm

theorem mem_of_lookup {V} {l : List (Adj × V)} {k : Adj} {v : V} (h : l.lookup k = some v) : (k, v) ∈ l := by
  induction l with
  | nil => simp at h
  | cons p l ih =>
    obtain ⟨a, x⟩ := p
    rw [List.lookup_cons] at h
    by_cases hk : k = a
    · subst hk
      simp at h
      simp [h]
    · have : (k == a) = false := by simpa using hk
      rw [this] at h
      simp [ih h]

theorem lookup_ddel_self {V} (l : List (Adj × V)) (k : Adj) : (ddel l k).lookup k = none := by
  cases h : (ddel l k).lookup k with
  | none => rfl
  | some v =>
    exfalso
    have := mem_of_lookup h
    unfold ddel at this
    simp at this

/-! ## Levels -/

/-- The part of the table from `lo` to `n` is what the decision process says, apart from the entry
`own`, which may still be the one set up at the start. -/
def Current (L : Level) (lim : Lim) (lo n own : Nat) : Prop :=
  ∀ i, lo ≤ i → i ≤ n → L.tbl i = decision lim (L.columns i) ∨
    (i = own ∧ L.tbl i = ⟨INFHOPS, INFCOST, some .self⟩)

def EndsWf (L : Level) : Prop := ∀ i, (L.ends i).cost < INFCOST → (L.ends i).adj ≠ none

theorem EndsWf.cols {L : Level} (h : EndsWf L) (i : Nat) : WfCols (L.columns i) := by
  intro c hc hlt
  unfold Level.columns at hc
  simp only [List.mem_append, List.mem_map] at hc
  rcases hc with hc | ⟨p, _, rfl⟩
  · split at hc
    · simp only [List.mem_singleton] at hc; subst hc; exact h i hlt
    · simp at hc
  · simp

@[simp] theorem route_columns (L : Level) (lim : Lim) (s e i : Nat) :
    (L.route lim s e).columns i = L.columns i := rfl

theorem Current.route {L : Level} {lim : Lim} {lo n own : Nat} (h : Current L lim lo n own) (s e : Nat) :
    Current (L.route lim s e) lim lo n own := by
  intro i h1 h2
  rw [route_columns]
  simp only [Level.route]
  by_cases hi : s ≤ i ∧ i ≤ e
  · rw [if_pos hi]; exact Or.inl rfl
  · rw [if_neg hi]; exact h i h1 h2

theorem Current.routeAll (L : Level) (lim : Lim) (lo n own : Nat) :
    Current (L.route lim lo n) lim lo n own := by
  intro i h1 h2
  rw [route_columns]
  simp only [Level.route]
  rw [if_pos ⟨h1, h2⟩]; exact Or.inl rfl

/-- Changing columns only matters at the indices where it is followed by a decision. -/
theorem Current.change {L L' : Level} {lim : Lim} {lo n own : Nat} (h : Current L lim lo n own)
    (hm : lim.maxcost < INFCOST)
    (hw : EndsWf L) (hw' : EndsWf L') (ht : L'.tbl = L.tbl) (s e : Nat)
    (hc : ∀ i, ¬ (s ≤ i ∧ i ≤ e) → (L'.columns i).filter (·.cost < INFCOST) = (L.columns i).filter (·.cost < INFCOST)) :
    Current (L'.route lim s e) lim lo n own := by
  intro i h1 h2
  rw [route_columns]
  simp only [Level.route]
  by_cases hi : s ≤ i ∧ i ≤ e
  · rw [if_pos hi]; exact Or.inl rfl
  · rw [if_neg hi, ht, decision_congr (hw'.cols i) (hw.cols i) hm (hc i hi)]
    exact h i h1 h2

theorem Current.change' {L L' : Level} {lim : Lim} {lo n own : Nat} (h : Current L lim lo n own)
    (hm : lim.maxcost < INFCOST)
    (hw : EndsWf L) (hw' : EndsWf L') (ht : L'.tbl = L.tbl)
    (hc : ∀ i, (L'.columns i).filter (·.cost < INFCOST) = (L.columns i).filter (·.cost < INFCOST)) :
    Current L' lim lo n own := by
  intro i h1 h2
  rw [ht, decision_congr (hw'.cols i) (hw.cols i) hm (hc i)]
  exact h i h1 h2

theorem filter_columns_dput {L : Level} {k : Adj} {v : Vec} {i : Nat}
    (h : (L.cols.lookup k).elim (INFCOST ≤ (v i).2) (fun w => w i = v i)) :
    (({ L with cols := dput L.cols k v } : Level).columns i).filter (·.cost < INFCOST) =
      (L.columns i).filter (·.cost < INFCOST) := by
  unfold Level.columns
  simp only [List.filter_append]
  rw [offers_dput h]

end Verif.Route
