import Verif.Route.Hist

namespace Verif.Route

def ownVec1 (c : Cfg) (att : Bool) : Vec := fun i =>
  if i = c.tid ∨ (att = true ∧ i = 0) then (0, 0) else (INFHOPS, INFCOST)

def ownVec2 (c : Cfg) : Vec := fun i => if i = c.area then (0, 0) else (INFHOPS, INFCOST)

def endCol : Option AdjInfo → Col
  | none => ⟨INFHOPS, INFCOST, none⟩
  | some a => ⟨1, a.cost, some (.nbr a.key)⟩

/-- A level 1 matrix reflects end nodes `E`, adjacencies `U` and what they said, `f`. -/
structure Inv1 (c : Cfg) (E : Nat → Option AdjInfo) (U : Nat → Option AdjInfo) (f : Nat → Vec)
    (L : Level) (att : Bool) : Prop where
  he : L.hasEnds = true
  ends : ∀ i, L.ends i = endCol (E i)
  nd : (keys L.cols).Nodup
  self : L.cols.lookup .self = some (ownVec1 c att)
  has : ∀ k, (∃ v, L.cols.lookup (.nbr k) = some v) ↔ ∃ a, U k = some a ∧ Router1 c a
  val : ∀ k v, L.cols.lookup (.nbr k) = some v → ∀ i, i ≤ c.maxnodes → v i = f k i
  cur : Current L c.lim 0 c.maxnodes c.tid

structure Inv2 (c : Cfg) (U : Nat → Option AdjInfo) (f : Nat → Vec) (L : Level) : Prop where
  he : L.hasEnds = false
  ends : L.ends = noEnds
  nd : (keys L.cols).Nodup
  self : L.cols.lookup .self = some (ownVec2 c)
  has : ∀ k, (∃ v, L.cols.lookup (.nbr k) = some v) ↔ ∃ a, U k = some a ∧ a.ntype = .l2
  val : ∀ k v, L.cols.lookup (.nbr k) = some v → ∀ i, i ≤ c.maxarea → v i = f k i
  cur : Current L c.lim 1 c.maxarea c.area
  zero : (L.tbl 0).adj = none

theorem endCol_wf (o : Option AdjInfo) (h : (endCol o).cost < INFCOST) : (endCol o).adj ≠ none := by
  cases o with
  | none => simp [endCol] at h
  | some a => simp [endCol]

theorem Inv1.wf {c E U f L att} (h : Inv1 c E U f L att) : EndsWf L := by
  intro i hi
  rw [h.ends] at hi ⊢
  exact endCol_wf _ hi

theorem Inv2.wf {c U f L} (h : Inv2 c U f L) : EndsWf L := by
  intro i hi
  rw [h.ends] at hi
  simp [noEnds] at hi

/-! ## Level 1 operations -/

theorem Inv1.route {c E U f L att} (h : Inv1 c E U f L att) (s e : Nat) : Inv1 c E U f (L.route c.lim s e) att :=
  ⟨h.he, h.ends, h.nd, h.self, h.has, h.val, h.cur.route s e⟩

/-- A new router column. -/
theorem Inv1.newCol {c E U f L att} (hm : c.lim.maxcost < INFCOST) (h : Inv1 c E U f L att) {a : AdjInfo}
    (hU : U a.key = none) (hr : Router1 c a) :
    Inv1 c E (fun k => if a.key = k then some a else U k)
      (fun k i => if a.key = k then (INFHOPS, INFCOST) else f k i)
      { L with cols := dput L.cols (.nbr a.key) infVec } att := by
  have hnone : L.cols.lookup (.nbr a.key) = none := by
    cases hl : L.cols.lookup (.nbr a.key) with
    | none => rfl
    | some v =>
      obtain ⟨b, hb, _⟩ := (h.has a.key).1 ⟨v, hl⟩
      rw [hU] at hb; cases hb
  refine ⟨h.he, h.ends, nodup_dput h.nd _ _, ?_, ?_, ?_, ?_⟩
  · show (dput L.cols (.nbr a.key) infVec).lookup .self = _
    rw [lookup_dput_ne _ _ (by simp)]; exact h.self
  · intro k
    show (∃ v, (dput L.cols (.nbr a.key) infVec).lookup (.nbr k) = some v) ↔ _
    by_cases hk : a.key = k
    · subst hk
      rw [lookup_dput_self, if_pos rfl]
      exact ⟨fun _ => ⟨a, rfl, hr⟩, fun _ => ⟨_, rfl⟩⟩
    · rw [lookup_dput_ne _ _ (by simpa using Ne.symm hk), if_neg hk]; exact h.has k
  · intro k v
    show (dput L.cols (.nbr a.key) infVec).lookup (.nbr k) = some v → _
    by_cases hk : a.key = k
    · subst hk
      rw [lookup_dput_self]
      intro e; cases e
      intro i _
      rw [if_pos rfl]; rfl
    · rw [lookup_dput_ne _ _ (by simpa using Ne.symm hk)]
      intro e i hi
      rw [if_neg hk]; exact h.val k v e i hi
  · refine h.cur.change' hm h.wf h.wf rfl ?_
    intro i
    refine filter_columns_dput ?_
    rw [hnone]
    exact Nat.le_refl _

/-- Adjacencies which are no routers of our area make no difference to the router columns. -/
theorem Inv1.other {c E U f L att} (h : Inv1 c E U f L att) {a : AdjInfo} (hU : U a.key = none)
    (hr : ¬ Router1 c a) :
    Inv1 c E (fun k => if a.key = k then some a else U k)
      (fun k i => if a.key = k then (INFHOPS, INFCOST) else f k i) L att := by
  refine ⟨h.he, h.ends, h.nd, h.self, ?_, ?_, h.cur⟩
  · intro k
    rw [h.has k]
    by_cases hk : a.key = k
    · subst hk
      rw [if_pos rfl, hU]
      constructor
      · rintro ⟨_, h, _⟩; cases h
      · rintro ⟨_, h, h2⟩; cases h; exact absurd h2 hr
    · rw [if_neg hk]
  · intro k v e i hi
    by_cases hk : a.key = k
    · subst hk
      obtain ⟨b, hb, _⟩ := (h.has a.key).1 ⟨v, e⟩
      rw [hU] at hb; cases hb
    · rw [if_neg hk]; exact h.val k v e i hi

/-- An end node entry. -/
theorem Inv1.setEnd {c E U f L att} (hm : c.lim.maxcost < INFCOST) (h : Inv1 c E U f L att) (t : Nat)
    (o : Option AdjInfo) :
    Inv1 c (fun i => if t = i then o else E i) U f
      (({ L with ends := set L.ends t (endCol o) } : Level).route c.lim t t) att := by
  have he : ∀ i, set L.ends t (endCol o) i = endCol (if t = i then o else E i) := by
    intro i
    unfold set
    by_cases hi : i = t
    · rw [if_pos hi, if_pos hi.symm]
    · rw [if_neg hi, if_neg (Ne.symm hi), h.ends]
  have hw : EndsWf ({ L with ends := set L.ends t (endCol o) } : Level) := by
    intro i hi
    simp only [he] at hi ⊢
    exact endCol_wf _ hi
  refine ⟨h.he, he, h.nd, h.self, h.has, h.val, ?_⟩
  refine h.cur.change hm h.wf hw rfl t t ?_
  intro i hi
  have hne : i ≠ t := by omega
  have : set L.ends t (endCol o) i = L.ends i := by unfold set; rw [if_neg hne]
  unfold Level.columns
  simp only [this]

/-- Removing a router column, with a full decision. -/
theorem Inv1.delCol {c E U f L att} (h : Inv1 c E U f L att) (k0 : Nat) :
    Inv1 c E (fun k => if k0 = k then none else U k) f
      (({ L with cols := ddel L.cols (.nbr k0) } : Level).route c.lim 0 c.maxnodes) att := by
  refine ⟨h.he, h.ends, nodup_ddel h.nd _, ?_, ?_, ?_, Current.routeAll _ _ _ _ _⟩
  · show (ddel L.cols (.nbr k0)).lookup .self = _
    rw [lookup_ddel_ne _ (by simp)]; exact h.self
  · intro k
    show (∃ v, (ddel L.cols (.nbr k0)).lookup (.nbr k) = some v) ↔ _
    by_cases hk : k0 = k
    · subst hk
      rw [lookup_ddel_self, if_pos rfl]
      constructor
      · rintro ⟨_, h⟩; cases h
      · rintro ⟨_, h, _⟩; cases h
    · rw [lookup_ddel_ne _ (by simpa using Ne.symm hk), if_neg hk]; exact h.has k
  · intro k v
    show (ddel L.cols (.nbr k0)).lookup (.nbr k) = some v → _
    by_cases hk : k0 = k
    · subst hk; rw [lookup_ddel_self]; intro e; cases e
    · rw [lookup_ddel_ne _ (by simpa using Ne.symm hk)]; exact h.val k v

/-- An adjacency without a column goes away. -/
theorem Inv1.delOther {c E U f L att} (h : Inv1 c E U f L att) (k0 : Nat)
    (hr : ∀ a, U k0 = some a → ¬ Router1 c a) :
    Inv1 c E (fun k => if k0 = k then none else U k) f L att := by
  refine ⟨h.he, h.ends, h.nd, h.self, ?_, h.val, h.cur⟩
  intro k
  rw [h.has k]
  by_cases hk : k0 = k
  · subst hk
    rw [if_pos rfl]
    constructor
    · rintro ⟨a, h1, h2⟩; exact absurd h2 (hr a h1)
    · rintro ⟨_, h, _⟩; cases h
  · rw [if_neg hk]

/-- A new value in a column. -/
theorem Inv1.entry {c E U f L att} (hm : c.lim.maxcost < INFCOST) (h : Inv1 c E U f L att) {k0 i0 : Nat} {v : Nat × Nat} {w : Vec}
    (hw : L.cols.lookup (.nbr k0) = some w) :
    Inv1 c E U (fun k i => if k0 = k ∧ i0 = i then v else f k i)
      (({ L with cols := dput L.cols (.nbr k0) (set w i0 v) } : Level).route c.lim i0 i0) att := by
  refine ⟨h.he, h.ends, nodup_dput h.nd _ _, ?_, ?_, ?_, ?_⟩
  · show (dput L.cols (.nbr k0) _).lookup .self = _
    rw [lookup_dput_ne _ _ (by simp)]; exact h.self
  · intro k
    show (∃ v', (dput L.cols (.nbr k0) _).lookup (.nbr k) = some v') ↔ _
    by_cases hk : k0 = k
    · subst hk
      rw [lookup_dput_self, ← h.has k0]
      exact ⟨fun _ => ⟨_, hw⟩, fun _ => ⟨_, rfl⟩⟩
    · rw [lookup_dput_ne _ _ (by simpa using Ne.symm hk)]; exact h.has k
  · intro k v'
    show (dput L.cols (.nbr k0) _).lookup (.nbr k) = some v' → _
    by_cases hk : k0 = k
    · subst hk
      rw [lookup_dput_self]
      intro e i hi
      cases e
      unfold set
      by_cases hi0 : i = i0
      · rw [if_pos hi0, if_pos ⟨rfl, hi0.symm⟩]
      · rw [if_neg hi0, if_neg (fun h => hi0 h.2.symm)]; exact h.val _ _ hw i hi
    · rw [lookup_dput_ne _ _ (by simpa using Ne.symm hk)]
      intro e i hi
      rw [if_neg (fun h => hk h.1)]; exact h.val k v' e i hi
  · refine h.cur.change (L' := { L with cols := dput L.cols (.nbr k0) (set w i0 v) }) hm h.wf h.wf rfl i0 i0 ?_
    intro i hi
    refine filter_columns_dput ?_
    rw [hw]
    show w i = set w i0 v i
    unfold set
    rw [if_neg (by omega)]

/-- The attached flag changes. -/
theorem Inv1.attach {c E U f L att} (hm : c.lim.maxcost < INFCOST) (ht : c.tid ≠ 0)
    (h : Inv1 c E U f L att) (att' : Bool) :
    Inv1 c E U f (({ L with cols := dput L.cols .self (set (ownVec1 c att) 0
      (if att' then (0, 0) else (INFHOPS, INFCOST))) } : Level).route c.lim 0 0) att' := by
  refine ⟨h.he, h.ends, nodup_dput h.nd _ _, ?_, ?_, ?_, ?_⟩
  · show (dput L.cols .self _).lookup .self = _
    rw [lookup_dput_self]
    congr 1
    funext i
    unfold set ownVec1
    by_cases hi : i = 0
    · subst hi
      cases att' <;> simp [Ne.symm ht]
    · simp [hi]
  · intro k
    show (∃ v', (dput L.cols .self _).lookup (.nbr k) = some v') ↔ _
    rw [lookup_dput_ne _ _ (by simp)]; exact h.has k
  · intro k v'
    show (dput L.cols .self _).lookup (.nbr k) = some v' → _
    rw [lookup_dput_ne _ _ (by simp)]; exact h.val k v'
  · refine h.cur.change (L' := { L with cols := dput L.cols .self (set (ownVec1 c att) 0 (if att' then (0, 0) else (INFHOPS, INFCOST))) }) hm h.wf h.wf rfl 0 0 ?_
    intro i hi
    refine filter_columns_dput ?_
    rw [h.self]
    show ownVec1 c att i = set _ 0 _ i
    unfold set
    rw [if_neg (by omega)]

/-! ## Level 2 operations -/

theorem Inv2.newCol {c U f L} (hm : c.lim.maxcost < INFCOST) (h : Inv2 c U f L) {a : AdjInfo}
    (hU : U a.key = none) (hr : a.ntype = .l2) :
    Inv2 c (fun k => if a.key = k then some a else U k)
      (fun k i => if a.key = k then (INFHOPS, INFCOST) else f k i)
      { L with cols := dput L.cols (.nbr a.key) infVec } := by
  have hnone : L.cols.lookup (.nbr a.key) = none := by
    cases hl : L.cols.lookup (.nbr a.key) with
    | none => rfl
    | some v =>
      obtain ⟨b, hb, _⟩ := (h.has a.key).1 ⟨v, hl⟩
      rw [hU] at hb; cases hb
  refine ⟨h.he, h.ends, nodup_dput h.nd _ _, ?_, ?_, ?_, ?_, h.zero⟩
  · show (dput L.cols (.nbr a.key) infVec).lookup .self = _
    rw [lookup_dput_ne _ _ (by simp)]; exact h.self
  · intro k
    show (∃ v, (dput L.cols (.nbr a.key) infVec).lookup (.nbr k) = some v) ↔ _
    by_cases hk : a.key = k
    · subst hk
      rw [lookup_dput_self, if_pos rfl]
      exact ⟨fun _ => ⟨a, rfl, hr⟩, fun _ => ⟨_, rfl⟩⟩
    · rw [lookup_dput_ne _ _ (by simpa using Ne.symm hk), if_neg hk]; exact h.has k
  · intro k v
    show (dput L.cols (.nbr a.key) infVec).lookup (.nbr k) = some v → _
    by_cases hk : a.key = k
    · subst hk
      rw [lookup_dput_self]
      intro e; cases e
      intro i _
      rw [if_pos rfl]; rfl
    · rw [lookup_dput_ne _ _ (by simpa using Ne.symm hk)]
      intro e i hi
      rw [if_neg hk]; exact h.val k v e i hi
  · refine h.cur.change' hm h.wf h.wf rfl ?_
    intro i
    refine filter_columns_dput ?_
    rw [hnone]
    exact Nat.le_refl _

theorem Inv2.other {c U f L} (h : Inv2 c U f L) {a : AdjInfo} (hU : U a.key = none)
    (hr : a.ntype ≠ .l2) :
    Inv2 c (fun k => if a.key = k then some a else U k)
      (fun k i => if a.key = k then (INFHOPS, INFCOST) else f k i) L := by
  refine ⟨h.he, h.ends, h.nd, h.self, ?_, ?_, h.cur, h.zero⟩
  · intro k
    rw [h.has k]
    by_cases hk : a.key = k
    · subst hk
      rw [if_pos rfl, hU]
      constructor
      · rintro ⟨_, h, _⟩; cases h
      · rintro ⟨_, h, h2⟩; cases h; exact absurd h2 hr
    · rw [if_neg hk]
  · intro k v e i hi
    by_cases hk : a.key = k
    · subst hk
      obtain ⟨b, hb, _⟩ := (h.has a.key).1 ⟨v, e⟩
      rw [hU] at hb; cases hb
    · rw [if_neg hk]; exact h.val k v e i hi

theorem Inv2.delCol {c U f L} (h : Inv2 c U f L) (k0 : Nat) :
    Inv2 c (fun k => if k0 = k then none else U k) f
      (({ L with cols := ddel L.cols (.nbr k0) } : Level).route c.lim 1 c.maxarea) := by
  refine ⟨h.he, h.ends, nodup_ddel h.nd _, ?_, ?_, ?_, Current.routeAll _ _ _ _ _, ?_⟩
  · show (ddel L.cols (.nbr k0)).lookup .self = _
    rw [lookup_ddel_ne _ (by simp)]; exact h.self
  · intro k
    show (∃ v, (ddel L.cols (.nbr k0)).lookup (.nbr k) = some v) ↔ _
    by_cases hk : k0 = k
    · subst hk
      rw [lookup_ddel_self, if_pos rfl]
      constructor
      · rintro ⟨_, h⟩; cases h
      · rintro ⟨_, h, _⟩; cases h
    · rw [lookup_ddel_ne _ (by simpa using Ne.symm hk), if_neg hk]; exact h.has k
  · intro k v
    show (ddel L.cols (.nbr k0)).lookup (.nbr k) = some v → _
    by_cases hk : k0 = k
    · subst hk; rw [lookup_ddel_self]; intro e; cases e
    · rw [lookup_ddel_ne _ (by simpa using Ne.symm hk)]; exact h.val k v
  · simp only [Level.route]
    rw [if_neg (by omega)]
    exact h.zero

theorem Inv2.delOther {c U f L} (h : Inv2 c U f L) (k0 : Nat)
    (hr : ∀ a, U k0 = some a → a.ntype ≠ .l2) :
    Inv2 c (fun k => if k0 = k then none else U k) f L := by
  refine ⟨h.he, h.ends, h.nd, h.self, ?_, h.val, h.cur, h.zero⟩
  intro k
  rw [h.has k]
  by_cases hk : k0 = k
  · subst hk
    rw [if_pos rfl]
    constructor
    · rintro ⟨a, h1, h2⟩; exact absurd h2 (hr a h1)
    · rintro ⟨_, h, _⟩; cases h
  · rw [if_neg hk]

theorem Inv2.entry {c U f L} (hm : c.lim.maxcost < INFCOST) (h : Inv2 c U f L) {k0 i0 : Nat} {v : Nat × Nat} {w : Vec}
    (hi0 : 1 ≤ i0) (hw : L.cols.lookup (.nbr k0) = some w) :
    Inv2 c U (fun k i => if k0 = k ∧ i0 = i then v else f k i)
      (({ L with cols := dput L.cols (.nbr k0) (set w i0 v) } : Level).route c.lim i0 i0) := by
  refine ⟨h.he, h.ends, nodup_dput h.nd _ _, ?_, ?_, ?_, ?_, ?_⟩
  · show (dput L.cols (.nbr k0) _).lookup .self = _
    rw [lookup_dput_ne _ _ (by simp)]; exact h.self
  · intro k
    show (∃ v', (dput L.cols (.nbr k0) _).lookup (.nbr k) = some v') ↔ _
    by_cases hk : k0 = k
    · subst hk
      rw [lookup_dput_self, ← h.has k0]
      exact ⟨fun _ => ⟨_, hw⟩, fun _ => ⟨_, rfl⟩⟩
    · rw [lookup_dput_ne _ _ (by simpa using Ne.symm hk)]; exact h.has k
  · intro k v'
    show (dput L.cols (.nbr k0) _).lookup (.nbr k) = some v' → _
    by_cases hk : k0 = k
    · subst hk
      rw [lookup_dput_self]
      intro e i hi
      cases e
      unfold set
      by_cases hi0 : i = i0
      · rw [if_pos hi0, if_pos ⟨rfl, hi0.symm⟩]
      · rw [if_neg hi0, if_neg (fun h => hi0 h.2.symm)]; exact h.val _ _ hw i hi
    · rw [lookup_dput_ne _ _ (by simpa using Ne.symm hk)]
      intro e i hi
      rw [if_neg (fun h => hk h.1)]; exact h.val k v' e i hi
  · refine h.cur.change (L' := { L with cols := dput L.cols (.nbr k0) (set w i0 v) }) hm h.wf h.wf rfl i0 i0 ?_
    intro i hi
    refine filter_columns_dput ?_
    rw [hw]
    show w i = set w i0 v i
    unfold set
    rw [if_neg (by omega)]
  · simp only [Level.route]
    rw [if_neg (by omega)]
    exact h.zero

/-! ## The router -/

structure Inv (c : Cfg) (E : Nat → Option AdjInfo) (U : Nat → Option AdjInfo) (f1 f2 : Nat → Vec)
    (r : Router) : Prop where
  cfg : r.cfg = c
  one : Inv1 c E U f1 r.l1 r.attached
  two : c.isL2 = true → Inv2 c U f2 r.l2
  att : c.isL2 = true → r.attached = r.anyArea
  natt : c.isL2 = false → r.attached = false

/-- `aroute` after a change of level 2. -/
theorem aroute_inv {c E U f1 f2} (hm : c.lim.maxcost < INFCOST) (ht : c.tid ≠ 0) (hl : c.isL2 = true)
    {r : Router} (hc : r.cfg = c) (h1 : Inv1 c E U f1 r.l1 r.attached) {s e : Nat}
    (h2 : Inv2 c U f2 (r.l2.route c.lim s e)) : Inv c E U f1 f2 (r.aroute s e) := by
  unfold Router.aroute
  simp only
  have hsame : ∀ (x : Level) (b : Bool), ({ r with l1 := x, l2 := r.l2.route r.cfg.lim s e, attached := b } : Router).anyArea =
      ({ r with l2 := r.l2.route r.cfg.lim s e } : Router).anyArea := fun _ _ => rfl
  by_cases ha : ({ r with l2 := r.l2.route r.cfg.lim s e } : Router).anyArea ≠ r.attached
  · rw [if_pos ha]
    subst hc
    refine ⟨rfl, ?_, fun _ => h2, fun _ => (hsame _ _).symm, fun h => by rw [hl] at h; cases h⟩
    have := h1.attach hm ht ({ r with l2 := r.l2.route r.cfg.lim s e } : Router).anyArea
    have hv : (Level.col r.l1 .self).getD infVec = ownVec1 r.cfg r.attached := by
      unfold Level.col; rw [h1.self]; rfl
    rw [hv]
    exact this
  · rw [if_neg ha]
    subst hc
    exact ⟨rfl, h1, fun _ => h2, fun _ => (Classical.not_not.1 ha).symm, fun h => by rw [hl] at h; cases h⟩

/-- Entering a list of values. -/
def upd (f : Nat → Vec) (k0 : Nat) : List (Nat × Nat × Nat) → Nat → Vec
  | [] => f
  | (i0, v) :: es => upd (fun k i => if k0 = k ∧ i0 = i then v else f k i) k0 es

theorem upd_eq (k0 : Nat) (es) : ∀ (f : Nat → Vec) (k i : Nat), upd f k0 es k i =
    if k0 = k then (lastEntry i es).getD (f k i) else f k i := by
  induction es with
  | nil => intro f k i; simp [upd, lastEntry]
  | cons e es ih =>
    intro f k i
    obtain ⟨i0, v⟩ := e
    rw [upd, ih]
    by_cases hk : k0 = k
    · rw [if_pos hk, if_pos hk, lastEntry]
      cases lastEntry i es with
      | some x => rfl
      | none =>
        by_cases hi : i0 = i
        · simp [hi, hk]
        · simp [hi]
    · rw [if_neg hk, if_neg hk, if_neg (fun h => hk h.1)]

theorem Inv1.congr {c E U f f' L att} (h : Inv1 c E U f L att)
    (hf : ∀ k v, L.cols.lookup (.nbr k) = some v → ∀ i, i ≤ c.maxnodes → f k i = f' k i) :
    Inv1 c E U f' L att :=
  ⟨h.he, h.ends, h.nd, h.self, h.has, fun k v e i hi => by rw [h.val k v e i hi, hf k v e i hi], h.cur⟩

theorem Inv2.congr {c U f f' L} (h : Inv2 c U f L)
    (hf : ∀ k v, L.cols.lookup (.nbr k) = some v → ∀ i, i ≤ c.maxarea → f k i = f' k i) :
    Inv2 c U f' L :=
  ⟨h.he, h.ends, h.nd, h.self, h.has, fun k v e i hi => by rw [h.val k v e i hi, hf k v e i hi], h.cur, h.zero⟩

theorem routemsg1_inv {c E U f2} (hm : c.lim.maxcost < INFCOST) (k0 : Nat) (es) :
    ∀ {r r' : Router} {f1}, Inv c E U f1 f2 r → r.routemsg1 k0 es = some r' →
      Inv c E U (upd f1 k0 es) f2 r' := by
  induction es with
  | nil =>
    intro r r' f1 h e
    simp only [Router.routemsg1, Option.some.injEq] at e
    subst e; exact h
  | cons en es ih =>
    intro r r' f1 h e
    obtain ⟨i0, v⟩ := en
    simp only [Router.routemsg1] at e
    by_cases hk : i0 > r.cfg.maxnodes
    · rw [if_pos hk] at e
      rw [upd]
      refine ih (f1 := _) ?_ e
      refine ⟨h.cfg, h.one.congr ?_, h.two, h.att, h.natt⟩
      intro k w _ i hi
      rw [h.cfg] at hk
      rw [if_neg (by omega)]
    · rw [if_neg hk] at e
      cases hw : r.l1.col (.nbr k0) with
      | none => rw [hw] at e; cases e
      | some w =>
        rw [hw] at e
        simp only at e
        unfold Level.col at hw
        by_cases hv : w i0 ≠ v
        · rw [if_pos hv] at e
          rw [upd]
          refine ih (f1 := _) ?_ e
          have := h.one.entry hm (i0 := i0) (v := v) hw
          refine ⟨h.cfg, ?_, h.two, h.att, h.natt⟩
          unfold Router.route
          simp only
          rw [h.cfg]
          exact this
        · rw [if_neg hv] at e
          rw [upd]
          refine ih (f1 := _) ?_ e
          refine ⟨h.cfg, h.one.congr ?_, h.two, h.att, h.natt⟩
          intro k w' hw' i hi
          by_cases hki : k0 = k ∧ i0 = i
          · rw [if_pos hki]
            obtain ⟨rfl, rfl⟩ := hki
            rw [hw] at hw'; cases hw'
            rw [← h.one.val _ _ hw i0 hi]
            exact Classical.not_not.1 hv
          · rw [if_neg hki]

theorem routemsg2_inv {c E U f1} (hm : c.lim.maxcost < INFCOST) (ht : c.tid ≠ 0) (hl : c.isL2 = true)
    (k0 : Nat) (es) (hes : ∀ e ∈ es, 1 ≤ e.1) :
    ∀ {r r' : Router} {f2}, Inv c E U f1 f2 r → r.routemsg2 k0 es = some r' →
      Inv c E U f1 (upd f2 k0 es) r' := by
  induction es with
  | nil =>
    intro r r' f2 h e
    simp only [Router.routemsg2, Option.some.injEq] at e
    subst e; exact h
  | cons en es ih =>
    intro r r' f2 h e
    have ih := fun {r r' : Router} {f2} => ih (fun e he => hes e (by simp [he])) (r := r) (r' := r') (f2 := f2)
    obtain ⟨i0, v⟩ := en
    have hi0 : 1 ≤ i0 := hes (i0, v) (by simp)
    simp only [Router.routemsg2] at e
    by_cases hk : i0 > r.cfg.maxarea
    · rw [if_pos hk] at e
      rw [upd]
      refine ih (f2 := _) ?_ e
      refine ⟨h.cfg, h.one, fun hl => (h.two hl).congr ?_, h.att, h.natt⟩
      intro k w _ i hi
      rw [h.cfg] at hk
      rw [if_neg (by omega)]
    · rw [if_neg hk] at e
      cases hw : r.l2.col (.nbr k0) with
      | none => rw [hw] at e; cases e
      | some w =>
        rw [hw] at e
        simp only at e
        unfold Level.col at hw
        by_cases hv : w i0 ≠ v
        · rw [if_pos hv] at e
          rw [upd]
          refine ih (f2 := _) ?_ e
          have := (h.two hl).entry hm (i0 := i0) (v := v) hi0 hw
          exact aroute_inv hm ht hl (r := { r with l2 := { r.l2 with cols := dput r.l2.cols (.nbr k0) (set w i0 v) } })
            h.cfg h.one this
        · rw [if_neg hv] at e
          rw [upd]
          refine ih (f2 := _) ?_ e
          refine ⟨h.cfg, h.one, fun hl => (h.two hl).congr ?_, h.att, h.natt⟩
          intro k w' hw' i hi
          by_cases hki : k0 = k ∧ i0 = i
          · rw [if_pos hki]
            obtain ⟨rfl, rfl⟩ := hki
            rw [hw] at hw'; cases hw'
            rw [← (h.two hl).val _ _ hw i0 hi]
            exact Classical.not_not.1 hv
          · rw [if_neg hki]

end Verif.Route
