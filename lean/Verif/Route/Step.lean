import Verif.Route.Inv

namespace Verif.Route

/-- The invariant for a history. -/
def HInv (c : Cfg) (h : List Ev) (r : Router) : Prop :=
  Inv c (endOf h) (upOf h) (said false c.area h) (said true c.area h) r

theorem upOf_key {h : List Ev} {k : Nat} {a : AdjInfo} (e : upOf h k = some a) : a.key = k := by
  induction h with
  | nil => simp [upOf] at e
  | cons ev h ih =>
    cases ev with
    | up b =>
      simp only [upOf] at e
      split at e
      · cases e; assumption
      · exact ih e
    | down b =>
      simp only [upOf] at e
      split at e
      · cases e
      · exact ih e
    | msg1 b es => exact ih e
    | msg2 b es => exact ih e

theorem decision_inf {lim : Lim} (hm : lim.maxcost < INFCOST) {cols : List Col} (hw : WfCols cols)
    (h : ∀ c ∈ cols, INFCOST ≤ c.cost) : decision lim cols = unreachable := by
  rcases decision_eq hw hm with ⟨c, hc, h1, _, _⟩ | ⟨_, e⟩
  · have := h c hc.mem; omega
  · exact e

theorem init_inv {c : Cfg} (hm : c.lim.maxcost < INFCOST) (ha : c.area ≠ 0) : HInv c [] (init c) := by
  refine ⟨rfl, ?_, ?_, ?_, fun _ => rfl⟩
  · refine ⟨rfl, fun i => rfl, by simp [init, keys], ?_, ?_, ?_, ?_⟩
    · show List.lookup Adj.self [(Adj.self, set infVec c.tid (0, 0))] = _
      simp only [List.lookup_cons, beq_self_eq_true]
      congr 1
      funext i
      simp [set, ownVec1, infVec, init]
    · intro k
      constructor
      · rintro ⟨v, hv⟩
        simp [init, List.lookup_cons] at hv
        have : (Adj.nbr k == Adj.self) = false := rfl
        rw [this] at hv; cases hv
      · rintro ⟨a, h, _⟩; cases h
    · intro k v hv
      simp [init, List.lookup_cons] at hv
      have : (Adj.nbr k == Adj.self) = false := rfl
      rw [this] at hv; cases hv
    · intro i _ _
      by_cases hi : i = c.tid
      · right; refine ⟨hi, ?_⟩
        simp [init, set, hi]
      · left
        rw [decision_inf hm]
        · simp [init, set, hi]
        · intro x hx hlt
          simp [init, Level.columns, noEnds, set, hi, infVec] at hx
          rcases hx with rfl | rfl <;> simp at hlt
        · intro x hx
          simp [init, Level.columns, noEnds, set, hi, infVec] at hx
          rcases hx with rfl | rfl <;> simp
  · intro hl
    refine ⟨rfl, rfl, ?_, ?_, ?_, ?_, ?_, ?_⟩
    · simp [init, keys, hl]
    · show List.lookup Adj.self (if c.isL2 then _ else _) = _
      rw [if_pos hl]
      simp only [List.lookup_cons, beq_self_eq_true]
      congr 1
    · intro k
      constructor
      · rintro ⟨v, hv⟩
        simp [init, List.lookup_cons, hl] at hv
        have : (Adj.nbr k == Adj.self) = false := rfl
        rw [this] at hv; cases hv
      · rintro ⟨a, h, _⟩; cases h
    · intro k v hv
      simp [init, List.lookup_cons, hl] at hv
      have : (Adj.nbr k == Adj.self) = false := rfl
      rw [this] at hv; cases hv
    · intro i _ _
      by_cases hi : i = c.area
      · right; refine ⟨hi, ?_⟩
        simp [init, set, hi, hl]
      · left
        rw [decision_inf hm]
        · simp [init, set, hi]
        · intro x hx hlt
          simp [init, Level.columns, set, hi, infVec, hl] at hx
          subst hx; simp at hlt
        · intro x hx
          simp [init, Level.columns, set, hi, infVec, hl] at hx
          subst hx; simp
    · simp [init, set, Ne.symm ha, unreachable]
  · intro hl
    symm
    show (init c).anyArea = false
    unfold Router.anyArea
    rw [List.any_eq_false]
    intro i _
    simp only [init, set, hl, if_true]
    by_cases hi : i = c.area
    · simp [hi]
    · simp [hi, unreachable]

theorem said_down (l2 area a h) : said l2 area (.down a :: h) = said l2 area h := rfl
theorem said_up (l2 area) (a : AdjInfo) (h) : said l2 area (.up a :: h) =
    fun k i => if a.key = k then (INFHOPS, INFCOST) else said l2 area h k i := rfl
theorem upOf_up (a : AdjInfo) (h) : upOf (.up a :: h) = fun k => if a.key = k then some a else upOf h k := rfl
theorem upOf_down (a : AdjInfo) (h) : upOf (.down a :: h) = fun k => if a.key = k then none else upOf h k := rfl

theorem endOf_router {a : AdjInfo} (ha : a.ntype = .l1 ∨ a.ntype = .l2) (h) :
    endOf (.up a :: h) = endOf h ∧ endOf (.down a :: h) = endOf h := by
  have : ∀ i, ¬ (a.ntype = .other ∧ a.tid = i) := by
    rintro i ⟨h, _⟩; rcases ha with ha | ha <;> rw [ha] at h <;> cases h
  constructor <;> funext i <;> simp only [endOf] <;> rw [if_neg (this i)]

theorem endOf_other {a : AdjInfo} (ha : a.ntype = .other) (h) :
    endOf (.up a :: h) = (fun i => if a.tid = i then some a else endOf h i) ∧
      endOf (.down a :: h) = (fun i => if a.tid = i then none else endOf h i) := by
  constructor <;> funext i <;> simp [endOf, ha]

/-- Replacing level 1 by one which is right. -/
theorem Inv.set1 {c E U f1 f2 E' f1' r L} (h : Inv c E U f1 f2 r) (h1 : Inv1 c E' U f1' L r.attached) :
    Inv c E' U f1' f2 { r with l1 := L } :=
  ⟨h.cfg, h1, h.two, h.att, h.natt⟩

theorem step_inv {c : Cfg} (hm : c.lim.maxcost < INFCOST) (ht : c.tid ≠ 0) {h : List Ev} {ev : Ev}
    (hv : Valid (ev :: h)) {r r' : Router} (hi : HInv c h r) (e : r.step ev = some r') : HInv c (ev :: h) r' := by
  have hcfg := hi.cfg
  cases ev with
  | up a =>
    obtain ⟨hU, hcost, hv⟩ := hv
    simp only [Router.step, Router.adjUp] at e
    unfold HInv
    rw [said_up, said_up, upOf_up]
    -- the level 2 part
    have two : ∀ r1 : Router, r1 = (if r.cfg.isL2 = true ∧ a.ntype = .l2 then
        { r with l2 := { r.l2 with cols := dput r.l2.cols (.nbr a.key) infVec } } else r) →
        r1.cfg = c ∧ r1.l1 = r.l1 ∧ r1.attached = r.attached ∧ r1.anyArea = r.anyArea ∧
        (c.isL2 = true → Inv2 c (fun k => if a.key = k then some a else upOf h k)
          (fun k i => if a.key = k then (INFHOPS, INFCOST) else said true c.area h k i) r1.l2) := by
      intro r1 hr1
      by_cases hc : r.cfg.isL2 = true ∧ a.ntype = .l2
      · rw [if_pos hc] at hr1
        subst hr1
        exact ⟨hcfg, rfl, rfl, rfl, fun hl => (hi.two hl).newCol hm hU hc.2⟩
      · rw [if_neg hc] at hr1
        subst hr1
        refine ⟨hcfg, rfl, rfl, rfl, fun hl => (hi.two hl).other hU ?_⟩
        intro hn
        exact hc ⟨by rw [hcfg]; exact hl, hn⟩
    generalize hr1 : (if r.cfg.isL2 = true ∧ a.ntype = .l2 then
        { r with l2 := { r.l2 with cols := dput r.l2.cols (.nbr a.key) infVec } } else r) = r1 at e
    obtain ⟨hc1, hl1, hat, hany, h2⟩ := two r1 hr1.symm
    have one := hi.one
    rw [← hl1, ← hat] at one
    have att1 : c.isL2 = true → r1.attached = r1.anyArea := fun hl => by rw [hat, hany]; exact hi.att hl
    have natt1 : c.isL2 = false → r1.attached = false := fun hl => by rw [hat]; exact hi.natt hl
    unfold Router.adjUp1 at e
    by_cases hrt : a.ntype = .l1 ∨ a.ntype = .l2
    · rw [if_pos hrt] at e
      rw [(endOf_router hrt h).1]
      by_cases har : a.area ≠ r1.cfg.area
      · rw [if_pos har] at e
        cases e
        rw [hc1] at har
        exact ⟨hc1, one.other hU (fun hh => har hh.2), h2, att1, natt1⟩
      · rw [if_neg har] at e
        cases e
        rw [hc1] at har
        have := one.newCol hm hU ⟨hrt, Classical.not_not.1 har⟩
        exact ⟨hc1, this, h2, att1, natt1⟩
    · rw [if_neg hrt] at e
      have hoth : a.ntype = .other := by
        cases hh : a.ntype with
        | l1 => exact absurd (Or.inl hh) hrt
        | l2 => exact absurd (Or.inr hh) hrt
        | other => rfl
      rw [(endOf_other hoth h).1]
      by_cases htid : a.tid ≤ r1.cfg.maxnodes
      · rw [if_pos htid] at e
        cases e
        have := (one.other hU (fun hh => hrt hh.1)).setEnd hm a.tid (some a)
        refine ⟨hc1, ?_, h2, att1, natt1⟩
        unfold Router.route
        simp only
        rw [hc1]
        exact this
      · rw [if_neg htid] at e; cases e
  | down a =>
    obtain ⟨hU, hv⟩ := hv
    simp only [Router.step, Router.adjDown] at e
    unfold HInv
    rw [said_down, said_down, upOf_down]
    cases h1 : r.adjDown1 a with
    | none => rw [h1] at e; cases e
    | some r1 =>
      rw [h1] at e
      simp only at e
      -- level 1
      have key : r1.cfg = c ∧ r1.l2 = r.l2 ∧ r1.attached = r.attached ∧ r1.anyArea = r.anyArea ∧
          Inv1 c (endOf (.down a :: h)) (fun k => if a.key = k then none else upOf h k)
            (said false c.area h) r1.l1 r1.attached := by
        unfold Router.adjDown1 at h1
        by_cases hrt : a.ntype = .l1 ∨ a.ntype = .l2
        · rw [if_pos hrt] at h1
          cases h1
          rw [(endOf_router hrt h).2]
          refine ⟨hcfg, rfl, rfl, rfl, ?_⟩
          have := hi.one.delCol a.key
          unfold Router.route
          simp only
          rw [hcfg]
          exact this
        · rw [if_neg hrt] at h1
          have hoth : a.ntype = .other := by
            cases hh : a.ntype with
            | l1 => exact absurd (Or.inl hh) hrt
            | l2 => exact absurd (Or.inr hh) hrt
            | other => rfl
          rw [(endOf_other hoth h).2]
          by_cases htid : a.tid ≤ r.cfg.maxnodes
          · rw [if_pos htid] at h1
            cases h1
            refine ⟨hcfg, rfl, rfl, rfl, ?_⟩
            have := (hi.one.delOther a.key (fun b hb hh => by
              rw [hU] at hb; cases hb; exact hrt hh.1)).setEnd hm a.tid none
            unfold Router.route
            simp only
            rw [hcfg]
            exact this
          · rw [if_neg htid] at h1; cases h1
      obtain ⟨hc1, hl2, hat, hany, one⟩ := key
      by_cases hc : r1.cfg.isL2 = true ∧ a.ntype = .l2
      · rw [if_pos hc] at e
        cases e
        have hl : c.isL2 = true := by rw [← hc1]; exact hc.1
        refine aroute_inv (r := { r1 with l2 := { r1.l2 with cols := ddel r1.l2.cols (.nbr a.key) } }) hm ht hl hc1 one ?_
        simp only
        rw [hl2, hc1]
        exact (hi.two hl).delCol a.key
      · rw [if_neg hc] at e
        cases e
        refine ⟨hc1, one, ?_, ?_, ?_⟩
        · intro hl
          rw [hl2]
          refine (hi.two hl).delOther a.key ?_
          intro b hb hn
          rw [hU] at hb; cases hb
          exact hc ⟨by rw [hc1]; exact hl, hn⟩
        · intro hl; rw [hat, hany]; exact hi.att hl
        · intro hl; rw [hat]; exact hi.natt hl
  | msg1 a es =>
    obtain ⟨hU, hes, hv⟩ := hv
    simp only [Router.step] at e
    unfold HInv
    by_cases har : a.area = r.cfg.area
    · rw [if_pos har] at e
      have := routemsg1_inv hm a.key es hi e
      have hf : said false c.area (.msg1 a es :: h) = upd (said false c.area h) a.key es := by
        funext k i
        rw [upd_eq]
        rw [hcfg] at har
        simp [said, har]
      rw [hf]
      exact this
    · rw [if_neg har] at e
      cases e
      rw [hcfg] at har
      have hf : said false c.area (.msg1 a es :: h) = said false c.area h := by
        funext k i
        simp [said, har]
      rw [hf]
      exact hi
  | msg2 a es =>
    obtain ⟨hU, hes, hv⟩ := hv
    simp only [Router.step] at e
    unfold HInv
    by_cases hl : r.cfg.isL2 = true
    · rw [if_pos hl] at e
      rw [hcfg] at hl
      have := routemsg2_inv hm ht hl a.key es (fun e he => (hes e he).1) hi e
      have hf : said true c.area (.msg2 a es :: h) = upd (said true c.area h) a.key es := by
        funext k i
        rw [upd_eq]
        simp [said]
      rw [hf]
      exact this
    · rw [if_neg hl] at e
      cases e
      rw [hcfg] at hl
      exact ⟨hi.cfg, hi.one, fun h => absurd h hl, hi.att, hi.natt⟩

theorem Valid.tail {ev : Ev} {h : List Ev} (hv : Valid (ev :: h)) : Valid h := by
  cases ev with
  | up a => exact hv.2.2
  | down a => exact hv.2
  | msg1 a es => exact hv.2.2
  | msg2 a es => exact hv.2.2

theorem run_inv {c : Cfg} (hm : c.lim.maxcost < INFCOST) (ht : c.tid ≠ 0) (ha : c.area ≠ 0) {h : List Ev} :
    Valid h → ∀ {r}, run c h = some r → HInv c h r := by
  induction h with
  | nil => intro _ r e; cases e; exact init_inv hm ha
  | cons ev h ih =>
    intro hv r e
    simp only [run] at e
    cases hr : run c h with
    | none => rw [hr] at e; cases e
    | some r0 =>
      rw [hr] at e
      exact step_inv hm ht hv (ih hv.tail hr) e

/-! ## Costs are at least one -/

theorem lastEntry_mem {i : Nat} {es v} (h : lastEntry i es = some v) : (i, v) ∈ es := by
  induction es with
  | nil => cases h
  | cons e es ih =>
    obtain ⟨k, w⟩ := e
    simp only [lastEntry] at h
    cases hl : lastEntry i es with
    | some x => rw [hl] at h; simp at h; subst h; simp [ih hl]
    | none =>
      rw [hl] at h
      simp only [Option.none_or] at h
      by_cases hk : k = i
      · rw [if_pos hk] at h; cases h; simp [hk]
      · rw [if_neg hk] at h; cases h

theorem said_pos {l2 area h} (hv : Valid h) (k i : Nat) : 1 ≤ (said l2 area h k i).2 := by
  induction h with
  | nil => simp [said, INFCOST]
  | cons ev h ih =>
    have ih := ih hv.tail
    cases ev with
    | up a =>
      simp only [said]
      by_cases hc : a.key = k
      · rw [if_pos hc]; simp [INFCOST]
      · rw [if_neg hc]; exact ih
    | down a => exact ih
    | msg1 a es =>
      simp only [said]
      split
      · cases hl : lastEntry i es with
        | none => exact ih
        | some v => exact hv.2.1 _ (lastEntry_mem hl)
      · exact ih
    | msg2 a es =>
      simp only [said]
      split
      · cases hl : lastEntry i es with
        | none => exact ih
        | some v => exact (hv.2.1 _ (lastEntry_mem hl)).2
      · exact ih

theorem endOf_pos {h} (hv : Valid h) {i : Nat} {a : AdjInfo} (e : endOf h i = some a) : 1 ≤ a.cost := by
  induction h with
  | nil => cases e
  | cons ev h ih =>
    have ih := ih hv.tail
    cases ev with
    | up b =>
      simp only [endOf] at e
      split at e
      · cases e; exact hv.2.1
      · exact ih e
    | down b =>
      simp only [endOf] at e
      split at e
      · cases e
      · exact ih e
    | msg1 b es => exact ih e
    | msg2 b es => exact ih e

/-! ## Tables against offers -/

theorem HInv.selected1 {c : Cfg} (hm : c.lim.maxcost < INFCOST) {h : List Ev} {r : Router}
    (hi : HInv c h r) {i : Nat} (hin : i ≤ c.maxnodes) :
    Selected c.lim (Offers1 c h r.attached i) (decision c.lim (r.l1.columns i)) := by
  have one := hi.one
  refine selected_of (one.wf.cols i) hm ?_ ?_
  · intro x hx a hxa hlt
    unfold Level.columns at hx
    rw [if_pos one.he] at hx
    simp only [List.mem_append, List.mem_singleton, List.mem_map] at hx
    rcases hx with rfl | ⟨⟨k, v⟩, hp, rfl⟩
    · rw [one.ends] at hxa hlt ⊢
      cases he : endOf h i with
      | none => rw [he] at hlt; simp [endCol] at hlt
      | some b =>
        rw [he] at hxa
        simp only [endCol, Option.some.injEq] at hxa ⊢
        subst hxa
        exact .endnode b he
    · simp only [Option.some.injEq] at hxa hlt ⊢
      subst hxa
      have hl := lookup_of_mem one.nd hp
      cases k with
      | self =>
        rw [one.self] at hl
        cases hl
        simp only [ownVec1] at hlt ⊢
        by_cases hc : i = c.tid ∨ (r.attached = true ∧ i = 0)
        · rw [if_pos hc]
          rcases hc with hc | ⟨h1, h2⟩
          · exact .own hc
          · exact .nearest h1 h2
        · rw [if_neg hc] at hlt; simp at hlt
      | nbr k =>
        obtain ⟨a, ha, hr⟩ := (one.has k).1 ⟨v, hl⟩
        have hk := upOf_key ha
        rw [one.val k v hl i hin]
        subst hk
        exact .router a ha hr
  · intro a hh cc ho hlt
    unfold Level.columns
    rw [if_pos one.he]
    simp only [List.mem_append, List.mem_singleton, List.mem_map]
    cases ho with
    | own e =>
      right
      refine ⟨_, mem_of_lookup one.self, ?_⟩
      simp [ownVec1, e]
    | nearest e1 e2 =>
      right
      refine ⟨_, mem_of_lookup one.self, ?_⟩
      simp [ownVec1, e1, e2]
    | endnode b hb =>
      left
      rw [one.ends, hb]; rfl
    | router b hb hr =>
      right
      obtain ⟨v, hv⟩ := (one.has b.key).2 ⟨b, hb, hr⟩
      refine ⟨_, mem_of_lookup hv, ?_⟩
      simp only
      rw [one.val _ _ hv i hin]

theorem HInv.selected2 {c : Cfg} (hm : c.lim.maxcost < INFCOST) (hl : c.isL2 = true) {h : List Ev} {r : Router}
    (hi : HInv c h r) {i : Nat} (hin : i ≤ c.maxarea) :
    Selected c.lim (Offers2 c h i) (decision c.lim (r.l2.columns i)) := by
  have two := hi.two hl
  refine selected_of (two.wf.cols i) hm ?_ ?_
  · intro x hx a hxa hlt
    unfold Level.columns at hx
    rw [if_neg (by rw [two.he]; simp)] at hx
    simp only [List.nil_append, List.mem_map] at hx
    obtain ⟨⟨k, v⟩, hp, rfl⟩ := hx
    simp only [Option.some.injEq] at hxa hlt ⊢
    subst hxa
    have hl := lookup_of_mem two.nd hp
    cases k with
    | self =>
      rw [two.self] at hl
      cases hl
      simp only [ownVec2] at hlt ⊢
      by_cases hc : i = c.area
      · rw [if_pos hc]; exact .own hc
      · rw [if_neg hc] at hlt; simp at hlt
    | nbr k =>
      obtain ⟨a, ha, hr⟩ := (two.has k).1 ⟨v, hl⟩
      have hk := upOf_key ha
      rw [two.val k v hl i hin]
      subst hk
      exact .router a ha hr
  · intro a hh cc ho hlt
    unfold Level.columns
    rw [if_neg (by rw [two.he]; simp)]
    simp only [List.nil_append, List.mem_map]
    cases ho with
    | own e =>
      refine ⟨_, mem_of_lookup two.self, ?_⟩
      simp [ownVec2, e]
    | router b hb hr =>
      obtain ⟨v, hv⟩ := (two.has b.key).2 ⟨b, hb, hr⟩
      refine ⟨_, mem_of_lookup hv, ?_⟩
      simp only
      rw [two.val _ _ hv i hin]

end Verif.Route
