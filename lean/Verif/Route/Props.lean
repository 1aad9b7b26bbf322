import Verif.Route.Step
import Verif.RoutMsg.Model

/-!
# C16: route selection

`tables_correct` is about every history of adjacency changes and routing messages; `Selected`,
`Offers1` and `Offers2` in `Verif.Route.Hist` say what is expected without reference to the matrix.
-/
namespace Verif.Route

/-- After any history, for every destination in range the table holds a cheapest offer of those now
standing if that is within the limits, and otherwise "unreachable"; the own address is routed to this
node; a level 2 router is attached exactly if some other area is reachable; and the self check of
the code (failure of which stops the program) passes. -/
theorem tables_correct (c : Cfg) (hm : c.lim.maxcost ≤ 1022) (ht : 1 ≤ c.tid) (htn : c.tid ≤ c.maxnodes)
    (ha : 1 ≤ c.area) (h : List Ev) (hv : Valid h) (r : Router) (hr : run c h = some r) :
    (∀ i, i ≤ c.maxnodes → i ≠ c.tid → Selected c.lim (Offers1 c h r.attached i) (r.l1.tbl i)) ∧
    (c.isL2 = true → ∀ i, 1 ≤ i → i ≤ c.maxarea → i ≠ c.area →
      Selected c.lim (Offers2 c h i) (r.l2.tbl i)) ∧
    (r.l1.tbl c.tid).adj = some .self ∧
    (r.attached = true ↔ c.isL2 = true ∧ ∃ i, 1 ≤ i ∧ i ≤ c.maxarea ∧ i ≠ c.area ∧ (r.l2.tbl i).adj ≠ none) ∧
    r.check := by
  have hm' : c.lim.maxcost < INFCOST := by simp only [INFCOST]; omega
  have hi := run_inv hm' (by omega) (by omega) hv hr
  refine ⟨?_, ?_, ?_, ?_, ?_⟩
  · intro i hin hne
    rcases hi.one.cur i (Nat.zero_le _) hin with e | ⟨e, _⟩
    · rw [e]; exact hi.selected1 hm' hin
    · exact absurd e hne
  · intro hl i h1 h2 hne
    rcases (hi.two hl).cur i h1 h2 with e | ⟨e, _⟩
    · rw [e]; exact hi.selected2 hm' hl h2
    · exact absurd e hne
  · rcases hi.one.cur c.tid (Nat.zero_le _) htn with e | ⟨_, e⟩
    · have hs := hi.selected1 hm' htn
      rw [← e] at hs
      have own : Offers1 c h r.attached c.tid .self 0 0 := .own rfl
      have zero : ∀ a hh cc, Offers1 c h r.attached c.tid a hh cc → cc ≤ 0 → a = .self ∧ hh = 0 := by
        intro a hh cc ho hc
        cases ho with
        | own _ => exact ⟨rfl, rfl⟩
        | nearest _ _ => exact ⟨rfl, rfl⟩
        | endnode b hb => have := endOf_pos hv hb; omega
        | router b hb _ => have := said_pos (l2 := false) (area := c.area) hv b.key c.tid; omega
      cases hadj : (r.l1.tbl c.tid).adj with
      | none =>
        exfalso
        obtain ⟨_, _, h3⟩ := hs.unreach hadj
        rcases h3 with h3 | ⟨a, hh, cc, ho, hgt, hmin⟩
        · have := h3 _ _ _ own; omega
        · obtain ⟨_, e2⟩ := zero _ _ _ ho (hmin _ _ _ own)
          omega
      | some a =>
        obtain ⟨ho, _, _, hmin⟩ := hs.reach a hadj
        rw [(zero _ _ _ ho (hmin _ _ _ own)).1]
    · rw [e]
  · constructor
    · intro hat
      cases hl : c.isL2 with
      | false => rw [hi.natt hl] at hat; cases hat
      | true =>
        refine ⟨rfl, ?_⟩
        rw [hi.att hl] at hat
        unfold Router.anyArea at hat
        rw [List.any_eq_true] at hat
        obtain ⟨i, hmem, hp⟩ := hat
        rw [hi.cfg] at hmem hp
        simp only [List.mem_range] at hmem
        simp only [Bool.and_eq_true, bne_iff_ne, ne_eq] at hp
        refine ⟨i, ?_, by omega, hp.2, ?_⟩
        · rcases Nat.eq_zero_or_pos i with rfl | h
          · have := (hi.two hl).zero
            rw [this] at hp; simp at hp
          · exact h
        · intro hn; rw [hn] at hp; simp at hp
    · rintro ⟨hl, i, h1, h2, hne, hadj⟩
      rw [hi.att hl]
      unfold Router.anyArea
      rw [List.any_eq_true]
      refine ⟨i, ?_, ?_⟩
      · rw [hi.cfg]; simp only [List.mem_range]; omega
      · rw [hi.cfg]
        simp only [Bool.and_eq_true, bne_iff_ne, ne_eq]
        refine ⟨?_, hne⟩
        cases hx : (r.l2.tbl i).adj with
        | none => exact absurd hx hadj
        | some x => rfl
  · unfold Router.check Level.col
    rw [hi.cfg]
    refine ⟨⟨_, hi.one.self, fun i _ => rfl⟩, fun hl => ⟨_, (hi.two hl).self, fun i _ _ => rfl⟩⟩

/-- The own address, and with it the own area's "nearest level 2 router" when this router is
attached, is all that a router keeps for itself. -/
theorem self_iff (c : Cfg) (hm : c.lim.maxcost ≤ 1022) (ht : 1 ≤ c.tid) (htn : c.tid ≤ c.maxnodes)
    (ha : 1 ≤ c.area) (h : List Ev) (hv : Valid h) (r : Router) (hr : run c h = some r) (area tid : Nat) :
    r.findoadj area tid = .via .self ↔
      area = c.area ∧ (tid = c.tid ∨ (r.attached = true ∧ tid = 0)) := by
  have hm' : c.lim.maxcost < INFCOST := by simp only [INFCOST]; omega
  have hi := run_inv hm' (by omega) (by omega) hv hr
  obtain ⟨t1, t2, tself, tatt, _⟩ := tables_correct c hm ht htn ha h hv r hr
  have out : ∀ b : Best, b.out = .via .self ↔ b.adj = some .self := by
    intro b
    unfold Best.out
    cases b.adj <;> simp
  have one : ∀ t, t ≤ c.maxnodes → ((r.l1.tbl t).adj = some .self ↔ t = c.tid ∨ (r.attached = true ∧ t = 0)) := by
    intro t htm
    by_cases hts : t = c.tid
    · subst hts; exact ⟨fun _ => Or.inl rfl, fun _ => tself⟩
    · have hs := t1 t htm hts
      constructor
      · intro hadj
        obtain ⟨ho, _⟩ := hs.reach _ hadj
        generalize (r.l1.tbl t).hops = hh at ho
        generalize (r.l1.tbl t).cost = cc at ho
        cases ho with
        | own e => exact Or.inl e
        | nearest e1 e2 => exact Or.inr ⟨e1, e2⟩
      · rintro (e | ⟨e1, e2⟩)
        · exact absurd e hts
        · have near : Offers1 c h r.attached t .self 0 0 := .nearest e1 e2
          have zero : ∀ a hh cc, Offers1 c h r.attached t a hh cc → cc ≤ 0 → a = .self ∧ hh = 0 := by
            intro a hh cc ho hc
            cases ho with
            | own _ => exact ⟨rfl, rfl⟩
            | nearest _ _ => exact ⟨rfl, rfl⟩
            | endnode b hb => have := endOf_pos hv hb; omega
            | router b hb _ => have := said_pos (l2 := false) (area := c.area) hv b.key t; omega
          cases hadj : (r.l1.tbl t).adj with
          | none =>
            exfalso
            obtain ⟨_, _, h3⟩ := hs.unreach hadj
            rcases h3 with h3 | ⟨a, hh, cc, ho, hgt, hmin⟩
            · have := h3 _ _ _ near; omega
            · obtain ⟨_, e2⟩ := zero _ _ _ ho (hmin _ _ _ near)
              omega
          | some a =>
            obtain ⟨ho, _, _, hmin⟩ := hs.reach a hadj
            rw [(zero _ _ _ ho (hmin _ _ _ near)).1]
  unfold Router.findoadj
  rw [hi.cfg]
  by_cases hc : r.attached = true ∧ area ≠ c.area
  · rw [if_pos hc]
    constructor
    · intro he
      exfalso
      obtain ⟨hl, _⟩ := tatt.1 hc.1
      by_cases hmx : area ≤ c.maxarea
      · rw [if_pos hmx, out] at he
        rcases Nat.eq_zero_or_pos area with h0 | h0
        · rw [h0, (hi.two hl).zero] at he; cases he
        · obtain ⟨ho, _⟩ := (t2 hl area h0 hmx hc.2).reach _ he
          generalize (r.l2.tbl area).hops = hh at ho
          generalize (r.l2.tbl area).cost = cc at ho
          cases ho with
          | own e => exact hc.2 e
      · rw [if_neg hmx] at he; cases he
    · rintro ⟨e, _⟩; exact absurd e hc.2
  · rw [if_neg hc]
    unfold Router.find1
    rw [hi.cfg]
    by_cases hph : area ≠ c.area ∧ c.ph4 = false
    · rw [if_pos hph]
      constructor
      · intro e; cases e
      · rintro ⟨e, _⟩; exact absurd e hph.1
    · rw [if_neg hph]
      simp only
      by_cases har : area = c.area
      · have hne : ¬ area ≠ c.area := by simp [har]
        rw [if_neg hne]
        by_cases htm : tid ≤ c.maxnodes
        · rw [if_pos htm, out, one tid htm]
          exact ⟨fun h => ⟨har, h⟩, fun h => h.2⟩
        · rw [if_neg htm]
          constructor
          · intro e; cases e
          · rintro ⟨_, e | ⟨_, e⟩⟩ <;> omega
      · rw [if_pos har, if_pos (Nat.zero_le _), out, one 0 (Nat.zero_le _)]
        constructor
        · rintro (e | ⟨e, _⟩)
          · omega
          · exact absurd ⟨e, har⟩ hc
        · rintro ⟨e, _⟩; exact absurd e har

/-- Received level 2 messages never speak of area zero, and every cost includes that of the circuit:
the conditions on messages in `Valid` hold for whatever comes in. -/
theorem level2_ids (cost : Nat) (buf : Fields.Bytes) (m : RoutMsg.Msg) (hd : RoutMsg.decode true buf = .ok m) :
    ∀ e ∈ RoutMsg.entries cost m, 1 ≤ e.1 := by
  have hseg : ∀ (a : List Nat) segs, RoutMsg.segsDec true a = .ok segs → ∀ s ∈ segs, 1 ≤ s.startid := by
    intro a
    induction hn : a.length using Nat.strongRecOn generalizing a with
    | _ n ih =>
      intro segs e
      match a, hn, e with
      | [], _, e => rw [RoutMsg.segsDec] at e; cases e; simp
      | [_], _, e => rw [RoutMsg.segsDec] at e; cases e
      | c :: s :: tl, hn, e =>
        rw [RoutMsg.segsDec] at e
        by_cases hval : RoutMsg.segValid true c s = true
        · rw [if_pos hval] at e
          cases hd : RoutMsg.segsDec true (tl.drop c) with
          | error x => rw [hd] at e; cases e
          | ok rest =>
            rw [hd] at e
            cases e
            intro x hx
            simp only [List.mem_cons] at hx
            rcases hx with rfl | hx
            · simp [RoutMsg.segValid] at hval
              show 1 ≤ s
              omega
            · refine ih (tl.drop c).length ?_ _ rfl rest hd x hx
              simp at hn ⊢; omega
        · rw [if_neg hval] at e; cases e
  have hwalk : ∀ (es : List Nat) i, 1 ≤ i → ∀ e ∈ RoutMsg.walk cost i es, 1 ≤ e.1 := by
    intro es
    induction es with
    | nil => intro i _ e he; cases he
    | cons x es ih =>
      intro i hi e he
      simp only [RoutMsg.walk, List.mem_cons] at he
      rcases he with rfl | he
      · exact hi
      · exact ih (i + 1) (by omega) e he
  cases m with
  | ph3 s ws => exact hwalk ws 1 (by omega)
  | ph4 s segs =>
    intro e he
    simp only [RoutMsg.entries, List.mem_flatMap] at he
    obtain ⟨sg, hsg, he⟩ := he
    refine hwalk _ _ ?_ e he
    unfold RoutMsg.decode at hd
    simp only [↓reduceIte] at hd
    split at hd
    · simp at hd
    · split at hd
      · split at hd
        · split at hd
          · simp at hd
          · split at hd
            · simp at hd
            · split at hd
              · simp at hd
              · rename_i e2
                simp only [Except.ok.injEq, RoutMsg.Msg.ph4.injEq] at hd
                exact hseg _ _ e2 sg (hd.2 ▸ hsg)
        · simp at hd
      · simp at hd

theorem entry_costs (cost : Nat) (m : RoutMsg.Msg) : ∀ e ∈ RoutMsg.entries cost m, cost ≤ e.2.2 := by
  have hwalk : ∀ (es : List Nat) i, ∀ e ∈ RoutMsg.walk cost i es, cost ≤ e.2.2 := by
    intro es
    induction es with
    | nil => intro i e he; cases he
    | cons x es ih =>
      intro i e he
      simp only [RoutMsg.walk, List.mem_cons] at he
      rcases he with rfl | he
      · show cost ≤ _ + cost; omega
      · exact ih (i + 1) e he
  cases m with
  | ph3 s ws => exact hwalk ws 1
  | ph4 s segs =>
    intro e he
    simp only [RoutMsg.entries, List.mem_flatMap] at he
    obtain ⟨sg, _, he⟩ := he
    exact hwalk _ _ e he

/-! ## No exception, given sane neighbours -/

/-- End nodes are in range and send no routing messages, and only level 2 routers send level 2 ones. -/
def Tame (c : Cfg) : List Ev → Prop
  | [] => True
  | .up a :: h => (a.ntype = .other → a.tid ≤ c.maxnodes) ∧ Tame c h
  | .down _ :: h => Tame c h
  | .msg1 a _ :: h => a.ntype ≠ .other ∧ Tame c h
  | .msg2 a _ :: h => (c.isL2 = true → a.ntype = .l2) ∧ Tame c h

theorem routemsg1_some {c : Cfg} {E U f2} (hm : c.lim.maxcost < INFCOST) {k0 : Nat} (es) :
    ∀ {r : Router} {f1}, Inv c E U f1 f2 r → (∃ v, r.l1.cols.lookup (.nbr k0) = some v) →
      ∃ r', r.routemsg1 k0 es = some r' := by
  induction es with
  | nil => intro r f1 _ _; exact ⟨r, rfl⟩
  | cons en es ih =>
    intro r f1 h hex
    obtain ⟨i0, v⟩ := en
    obtain ⟨w, hw⟩ := hex
    simp only [Router.routemsg1]
    by_cases hk : i0 > r.cfg.maxnodes
    · rw [if_pos hk]; exact ih h ⟨w, hw⟩
    · rw [if_neg hk]
      unfold Level.col
      rw [hw]
      simp only
      by_cases hv : w i0 ≠ v
      · rw [if_pos hv]
        refine ih (f1 := fun k i => if k0 = k ∧ i0 = i then v else f1 k i) ?_ ⟨set w i0 v, lookup_dput_self _ _ _⟩
        refine ⟨h.cfg, ?_, h.two, h.att, h.natt⟩
        unfold Router.route
        simp only
        rw [h.cfg]
        exact h.one.entry hm hw
      · rw [if_neg hv]; exact ih h ⟨w, hw⟩

theorem aroute_l2 (r : Router) (s e : Nat) : (r.aroute s e).l2 = r.l2.route r.cfg.lim s e := by
  unfold Router.aroute
  simp only
  split <;> rfl

theorem routemsg2_some {k0 : Nat} (es) :
    ∀ {r : Router}, (∃ v, r.l2.cols.lookup (.nbr k0) = some v) → ∃ r', r.routemsg2 k0 es = some r' := by
  induction es with
  | nil => intro r _; exact ⟨r, rfl⟩
  | cons en es ih =>
    intro r hex
    obtain ⟨i0, v⟩ := en
    obtain ⟨w, hw⟩ := hex
    simp only [Router.routemsg2]
    by_cases hk : i0 > r.cfg.maxarea
    · rw [if_pos hk]; exact ih ⟨w, hw⟩
    · rw [if_neg hk]
      unfold Level.col
      rw [hw]
      simp only
      by_cases hv : w i0 ≠ v
      · rw [if_pos hv]
        refine ih ?_
        rw [aroute_l2]
        exact ⟨set w i0 v, lookup_dput_self _ _ _⟩
      · rw [if_neg hv]; exact ih ⟨w, hw⟩

theorem upOf_tame {c : Cfg} {h : List Ev} (ht : Tame c h) {k : Nat} {a : AdjInfo} (e : upOf h k = some a) :
    a.ntype = .other → a.tid ≤ c.maxnodes := by
  induction h with
  | nil => cases e
  | cons ev h ih =>
    cases ev with
    | up b =>
      simp only [upOf] at e
      split at e
      · cases e; exact ht.1
      · exact ih ht.2 e
    | down b =>
      simp only [upOf] at e
      split at e
      · cases e
      · exact ih ht e
    | msg1 b es => exact ih ht.2 e
    | msg2 b es => exact ih ht.2 e

/-- No exception leaves the routing layer as long as the neighbours behave. -/
theorem no_exception (c : Cfg) (hm : c.lim.maxcost ≤ 1022) (ht : 1 ≤ c.tid) (ha : 1 ≤ c.area)
    (h : List Ev) (hv : Valid h) (hta : Tame c h) : ∃ r, run c h = some r := by
  have hm' : c.lim.maxcost < INFCOST := by simp only [INFCOST]; omega
  induction h with
  | nil => exact ⟨_, rfl⟩
  | cons ev h ih =>
    have htail : Tame c h := by
      cases ev with
      | up a => exact hta.2
      | down a => exact hta
      | msg1 a es => exact hta.2
      | msg2 a es => exact hta.2
    obtain ⟨r, hr⟩ := ih hv.tail htail
    have hi := run_inv hm' (by omega) (by omega) hv.tail hr
    simp only [run, hr, Option.bind_some]
    cases ev with
    | up a =>
      simp only [Router.step, Router.adjUp]
      generalize hr1 : (if r.cfg.isL2 = true ∧ a.ntype = .l2 then
        { r with l2 := { r.l2 with cols := dput r.l2.cols (.nbr a.key) infVec } } else r) = r1
      have hc : r1.cfg = c := by
        rw [← hr1]
        split
        · exact hi.cfg
        · exact hi.cfg
      unfold Router.adjUp1
      by_cases hrt : a.ntype = .l1 ∨ a.ntype = .l2
      · rw [if_pos hrt]
        split <;> exact ⟨_, rfl⟩
      · rw [if_neg hrt]
        have : a.tid ≤ r1.cfg.maxnodes := by
          rw [hc]
          refine hta.1 ?_
          cases hh : a.ntype with
          | l1 => exact absurd (Or.inl hh) hrt
          | l2 => exact absurd (Or.inr hh) hrt
          | other => rfl
        rw [if_pos this]
        exact ⟨_, rfl⟩
    | down a =>
      have h1 : ∃ r1, r.adjDown1 a = some r1 := by
        unfold Router.adjDown1
        by_cases hrt : a.ntype = .l1 ∨ a.ntype = .l2
        · rw [if_pos hrt]; exact ⟨_, rfl⟩
        · rw [if_neg hrt]
          have : a.tid ≤ r.cfg.maxnodes := by
            rw [hi.cfg]
            refine upOf_tame htail hv.1 ?_
            cases hh : a.ntype with
            | l1 => exact absurd (Or.inl hh) hrt
            | l2 => exact absurd (Or.inr hh) hrt
            | other => rfl
          rw [if_pos this]
          exact ⟨_, rfl⟩
      obtain ⟨r1, h1⟩ := h1
      simp only [Router.step, Router.adjDown, h1]
      split <;> exact ⟨_, rfl⟩
    | msg1 a es =>
      simp only [Router.step]
      by_cases har : a.area = r.cfg.area
      · rw [if_pos har]
        refine routemsg1_some hm' es hi ?_
        rw [hi.one.has]
        refine ⟨a, hv.1, ?_, by rw [har, hi.cfg]⟩
        cases hh : a.ntype with
        | l1 => exact Or.inl rfl
        | l2 => exact Or.inr rfl
        | other => exact absurd hh hta.1
      · rw [if_neg har]; exact ⟨_, rfl⟩
    | msg2 a es =>
      simp only [Router.step]
      by_cases hl : r.cfg.isL2 = true
      · rw [if_pos hl]
        rw [hi.cfg] at hl
        refine routemsg2_some es ?_
        rw [(hi.two hl).has]
        exact ⟨a, hv.1, hta.1 hl⟩
      · rw [if_neg hl]; exact ⟨_, rfl⟩

/-! ## End nodes with one adjacency each -/

/-- No two end node adjacencies which are up at the same time are for the same address. -/
def UniqueEnds (h : List Ev) : Prop :=
  ∀ k k' a a', upOf h k = some a → upOf h k' = some a' → a.ntype = .other → a'.ntype = .other →
    a.tid = a'.tid → k = k'

def AlwaysUnique : List Ev → Prop
  | [] => True
  | ev :: h => UniqueEnds (ev :: h) ∧ AlwaysUnique h

/-- Then the end node offer for an address is there exactly while the adjacency is up. -/
theorem endOf_iff_up (h : List Ev) (hv : Valid h) (hu : AlwaysUnique h) (a : AdjInfo) (i : Nat) :
    endOf h i = some a ↔ upOf h a.key = some a ∧ a.ntype = .other ∧ a.tid = i := by
  induction h generalizing a with
  | nil => simp [endOf, upOf]
  | cons ev h ih =>
    have ih' := fun a => ih hv.tail hu.2 a
    have ih := ih' a
    cases ev with
    | up b =>
      simp only [endOf, upOf]
      by_cases hb : b.ntype = .other ∧ b.tid = i
      · rw [if_pos hb]
        constructor
        · intro e; cases e; exact ⟨by simp, hb⟩
        · rintro ⟨e, h1, h2⟩
          by_cases hk : b.key = a.key
          · rw [if_pos hk] at e; exact e
          · rw [if_neg hk] at e
            exfalso
            refine hk (hu.1 b.key a.key b a ?_ ?_ hb.1 h1 (by omega))
            · simp [upOf]
            · simp [upOf, hk, e]
      · rw [if_neg hb, ih]
        by_cases hk : b.key = a.key
        · rw [if_pos hk, ← hk, hv.1]
          constructor
          · rintro ⟨e, _⟩; cases e
          · rintro ⟨e, h1, h2⟩; cases e; exact absurd ⟨h1, h2⟩ hb
        · rw [if_neg hk]
    | down b =>
      have hbu : upOf h b.key = some b := hv.1
      simp only [endOf, upOf]
      by_cases hb : b.ntype = .other ∧ b.tid = i
      · rw [if_pos hb]
        constructor
        · intro e; cases e
        · rintro ⟨e, h1, h2⟩
          exfalso
          by_cases hk : b.key = a.key
          · rw [if_pos hk] at e; cases e
          · rw [if_neg hk] at e
            have : upOf h a.key = some a := e
            -- both were up just before
            have hb' : endOf h i = some b := (ih' b).2 ⟨hbu, hb⟩
            have ha' : endOf h i = some a := ih.2 ⟨this, h1, h2⟩
            rw [hb'] at ha'
            cases ha'
            exact hk rfl
      · rw [if_neg hb, ih]
        by_cases hk : b.key = a.key
        · rw [if_pos hk, ← hk, hbu]
          constructor
          · rintro ⟨e, h1, h2⟩; cases e; exact absurd ⟨h1, h2⟩ hb
          · rintro ⟨e, _⟩; cases e
        · rw [if_neg hk]
    | msg1 b es => exact ih
    | msg2 b es => exact ih

/-! ## Cases, and where the code falls short -/

def ex : Cfg := ⟨2, 3, 10, 63, ⟨100, 16⟩, ⟨5, 2⟩, true, true⟩
def rA : AdjInfo := ⟨1, .l1, 2, 4, 3⟩
def rB : AdjInfo := ⟨2, .l2, 2, 5, 1⟩
def eC : AdjInfo := ⟨3, .other, 2, 7, 2⟩
def eD : AdjInfo := ⟨4, .other, 2, 7, 2⟩

/-- A history with two routers and an end node. -/
def hist : List Ev :=
  [.msg2 rB [(9, 3, 20)], .msg1 rB [(6, 2, 8), (8, 20, 4)], .msg1 rA [(6, 2, 5), (8, 3, 30)],
   .up eC, .up rB, .up rA]

theorem hist_valid : Valid hist ∧ Tame ex hist := by
  simp [hist, Valid, Tame, upOf, rA, rB, eC, ex]

/-- Node 6 goes by the cheaper router, node 7 directly, area 9 by the level 2 router; the router is
attached. -/
example : (run ex hist).map (fun r => (r.l1.tbl 6, r.l1.tbl 7, r.l2.tbl 9, r.attached)) =
    some (⟨2, 5, some (.nbr 1)⟩, ⟨1, 2, some (.nbr 3)⟩, ⟨3, 20, some (.nbr 2)⟩, true) := by decide +kernel

/-- Finding: a cheap offer beyond the hop limit hides a dearer one within both limits: node 8 could
be reached through router A (3 hops, cost 30), but is unreachable. -/
theorem hop_limit_hides_route :
    (run ex hist).map (fun r => r.l1.tbl 8) = some unreachable ∧
    Offers1 ex hist true 8 (.nbr rA.key) 3 30 ∧ 30 ≤ ex.lim.maxcost ∧ 3 ≤ ex.lim.maxhops := by
  refine ⟨by decide +kernel, ?_, by decide, by decide⟩
  exact .router rA (by decide +kernel) (by decide +kernel)

/-- Finding: the limits for areas (here cost 5 and 2 hops) are not applied; area 9 at cost 20 is
reachable. -/
theorem area_limits_ignored :
    ¬ Selected ex.alim (Offers2 ex hist 9) ⟨3, 20, some (.nbr 2)⟩ ∧
    (run ex hist).map (fun r => r.l2.tbl 9) = some ⟨3, 20, some (.nbr 2)⟩ := by
  refine ⟨fun h => ?_, by decide +kernel⟩
  have := (h.reach _ rfl).2.1
  simp [ex] at this

/-- Finding: when an end node is adjacent over two circuits and one of them goes down, it becomes
unreachable although the other is up. -/
theorem second_circuit_lost :
    (run ex [.down eD, .up eD, .up eC]).map (fun r => r.l1.tbl 7) = some unreachable ∧
    upOf [.down eD, .up eD, .up eC] eC.key = some eC := by
  constructor <;> decide +kernel

/-- Finding: an end node beyond the configured number of nodes stops the program. -/
theorem high_address_stops_node : run ex [.up ⟨1, .other, 2, 11, 1⟩] = none ∧ Valid [.up ⟨1, .other, 2, 11, 1⟩] := by
  refine ⟨rfl, ?_⟩
  simp [Valid, upOf]

/-- Finding: a routing message from an end node on a LAN stops the program. -/
theorem message_from_endnode_stops_node :
    run ex [.msg1 eC [(6, 2, 8)], .up eC] = none ∧ Valid [.msg1 eC [(6, 2, 8)], .up eC] := by
  refine ⟨by decide +kernel, ?_⟩
  simp [Valid, upOf, eC]

/-- Finding: until something makes it decide on its own entry, a router holds itself to be at
infinite cost (and advertises that). -/
theorem own_entry_late : ((init ex).l1.tbl ex.tid).cost = INFCOST := by decide +kernel

end Verif.Route
