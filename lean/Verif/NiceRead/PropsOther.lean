import Verif.NiceRead.Other
import Verif.NiceRead.Cases

/-!
# Properties: reading areas and circuits
-/

namespace Verif.NiceRead

variable {w : World}

/-! ## Areas -/

/-- A record says of an area what the area routing table has: reachable or not, through what circuit and next hop, and
the distance if it is asked for. -/
structure AreaSays (w : World) (info i : Nat) (r : AreaRec) : Prop where
  area : r.area = i
  state : r.state = some (if w.aoadj i = none then 5 else 4)
  circuit : ∀ c, r.adjCircuit = some c ↔ ∃ a, w.aoadj i = some (.via a) ∧ c = a.circuit
  next : ∀ n, r.nextNode = some n ↔ (w.aoadj i = some .self ∧ n = w.exec) ∨ ∃ a, w.aoadj i = some (.via a) ∧ n = a.node
  hops : r.hops = if info = 1 ∧ w.aoadj i ≠ none then some (w.aminhops i) else none
  cost : r.cost = if info = 1 ∧ w.aoadj i ≠ none then some (w.amincost i) else none

theorem areaSet_says {info i : Nat} {h : Hop} (hh : w.aoadj i = some h) : AreaSays w info i (w.areaSet info i h) := by
  cases h with
  | self =>
    refine ⟨rfl, by simp [World.areaSet, hh], by simp [World.areaSet, hh], ?_, by simp [World.areaSet, hh],
      by simp [World.areaSet, hh]⟩
    intro n
    simp [World.areaSet, hh, eq_comm]
  | via a =>
    refine ⟨rfl, by simp [World.areaSet, hh], ?_, ?_, by simp [World.areaSet, hh], by simp [World.areaSet, hh]⟩
    · intro c; simp [World.areaSet, hh, eq_comm]
    · intro n; simp [World.areaSet, hh, eq_comm]

/-- A read of one area, in a level 2 router: the record of that area, or "unrecognised component" beyond the table. -/
theorem area_single (hk : w.kind = .l2router) {info i : Nat} (hi : info ≤ 1) :
    (0 < i ∧ i ≤ w.maxarea → ∃ r, w.areas info (some i) = .recs [r] ∧ AreaSays w info i r) ∧
    (i = 0 ∨ w.maxarea < i → w.areas info (some i) = .code (-8)) := by
  have h4 : ¬info = 4 := by omega
  have h2 : ¬(w.kind ≠ .l2router ∨ ¬info < 2) := by simp [hk]; omega
  unfold World.areas
  rw [if_neg h4, if_neg h2]
  constructor
  · intro h
    simp only [h, and_self, ↓reduceIte]
    cases hh : w.aoadj i with
    | some x => exact ⟨_, by simp [areaFinish], areaSet_says hh⟩
    | none =>
      exact ⟨{ area := i, state := some 5 }, by simp [areaFinish], ⟨rfl, by simp [hh], by simp [hh], by simp [hh],
        by simp [hh], by simp [hh]⟩⟩
  · intro h
    have : ¬(0 < i ∧ i ≤ w.maxarea) := by omega
    simp [this, areaFinish]

example : exW.areas 1 (some 2) = .recs [⟨2, some 4, some ptpC, some 2049, some 1, some 5⟩] ∧
    exW.areas 0 (some 3) = .code (-8) := by decide

/-- A read of several areas, in a level 2 router: the areas with a route, in order, each once.  Partial: the last area of
the table is left out. -/
theorem area_plural_partial (hk : w.kind = .l2router) {info : Nat} (hi : info ≤ 1) :
    ∃ rs, w.areas info none = .recs rs ∧
      (∀ i, (∃ r ∈ rs, r.area = i) ↔ 1 ≤ i ∧ i < w.maxarea ∧ w.aoadj i ≠ none) ∧
      (∀ r ∈ rs, AreaSays w info r.area r) ∧ (rs.map (·.area)).Pairwise (· < ·) := by
  have h4 : ¬info = 4 := by omega
  have h2 : ¬(w.kind ≠ .l2router ∨ ¬info < 2) := by simp [hk]; omega
  have hstep : ∀ i r, r ∈ w.areaStep info i ↔ ∃ h, w.aoadj i = some h ∧ r = w.areaSet info i h := by
    intro i r
    unfold World.areaStep
    cases w.aoadj i <;> simp
  refine ⟨(List.range' 1 (w.maxarea - 1)).flatMap (w.areaStep info), ?_, ?_, ?_, ?_⟩
  · unfold World.areas
    rw [if_neg h4, if_neg h2]
    simp [areaFinish]
  · intro i
    simp only [List.mem_flatMap, List.mem_range'_1, hstep]
    constructor
    · rintro ⟨r, ⟨j, hj, h, hh, rfl⟩, rfl⟩
      simp only [World.areaSet]
      exact ⟨hj.1, by omega, by simp [hh]⟩
    · rintro ⟨h1, h3, h5⟩
      obtain ⟨h, hh⟩ := Option.ne_none_iff_exists'.1 h5
      exact ⟨_, ⟨i, ⟨h1, by omega⟩, h, hh, rfl⟩, rfl⟩
  · intro r hr
    obtain ⟨i, _, hir⟩ := List.mem_flatMap.1 hr
    obtain ⟨h, hh, rfl⟩ := (hstep i r).1 hir
    exact areaSet_says hh
  · have key : ∀ n s, (((List.range' s n).flatMap (w.areaStep info)).map (·.area)).Pairwise (· < ·) ∧
        ∀ r ∈ (List.range' s n).flatMap (w.areaStep info), s ≤ r.area := by
      intro n
      induction n with
      | zero => intro s; simp
      | succ n ih =>
        intro s
        obtain ⟨i1, i2⟩ := ih (s + 1)
        rw [List.range'_succ, List.flatMap_cons]
        have hs : ∀ r ∈ w.areaStep info s, r.area = s := by
          intro r hr
          obtain ⟨h, _, rfl⟩ := (hstep s r).1 hr
          rfl
        constructor
        · rw [List.map_append, List.pairwise_append]
          refine ⟨?_, i1, ?_⟩
          · unfold World.areaStep
            cases w.aoadj s <;> simp
          · intro a ha b hb
            obtain ⟨r, hr, rfl⟩ := List.mem_map.1 ha
            obtain ⟨r', hr', rfl⟩ := List.mem_map.1 hb
            have := hs r hr
            have := i2 r' hr'
            omega
        · intro r hr
          rcases List.mem_append.1 hr with h | h
          · exact Nat.le_of_eq (hs r h).symm
          · have := i2 r h
            omega
    exact (key _ 1).1

example : exW.areas 0 none = .recs [⟨1, some 4, none, some 1025, none, none⟩] := by decide

/-- The last area of the table is never in the answer to a request for several areas, although a request for that area
says it is reachable. -/
theorem last_area_missing (hk : w.kind = .l2router) (hm : 0 < w.maxarea) {h : Hop} (hh : w.aoadj w.maxarea = some h)
    {info : Nat} (hi : info ≤ 1) :
    (∃ r, w.areas info (some w.maxarea) = .recs [r] ∧ r.state = some 4) ∧
    ∃ rs, w.areas info none = .recs rs ∧ ∀ r ∈ rs, r.area ≠ w.maxarea := by
  obtain ⟨r, h1, h2⟩ := (area_single hk hi (i := w.maxarea)).1 ⟨hm, Nat.le_refl _⟩
  obtain ⟨rs, h3, h4, _⟩ := area_plural_partial hk hi
  refine ⟨⟨r, h1, ?_⟩, rs, h3, ?_⟩
  · simpa [hh] using h2.state
  · intro r hr e
    have := (h4 w.maxarea).1 ⟨r, hr, e⟩
    omega

/-- Area 2 of the example can be reached but is not in the list. -/
example : ∃ r rs, exW.areas 0 (some 2) = .recs [r] ∧ r.state = some 4 ∧ exW.areas 0 none = .recs rs ∧
    ∀ x ∈ rs, x.area ≠ 2 := by
  obtain ⟨⟨r, h1, h2⟩, rs, h3, h4⟩ := last_area_missing (w := exW) (h := .via hopPtp) rfl (by simp [exW]) rfl
    (info := 0) (by omega)
  exact ⟨r, rs, h1, h2, h3, h4⟩

/-- Other nodes know no areas. -/
theorem area_other (hk : w.kind ≠ .l2router) {info : Nat} (hi : info ≤ 1) (i : Nat) :
    w.areas info (some i) = .code (-8) ∧ w.areas info none = .recs [] := by
  have h4 : ¬info = 4 := by omega
  simp [World.areas, h4, hk, areaFinish]

example : exEnd.areas 0 (some 1) = .code (-8) := (area_other (by simp [exEnd]) (by omega) 1).1

/-! ## Circuits -/

/-- The neighbours a LAN circuit has to show: in a status or characteristics request all that are up; in a summary those
that are routers, or the only one there is. -/
def LanShown (info : Nat) (qual : Option Nat) (adjs : List LanAdj) (a : LanAdj) : Prop :=
  a ∈ adjs ∧ a.up = true ∧ (∀ q, qual = some q → q = a.node) ∧
    (info = 1 ∨ info = 2 ∨ a.ntype ≠ 3 ∨ (qual = none ∧ adjs.length = 1))

theorem lanShows_iff {info : Nat} {qual : Option Nat} {adjs : List LanAdj} {a : LanAdj} :
    a ∈ adjs.filter (lanShows (info == 1 || info == 2 || (qual.isNone && adjs.length == 1)) qual) ↔
      LanShown info qual adjs a := by
  rw [List.mem_filter]
  unfold lanShows LanShown
  simp only [Bool.and_eq_true, Bool.or_eq_true, beq_iff_eq, bne_iff_ne, Option.isNone_iff_eq_none]
  cases qual with
  | none => simp; grind
  | some q => simp; grind

/-- A summary, status or characteristics request for a LAN circuit without a qualifier: the neighbours to show are in
the answer, in the order of the table, each with its own block size or timer; the first record has the state or the
characteristics of the circuit; there is always a record. -/
theorem lan_circuit {name : Str} {info cost hello : Nat} {dr : Option Nat} {adjs : List LanAdj} (hi : info ≤ 2) :
    ∃ r rs, (CInfo.lan adjs cost hello dr).read name info none = .ok (r :: rs) ∧
      (∀ n, (∃ x ∈ r :: rs, x.adjacent = some n) ↔ ∃ a, LanShown info none adjs a ∧ a.node = n) ∧
      (∃ l, l.Sublist (adjs.map (·.node)) ∧ (r :: rs).filterMap (·.adjacent) = l) ∧
      (∀ x ∈ r :: rs, x.circuit = name ∧ ∀ b, x.block = some b → info = 1 ∧ ∃ a ∈ adjs, x.adjacent = some a.node ∧
        b = a.blksize) ∧
      (info ≤ 1 → r.state = some 0) ∧ (info = 2 → r.cost = some cost ∧ r.hello = some hello ∧ r.router = dr) ∧
      (∀ x ∈ rs, x.adjacent ≠ none) ∧
      (∀ x ∈ r :: rs, (∀ t, x.listen = some t → info = 2 ∧ ∃ a ∈ adjs, x.adjacent = some a.node ∧ t = a.t4) ∧
        (info = 2 → x.adjacent ≠ none → x.listen ≠ none)) := by
  have h3 : ¬info = 3 := by omega
  have hmem := fun a => lanShows_iff (info := info) (qual := none) (adjs := adjs) (a := a)
  have hh : ∀ r : CRec, (lanHead info cost hello dr r).adjacent = r.adjacent ∧
      (lanHead info cost hello dr r).circuit = r.circuit ∧ (lanHead info cost hello dr r).block = r.block := by
    intro r
    unfold lanHead
    split
    · exact ⟨rfl, rfl, rfl⟩
    · split <;> exact ⟨rfl, rfl, rfl⟩
  have hlis : ∀ r : CRec, (lanHead info cost hello dr r).listen = r.listen := by
    intro r
    unfold lanHead
    split
    · rfl
    · split <;> rfl
  have hs : ∀ r : CRec, (info ≤ 1 → (lanHead info cost hello dr r).state = some 0) ∧
      (info = 2 → (lanHead info cost hello dr r).cost = some cost ∧ (lanHead info cost hello dr r).hello = some hello ∧
        (lanHead info cost hello dr r).router = dr) := by
    intro r
    constructor
    · intro h
      have : info < 2 := by omega
      simp [lanHead, this]
    · rintro rfl
      simp [lanHead]
  simp only [CInfo.read]
  rw [if_neg h3]
  revert hmem
  have hsub : (adjs.filter (lanShows (info == 1 || info == 2 || ((none : Option Nat).isNone && adjs.length == 1))
    none)).Sublist adjs := List.filter_sublist
  revert hsub
  generalize adjs.filter (lanShows (info == 1 || info == 2 || ((none : Option Nat).isNone && adjs.length == 1)) none) = l
  intro hsub hmem
  cases l with
  | nil =>
    refine ⟨lanHead info cost hello dr { circuit := name }, [], by simp, ?_, ?_, ?_, (hs _).1, (hs _).2, by simp, ?_⟩
    · intro n
      simp only [List.mem_singleton, exists_eq_left, (hh _).1, reduceCtorEq, false_iff]
      rintro ⟨a, ha, _⟩
      exact absurd ((hmem a).2 ha) (by simp)
    · refine ⟨[], by simp, ?_⟩
      simp [(hh _).1]
    · intro x hx
      rw [List.mem_singleton] at hx
      subst hx
      simp [(hh _).2.1, (hh _).2.2]
    · intro x hx
      rw [List.mem_singleton] at hx
      subst hx
      simp [hlis, (hh _).1]
  | cons a l =>
    refine ⟨lanHead info cost hello dr (lanRec name info a), l.map (lanRec name info), by simp, ?_, ?_, ?_, (hs _).1,
      (hs _).2, ?_, ?_⟩
    · intro n
      constructor
      · rintro ⟨x, hx, hn⟩
        rcases List.mem_cons.1 hx with rfl | hx'
        · rw [(hh _).1] at hn
          exact ⟨a, (hmem a).1 (by simp), by simpa [lanRec] using hn⟩
        · obtain ⟨b, hb, rfl⟩ := List.mem_map.1 hx'
          exact ⟨b, (hmem b).1 (by simp [hb]), by simpa [lanRec] using hn⟩
      · rintro ⟨b, hb, rfl⟩
        rcases List.mem_cons.1 ((hmem b).2 hb) with rfl | hb'
        · exact ⟨_, List.mem_cons_self, by rw [(hh _).1]; rfl⟩
        · exact ⟨_, List.mem_cons_of_mem _ (List.mem_map.2 ⟨b, hb', rfl⟩), rfl⟩
    · refine ⟨(a :: l).map (·.node), hsub.map _, ?_⟩
      rw [List.filterMap_cons, (hh _).1]
      simp only [lanRec, List.map_cons, List.cons.injEq, true_and, List.filterMap_map]
      rw [show ((fun x : CRec => x.adjacent) ∘ lanRec name info) = fun b : LanAdj => some b.node from rfl]
      rw [List.filterMap_eq_map']
    · intro x hx
      have hb : ∀ b ∈ a :: l, ∀ c, (lanRec name info b).block = some c → info = 1 ∧
          ∃ a' ∈ adjs, (lanRec name info b).adjacent = some a'.node ∧ c = a'.blksize := by
        intro b hb c hc
        by_cases h1 : info = 1
        · simp only [lanRec, h1, ↓reduceIte, Option.some.injEq] at hc
          exact ⟨h1, b, hsub.subset hb, rfl, hc.symm⟩
        · simp [lanRec, h1] at hc
      rcases List.mem_cons.1 hx with rfl | hx'
      · rw [(hh _).1, (hh _).2.1, (hh _).2.2]
        exact ⟨rfl, hb a (by simp)⟩
      · obtain ⟨b, hbl, rfl⟩ := List.mem_map.1 hx'
        exact ⟨rfl, hb b (by simp [hbl])⟩
    · intro x hx
      obtain ⟨b, _, rfl⟩ := List.mem_map.1 hx
      simp [lanRec]
    · intro x hx
      have hb : ∀ b ∈ a :: l, (∀ t, (lanRec name info b).listen = some t → info = 2 ∧
          ∃ a' ∈ adjs, (lanRec name info b).adjacent = some a'.node ∧ t = a'.t4) ∧
          (info = 2 → (lanRec name info b).adjacent ≠ none → (lanRec name info b).listen ≠ none) := by
        intro b hb
        constructor
        · intro t ht
          by_cases h2 : info = 2
          · simp only [lanRec, h2, ↓reduceIte, Option.some.injEq] at ht
            exact ⟨h2, b, hsub.subset hb, rfl, ht.symm⟩
          · simp [lanRec, h2] at ht
        · intro h2 _
          simp [lanRec, h2]
      rcases List.mem_cons.1 hx with rfl | hx'
      · rw [(hh _).1, hlis]
        exact hb a (by simp)
      · obtain ⟨b, hbl, rfl⟩ := List.mem_map.1 hx'
        exact hb b (by simp [hbl])

/-- A LAN with a router, an end node and a neighbour that is not up: a status shows the first two, a summary only the
router. -/
example : ((CInfo.lan [⟨1026, true, 2, 1498, 45⟩, ⟨1027, true, 3, 576, 30⟩, ⟨1028, false, 2, 576, 30⟩] 4 15 none).read lanC 1
      none).toOption.map (·.map (·.adjacent)) = some [some 1026, some 1027] ∧
    ((CInfo.lan [⟨1026, true, 2, 1498, 45⟩, ⟨1027, true, 3, 576, 30⟩, ⟨1028, false, 2, 576, 30⟩] 4 15 none).read lanC 0
      none).toOption.map (·.map (·.adjacent)) = some [some 1026] := by decide

theorem ptp_ok {name : Str} {info id blk cost hello listen : Nat} {sub : Option Nat} {ln : Option Str} :
    (CInfo.ptp sub id blk cost hello listen ln).read name info none =
      .ok [ptpRec name info sub id blk cost hello listen ln] := by
  simp [CInfo.read]

/-- A summary or status of a point to point circuit: it is on; the neighbour is shown if and only if the circuit runs
(and is known); the substate only if it does not; the block size of the running circuit in a status. -/
theorem ptp_circuit {name : Str} {info id blk cost hello listen : Nat} {sub : Option Nat} {ln : Option Str}
    (hi : info ≤ 1) :
    ∃ r, (CInfo.ptp sub id blk cost hello listen ln).read name info none = .ok [r] ∧ r.circuit = name ∧
      r.state = some 0 ∧ r.substate = sub ∧ (∀ n, r.adjacent = some n ↔ sub = none ∧ n = id ∧ n ≠ 0) ∧
      (∀ b, r.block = some b ↔ sub = none ∧ info = 1 ∧ b = blk) ∧ r.loopName = ln := by
  have h2 : info < 2 := by omega
  refine ⟨_, ptp_ok, ?_⟩
  unfold ptpRec
  rw [if_pos h2]
  refine ⟨rfl, rfl, rfl, ?_, ?_, rfl⟩
  · intro n
    by_cases h : sub = none ∧ id ≠ 0
    · simp only [h, ne_eq, not_false_eq_true, and_self, ↓reduceIte, Option.some.injEq, true_and]
      constructor
      · rintro rfl; exact ⟨rfl, h.2⟩
      · rintro ⟨rfl, _⟩; rfl
    · simp only [h, if_false, reduceCtorEq, false_iff]
      rintro ⟨h1, rfl, h0⟩
      exact h ⟨h1, h0⟩
  · intro b
    by_cases h : sub = none ∧ info = 1
    · simp [h, eq_comm]
    · simp only [h, if_false, reduceCtorEq, false_iff]
      rintro ⟨h1, h3, _⟩
      exact h ⟨h1, h3⟩

/-- The characteristics of a point to point circuit: cost and hello timer, and the listen timer if and only if the
circuit runs; nothing of its state. -/
theorem ptp_characteristics {name : Str} {id blk cost hello listen : Nat} {sub : Option Nat} {ln : Option Str} :
    ∃ r, (CInfo.ptp sub id blk cost hello listen ln).read name 2 none = .ok [r] ∧ r.circuit = name ∧
      r.cost = some cost ∧ r.hello = some hello ∧ (∀ t, r.listen = some t ↔ sub = none ∧ t = listen) ∧
      r.state = none ∧ r.adjacent = none := by
  refine ⟨_, ptp_ok, rfl, rfl, rfl, ?_, rfl, rfl⟩
  intro t
  by_cases h : sub = none
  · simp [ptpRec, h, eq_comm]
  · simp [ptpRec, h]

example : ((CInfo.ptp none 1026 576 5 15 45 none).read ptpC 2 none).toOption.map (·.map fun r => (r.cost, r.listen)) =
    some [(some 5, some 45)] := by decide

example : ((CInfo.ptp none 1026 576 5 15 45 none).read ptpC 1 none).toOption.map (·.map fun r => (r.adjacent, r.block)) =
    some [(some 1026, some 576)] := by decide

/-- Every read of a point to point circuit with a neighbour as qualifier raises an exception, also of the neighbour it
has, and so does a read of all circuits if there is such a circuit. -/
theorem qualifier_raises {name : Str} {info id blk cost hello listen : Nat} {sub : Option Nat} {ln : Option Str} {q : Nat}
    (hq : q ≠ 0) {cs : List (Str × CInfo)} (hm : (name, CInfo.ptp sub id blk cost hello listen ln) ∈ cs)
    (hu : ∀ p ∈ cs, p.1 = name → p = (name, CInfo.ptp sub id blk cost hello listen ln)) (hi : info ≠ 4) :
    circuitsAnswer cs info (some name) (some (0, q)) = .error .unbound ∧
    circuitsAnswer cs info none (some (0, q)) = .error .unbound := by
  have hread : ∀ n s i b c h l x, (CInfo.ptp s i b c h l x).read n info (some q) = .error .unbound := by
    intro n s i b c h l x
    simp [CInfo.read, hq]
  have hloop : ∀ l : List (Str × CInfo), (name, CInfo.ptp sub id blk cost hello listen ln) ∈ l →
      circuitsLoop info (some q) l = .error .unbound := by
    intro l
    induction l with
    | nil => simp
    | cons p l ih =>
      intro hp
      obtain ⟨n, c⟩ := p
      cases c with
      | ptp s i b co h li x => simp [circuitsLoop, hread]
      | lan adjs co h dr =>
        have hl : (name, CInfo.ptp sub id blk cost hello listen ln) ∈ l := by simpa using hp
        have hr : ∃ rs, (CInfo.lan adjs co h dr).read n info (some q) = .ok rs := by
          simp only [CInfo.read]
          split
          · exact ⟨_, rfl⟩
          · split
            · exact ⟨_, rfl⟩
            · split <;> exact ⟨_, rfl⟩
        obtain ⟨rs, hrs⟩ := hr
        simp [circuitsLoop, hrs, ih hl]
  unfold circuitsAnswer
  rw [if_neg hi]
  constructor
  · cases hf : cs.find? (fun p => p.1 == name) with
    | none =>
      rw [List.find?_eq_none] at hf
      exact absurd (beq_self_eq_true name) (hf _ hm)
    | some p =>
      have := hu p (List.mem_of_find?_eq_some hf) (by simpa using List.find?_some hf)
      subst this
      simp [hf, hread]
  · simp [hloop cs hm, hi]

example : circuitsAnswer [(ptpC, .ptp none 1026 576 5 15 45 none)] 0 (some ptpC) (some (0, 1026)) = .error .unbound :=
  (qualifier_raises (by omega) List.mem_cons_self (by simp) (by omega)).1

/-- A read of all circuits without a qualifier has every circuit once, in the order of the names, each with the same
records as a read of that circuit alone. -/
theorem all_circuits {cs : List (Str × CInfo)} (hu : (cs.map (·.1)).Nodup) {info : Nat} (hi : info ≤ 3) :
    ∃ l, circuitsAnswer cs info none none = .ok (.recs l) ∧
      (∀ n rs, (n, rs) ∈ l ↔ n ∈ cs.map (·.1) ∧ circuitsAnswer cs info (some n) none = .ok (.recs [(n, rs)])) ∧
      (l.map (·.1)).Perm (cs.map (·.1)) ∧ (l.map (·.1)).Pairwise (· ≤ ·) := by
  have h4 : ¬info = 4 := by omega
  have hread : ∀ (n : Str) (c : CInfo), ∃ rs, c.read n info none = .ok rs ∧ rs ≠ [] := by
    intro n c
    cases c with
    | ptp s i b co h li x => exact ⟨_, ptp_ok, by simp⟩
    | lan adjs co h dr =>
      simp only [CInfo.read]
      split
      · exact ⟨_, rfl, by simp⟩
      · split
        · exact ⟨_, rfl, by simp⟩
        · simp
  have hloop : ∀ cs : List (Str × CInfo), ∃ l, circuitsLoop info none cs = .ok l ∧ l.map (·.1) = cs.map (·.1) ∧
      ∀ n rs, (n, rs) ∈ l ↔ ∃ c, (n, c) ∈ cs ∧ c.read n info none = .ok rs := by
    intro cs
    induction cs with
    | nil => exact ⟨[], rfl, rfl, by simp⟩
    | cons p cs ih =>
      obtain ⟨n, c⟩ := p
      obtain ⟨l, e, k, m⟩ := ih
      obtain ⟨rs, hr, hne⟩ := hread n c
      refine ⟨(n, rs) :: l, by simp [circuitsLoop, hr, e, hne], by simp [k], ?_⟩
      intro n' rs'
      rw [List.mem_cons, m]
      constructor
      · rintro (h | ⟨c', h1, h2⟩)
        · cases h
          exact ⟨c, by simp, hr⟩
        · exact ⟨c', by simp [h1], h2⟩
      · rintro ⟨c', h1, h2⟩
        rcases List.mem_cons.1 h1 with h | h
        · cases h
          rw [hr] at h2
          cases h2
          exact .inl rfl
        · exact .inr ⟨c', h, h2⟩
  obtain ⟨l, e, k, m⟩ := hloop cs
  refine ⟨l.mergeSort fun a b => decide (a.1 ≤ b.1), ?_, ?_, ?_, ?_⟩
  · simp [circuitsAnswer, h4, e]
  · intro n rs
    rw [List.mem_mergeSort, m]
    have hone : ∀ c, (n, c) ∈ cs → ∀ rs, circuitsAnswer cs info (some n) none = .ok (.recs [(n, rs)]) ↔
        c.read n info none = .ok rs := by
      intro c hc rs
      have hf : cs.find? (fun p => p.1 == n) = some (n, c) := by
        cases hf : cs.find? (fun p => p.1 == n) with
        | none =>
          rw [List.find?_eq_none] at hf
          exact absurd (beq_self_eq_true n) (hf _ hc)
        | some p =>
          have h1 := List.mem_of_find?_eq_some hf
          have h2 : p.1 = n := by simpa using List.find?_some hf
          congr 1
          clear hf e k m
          induction cs with
          | nil => simp at hc
          | cons x cs ih =>
            rw [List.map_cons, List.nodup_cons] at hu
            rcases List.mem_cons.1 hc with rfl | hc' <;> rcases List.mem_cons.1 h1 with rfl | h1'
            · rfl
            · exact absurd (List.mem_map.2 ⟨p, h1', h2⟩) hu.1
            · exact absurd (List.mem_map.2 ⟨(n, c), hc', h2.symm⟩) hu.1
            · exact ih hu.2 hc' h1'
      obtain ⟨rs', hr, hne⟩ := hread n c
      unfold circuitsAnswer
      simp only [h4, if_false, Option.any_none, Bool.false_eq_true, hf, Option.map_none, hr]
      cases rs' with
      | nil => simp at hne
      | cons x xs => simp
    constructor
    · rintro ⟨c, hc, hr⟩
      exact ⟨List.mem_map.2 ⟨_, hc, rfl⟩, (hone c hc rs).2 hr⟩
    · rintro ⟨hn, ha⟩
      obtain ⟨⟨n', c⟩, hc, rfl⟩ := List.mem_map.1 hn
      exact ⟨c, hc, (hone c hc rs).1 ha⟩
  · rw [← k]
    exact (List.mergeSort_perm l _).map _
  · rw [List.pairwise_map]
    have := List.pairwise_mergeSort (le := fun a b : Str × List CRec => decide (a.1 ≤ b.1))
      (by intro a b c h1 h2; simp only [decide_eq_true_eq] at *; exact List.le_trans h1 h2)
      (by intro a b; simp only [Bool.or_eq_true, decide_eq_true_eq]; exact List.le_total _ _) l
    exact this.imp (by simp)

example : ∃ l, circuitsAnswer [(ptpC, .ptp none 1026 576 5 15 45 none), (lanC, .lan [] 4 15 none)] 0 none none =
    .ok (.recs l) ∧ (l.map (·.1)).Perm [ptpC, lanC] := by
  obtain ⟨l, h1, _, h2, _⟩ := all_circuits (cs := [(ptpC, .ptp none 1026 576 5 15 45 none), (lanC, .lan [] 4 15 none)])
    (by decide) (info := 0) (by omega)
  exact ⟨l, h1, h2⟩

/-- Every request to zero counters raises an exception, except one for a node with an unknown name. -/
theorem zero_raises (db : Db) (name : Option Str) :
    zeroAnswer db name = .error .attribute ∨
      (∃ s, name = some s ∧ (∀ p ∈ db.byname, p.1 ≠ s) ∧ zeroAnswer db name = .ok (.code (-8))) := by
  cases name with
  | none => exact .inl rfl
  | some s =>
    unfold zeroAnswer
    cases h : (db.named s).isSome with
    | true => exact .inl (by simp [h])
    | false =>
      right
      refine ⟨s, rfl, ?_, by simp [h]⟩
      simp only [Db.named, Option.isSome_map] at h
      rw [Option.isSome_eq_false_iff, Option.isNone_iff_eq_none, List.find?_eq_none] at h
      intro p hp
      simpa using h p hp

example : zeroAnswer exDb (some [70, 65]) = .error .attribute ∧ zeroAnswer exDb none = .error .attribute := ⟨rfl, rfl⟩

end Verif.NiceRead
