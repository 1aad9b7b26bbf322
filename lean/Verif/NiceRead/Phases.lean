import Verif.NiceRead.Lemmas

/-!
# The layers as actions
-/

namespace Verif.NiceRead

variable {w : World} {db0 : Db}

def setAct (db0 : Db) (k : Nat) (f : Rec → Rec) : Act := (k, fun r => some (f (r.getD (fresh db0 k))))

/-- Actions of NSP. -/
def eclActs (w : World) (db0 : Db) (q : Req) (ns : List Node) : List Act :=
  (ns.filter (w.eclWants q)).map fun n => setAct db0 n.addr (w.eclSet q n)

theorem eclSet_name (q : Req) (n : Node) (a b : Str) :
    w.eclSet q n { addr := 0, name := a } = w.eclSet q n { addr := 0, name := b } := by
  unfold World.eclSet
  split
  · rfl
  · split <;> rfl

theorem eclNode_does (g : w.Good db0) (q : Req) {n : Node} (hn : n ∈ db0.byid) (s : St) :
    ∃ s', w.eclNode q n s = .ok s' ∧ Does db0 [setAct db0 n.addr (w.eclSet q n)] s s' := by
  apply set_does
  · exact g.address n hn
  · intro k0
    right
    have hl : n.loop = none := by
      cases h : n.loop with
      | none => rfl
      | some c => exact absurd (g.loop n hn (by simp [h])) k0
    rw [Db.nameOf, find_of_mem g hn hl]; rfl
  · intro _ a b
    exact eclSet_name q n a b

theorem eclAll_does (g : w.Good db0) (q : Req) : ∀ (ns : List Node) (s : St), (∀ n ∈ ns, n ∈ db0.byid) →
    ∃ s', w.eclAll q ns s = .ok s' ∧ Does db0 (eclActs w db0 q ns) s s'
  | [], s, _ => ⟨s, rfl, Does.nil _ _⟩
  | n :: ns, s, h => by
    unfold World.eclAll eclActs
    by_cases hw : w.eclWants q n = true
    · obtain ⟨s1, e1, d1⟩ := eclNode_does g q (h n (by simp)) s
      obtain ⟨s2, e2, d2⟩ := eclAll_does g q ns s1 (fun m hm => h m (by simp [hm]))
      rw [if_pos hw, e1, List.filter_cons_of_pos hw, List.map_cons]
      exact ⟨s2, e2, d1.append d2⟩
    · obtain ⟨s2, e2, d2⟩ := eclAll_does g q ns s (fun m hm => h m (by simp [hm]))
      rw [if_neg hw, List.filter_cons_of_neg hw]
      exact ⟨s2, e2, d2⟩

/-- Actions of a circuit, for a plural summary or status request. -/
def circActs (db0 : Db) (q : Req) (name : Str) : Circ → List Act
  | .ptp running id phase ntype =>
    if running then [setAct db0 id (ptpSet name id phase ntype q)] else []
  | .lan adjs cost =>
    ((adjs.mergeSort fun a b => a.node ≤ b.node).filter (·.up)).map fun a =>
      setAct db0 a.node (lanSet name cost a q)

theorem adjnodes_does : ∀ (as : List LanAdj) (s : St), (∀ a ∈ as, Address a.node ∧ a.node ≠ 0) →
    ∃ db', adjnodes as s.db = .ok db' ∧ Does db0 [] s { s with db := db' }
  | [], s, _ => ⟨s.db, rfl, Does.nil _ _⟩
  | a :: as, s, h => by
    obtain ⟨n, db1, e1, _, d1⟩ := grow_does db0 s (h a (by simp)).1 (h a (by simp)).2
    obtain ⟨db2, e2, d2⟩ := adjnodes_does as { s with db := db1 } (fun b hb => h b (by simp [hb]))
    unfold adjnodes
    rw [e1]
    exact ⟨db2, e2, d1.append d2⟩

theorem lanLoop_does (q : Req) (hm : q.mult = true) (name : Str) (cost : Nat) : ∀ (as : List LanAdj) (s : St),
    (∀ a ∈ as, Address a.node ∧ a.node ≠ 0) →
    ∃ s', lanLoop name cost q as s = .ok s' ∧
      Does db0 ((as.filter (·.up)).map fun a => setAct db0 a.node (lanSet name cost a q)) s s'
  | [], s, _ => ⟨s, rfl, Does.nil _ _⟩
  | a :: as, s, h => by
    unfold lanLoop
    by_cases hu : a.up = true
    · obtain ⟨s1, e1, d1⟩ := set_does db0 s (nm := []) (f := lanSet name cost a q) (h a (by simp)).1 (fun _ => .inl rfl)
        (fun h0 => absurd h0 (h a (by simp)).2)
      obtain ⟨s2, e2, d2⟩ := lanLoop_does q hm name cost as s1 (fun b hb => h b (by simp [hb]))
      rw [if_pos (by simp [hu, hm]), e1, List.filter_cons_of_pos hu, List.map_cons]
      exact ⟨s2, e2, d1.append d2⟩
    · obtain ⟨s2, e2, d2⟩ := lanLoop_does q hm name cost as s (fun b hb => h b (by simp [hb]))
      rw [if_neg (by simp [hu]), List.filter_cons_of_neg hu]
      exact ⟨s2, e2, d2⟩

theorem circ_does (g : w.Good db0) (q : Req) (hm : q.mult = true) (hs : q.sumstat = true) (hl : q.loop = false)
    {c : Str × Circ} (hc : c ∈ w.circuits) (s : St) :
    ∃ s', c.2.read c.1 q s = .ok s' ∧ Does db0 (circActs db0 q c.1 c.2) s s' := by
  obtain ⟨name, c⟩ := c
  cases c with
  | ptp running id phase ntype =>
    unfold Circ.read circActs
    cases running with
    | false => exact ⟨s, by simp, Does.nil _ _⟩
    | true =>
      obtain ⟨hid, h0⟩ := g.ptp _ _ _ _ hc
      obtain ⟨n, db1, e1, _, d1⟩ := grow_does db0 s hid h0
      obtain ⟨s2, e2, d2⟩ := set_does db0 { s with db := db1 } (nm := []) (f := ptpSet name id phase ntype q) hid
        (fun _ => .inl rfl) (fun h => absurd h h0)
      simp only [hs, hl, Bool.not_false, Bool.and_self, ↓reduceIte, h0, e1, hm, Bool.true_or]
      exact ⟨s2, e2, d1.append d2⟩
  | lan adjs cost =>
    unfold Circ.read circActs
    obtain ⟨db1, e1, d1⟩ := adjnodes_does (db0 := db0) adjs s (g.lan _ _ _ hc)
    obtain ⟨s2, e2, d2⟩ := lanLoop_does (db0 := db0) q hm name cost (adjs.mergeSort fun a b => a.node ≤ b.node)
      { s with db := db1 } (fun a ha => g.lan _ _ _ hc a (List.mem_mergeSort.1 ha))
    simp only [hs, hl, Bool.not_false, Bool.and_self, ↓reduceIte, e1]
    exact ⟨s2, e2, d1.append d2⟩

/-- The circuits a qualifier selects. -/
def chosen (qual : Option Str) (cs : List (Str × Circ)) : List (Str × Circ) :=
  cs.filter fun c => qual.isNone || qual == some c.1

theorem circLoop_does (g : w.Good db0) (q : Req) (hm : q.mult = true) (hs : q.sumstat = true) (hl : q.loop = false)
    (qual : Option Str) : ∀ (cs : List (Str × Circ)) (s : St), (∀ c ∈ cs, c ∈ w.circuits) →
    ∃ s', circLoop q qual cs s = .ok s' ∧
      Does db0 ((chosen qual cs).flatMap fun c => circActs db0 q c.1 c.2) s s'
  | [], s, _ => ⟨s, rfl, Does.nil _ _⟩
  | c :: cs, s, h => by
    unfold circLoop chosen
    by_cases hq : (qual.isNone || qual == some c.1) = true
    · obtain ⟨s1, e1, d1⟩ := circ_does g q hm hs hl (h c (by simp)) s
      obtain ⟨s2, e2, d2⟩ := circLoop_does g q hm hs hl qual cs s1 (fun b hb => h b (by simp [hb]))
      rw [if_pos hq, e1, List.filter_cons_of_pos (by exact hq), List.flatMap_cons]
      exact ⟨s2, e2, d1.append d2⟩
    · obtain ⟨s2, e2, d2⟩ := circLoop_does g q hm hs hl qual cs s (fun b hb => h b (by simp [hb]))
      rw [if_neg hq, List.filter_cons_of_neg (by exact hq)]
      exact ⟨s2, e2, d2⟩

/-- A circuit does nothing for other requests. -/
theorem circLoop_skip (q : Req) (h : q.sumstat = false ∨ q.loop = true) (qual : Option Str) :
    ∀ (cs : List (Str × Circ)) (s : St), circLoop q qual cs s = .ok s
  | [], s => rfl
  | c :: cs, s => by
    have : c.2.read c.1 q s = .ok s := by
      cases c.2 <;> unfold Circ.read <;> rcases h with h | h <;> simp [h]
    unfold circLoop
    rw [this]
    simp only [ite_self]
    exact circLoop_skip q h qual cs s

/-- The address of number `i` in the own area. -/
def World.at (w : World) (i : Nat) : Nat := w.exec / 1024 * 1024 + i

/-- Actions of the routing table. -/
def reachActs (w : World) (db0 : Db) (q : Req) (qual : Option Str) (i : Nat) : List Act :=
  match w.oadj i with
  | some .self => []
  | some (.via a) =>
    if qual.isSome && qual != some [] && qual != some a.circuit then []
    else [setAct db0 (w.at i) (w.reachSet q i a)]
  | none =>
    [(w.at i, fun r =>
      if q.code == -1 || r.isSome then some { r.getD (fresh db0 (w.at i)) with state := some 5 } else none)]

theorem at_address (g : w.Good db0) {i : Nat} (h1 : 1 ≤ i) (h2 : i ≤ w.maxnodes) : Address (w.at i) ∧ w.at i ≠ 0 := by
  have := g.exec.1.1
  have := g.size
  unfold World.at Address
  omega

theorem reachStep_does (g : w.Good db0) (q : Req) (qual : Option Str) {i : Nat} (h1 : 1 ≤ i) (h2 : i ≤ w.maxnodes)
    (s : St) : ∃ s', w.reachStep q qual i s = .ok s' ∧ Does db0 (reachActs w db0 q qual i) s s' := by
  obtain ⟨ha, h0⟩ := at_address g h1 h2
  unfold World.reachStep reachActs
  cases ho : w.oadj i with
  | none =>
    simp only
    by_cases hc : (q.code == -1 || s.resp.has (w.at i)) = true
    · obtain ⟨s', e, d⟩ := set_does db0 s (nm := []) (f := fun r => { r with state := some 5 }) ha (fun _ => .inl rfl)
        (fun h => absurd h h0)
      refine ⟨s', by rw [World.at] at hc e; rw [if_pos hc]; exact e, ?_⟩
      intro inv
      obtain ⟨i1, g1⟩ := d inv
      refine ⟨i1, fun k => ?_⟩
      rw [g1]
      simp only [List.foldl_cons, List.foldl_nil, Act.on]
      by_cases hk : w.at i = k
      · subst hk
        rw [← get_isSome] at hc
        simp only [↓reduceIte, hc]
      · simp [hk]
    · refine ⟨s, by rw [World.at] at hc; rw [if_neg hc], ?_⟩
      intro inv
      refine ⟨inv, fun k => ?_⟩
      simp only [List.foldl_cons, List.foldl_nil, Act.on]
      by_cases hk : w.at i = k
      · subst hk
        rw [← get_isSome] at hc
        simp only [↓reduceIte, hc]
        simp only [Bool.or_eq_true, not_or] at hc
        simpa using hc.2
      · simp [hk]
  | some hop =>
    cases hop with
    | self => exact ⟨s, rfl, Does.nil _ _⟩
    | via a =>
      simp only
      by_cases hq : (qual.isSome && qual != some [] && qual != some a.circuit) = true
      · rw [if_pos hq, if_pos hq]
        exact ⟨s, rfl, Does.nil _ _⟩
      · rw [if_neg hq, if_neg hq]
        obtain ⟨s', e, d⟩ := set_does db0 s (nm := []) (f := w.reachSet q i a) ha (fun _ => .inl rfl)
          (fun h => absurd h h0)
        rw [World.at] at e
        rw [e]
        simp only
        by_cases hst : q.stat = true
        · rw [if_pos hst]
          exact ⟨s', rfl, d⟩
        · rw [if_neg hst]
          obtain ⟨n, db1, e1, _, d1⟩ := grow_does db0 s' (g.hop i a ho).1 (g.hop i a ho).2
          refine ⟨{ s' with db := db1 }, by simp [St.know, e1, Except.map], ?_⟩
          simpa [setAct] using d.append d1

theorem reachLoop_does (g : w.Good db0) (q : Req) (qual : Option Str) : ∀ (is : List Nat) (s : St),
    (∀ i ∈ is, 1 ≤ i ∧ i ≤ w.maxnodes) →
    ∃ s', w.reachLoop q qual is s = .ok s' ∧ Does db0 (is.flatMap (reachActs w db0 q qual)) s s'
  | [], s, _ => ⟨s, rfl, Does.nil _ _⟩
  | i :: is, s, h => by
    obtain ⟨s1, e1, d1⟩ := reachStep_does g q qual (h i (by simp)).1 (h i (by simp)).2 s
    obtain ⟨s2, e2, d2⟩ := reachLoop_does g q qual is s1 (fun j hj => h j (by simp [hj]))
    unfold World.reachLoop
    rw [e1, List.flatMap_cons]
    exact ⟨s2, e2, d1.append d2⟩

open Classical in
/-- Actions of `reach`. -/
noncomputable def tableActs (w : World) (db0 : Db) (q : Req) (qual : Option Str) : List Act :=
  if w.Router then (List.range' 1 w.maxnodes).flatMap (reachActs w db0 q qual) else []

theorem reach_does (g : w.Good db0) (q : Req) (qual : Option Str) (s : St) :
    ∃ s', w.reach q qual s = .ok s' ∧ Does db0 (tableActs w db0 q qual) s s' := by
  have hl := reachLoop_does g q qual (List.range' 1 w.maxnodes) s (by
    intro i hi
    have := List.mem_range'_1.1 hi
    omega)
  unfold World.reach tableActs World.Router
  cases hk : w.kind with
  | l1router => simpa using hl
  | l2router => simpa using hl
  | phase2 => exact ⟨s, rfl, by simpa using Does.nil db0 s⟩
  | endnode => exact ⟨s, rfl, by simpa using Does.nil db0 s⟩

open Classical in
/-- Actions of Routing for a plural summary or status request. -/
noncomputable def routActs (w : World) (db0 : Db) (q : Req) : List Act :=
  match q.pick with
  | none => []
  | some qual =>
    (if q.loop then [] else (chosen qual w.circuits).flatMap fun c => circActs db0 q c.1 c.2) ++
    (if q.adj || q.loop then [] else tableActs w db0 q qual)

theorem rout_does (g : w.Good db0) (q : Req) (hm : q.mult = true) (hs : q.sumstat = true) (s : St) :
    ∃ s', w.rout q s = .ok s' ∧ Does db0 (routActs w db0 q) s s' := by
  have hc : q.counters = false := by simp [Req.sumstat] at hs; simp [Req.counters]; omega
  have hch : q.char = false := by simp [Req.sumstat] at hs; simp [Req.char]; omega
  unfold World.rout routActs
  cases q.pick with
  | none => exact ⟨s, rfl, Does.nil _ _⟩
  | some qual =>
    simp only [hc, hch, hm, Bool.not_true, Bool.false_eq_true, if_false]
    cases hl : q.loop with
    | true =>
      rw [circLoop_skip q (.inr hl)]
      simp only [↓reduceIte]
      refine ⟨s, by simp, by simpa using Does.nil db0 s⟩
    | false =>
      obtain ⟨s1, e1, d1⟩ := circLoop_does g q hm hs hl qual w.circuits s (fun c hc => hc)
      obtain ⟨s2, e2, d2⟩ := reach_does g q qual s1
      rw [e1]
      cases ha : q.adj with
      | true => exact ⟨s1, by simp, by simpa using d1⟩
      | false => exact ⟨s2, by simpa using e2, by simpa using d1.append d2⟩

/-- What the executor gets at the end. -/
def endAct (w : World) (q : Req) : Act := (w.exec, fun r => r.map (execSet w q))

theorem end_does (q : Req) (s : St) :
    Does db0 [endAct w q] s { s with resp := s.resp.upd w.exec (execSet w q) } := by
  intro i
  refine ⟨⟨by simpa [keys_upd] using i.keys, i.names⟩, fun k => ?_⟩
  simp only [get_upd, List.foldl_cons, List.foldl_nil, Act.on, endAct]
  by_cases h : k = w.exec
  · subst h; simp
  · simp [h, Ne.symm h]

/-- Actions of NSP for a plural request. -/
def nspActs (w : World) (db0 : Db) (q : Req) : List Act :=
  if q.adj then [] else eclActs w db0 q db0.byid

/-- All actions for a plural summary or status request. -/
noncomputable def acts (w : World) (db0 : Db) (q : Req) : List Act :=
  nspActs w db0 q ++ routActs w db0 q ++ [endAct w q]

theorem layers_does (g : w.Good db0) (q : Req) (hm : q.mult = true) (hs : q.sumstat = true) :
    ∃ s, w.layers q db0 = .ok s ∧ Inv db0 s ∧
      ∀ k, s.resp.get k = (acts w db0 q).foldl (Act.on k) none := by
  have h1 : ∃ s1, w.ecl q ⟨db0, []⟩ = .ok s1 ∧ Does db0 (nspActs w db0 q) ⟨db0, []⟩ s1 := by
    unfold World.ecl nspActs
    cases q.adj with
    | true => exact ⟨_, rfl, Does.nil _ _⟩
    | false =>
      simp only [Bool.false_eq_true, hm, ↓reduceIte]
      exact eclAll_does g q db0.byid ⟨db0, []⟩ (fun n hn => hn)
  obtain ⟨s1, e1, d1⟩ := h1
  obtain ⟨s2, e2, d2⟩ := rout_does g q hm hs s1
  have d3 := (d1.append d2).append (end_does (w := w) (db0 := db0) q s2)
  obtain ⟨i, gk⟩ := d3 ⟨by simp, fun _ _ => rfl⟩
  refine ⟨_, ?_, i, ?_⟩
  · unfold World.layers
    rw [e1]
    simp only [e2]
  · intro k
    exact gk k

end Verif.NiceRead
