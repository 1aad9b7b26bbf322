import Verif.NiceRead.One
import Verif.NiceRead.Cases

/-!
# Properties: reading one node

Requests for one node (summary or status), by address or by name.
-/

namespace Verif.NiceRead

variable {w : World} {db : Db} {e : Ent} {k info : Nat} {qual : Option (Int × Str)}

/-- A router answers a request for one node to which its tables have a route with that node, which is reachable: with
the circuit and, in a summary, the next hop; in a status, the distance if the node is in the own area, and the type of
the node if and only if it is the next hop itself. -/
theorem single_reachable (g : w.Good db) (hw : w.Router) (hm : Means w db e k) (hk : Address k) (hx : k ≠ w.exec)
    (hi : info ≤ 1) (hq : Plain qual) {a : Adj} (hr : Route w k (some (.via a))) :
    ∃ r, w.answer db e info qual = .ok (.recs [r]) ∧ Facts w db k r ∧
      r.state = some 4 ∧ r.adjCircuit = some a.circuit ∧
      r.nextNode = (if info = 0 then some a.node else none) ∧
      r.hops = (if info = 1 ∧ k / 1024 = w.exec / 1024 then some (w.minhops (k % 1024)) else none) ∧
      r.cost = (if info = 1 ∧ k / 1024 = w.exec / 1024 then some (w.mincost (k % 1024)) else none) ∧
      (∀ t, r.adjType = some t → info = 1 ∧ k = a.node ∧ TypeShown a.phase a.ntype t) ∧
      (info = 1 → k = a.node → r.adjType ≠ none) := by
  obtain ⟨nm, h1, hnm, h0⟩ := resolve_means g hm info qual
  generalize hQ : (⟨0, k, nm, info, qual⟩ : Req) = q at h1
  have hcode : q.code = 0 := by subst hQ; rfl
  have hval : q.value = k := by subst hQ; rfl
  have hinfo : q.info = info := by subst hQ; rfl
  have hvn : q.vname = nm := by subst hQ; rfl
  have hqual : q.qual = qual := by subst hQ; rfl
  have hs : q.sumstat = true := by simp [Req.sumstat, hinfo]; omega
  have hst : q.stat = true ↔ info = 1 := by simp [Req.stat, hinfo]
  obtain ⟨db1, v, e1, i1, f1, f2, f3, f4, f5, f6, f7, f8, f9, f10, f11⟩ :=
    ecl_one g (q := q) hcode (by omega) (by rw [hval]; exact hk) (by rw [hval]; exact h0) (by rw [hval, hvn]; exact hnm)
  rw [hval] at e1 i1 f1 f2 f4 f5
  obtain ⟨tid, ht1, ht2, ht3⟩ := hopOf_route hw hr
  obtain ⟨p, hp⟩ := plain_pick (q := q) (hqual ▸ hq)
  have hen : w.kind ≠ .endnode := by rcases hw with h | h <;> simp [h]
  have hcnt : q.counters = false := by simp [Req.counters, hinfo]; omega
  have hch : q.char = false := by simp [Req.char, hinfo]; omega
  have hmu : q.mult = false := by simp [Req.mult, hcode]
  have hhop : Address a.node ∧ a.node ≠ 0 := by
    generalize hh : (some (Hop.via a)) = o at hr
    cases hr with
    | here _ _ => exact g.hop _ _ hh.symm
    | out _ _ => exact g.hop _ _ hh.symm
    | area _ _ _ => exact g.areaHop _ _ hh.symm
  have key : ∃ db2, w.rout q ⟨db1, [(k, v)]⟩ = .ok ⟨db2, [(k, w.routSet q tid a v)]⟩ := by
    unfold World.rout
    simp only [hp, hcnt, Bool.false_eq_true, hch, hmu, Bool.not_false, ↓reduceIte]
    unfold World.routOne World.endCirc
    simp only [hs, Bool.true_and, bne_iff_ne, ne_eq, hen, not_false_eq_true, ↓reduceIte, hval, ht1]
    rw [set_one rfl]
    simp only
    by_cases h : q.stat = true
    · rw [if_pos h]
      exact ⟨db1, rfl⟩
    · rw [if_neg h]
      obtain ⟨n, db2, e2, _⟩ := grow_does db ⟨db1, [(k, w.routSet q tid a v)]⟩ hhop.1 hhop.2
      simp only [St.know] at e2 ⊢
      rw [e2]
      exact ⟨db2, rfl⟩
  obtain ⟨db2, e2⟩ := key
  rw [← hQ] at h1 e1 e2
  refine ⟨_, answer_one h1 hi e1 e2, ?_⟩
  rw [hQ, if_neg hx]
  unfold World.routSet
  by_cases h : q.stat = true
  · rw [if_pos h]
    have h' := hst.1 h
    refine ⟨⟨f1, f2, ?_, f4, f5⟩, rfl, rfl, ?_, ?_, ?_, ?_, ?_⟩
    · simp [f3, hx]
    · simp [h', f8]
    · by_cases hh : k / 1024 = w.exec / 1024
      · have := ht2 hh
        have hne : k % 1024 ≠ 0 := fun hz => h0 (hk.2 hz)
        simp [h', hh, this, hne]
      · simp [ht3 hh, hh, f9]
    · by_cases hh : k / 1024 = w.exec / 1024
      · have := ht2 hh
        have hne : k % 1024 ≠ 0 := fun hz => h0 (hk.2 hz)
        simp [h', hh, this, hne]
      · simp [ht3 hh, hh, f10]
    · intro t
      simp only [hval]
      split
      · rename_i hka
        intro he
        simp only [Option.some.injEq] at he
        subst he
        refine ⟨h', hka, ?_⟩
        unfold niceType
        exact ⟨fun h4 => by simp [h4], fun h4 => by simp [h4], fun h4 => by simp [h4]⟩
      · rw [f11]; simp
    · intro _ hka
      simp [hval, hka]
  · rw [if_neg h]
    have h' : ¬info = 1 := fun e => h (hst.2 e)
    have h'' : info = 0 := by omega
    refine ⟨⟨f1, f2, ?_, f4, f5⟩, rfl, rfl, ?_, ?_, ?_, ?_, fun e => absurd e h'⟩
    · simp [f3, hx]
    · simp [h'']
    · simp [h'', f9]
    · simp [h'', f10]
    · rw [f11]; simp

/-- 1.3, by name, is behind 1.2 on the LAN, at two hops; it has two links. -/
example : ∃ r, exW.answer exDb (.name [70, 65]) 1 none = .ok (.recs [r]) ∧ r.addr = 1027 ∧ r.state = some 4 ∧
    r.adjCircuit = some lanC ∧ r.hops = some 2 ∧ r.cost = some 8 ∧ r.links = some 2 ∧ r.delay = some 2 := by
  obtain ⟨r, h1, h2, h3, h4, _, h5, h6, _⟩ := single_reachable (info := 1) (qual := none) (a := hopLan) exGood exRouter
    (.name [70, 65] nodeFar (by simp [exDb]) (by simp [exDb]) rfl (by simp [nodeFar])) (by simp [Address, nodeFar])
    (by simp [nodeFar, exW]) (Nat.le_refl _) (by simp [Plain]) (Route.here (w := exW) (k := 1027) rfl (by simp [exW]))
  refine ⟨r, h1, h2.addr, h3, h4, h5, h6, (h2.links 2).2 ⟨rfl, by omega⟩, (h2.delay 2).2 ⟨nodeFar, by simp [exDb], rfl,
    rfl, by simp [nodeFar], by simp [nodeFar]⟩⟩

/-- A router answers a request for one node without a route with that node, which is unreachable. -/
theorem single_unreachable (g : w.Good db) (hw : w.Router) (hm : Means w db e k) (hk : Address k) (hx : k ≠ w.exec)
    (hi : info ≤ 1) (hq : Plain qual) (hr : Route w k none) :
    ∃ r, w.answer db e info qual = .ok (.recs [r]) ∧ Facts w db k r ∧
      r.state = some 5 ∧ r.adjCircuit = none ∧ r.nextNode = none ∧ r.hops = none ∧ r.cost = none := by
  obtain ⟨nm, h1, hnm, h0⟩ := resolve_means g hm info qual
  generalize hQ : (⟨0, k, nm, info, qual⟩ : Req) = q at h1
  have hcode : q.code = 0 := by subst hQ; rfl
  have hval : q.value = k := by subst hQ; rfl
  have hinfo : q.info = info := by subst hQ; rfl
  have hvn : q.vname = nm := by subst hQ; rfl
  have hqual : q.qual = qual := by subst hQ; rfl
  have hs : q.sumstat = true := by simp [Req.sumstat, hinfo]; omega
  obtain ⟨db1, v, e1, i1, f1, f2, f3, f4, f5, f6, f7, f8, f9, f10, f11⟩ :=
    ecl_one g (q := q) hcode (by omega) (by rw [hval]; exact hk) (by rw [hval]; exact h0) (by rw [hval, hvn]; exact hnm)
  rw [hval] at e1 i1 f1 f2 f4 f5
  obtain ⟨tid, ht1, ht2, ht3⟩ := hopOf_route hw hr
  obtain ⟨p, hp⟩ := plain_pick (q := q) (hqual ▸ hq)
  have hen : w.kind ≠ .endnode := by rcases hw with h | h <;> simp [h]
  have hcnt : q.counters = false := by simp [Req.counters, hinfo]; omega
  have hch : q.char = false := by simp [Req.char, hinfo]; omega
  have hmu : q.mult = false := by simp [Req.mult, hcode]
  have e2 : w.rout q ⟨db1, [(k, v)]⟩ = .ok ⟨db1, [(k, { v with state := some 5 })]⟩ := by
    unfold World.rout
    simp only [hp, hcnt, Bool.false_eq_true, hch, hmu, Bool.not_false, ↓reduceIte]
    unfold World.routOne World.endCirc
    simp only [hs, Bool.true_and, bne_iff_ne, ne_eq, hen, not_false_eq_true, ↓reduceIte, hval, ht1]
    rw [set_one rfl]
  rw [← hQ] at h1 e1 e2
  refine ⟨_, answer_one h1 hi e1 e2, ?_⟩
  rw [if_neg hx]
  exact ⟨⟨f1, f2, by simp [f3, hx], f4, f5⟩, rfl, f7, f8, f9, f10⟩

/-- Nothing is at 1.4, and there is no area 2 but through 2.1: 2.7 has a route, 0.5 has not. -/
example : ∃ r, exW.answer exDb (.addr 1028) 0 none = .ok (.recs [r]) ∧ r.addr = 1028 ∧ r.state = some 5 := by
  obtain ⟨r, h1, h2, h3, _⟩ := single_unreachable (info := 0) (qual := none) exGood exRouter (.addr 1028 (by omega))
    (by simp [Address]) (by simp [exW]) (by omega) (by simp [Plain]) (Route.here (w := exW) (k := 1028) rfl (by simp [exW]))
  exact ⟨r, h1, h2.addr, h3⟩

example : ∃ r, exW.answer exDb (.addr 2055) 0 none = .ok (.recs [r]) ∧ r.nextNode = some 2049 ∧ r.hops = none := by
  obtain ⟨r, h1, h2, h3, h4, h5, h6, _⟩ := single_reachable (info := 0) (qual := none) (a := hopPtp) exGood exRouter
    (.addr 2055 (by omega)) (by simp [Address]) (by simp [exW]) (by omega) (by simp [Plain])
    (Route.area (w := exW) (k := 2055) rfl (by simp [exW]) (by simp [exW]))
  exact ⟨r, h1, h5, h6⟩

/-- A router answers a request for the executor with the executor, which is on. -/
theorem single_exec (g : w.Good db) (hw : w.Router) (hm : Means w db e w.exec) (hn : w.exec % 1024 ≤ w.maxnodes)
    (hi : info ≤ 1) (hq : Plain qual) :
    ∃ r, w.answer db e info qual = .ok (.recs [r]) ∧ Facts w db w.exec r ∧ r.state = some 0 ∧
      (info = 0 → r.ident = true) ∧ (info = 1 → r.physAddr = some w.exec) := by
  obtain ⟨nm, h1, hnm, h0⟩ := resolve_means g hm info qual
  generalize hQ : (⟨0, w.exec, nm, info, qual⟩ : Req) = q at h1
  have hcode : q.code = 0 := by subst hQ; rfl
  have hval : q.value = w.exec := by subst hQ; rfl
  have hinfo : q.info = info := by subst hQ; rfl
  have hvn : q.vname = nm := by subst hQ; rfl
  have hqual : q.qual = qual := by subst hQ; rfl
  have hs : q.sumstat = true := by simp [Req.sumstat, hinfo]; omega
  obtain ⟨db1, v, e1, i1, f1, f2, f3, f4, f5, f6, f7, f8, f9, f10, f11⟩ :=
    ecl_one g (q := q) hcode (by omega) (by rw [hval]; exact g.exec.1) (by rw [hval]; exact h0)
      (by rw [hval, hvn]; exact hnm)
  rw [hval] at e1 i1 f1 f2 f4 f5
  have hself : w.oadj (w.exec % 1024) = some .self :=
    (g.here _ (by have := g.exec; unfold Address at this; omega) hn).2 rfl
  obtain ⟨tid, ht1, ht2, ht3⟩ := hopOf_route hw (Route.here (w := w) (k := w.exec) rfl hn)
  obtain ⟨p, hp⟩ := plain_pick (q := q) (hqual ▸ hq)
  have hen : w.kind ≠ .endnode := by rcases hw with h | h <;> simp [h]
  have hcnt : q.counters = false := by simp [Req.counters, hinfo]; omega
  have hch : q.char = false := by simp [Req.char, hinfo]; omega
  have hmu : q.mult = false := by simp [Req.mult, hcode]
  have e2 : w.rout q ⟨db1, [(w.exec, v)]⟩ = .ok ⟨db1, [(w.exec, v)]⟩ := by
    unfold World.rout
    simp only [hp, hcnt, Bool.false_eq_true, hch, hmu, Bool.not_false, ↓reduceIte]
    unfold World.routOne World.endCirc
    simp only [hs, Bool.true_and, bne_iff_ne, ne_eq, hen, not_false_eq_true, ↓reduceIte, hval, ht1, hself]
  rw [← hQ] at h1 e1 e2
  refine ⟨_, answer_one h1 hi e1 e2, ?_⟩
  rw [if_pos rfl, hQ]
  refine ⟨⟨f1, f2, by simp [execSet], f4, f5⟩, by simp [execSet, hs], ?_, ?_⟩
  · intro h; simp [execSet, Req.summary, hinfo, h]
  · intro h; simp [execSet, Req.stat, hinfo, h]

example : ∃ r, exW.answer exDb (.addr 0) 1 none = .ok (.recs [r]) ∧ r.addr = 1025 ∧ r.name = [77, 69] ∧
    r.executor = true ∧ r.state = some 0 ∧ r.physAddr = some 1025 := by
  obtain ⟨r, h1, h2, h3, _, h4⟩ := single_exec (info := 1) (qual := none) exGood exRouter .exec (by simp [exW])
    (Nat.le_refl _) (by simp [Plain])
  refine ⟨r, h1, h2.addr, ?_, h2.executor.2 rfl, h3, h4 rfl⟩
  rcases h2.name with ⟨n, hn, hl, ha, h5⟩ | ⟨h5, _⟩
  · rw [h5, exGood.unique n hn nodeMe (by simp [exDb]) hl rfl ha]
    rfl
  · exact absurd rfl (h5 nodeMe (by simp [exDb]) rfl)

/-! ## An end node -/

/-- An end node answers a request for one node with that node.  It knows no state of another node; it shows its circuit
and the next hop for a neighbour, and for no other node. -/
theorem single_endnode (g : w.Good db) (hw : w.kind = .endnode) {c : Str × Circ} (hcs : w.circuits = [c])
    (hm : Means w db e k) (hk : Address k) (hi : info ≤ 1) (hq : Plain qual) :
    ∃ r, w.answer db e info qual = .ok (.recs [r]) ∧ Facts w db k r ∧
      r.state = (if k = w.exec then some 0 else none) ∧
      (Neighbour k c.2 → r.adjCircuit = some c.1 ∧ (info = 0 → r.nextNode = some k)) ∧
      (¬Neighbour k c.2 → r.adjCircuit = none ∧ r.nextNode = none) := by
  obtain ⟨nm, h1, hnm, h0⟩ := resolve_means g hm info qual
  generalize hQ : (⟨0, k, nm, info, qual⟩ : Req) = q at h1
  have hcode : q.code = 0 := by subst hQ; rfl
  have hval : q.value = k := by subst hQ; rfl
  have hinfo : q.info = info := by subst hQ; rfl
  have hvn : q.vname = nm := by subst hQ; rfl
  have hqual : q.qual = qual := by subst hQ; rfl
  have hs : q.sumstat = true := by simp [Req.sumstat, hinfo]; omega
  obtain ⟨db1, v, e1, i1, f1, f2, f3, f4, f5, f6, f7, f8, f9, f10, f11⟩ :=
    ecl_one g (q := q) hcode (by omega) (by rw [hval]; exact hk) (by rw [hval]; exact h0) (by rw [hval, hvn]; exact hnm)
  rw [hval] at e1 i1 f1 f2 f4 f5
  obtain ⟨p, hp⟩ := plain_pick (q := q) (hqual ▸ hq)
  have hcnt : q.counters = false := by simp [Req.counters, hinfo]; omega
  have hch : q.char = false := by simp [Req.char, hinfo]; omega
  have hmu : q.mult = false := by simp [Req.mult, hcode]
  have hlo : q.loop = false := by simp [Req.loop, hcode]
  have hst : q.stat = true ↔ info = 1 := by simp [Req.stat, hinfo]
  have key : ∃ db2 v', c.2.read c.1 q ⟨db1, [(k, v)]⟩ = .ok ⟨db2, [(k, v')]⟩ ∧ Same v' v ∧
      (Neighbour k c.2 → v'.adjCircuit = some c.1 ∧ (info = 0 → v'.nextNode = some k)) ∧
      (¬Neighbour k c.2 → v'.adjCircuit = none ∧ v'.nextNode = none) := by
    obtain ⟨name, c⟩ := c
    have hmem : (name, c) ∈ w.circuits := by simp [hcs]
    cases c with
    | ptp running id ph ty =>
      simp only [Circ.read, hs, hlo, Bool.not_false, Bool.and_self, Bool.true_and]
      cases running with
      | false =>
        refine ⟨db1, v, by simp, ⟨rfl, rfl, rfl, rfl, rfl, rfl⟩, ?_, fun _ => ⟨f7, f8⟩⟩
        rintro ⟨h, _⟩
        simp at h
      | true =>
        obtain ⟨ha, hid⟩ := g.ptp _ _ _ _ hmem
        obtain ⟨n, db2, e2, _⟩ := grow_does db ⟨db1, [(k, v)]⟩ ha hid
        simp only [↓reduceIte, hid] at e2 ⊢
        rw [e2]
        simp only [hmu, Bool.false_or, beq_iff_eq, hval]
        by_cases hki : k = id
        · subst hki
          simp only [↓reduceIte]
          rw [set_one rfl]
          refine ⟨db2, _, rfl, ?_, ?_, ?_⟩
          · unfold ptpSet
            split <;> exact ⟨rfl, rfl, rfl, rfl, rfl, rfl⟩
          · intro _
            unfold ptpSet
            by_cases h : q.stat = true
            · rw [if_pos h]
              have := hst.1 h
              exact ⟨rfl, fun h => by omega⟩
            · rw [if_neg h]
              exact ⟨rfl, fun _ => rfl⟩
          · intro hn
            exact absurd ⟨rfl, rfl⟩ hn
        · rw [if_neg hki]
          refine ⟨db2, v, rfl, ⟨rfl, rfl, rfl, rfl, rfl, rfl⟩, ?_, fun _ => ⟨f7, f8⟩⟩
          rintro ⟨_, h⟩
          exact absurd h.symm hki
    | lan adjs cost =>
      obtain ⟨db2, e2, _⟩ := adjnodes_does (db0 := db) adjs ⟨db1, [(k, v)]⟩ (g.lan _ _ _ hmem)
      simp only [Circ.read, hs, hlo, Bool.not_false, Bool.and_self, ↓reduceIte] at e2 ⊢
      rw [e2]
      simp only
      obtain ⟨v', e3, s, g1, g2, _⟩ := lanLoop_one hcode name cost hval
        (adjs.mergeSort fun a b => decide (a.node ≤ b.node)) db2 v
      simp only [List.mem_mergeSort] at g1 g2
      refine ⟨db2, v', e3, s, ?_, ?_⟩
      · intro hn
        have := g1 hn
        refine ⟨this.1, fun h => this.2.1 ?_⟩
        rw [Bool.eq_false_iff]
        intro hh
        have := hst.1 hh
        omega
      · intro hn
        rw [g2 hn]
        exact ⟨f7, f8⟩
  obtain ⟨db2, v', e2, ⟨s1, s2, s3, s4, s5, s6⟩, n1, n2⟩ := key
  have e3 : w.rout q ⟨db1, [(k, v)]⟩ = .ok ⟨db2, [(k, v')]⟩ := by
    unfold World.rout
    simp only [hp, hcnt, Bool.false_eq_true, hch, hmu, Bool.not_false, ↓reduceIte]
    unfold World.routOne World.endCirc
    simp [hw, hcs, e2]
  rw [← hQ] at h1 e1 e3
  refine ⟨_, answer_one h1 hi e1 e3, ?_⟩
  rw [hQ]
  by_cases hx : k = w.exec
  · rw [if_pos hx, if_pos hx]
    refine ⟨⟨s1.trans f1, by rw [show (execSet w q v').name = v.name from s2]; exact f2, by simp [execSet, hx],
      by rw [show (execSet w q v').links = v.links from s4]; exact f4,
      by rw [show (execSet w q v').delay = v.delay from s5]; exact f5⟩, by simp [execSet, hs], n1, n2⟩
  · rw [if_neg hx, if_neg hx]
    exact ⟨⟨s1.trans f1, by rw [s2]; exact f2, by simp [s3, f3, hx], by rw [s4]; exact f4, by rw [s5]; exact f5⟩,
      s6.trans f6, n1, n2⟩

example : ∃ r, exEnd.answer exDb (.addr 1026) 0 none = .ok (.recs [r]) ∧ r.state = none ∧ r.adjCircuit = some ptpC ∧
    r.nextNode = some 1026 := by
  obtain ⟨r, h1, _, h2, h3, _⟩ := single_endnode (info := 0) (qual := none) exEndGood rfl rfl
    (.addr 1026 (by omega)) (by simp [Address]) (by omega) (by simp [Plain])
  have := h3 ⟨rfl, rfl⟩
  exact ⟨r, h1, h2, this.1, this.2 rfl⟩

/-! ## Requests that raise an exception -/

/-- A number that is not an address (area with node number zero) raises an exception, whatever the node. -/
theorem single_bad_address (g : w.Good db) (a : Nat) (ha : ¬Address a) (hi : info ≤ 3) :
    w.answer db (.addr a) info qual = .error .badAddr := by
  have h0 : a ≠ 0 := fun e => ha (by subst e; exact ⟨by omega, fun _ => rfl⟩)
  have hf : db.find a = none := by
    rw [find_none]
    intro n hn _ e
    exact ha (e ▸ g.address n hn)
  have hv : validAddr a = false := by
    rw [Bool.eq_false_iff]
    intro h
    exact ha (validAddr_iff.1 h)
  have h4 : ¬info = 4 := by omega
  simp [World.answer, World.resolve, h0, h4, World.layers, World.ecl, Req.adj, Req.mult, eclOne, hf, Db.nodeinfo, hv,
    Except.map]

/-- Node 1.0. -/
example : exW.answer exDb (.addr 1024) 0 none = .error .badAddr :=
  single_bad_address exGood 1024 (by simp [Address]) (by omega)

/-- A request for a node beyond the size of the tables raises an exception in a router. -/
theorem single_beyond (g : w.Good db) (hw : w.Router) (hm : Means w db e k) (hk : Address k) (hi : info ≤ 1)
    (hq : Plain qual) (hb : Beyond w k) : w.answer db e info qual = .error .index := by
  obtain ⟨nm, h1, hnm, h0⟩ := resolve_means g hm info qual
  generalize hQ : (⟨0, k, nm, info, qual⟩ : Req) = q at h1
  have hcode : q.code = 0 := by subst hQ; rfl
  have hval : q.value = k := by subst hQ; rfl
  have hinfo : q.info = info := by subst hQ; rfl
  have hvn : q.vname = nm := by subst hQ; rfl
  have hqual : q.qual = qual := by subst hQ; rfl
  have hs : q.sumstat = true := by simp [Req.sumstat, hinfo]; omega
  obtain ⟨db1, v, e1, _⟩ :=
    ecl_one g (q := q) hcode (by omega) (by rw [hval]; exact hk) (by rw [hval]; exact h0) (by rw [hval, hvn]; exact hnm)
  obtain ⟨p, hp⟩ := plain_pick (q := q) (hqual ▸ hq)
  have hen : w.kind ≠ .endnode := by rcases hw with h | h <;> simp [h]
  have h2 : w.kind ≠ .phase2 := by rcases hw with h | h <;> simp [h]
  have hcnt : q.counters = false := by simp [Req.counters, hinfo]; omega
  have hch : q.char = false := by simp [Req.char, hinfo]; omega
  have hmu : q.mult = false := by simp [Req.mult, hcode]
  have hh : w.hopOf k = .error .index := by
    unfold World.hopOf
    rw [if_neg h2]
    rcases hb with ⟨h3, h4⟩ | ⟨h3, h4, h5⟩
    · have : ¬k % 1024 ≤ w.maxnodes := by omega
      simp [h3, this]
    · have : ¬k / 1024 ≤ w.maxarea := by omega
      simp [h3, h4, this]
  have h4 : ¬info = 4 := by omega
  unfold World.answer World.layers World.rout World.routOne
  simp only [h1, h4, e1, hp, hcnt, Bool.false_eq_true, hch, hmu, Bool.not_false, ↓reduceIte, hs, Bool.true_and,
    bne_iff_ne, ne_eq, hen, not_false_eq_true, hval, hh]

/-- Node 1.5 where the maximum is 4, and node 3.1 where the maximum area is 2. -/
example : exW.answer exDb (.addr 1029) 0 none = .error .index ∧ exW.answer exDb (.addr 3073) 0 none = .error .index :=
  ⟨single_beyond exGood exRouter (.addr 1029 (by omega)) (by simp [Address]) (by omega) (by simp [Plain])
    (.inl ⟨rfl, by simp [exW]⟩),
   single_beyond exGood exRouter (.addr 3073 (by omega)) (by simp [Address]) (by omega) (by simp [Plain])
    (.inr ⟨rfl, by simp [exW], by simp [exW]⟩)⟩

/-- A Phase II node raises an exception for every request for one node. -/
theorem single_phase2 (g : w.Good db) (hw : w.kind = .phase2) (hm : Means w db e k) (hk : Address k) (hi : info ≤ 1)
    (hq : Plain qual) : w.answer db e info qual = .error .attribute := by
  obtain ⟨nm, h1, hnm, h0⟩ := resolve_means g hm info qual
  generalize hQ : (⟨0, k, nm, info, qual⟩ : Req) = q at h1
  have hcode : q.code = 0 := by subst hQ; rfl
  have hval : q.value = k := by subst hQ; rfl
  have hinfo : q.info = info := by subst hQ; rfl
  have hvn : q.vname = nm := by subst hQ; rfl
  have hqual : q.qual = qual := by subst hQ; rfl
  have hs : q.sumstat = true := by simp [Req.sumstat, hinfo]; omega
  obtain ⟨db1, v, e1, _⟩ :=
    ecl_one g (q := q) hcode (by omega) (by rw [hval]; exact hk) (by rw [hval]; exact h0) (by rw [hval, hvn]; exact hnm)
  obtain ⟨p, hp⟩ := plain_pick (q := q) (hqual ▸ hq)
  have hcnt : q.counters = false := by simp [Req.counters, hinfo]; omega
  have hch : q.char = false := by simp [Req.char, hinfo]; omega
  have hmu : q.mult = false := by simp [Req.mult, hcode]
  have h4 : ¬info = 4 := by omega
  unfold World.answer World.layers World.rout World.routOne World.hopOf
  simp [h1, h4, e1, hp, hcnt, hch, hmu, hs, hw]

example : exTwo.answer exDb (.addr 1026) 0 none = .error .attribute :=
  single_phase2 exTwoGood rfl (.addr 1026 (by omega)) (by simp [Address]) (by omega) (by simp [Plain])

/-- A name that is not in the node database is refused with "unrecognised component", and nothing else happens. -/
theorem single_unknown (s : Str) (h : ∀ p ∈ db.byname, p.1 ≠ s) :
    w.answer db (.name s) info qual = .ok (.code (-8)) := by
  have : db.byname.find? (fun p => p.1 == s) = none := by
    rw [List.find?_eq_none]
    intro p hp
    simpa using h p hp
  simp [World.answer, World.resolve, Db.named, this]

example : exW.answer exDb (.name [88]) 0 none = .ok (.code (-8)) :=
  single_unknown [88] (by simp [exDb])

/-! ## Loop nodes -/

/-- A read of a loop node by its name (in a level 2 router, when the database has no entry for address zero) answers with
the name, but it does not show the circuit and says that the node is unreachable. -/
theorem single_loop (g : w.Good db) (hw : w.kind = .l2router) (ha : 0 < w.exec / 1024) (h0 : w.aoadj 0 = none)
    {s : Str} {n : Node} (hn : (s, n) ∈ db.byname) (hu : ∀ p ∈ db.byname, p.1 = s → p = (s, n)) {c : Str}
    (hl : n.loop = some c) (hz : ∀ m ∈ db.byid, m.loop = none → m.addr ≠ 0) (hi : info ≤ 1) :
    ∃ r, w.answer db (.name s) info none = .ok (.recs [r]) ∧ r.addr = 0 ∧ r.name = n.name ∧ r.state = some 5 ∧
      r.circuit = none ∧ r.adjCircuit = none := by
  have haddr : n.addr = 0 := g.loop n (g.named _ hn) (by simp [hl])
  have hnamed : db.named s = some n := by
    unfold Db.named
    cases hf : db.byname.find? (fun p => p.1 == s) with
    | none =>
      rw [List.find?_eq_none] at hf
      exact absurd (beq_self_eq_true s) (hf _ hn)
    | some p =>
      rw [hu p (List.mem_of_find?_eq_some hf) (by simpa using List.find?_some hf)]
      rfl
  have hfind : db.find 0 = none := find_none.2 hz
  have hx : ¬0 = w.exec := fun e => g.exec.2 e.symm
  generalize hQ : (⟨0, 0, n.name, info, none⟩ : Req) = q
  have hr : w.resolve db info none (.name s) = some q := by
    simp only [World.resolve, hnamed, Option.map_some, haddr, hQ]
  have hcode : q.code = 0 := by subst hQ; rfl
  have hval : q.value = 0 := by subst hQ; rfl
  have hinfo : q.info = info := by subst hQ; rfl
  have hvn : q.vname = n.name := by subst hQ; rfl
  have hqual : q.qual = none := by subst hQ; rfl
  have hs : q.sumstat = true := by simp [Req.sumstat, hinfo]; omega
  have hadj : q.adj = false := by simp [Req.adj, hcode]
  have hcnt : q.counters = false := by simp [Req.counters, hinfo]; omega
  have hch : q.char = false := by simp [Req.char, hinfo]; omega
  have hmu : q.mult = false := by simp [Req.mult, hcode]
  have hva : validAddr 0 = true := by decide
  have e1 : w.ecl q ⟨db, []⟩ = .ok ⟨{ db with byid := db.byid ++ [⟨0, n.name, none, 0, false, 0⟩] },
      [(0, w.eclSet q ⟨0, n.name, none, 0, false, 0⟩ { addr := 0, name := n.name })]⟩ := by
    simp [World.ecl, hadj, hmu, eclOne, hval, Db.nodeinfo, hfind, hva, Except.map, World.eclNode, St.set, Resp.has, hvn]
  have hhop : w.hopOf 0 = .ok (0, none) := by
    have : ¬0 / 1024 = w.exec / 1024 := by omega
    unfold World.hopOf
    simp [hw, h0]
    omega
  have hp : q.pick = some none := by simp [Req.pick, hqual]
  have hi4 : ¬info = 4 := by omega
  refine ⟨{ w.eclSet q ⟨0, n.name, none, 0, false, 0⟩ { addr := 0, name := n.name } with state := some 5 }, ?_, ?_⟩
  · unfold World.answer World.layers
    rw [hr]
    simp only [hi4, if_false, e1]
    unfold World.rout
    simp only [hp, hcnt, Bool.false_eq_true, hch, hmu, Bool.not_false, ↓reduceIte]
    unfold World.routOne World.endCirc
    simp only [hs, hw, hval, hhop]
    rw [set_one rfl]
    simp [Resp.upd, hx, sorted_one hcode]
  · simp [World.eclSet, hs]

example : ∃ r, exW.answer exDb (.name [76, 80]) 0 none = .ok (.recs [r]) ∧ r.name = [76, 80] ∧ r.state = some 5 ∧
    r.circuit = none := by
  obtain ⟨r, h1, _, h2, h3, h4, _⟩ := single_loop (info := 0) exGood rfl (by simp [exW]) rfl (s := [76, 80])
    (n := nodeLoop) (by simp [exDb]) (by simp [exDb]) rfl (by simp [exDb, nodeMe, nodeFar, nodeLoop]) (by omega)
  exact ⟨r, h1, h2, h3, h4⟩

end Verif.NiceRead
