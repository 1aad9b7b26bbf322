import Verif.NiceRead.Answer
import Verif.NiceRead.Cases

/-!
# Properties: reading nodes

Requests for several nodes (summary or status): which nodes are in the answer, in what order, and with what name,
state, number of links, next hop and distance.
-/

namespace Verif.NiceRead

variable {w : World} {db : Db}

/-! ## Which nodes, and their order -/

/-- A request for several nodes is answered, never with an error; the answer has exactly the nodes to list, the
executor first and the others in order of their addresses, each once. -/
theorem plural_answer {e : Ent} {code : Int} {value info : Nat} {qual : Option (Int × Str)} (g : w.Good db)
    (ha : Asks w e code value) (hi : info ≤ 1) (hd : Decoded qual) :
    ∃ rs, w.answer db e info qual = .ok (.recs rs) ∧
      (∀ k, (∃ r ∈ rs, r.addr = k) ↔ Listed w db code info qual k ∧ Fits code value k) ∧
      InOrder w.exec (rs.map (·.addr)) := by
  obtain ⟨l, hl, hm, ho⟩ := answer_recs (qual := qual) g ha hi
  refine ⟨_, hl, ?_, ?_⟩
  · intro k
    have hp := present_iff g (q := ⟨code, value, [], info, qual⟩) (k := k) hd
    change (final w db _ k).isSome = true ↔ _ at hp
    simp only at hp
    rw [← hp, Option.isSome_iff_exists]
    constructor
    · rintro ⟨r, hr, rfl⟩
      obtain ⟨p, hpl, rfl⟩ := List.mem_map.1 hr
      have h1 := (hm p).1 hpl
      rw [final_addr h1.1]
      exact ⟨⟨_, h1.1⟩, h1.2⟩
    · rintro ⟨⟨r, hr⟩, hf⟩
      exact ⟨r, List.mem_map.2 ⟨(k, r), (hm _).2 ⟨hr, hf⟩, rfl⟩, final_addr hr⟩
  · have : l.map (·.1) = (l.map (·.2)).map (·.addr) := by
      rw [List.map_map]
      apply List.map_congr_left
      intro p hp
      exact (final_addr ((hm p).1 hp).1).symm
    rw [← this]
    exact ho


/-- Known nodes: the executor, the loop node, 1.2, 1.3 and 2.1, and 1.4 to which there is no route. -/
example : ∃ rs, exW.answer exDb (.plural (-1)) 0 none = .ok (.recs rs) ∧
    (∃ r ∈ rs, r.addr = 1028) ∧ (∃ r ∈ rs, r.addr = 2049) ∧ ¬(∃ r ∈ rs, r.addr = 1029) ∧
    InOrder 1025 (rs.map (·.addr)) := by
  obtain ⟨rs, h1, h2, h3⟩ := plural_answer (info := 0) (qual := none) exGood (.plural (-1) (by omega) (by omega))
    (by omega) (by simp [Decoded])
  refine ⟨rs, h1, (h2 1028).2 ⟨?_, .inl (by omega)⟩, (h2 2049).2 ⟨?_, .inl (by omega)⟩, ?_, h3⟩
  · right; right
    exact ⟨by omega, by omega, exRouter, rfl, by omega, by simp [exW], by simp [exW], .inr ⟨by simp [exW], rfl, by simp⟩⟩
  · right; left
    exact ⟨by omega, (ptpC, .ptp true 2049 4 1), by simp [exW], by simp [Admits], rfl, rfl⟩
  · rw [h2]
    rintro ⟨⟨n, hn, ha, _⟩ | ⟨_, c, hc, _, hn⟩ | ⟨_, _, _, _, _, h, _⟩, _⟩
    · simp only [exDb, List.mem_cons, List.not_mem_nil, or_false] at hn
      rcases hn with rfl | rfl | rfl <;> simp [nodeMe, nodeFar, nodeLoop] at ha
    · simp only [exW, List.mem_cons, List.not_mem_nil, or_false] at hc
      rcases hc with rfl | rfl
      · simp [Neighbour] at hn
      · simp [Neighbour] at hn
    · simp [exW] at h

/-- A request for loop nodes is answered with at most one record, whatever the number of loop nodes. -/
theorem loop_nodes_merge {info : Nat} {qual : Option (Int × Str)} (g : w.Good db) (hi : info ≤ 1) (hd : Decoded qual) :
    ∃ rs, w.answer db (.plural (-3)) info qual = .ok (.recs rs) ∧ rs.length ≤ 1 ∧
      (rs = [] ↔ ∀ n ∈ db.byid, n.loop = none) := by
  obtain ⟨rs, h1, h2, tl, h3, h4, h5⟩ := plural_answer g (.plural (-3) (by omega) (by omega)) hi hd
  have hz : ∀ r ∈ rs, r.addr = 0 := by
    intro r hr
    obtain ⟨⟨n, hn, ha, hs⟩ | ⟨h, _⟩ | ⟨h, _⟩, _⟩ := (h2 r.addr).1 ⟨r, hr, rfl⟩
    · have hl : n.loop ≠ none := by
        rcases hs.2 with h | h | h | h | h
        · exact absurd h (by omega)
        · exact absurd h (by omega)
        · exact absurd h (by omega)
        · exact h.2
        · exact absurd rfl h.1
      rw [← ha]
      exact g.loop n hn hl
    · exact absurd rfl h
    · exact absurd rfl h
  have he : w.exec ∉ rs.map (·.addr) := by
    intro h
    obtain ⟨r, hr, hra⟩ := List.mem_map.1 h
    exact g.exec.2 (hra ▸ hz r hr)
  have htl : rs.map (·.addr) = tl := by
    rcases h3 with h | h
    · exact h
    · rw [h] at he
      simp at he
  refine ⟨rs, h1, ?_, ?_⟩
  · match rs, htl, hz with
    | [], _, _ => simp
    | [_], _, _ => simp
    | a :: b :: rs, htl, hz =>
      rw [← htl] at h5
      simp only [List.map_cons, List.pairwise_cons] at h5
      have := h5.1 b.addr (by simp)
      have := hz a (by simp)
      have := hz b (by simp)
      omega
  · constructor
    · intro h n hn
      cases hl : n.loop with
      | none => rfl
      | some c =>
        have h0 := g.loop n hn (by simp [hl])
        have := (h2 0).2 ⟨.inl ⟨n, hn, h0, by omega, by simp [hl]⟩, .inl (by omega)⟩
        simp [h] at this
    · intro h
      cases rs with
      | nil => rfl
      | cons a rs =>
        obtain ⟨⟨n, hn, ha, hs⟩ | ⟨h, _⟩ | ⟨h, _⟩, _⟩ := (h2 a.addr).1 ⟨a, by simp, rfl⟩
        · have := hs.2
          have := h n hn
          simp_all
        · exact absurd rfl h
        · exact absurd rfl h

/-- Two loop nodes. -/
example : ∃ rs, exW.answer exDb2 (.plural (-3)) 0 none = .ok (.recs rs) ∧ rs.length = 1 := by
  obtain ⟨rs, h1, h2, h3⟩ := loop_nodes_merge (info := 0) (qual := none) exGood2 (by omega) (by simp [Decoded])
  refine ⟨rs, h1, ?_⟩
  have : rs ≠ [] := by
    rw [ne_eq, h3]
    intro h
    have := h nodeLoop (by simp [exDb2])
    simp [nodeLoop] at this
  have := List.length_pos_iff.2 this
  omega

/-! ## The fields -/

section Fields

variable {e : Ent} {code : Int} {value info : Nat} {qual : Option (Int × Str)} {rs : List Rec} {r : Rec}

/-- The executor is marked, and no other node. -/
theorem plural_executor (g : w.Good db) (ha : Asks w e code value) (hi : info ≤ 1)
    (h : w.answer db e info qual = .ok (.recs rs)) (hr : r ∈ rs) : r.executor = true ↔ r.addr = w.exec := by
  have hf := ((mem_answer g ha hi h).1 hr).1
  have hs : (⟨code, value, [], info, qual⟩ : Req).sumstat = true := by simp [Req.sumstat]; omega
  by_cases hk : r.addr = w.exec
  · simp only [hk, iff_true]
    rw [hk] at hf
    exact (final_exec hs hf).1
  · simp only [hk, iff_false, Bool.not_eq_true]
    refine final_inv (w := w) (fun r => r.executor = false) rfl ?_ ?_ ?_ ?_ ?_ ?_ hf
    · intro n _ _ _ r _
      unfold World.eclSet
      split
      · rfl
      · split <;> rfl
    · intro n id ph ty r hr; unfold ptpSet; split <;> exact hr
    · intro n c a r hr; unfold lanSet; split <;> exact hr
    · intro i a r hr; unfold World.reachSet; split <;> exact hr
    · intro r hr; exact hr
    · intro hk'; exact absurd hk' hk

/-- A node is shown with the name it has in the node database, and without one if it has none. -/
theorem plural_name (g : w.Good db) (ha : Asks w e code value) (hi : info ≤ 1)
    (h : w.answer db e info qual = .ok (.recs rs)) (hr : r ∈ rs) (h0 : r.addr ≠ 0) : nameIn db r.addr r.name := by
  have hf := ((mem_answer g ha hi h).1 hr).1
  refine final_inv (w := w) (fun x => nameIn db r.addr x.name) (nameOf_in db _) ?_ ?_ ?_ ?_ ?_ ?_ hf
  · intro n hn hk _ x _
    have hl : n.loop = none := by
      cases hl : n.loop with
      | none => rfl
      | some c => exact absurd (hk.symm.trans (g.loop n hn (by simp [hl]))) h0
    have : nameIn db r.addr n.name := .inl ⟨n, hn, hl, hk, rfl⟩
    unfold World.eclSet
    split
    · exact this
    · split <;> exact this
  · intro n id ph ty r hr; unfold ptpSet; split <;> exact hr
  · intro n c a r hr; unfold lanSet; split <;> exact hr
  · intro i a r hr; unfold World.reachSet; split <;> exact hr
  · intro r hr; exact hr
  · intro _ r hr; exact hr

/-- The number of links of a node is shown if NSP shows the node and it has links, and is the number of connections to
it. -/
theorem plural_links (g : w.Good db) (ha : Asks w e code value) (hi : info ≤ 1)
    (h : w.answer db e info qual = .ok (.recs rs)) (hr : r ∈ rs) (m : Nat) :
    r.links = some m ↔
      m = w.conns.count r.addr ∧ m ≠ 0 ∧ ∃ n ∈ db.byid, n.addr = r.addr ∧ Shown w code info n := by
  have hf := ((mem_answer g ha hi h).1 hr).1
  have hs : (⟨code, value, [], info, qual⟩ : Req).sumstat = true := by simp [Req.sumstat]; omega
  have hc : ∀ a, w.links a = w.conns.count a := fun a => rfl
  constructor
  · intro hm
    refine final_inv (w := w) (fun x => x.links = some m →
      m = w.conns.count r.addr ∧ m ≠ 0 ∧ ∃ n ∈ db.byid, n.addr = r.addr ∧ Shown w code info n)
      (by simp [fresh]) ?_ ?_ ?_ ?_ ?_ ?_ hf hm
    · intro n hn hk hsh x hx
      unfold World.eclSet
      simp only [hs, ↓reduceIte]
      intro he
      split at he
      · rename_i hne
        simp only [Option.some.injEq] at he
        exact ⟨by rw [← he, hc, hk], by rw [← he]; exact hne, n, hn, hk, hsh⟩
      · exact hx he
    · intro n id ph ty r hr; unfold ptpSet; split <;> exact hr
    · intro n c a r hr; unfold lanSet; split <;> exact hr
    · intro i a r hr; unfold World.reachSet; split <;> exact hr
    · intro r hr; exact hr
    · intro _ r hr; exact hr
  · rintro ⟨rfl, hm0, n, hn, hk, hsh⟩
    refine final_once (w := w) (db := db) (fun x => x.links = some (w.conns.count r.addr)) ?_ ?_ ?_ ?_ ?_ ?_ ?_ hf
    · intro n hk x hx
      unfold World.eclSet
      simp only [hs, ↓reduceIte, hk, hc]
      simp only [ne_eq, hm0, not_false_eq_true, ↓reduceIte]
    · intro n id ph ty r hr; unfold ptpSet; split <;> exact hr
    · intro n c a r hr; unfold lanSet; split <;> exact hr
    · intro i a r hr; unfold World.reachSet; split <;> exact hr
    · intro r hr; exact hr
    · intro _ r hr; exact hr
    · refine ⟨w.eclSet ⟨code, value, [], info, qual⟩ n, ?_, ?_⟩
      · unfold acts
        apply List.mem_append_left
        apply List.mem_append_left
        have hadj : (⟨code, value, [], info, qual⟩ : Req).adj = false := by simpa [Req.adj] using hsh.1
        unfold nspActs eclActs
        rw [hadj, ← hk]
        simp only [Bool.false_eq_true, if_false]
        exact List.mem_map.2 ⟨n, List.mem_filter.2 ⟨hn, (eclWants_iff hadj).2 hsh⟩, rfl⟩
      · intro x
        unfold World.eclSet
        simp only [hs, ↓reduceIte, hk, hc]
        simp only [ne_eq, hm0, not_false_eq_true, ↓reduceIte]

/-- The executor is on. -/
theorem plural_state_exec (g : w.Good db) (ha : Asks w e code value) (hi : info ≤ 1)
    (h : w.answer db e info qual = .ok (.recs rs)) (hr : r ∈ rs) (hx : r.addr = w.exec) : r.state = some 0 := by
  have hf := ((mem_answer g ha hi h).1 hr).1
  rw [hx] at hf
  exact (final_exec (by simp [Req.sumstat]; omega) hf).2

/-- A node of the own area with a route through an admitted circuit is reachable; it is shown with the circuit, and with
the next hop (summary) or the distance (status) that the routing table has. -/
theorem plural_reachable (g : w.Good db) (ha : Asks w e code value) (hi : info ≤ 1) (hd : Decoded qual)
    (h : w.answer db e info qual = .ok (.recs rs)) (hr : r ∈ rs) (ht : InTable w code qual r.addr) {a : Adj}
    (hv : w.oadj (r.addr % 1024) = some (.via a)) (hq : Admits qual a.circuit) :
    r.state = some 4 ∧ r.adjCircuit = some a.circuit ∧
      (info = 0 → r.nextNode = some a.node) ∧
      (info = 1 → r.hops = some (w.minhops (r.addr % 1024)) ∧ r.cost = some (w.mincost (r.addr % 1024))) := by
  have hf := ((mem_answer g ha hi h).1 hr).1
  obtain ⟨h1, h2, h3, h4, h5, h6, h7, h8⟩ := ht
  generalize hQ : (⟨code, value, [], info, qual⟩ : Req) = q at hf
  have hcode : q.code = code := by subst hQ; rfl
  have hqual : q.qual = qual := by subst hQ; rfl
  have hinfo : q.info = info := by subst hQ; rfl
  have hl : q.loop = false := by simpa [Req.loop, hcode] using h2
  have hadj : q.adj = false := by simpa [Req.adj, hcode] using h3
  cases hp : q.pick with
  | none => exact absurd (hqual ▸ hq) (pick_none hp a.circuit)
  | some p =>
    rw [final_some hp] at hf
    simp only [hadj, hl, Bool.or_self, Bool.false_eq_true, if_false] at hf
    have hend : ∀ x, Act.on r.addr x (endAct w q) = x := by
      intro x
      simp [Act.on, endAct, Ne.symm h7]
    rw [hend, table_at h1 h4 h5 h6] at hf
    have hadm := (pick_some hp a.circuit).1 (hqual ▸ hq)
    have hne := pick_ne_nil (q := q) (hqual ▸ hd) hp
    have hcond : (p.isSome && p != some [] && p != some a.circuit) = false := by
      rcases hadm with rfl | rfl <;> simp
    have hat : w.at (r.addr % 1024) = r.addr := by
      unfold World.at
      omega
    simp only [reachActs, hv, hcond, Bool.false_eq_true, List.foldl_cons, List.foldl_nil, Act.on, setAct, hat,
      ↓reduceIte, Option.some.injEq] at hf
    have e1 := congrArg Rec.state hf
    have e2 := congrArg Rec.adjCircuit hf
    have e3 := congrArg Rec.nextNode hf
    have e4 := congrArg Rec.hops hf
    have e5 := congrArg Rec.cost hf
    rw [← e1, ← e2, ← e3, ← e4, ← e5]
    unfold World.reachSet
    have hst : q.stat = true ↔ info = 1 := by simp [Req.stat, hinfo]
    by_cases h1 : info = 1
    · rw [if_pos (hst.2 h1)]
      exact ⟨rfl, rfl, fun h0 => by omega, fun _ => ⟨rfl, rfl⟩⟩
    · rw [if_neg fun e => h1 (hst.1 e)]
      exact ⟨rfl, rfl, fun _ => rfl, fun e => absurd e h1⟩

/-- A node of the own area without a route is unreachable. -/
theorem plural_unreachable (g : w.Good db) (ha : Asks w e code value) (hi : info ≤ 1)
    (h : w.answer db e info qual = .ok (.recs rs)) (hr : r ∈ rs) (ht : InTable w code qual r.addr)
    (hv : w.oadj (r.addr % 1024) = none) : r.state = some 5 := by
  have hf := ((mem_answer g ha hi h).1 hr).1
  obtain ⟨h1, h2, h3, h4, h5, h6, h7, h8⟩ := ht
  generalize hQ : (⟨code, value, [], info, qual⟩ : Req) = q at hf
  have hcode : q.code = code := by subst hQ; rfl
  have hqual : q.qual = qual := by subst hQ; rfl
  have hl : q.loop = false := by simpa [Req.loop, hcode] using h2
  have hadj : q.adj = false := by simpa [Req.adj, hcode] using h3
  have hend : ∀ x, Act.on r.addr x (endAct w q) = x := by
    intro x
    simp [Act.on, endAct, Ne.symm h7]
  cases hp : q.pick with
  | none =>
    unfold Req.pick at hp
    cases hqq : q.qual with
    | none => simp [hqq] at hp
    | some x =>
      obtain ⟨c, v⟩ := x
      simp only [hqq] at hp
      rcases h8 c v (hqual ▸ hqq) with h9 | h9
      · simp [h9] at hp
      · have : ¬c < 0 := by omega
        simp only [this, if_false] at hp
        split at hp <;> simp at hp
  | some p =>
    rw [final_some hp] at hf
    simp only [hadj, hl, Bool.or_self, Bool.false_eq_true, if_false] at hf
    rw [hend, table_at h1 h4 h5 h6] at hf
    have hat : w.at (r.addr % 1024) = r.addr := by
      unfold World.at
      omega
    simp only [reachActs, hv, List.foldl_cons, List.foldl_nil, Act.on, hat, ↓reduceIte] at hf
    split at hf
    · simp only [Option.some.injEq] at hf
      rw [← hf]
    · simp at hf

/-- Nothing is said about the state of another node: one outside the own area, one whose route uses another circuit,
and every node but the executor if the request is for loop or adjacent nodes or this node does not route. -/
theorem plural_stateless (g : w.Good db) (ha : Asks w e code value) (hi : info ≤ 1) (hd : Decoded qual)
    (h : w.answer db e info qual = .ok (.recs rs)) (hr : r ∈ rs) (hx : r.addr ≠ w.exec)
    (hn : InTable w code qual r.addr → ∃ a, w.oadj (r.addr % 1024) = some (.via a) ∧ ¬Admits qual a.circuit) :
    r.state = none := by
  have hf := ((mem_answer g ha hi h).1 hr).1
  have := final_keep (w := w) (db0 := db) (q := ⟨code, value, [], info, qual⟩) (fun r => r.state) none hx rfl
    ?_ ?_ ?_ ?_
  · rw [hf] at this
    exact this
  · intro n r
    unfold World.eclSet
    split
    · rfl
    · split <;> rfl
  · intro n id ph ty r; unfold ptpSet; split <;> rfl
  · intro n c a r; unfold lanSet; split <;> rfl
  · intro p hp x hx' h3 h4
    by_cases ht : w.Router ∧ r.addr / 1024 = w.exec / 1024 ∧ 1 ≤ r.addr % 1024 ∧ r.addr % 1024 ≤ w.maxnodes
    · obtain ⟨a, ha1, ha2⟩ := hn ⟨ht.1, h3, h4, ht.2.1, ht.2.2.1, ht.2.2.2, hx, pick_known hp⟩
      rw [table_at ht.1 ht.2.1 ht.2.2.1 ht.2.2.2]
      have hne := pick_ne_nil (q := ⟨code, value, [], info, qual⟩) hd hp
      have hadm := fun hh => ha2 ((pick_some hp a.circuit).2 hh)
      have hcond : (p.isSome && p != some [] && p != some a.circuit) = true := by
        cases p with
        | none => exact absurd (.inl rfl) hadm
        | some v =>
          have h1 : v ≠ [] := fun e => hne (by rw [e])
          have h2 : v ≠ a.circuit := fun e => hadm (.inr (by rw [e]))
          simp [h1, h2]
      simp only [reachActs, ha1, hcond, ↓reduceIte, List.foldl_nil]
      exact hx'
    · rw [table_off g.size ht]
      exact hx'

/-- The delay of a node that NSP shows is given in seconds, at least one; a node that was never timed has none. -/
theorem plural_delay (g : w.Good db) (ha : Asks w e code value) (hi : info ≤ 1)
    (h : w.answer db e info qual = .ok (.recs rs)) (hr : r ∈ rs) (h0 : r.addr ≠ 0) (m : Nat) :
    r.delay = some m ↔ ∃ n ∈ db.byid, n.addr = r.addr ∧ Shown w code info n ∧ n.delay ≠ 0 ∧
      m = max 1 (n.delay / 1000) := by
  have hf := ((mem_answer g ha hi h).1 hr).1
  have hs : (⟨code, value, [], info, qual⟩ : Req).sumstat = true := by simp [Req.sumstat]; omega
  have hmax : ∀ d : Nat, (if d / 1000 = 0 then 1 else d / 1000) = max 1 (d / 1000) := by
    intro d
    split <;> omega
  have hloop : ∀ n ∈ db.byid, n.addr = r.addr → n.loop = none := by
    intro n hn hk
    cases hl : n.loop with
    | none => rfl
    | some c => exact absurd (hk.symm.trans (g.loop n hn (by simp [hl]))) h0
  constructor
  · intro hm
    refine final_inv (w := w) (fun x => x.delay = some m →
      ∃ n ∈ db.byid, n.addr = r.addr ∧ Shown w code info n ∧ n.delay ≠ 0 ∧ m = max 1 (n.delay / 1000))
      (by simp [fresh]) ?_ ?_ ?_ ?_ ?_ ?_ hf hm
    · intro n hn hk hsh x hx
      unfold World.eclSet
      simp only [hs, ↓reduceIte]
      intro he
      split at he
      · rename_i hne
        simp only [Option.some.injEq] at he
        exact ⟨n, hn, hk, hsh, hne, by rw [← he, hmax]⟩
      · exact hx he
    · intro n id ph ty r hr; unfold ptpSet; split <;> exact hr
    · intro n c a r hr; unfold lanSet; split <;> exact hr
    · intro i a r hr; unfold World.reachSet; split <;> exact hr
    · intro r hr; exact hr
    · intro _ r hr; exact hr
  · rintro ⟨n, hn, hk, hsh, hnz, rfl⟩
    have key : r.delay ≠ none := by
      refine final_once (w := w) (db := db) (fun x => x.delay ≠ none) ?_ ?_ ?_ ?_ ?_ ?_ ?_ hf
      · intro n hk x hx
        unfold World.eclSet
        simp only [hs, ↓reduceIte]
        split <;> simp [hx]
      · intro n id ph ty r hr; unfold ptpSet; split <;> exact hr
      · intro n c a r hr; unfold lanSet; split <;> exact hr
      · intro i a r hr; unfold World.reachSet; split <;> exact hr
      · intro r hr; exact hr
      · intro _ r hr; exact hr
      · refine ⟨w.eclSet ⟨code, value, [], info, qual⟩ n, ?_, ?_⟩
        · unfold acts
          apply List.mem_append_left
          apply List.mem_append_left
          have hadj : (⟨code, value, [], info, qual⟩ : Req).adj = false := by simpa [Req.adj] using hsh.1
          unfold nspActs eclActs
          rw [hadj, ← hk]
          simp only [Bool.false_eq_true, if_false]
          exact List.mem_map.2 ⟨n, List.mem_filter.2 ⟨hn, (eclWants_iff hadj).2 hsh⟩, rfl⟩
        · intro x
          unfold World.eclSet
          simp [hs, hnz]
    have only : ∀ m, r.delay = some m → m = max 1 (n.delay / 1000) := by
      intro m hm
      refine final_inv (w := w) (fun x => x.delay = some m → m = max 1 (n.delay / 1000))
        (by simp [fresh]) ?_ ?_ ?_ ?_ ?_ ?_ hf hm
      · intro n' hn' hk' _ x hx
        have : n' = n := g.unique n' hn' n hn (hloop n' hn' hk') (hloop n hn hk) (hk'.trans hk.symm)
        subst this
        unfold World.eclSet
        simp only [hs, ↓reduceIte]
        intro he
        rw [if_pos hnz, hmax] at he
        simpa using he.symm
      · intro n id ph ty r hr; unfold ptpSet; split <;> exact hr
      · intro n c a r hr; unfold lanSet; split <;> exact hr
      · intro i a r hr; unfold World.reachSet; split <;> exact hr
      · intro r hr; exact hr
      · intro _ r hr; exact hr
    cases hdl : r.delay with
    | none => exact absurd hdl key
    | some m => rw [only m hdl]

/-- A neighbour on an admitted circuit is shown with a circuit, in a summary with a next hop and in a status with a
type. -/
theorem plural_neighbour (g : w.Good db) (ha : Asks w e code value) (hi : info ≤ 1)
    (h : w.answer db e info qual = .ok (.recs rs)) (hr : r ∈ rs) (h3 : code ≠ -3) {c : Str × Circ}
    (hc : c ∈ w.circuits) (hq : Admits qual c.1) (hn : Neighbour r.addr c.2) :
    r.adjCircuit ≠ none ∧ (info = 0 → r.nextNode ≠ none) ∧ (info = 1 → r.adjType ≠ none) := by
  have hf := ((mem_answer g ha hi h).1 hr).1
  generalize hQ : (⟨code, value, [], info, qual⟩ : Req) = q at hf
  have hcode : q.code = code := by subst hQ; rfl
  have hqual : q.qual = qual := by subst hQ; rfl
  have hinfo : q.info = info := by subst hQ; rfl
  have hl : q.loop = false := by simpa [Req.loop, hcode] using h3
  have hst : q.stat = true ↔ info = 1 := by simp [Req.stat, hinfo]
  refine final_once (w := w) (db := db) (q := q) (k := r.addr) (fun x => x.adjCircuit ≠ none ∧
    (info = 0 → x.nextNode ≠ none) ∧ (info = 1 → x.adjType ≠ none)) ?_ ?_ ?_ ?_ ?_ ?_ ?_ hf
  · intro n _ x hx
    unfold World.eclSet
    split
    · exact hx
    · split <;> exact hx
  · intro n id ph ty r hr
    unfold ptpSet
    split
    · exact ⟨by simp, hr.2.1, by simp⟩
    · exact ⟨by simp, by simp, hr.2.2⟩
  · intro n c a r hr
    unfold lanSet
    split
    · exact ⟨by simp, hr.2.1, by simp⟩
    · exact ⟨by simp, by simp, hr.2.2⟩
  · intro i a r hr
    unfold World.reachSet
    split
    · exact ⟨by simp, hr.2.1, hr.2.2⟩
    · exact ⟨by simp, by simp, hr.2.2⟩
  · intro r hr; exact hr
  · intro _ r hr; exact hr
  · cases hp : q.pick with
    | none => exact absurd (hqual ▸ hq) (pick_none hp c.1)
    | some p =>
      have hadm := (pick_some hp c.1).1 (hqual ▸ hq)
      have hch : c ∈ chosen p w.circuits := by
        unfold chosen
        rw [List.mem_filter]
        exact ⟨hc, by rcases hadm with rfl | rfl <;> simp⟩
      have hin : ∀ a ∈ circActs db q c.1 c.2, a ∈ acts w db q := by
        intro a ha
        unfold acts routActs
        rw [hp]
        apply List.mem_append_left
        apply List.mem_append_right
        simp only [hl, Bool.false_eq_true, if_false]
        exact List.mem_append_left _ (List.mem_flatMap.2 ⟨c, hch, ha⟩)
      obtain ⟨name, c⟩ := c
      cases c with
      | ptp running id ph ty =>
        obtain ⟨rfl, hid⟩ := hn
        refine ⟨ptpSet name id ph ty q, hin _ (by simp [circActs, hid]), ?_⟩
        intro x
        unfold ptpSet
        by_cases h1 : q.stat = true
        · rw [if_pos h1]
          have := hst.1 h1
          exact ⟨by simp, by omega, by simp⟩
        · rw [if_neg h1]
          exact ⟨by simp, by simp, fun e => absurd (hst.2 e) h1⟩
      | lan adjs cost =>
        obtain ⟨x, hx, hup, hid⟩ := hn
        refine ⟨lanSet name cost x q, hin _ ?_, ?_⟩
        · simp only [circActs]
          rw [← hid]
          exact List.mem_map.2 ⟨x, List.mem_filter.2 ⟨List.mem_mergeSort.2 hx, hup⟩, rfl⟩
        · intro y
          unfold lanSet
          by_cases h1 : q.stat = true
          · rw [if_pos h1]
            have := hst.1 h1
            exact ⟨by simp, by omega, by simp⟩
          · rw [if_neg h1]
            exact ⟨by simp, by simp, fun e => absurd (hst.2 e) h1⟩

/-- The type in a status is that of a neighbour with that address on an admitted circuit; a summary has none. -/
theorem plural_type (g : w.Good db) (ha : Asks w e code value) (hi : info ≤ 1)
    (h : w.answer db e info qual = .ok (.recs rs)) (hr : r ∈ rs) {t : Nat} (ht : r.adjType = some t) :
    info = 1 ∧ ∃ c ∈ w.circuits, Admits qual c.1 ∧ NeighbourType r.addr t c.2 := by
  have hf := ((mem_answer g ha hi h).1 hr).1
  revert ht
  refine final_inv_at (w := w) (db0 := db) (k := r.addr) (fun x => x.adjType = some t → info = 1 ∧
    ∃ c ∈ w.circuits, Admits qual c.1 ∧ NeighbourType r.addr t c.2) (by simp [fresh]) ?_ ?_ ?_ ?_ ?_ ?_ hf
  · intro n _ _ _ x hx
    unfold World.eclSet
    split
    · exact hx
    · split <;> exact hx
  · intro name id ph ty hc hq hid x hx
    unfold ptpSet
    split
    · rename_i hs
      intro he
      simp only [Option.some.injEq] at he
      refine ⟨by simpa [Req.stat] using hs, _, hc, hq, rfl, hid, ?_⟩
      subst he
      unfold niceType
      exact ⟨fun h4 => by simp [h4], fun h4 => by simp [h4], fun h4 => by simp [h4]⟩
    · exact hx
  · intro name adjs cost y hc hq hy hup hid x hx
    unfold lanSet
    split
    · rename_i hs
      intro he
      simp only [Option.some.injEq] at he
      refine ⟨by simpa [Req.stat] using hs, _, hc, hq, y, hy, hup, hid, ?_⟩
      exact ⟨fun _ => he.symm, by simp, by simp⟩
    · exact hx
  · intro i a x hx; unfold World.reachSet; split <;> exact hx
  · intro x hx; exact hx
  · intro _ x hx; exact hx

/-- In a status of the known nodes 2.1 is an area router. -/
example : ∃ rs, exW.answer exDb (.plural (-1)) 1 none = .ok (.recs rs) ∧ ∃ r ∈ rs, r.addr = 2049 ∧
    r.adjType = some 3 := by
  have ha : Asks exW (.plural (-1)) (-1) 0 := .plural (-1) (by omega) (by omega)
  obtain ⟨rs, h1, h2, _⟩ := plural_answer (info := 1) (qual := none) exGood ha (by omega) (by simp [Decoded])
  have hnb : Neighbour 2049 (.ptp true 2049 4 1) := ⟨rfl, rfl⟩
  obtain ⟨r, hr, hra⟩ := (h2 2049).2 ⟨.inr (.inl ⟨by omega, (ptpC, .ptp true 2049 4 1), by simp [exW], by simp [Admits],
    hnb⟩), .inl (by omega)⟩
  refine ⟨rs, h1, r, hr, hra, ?_⟩
  have hne := (plural_neighbour exGood ha (by omega) h1 hr (by omega) (c := (ptpC, .ptp true 2049 4 1)) (by simp [exW])
    (by simp [Admits]) (hra ▸ hnb)).2.2 rfl
  cases ht : r.adjType with
  | none => exact absurd ht hne
  | some t =>
    obtain ⟨_, c, hc, _, hn⟩ := plural_type exGood ha (by omega) h1 hr ht
    rw [hra] at hn
    simp only [exW, List.mem_cons, List.not_mem_nil, or_false] at hc
    rcases hc with rfl | rfl
    all_goals simp [NeighbourType, TypeShown] at hn
    all_goals first | exact congrArg some hn | omega

/-- In a summary of the known nodes 1.3 is reachable through 1.2, with two links; 1.4 is unreachable; nothing is said of
the state of 2.1. -/
example : ∃ rs, exW.answer exDb (.plural (-1)) 0 none = .ok (.recs rs) ∧
    (∃ r ∈ rs, r.addr = 1027 ∧ r.state = some 4 ∧ r.nextNode = some 1026 ∧ r.links = some 2 ∧ r.executor = false ∧
      r.delay = some 2 ∧ nameIn exDb 1027 r.name) ∧
    (∃ r ∈ rs, r.addr = 1028 ∧ r.state = some 5) ∧
    (∃ r ∈ rs, r.addr = 2049 ∧ r.state = none ∧ r.nextNode ≠ none) ∧
    (∃ r ∈ rs, r.addr = 1025 ∧ r.state = some 0) := by
  have ha : Asks exW (.plural (-1)) (-1) 0 := .plural (-1) (by omega) (by omega)
  have hd : Decoded none := by simp [Decoded]
  have hi : 0 ≤ 1 := by omega
  obtain ⟨rs, h1, h2, h3⟩ := plural_answer (info := 0) (qual := none) exGood ha hi hd
  obtain ⟨r, hr, hra⟩ := (h2 1027).2 ⟨.inl ⟨nodeFar, by simp [exDb], rfl, by simp [Shown]⟩, .inl (by omega)⟩
  obtain ⟨r', hr', hra'⟩ := (h2 1028).2 ⟨.inr (.inr ⟨by omega, by omega, exRouter, rfl, by omega, by simp [exW],
    by simp [exW], .inr ⟨by simp [exW], rfl, by simp⟩⟩), .inl (by omega)⟩
  have hnb : Neighbour 2049 (.ptp true 2049 4 1) := ⟨rfl, rfl⟩
  obtain ⟨s, hs, hsa⟩ := (h2 2049).2 ⟨.inr (.inl ⟨by omega, (ptpC, .ptp true 2049 4 1), by simp [exW], by simp [Admits],
    hnb⟩), .inl (by omega)⟩
  obtain ⟨x, hx, hxa⟩ := (h2 1025).2 ⟨.inl ⟨nodeMe, by simp [exDb], rfl, by simp [Shown]⟩, .inl (by omega)⟩
  have hreach := plural_reachable exGood ha hi hd h1 hr (a := hopLan)
    ⟨exRouter, by omega, by omega, by rw [hra]; rfl, by omega, by rw [hra]; simp [exW], by rw [hra]; simp [exW], by simp⟩
    (by rw [hra]; rfl) (by simp [Admits])
  have hun := plural_unreachable exGood ha hi h1 hr'
    ⟨exRouter, by omega, by omega, by rw [hra']; rfl, by omega, by rw [hra']; simp [exW], by rw [hra']; simp [exW], by simp⟩
    (by rw [hra']; rfl)
  have hex := plural_executor exGood ha hi h1 hr
  refine ⟨rs, h1, ⟨r, hr, hra, hreach.1, hreach.2.2.1 rfl,
    (plural_links exGood ha hi h1 hr 2).2 ⟨by rw [hra]; rfl, by omega, nodeFar, by simp [exDb], hra ▸ rfl, by simp [Shown]⟩,
    ?_, (plural_delay exGood ha hi h1 hr (by omega) 2).2 ⟨nodeFar, by simp [exDb], hra ▸ rfl, by simp [Shown],
      by simp [nodeFar], by simp [nodeFar]⟩, hra ▸ plural_name exGood ha hi h1 hr (by omega)⟩, ⟨r', hr', hra', hun⟩, ⟨s, hs, hsa,
    plural_stateless exGood ha hi hd h1 hs (by rw [hsa]; simp [exW]) (by rintro ⟨_, _, _, h, _⟩; rw [hsa] at h; simp [exW] at h),
    (plural_neighbour exGood ha hi h1 hs (by omega) (c := (ptpC, .ptp true 2049 4 1)) (by simp [exW]) (by simp [Admits])
      (hsa ▸ hnb)).2.1 rfl⟩, ⟨x, hx, hxa, plural_state_exec exGood ha hi h1 hx hxa⟩⟩
  rw [Bool.eq_false_iff, ne_eq, hex, hra]
  simp [exW]

end Fields

end Verif.NiceRead
