import Verif.NiceRead.Chars

/-!
# Properties: characteristics and counters of nodes (C135)
-/

namespace Verif.NiceRead

variable {w : World} {db : Db} {e : Ent} {code : Int} {value k : Nat} {qual : Option (Int × Str)}

/-- The qualifier lets Routing answer. -/
theorem pick_plain {q : Req} : q.pick.isSome = true ↔ Plain q.qual := by
  unfold Req.pick Plain
  cases hq : q.qual with
  | none => simp
  | some x =>
    obtain ⟨c, v⟩ := x
    simp only [Option.some.injEq, Prod.mk.injEq]
    constructor
    · intro h a b hab
      by_cases h1 : c = -1
      · left; omega
      · right
        by_cases h2 : c < 0
        · simp [h1, h2] at h
        · omega
    · intro h
      rcases h c v ⟨rfl, rfl⟩ with h | h
      · simp [h]
      · have h1 : ¬c = -1 := by omega
        have h2 : ¬c < 0 := by omega
        simp [h1, h2]

/-- **Counters of several nodes (C135).**  A request is answered, with a record for every node that is asked for and
in the node database; it has its counters and nothing else.  (Loop nodes all have the address zero, and one record.) -/
theorem counters_plural (g : w.Good db) (ha : Asks w e code value) :
    ∃ rs, w.answer db e 3 qual = .ok (.recs rs) ∧ InOrder w.exec (rs.map (·.addr)) ∧
      (∀ r ∈ rs, ∃ n ∈ db.byid, Shown w code 3 n ∧ Fits code value n.addr ∧ r = CounterRec w n) ∧
      (∀ n ∈ db.byid, n.loop = none → n.addr ≠ 0 → Shown w code 3 n → Fits code value n.addr → CounterRec w n ∈ rs) ∧
      (∀ n ∈ db.byid, Shown w code 3 n → Fits code value n.addr → ∃ r ∈ rs, r.addr = n.addr) := by
  obtain ⟨rs, h1, h2, h3, h4⟩ := answer_other (qual := qual) g ha (.inr rfl) (by omega)
  refine ⟨rs, h1, h2, h3, ?_, ?_⟩
  · intro n hn _ h0 hs hf
    obtain ⟨r, hr, _, he⟩ := h4 n hn hs hf
    have : r = CounterRec w n := he h0
    exact this ▸ hr
  · intro n hn hs hf
    obtain ⟨r, hr, ha, _⟩ := h4 n hn hs hf
    exact ⟨r, hr, ha⟩

/-- Significant nodes: the executor, and 1.3 which has been used. -/
example : ∃ rs, exW.answer exDb (.plural (-5)) 3 none = .ok (.recs rs) ∧
    { addr := 1027, name := [70, 65], counters := some 7 } ∈ rs := by
  obtain ⟨rs, h1, _, _, h4, _⟩ := counters_plural (qual := none) exGood (.plural (-5) (by omega) (by omega))
  exact ⟨rs, h1, h4 nodeFar (by simp [exDb]) rfl (by simp [nodeFar])
    ⟨by omega, .inr (.inr (.inr (.inr ⟨by omega, .inr (.inl (by simp [exW, nodeFar]))⟩)))⟩ (.inl (by omega))⟩

/-- **Characteristics of several nodes (C135).**  As for counters; only the executor and loop nodes have any.  Those of
Routing are left out if the request has a circuit qualifier that is a plural other than "known". -/
theorem characteristics_plural (g : w.Good db) (ha : Asks w e code value)
    (hz : ∀ n ∈ db.byid, n.loop = none → n.addr ≠ 0) :
    ∃ rs b, w.answer db e 2 qual = .ok (.recs rs) ∧ (b = true ↔ Plain qual) ∧ InOrder w.exec (rs.map (·.addr)) ∧
      (∀ r ∈ rs, ∃ n ∈ db.byid, Shown w code 2 n ∧ Fits code value n.addr ∧ r = CharRec w b n) ∧
      (∀ n ∈ db.byid, n.loop = none → Shown w code 2 n → Fits code value n.addr → CharRec w b n ∈ rs) ∧
      (∀ n ∈ db.byid, Shown w code 2 n → Fits code value n.addr → ∃ r ∈ rs, r.addr = n.addr) := by
  obtain ⟨rs, h1, h2, h3, h4⟩ := answer_other (qual := qual) g ha (.inl rfl) (fun _ => hz)
  refine ⟨rs, (Req.pick ⟨code, value, [], 2, qual⟩).isSome, h1, pick_plain, h2, h3, ?_, ?_⟩
  · intro n hn hl hs hf
    obtain ⟨r, hr, _, he⟩ := h4 n hn hs hf
    have : r = CharRec w (Req.pick ⟨code, value, [], 2, qual⟩).isSome n := he (hz n hn hl)
    exact this ▸ hr
  · intro n hn hs hf
    obtain ⟨r, hr, ha, _⟩ := h4 n hn hs hf
    exact ⟨r, hr, ha⟩

example : ∃ rs, exW.answer exDb (.plural (-1)) 2 none = .ok (.recs rs) ∧
    ({ addr := 1025, name := [77, 69], executor := true, eclChar := true, routChar := true, ident := true,
       swIdent := true, mgmtVersion := true } : Rec) ∈ rs ∧
    ({ addr := 1027, name := [70, 65] } : Rec) ∈ rs := by
  have hz : ∀ n ∈ exDb.byid, n.loop = none → n.addr ≠ 0 := by simp [exDb, nodeMe, nodeFar, nodeLoop]
  obtain ⟨rs, b, h1, h2, _, _, h5, _⟩ := characteristics_plural (qual := none) exGood
    (.plural (-1) (by omega) (by omega)) hz
  have hb : b = true := h2.2 (by simp [Plain])
  subst hb
  exact ⟨rs, h1, h5 nodeMe (by simp [exDb]) rfl ⟨by omega, .inl rfl⟩ (.inl (by omega)),
    h5 nodeFar (by simp [exDb]) rfl ⟨by omega, .inl rfl⟩ (.inl (by omega))⟩

/-! ## One node -/

/-- NSP's record for one node. -/
theorem ecl_other {q : Req} (hc : q.code = 0) (hs : q.sumstat = false) (hk : Address q.value)
    {n : Node} (e1 : eclOne db q = .ok n) (a1 : n.addr = q.value) :
    ∃ db', w.ecl q ⟨db, []⟩ = .ok ⟨db', [(q.value, pre w q n)]⟩ := by
  have hadj : q.adj = false := by simp [Req.adj, hc]
  have hm : q.mult = false := by simp [Req.mult, hc]
  obtain ⟨m, db', h1, h2, h3, h4, h5⟩ := nodeinfo_ok db n.name hk
  refine ⟨db', ?_⟩
  unfold World.ecl World.eclNode
  simp only [hadj, hm, Bool.false_eq_true, if_false, e1]
  unfold St.set
  simp [Resp.has, a1, validAddr_iff.2 hk, h1, Except.map, eclSet_fresh hs]

/-- The node that a request for one node shows: the one in the database, or one without name and with counters of
zero. -/
def Known (db : Db) (k : Nat) (n : Node) : Prop :=
  (n ∈ db.byid ∧ n.loop = none ∧ n.addr = k) ∨
    ((∀ m ∈ db.byid, m.loop = none → m.addr ≠ k) ∧ n = { addr := k, name := [] })

theorem eclOne_known {q : Req} (hk : Address q.value) (h0 : q.value ≠ 0)
    (hn : q.vname = db.nameOf q.value ∨ q.vname = []) :
    ∃ n, eclOne db q = .ok n ∧ Known db q.value n := by
  unfold eclOne
  rw [if_neg h0]
  cases hf : db.find q.value with
  | some n =>
    obtain ⟨h1, h2, h3⟩ := find_some hf
    exact ⟨n, rfl, .inl ⟨h1, h2, h3⟩⟩
  | none =>
    have hnm : db.nameOf q.value = [] := by simp [Db.nameOf, hf]
    have hv : q.vname = [] := by
      rcases hn with h | h
      · rw [h, hnm]
      · exact h
    unfold Db.nodeinfo
    simp only [hf, validAddr_iff.2 hk, ↓reduceIte, Except.map, hv]
    exact ⟨_, rfl, .inr ⟨find_none.1 hf, rfl⟩⟩

theorem Known.addr {n : Node} (h : Known db k n) : n.addr = k ∧ n.loop = none := by
  rcases h with ⟨_, h1, h2⟩ | ⟨_, rfl⟩
  · exact ⟨h2, h1⟩
  · exact ⟨rfl, rfl⟩

theorem answer_single (g : w.Good db) (hm : Means w db e k) (hk : Address k) {info : Nat} (hi : info = 2 ∨ info = 3) :
    ∃ n nm, Known db k n ∧ w.answer db e info qual = .ok (.recs [post w ⟨0, k, nm, info, qual⟩ n]) := by
  obtain ⟨nm, hr, hn, h0⟩ := resolve_means g hm info qual
  generalize hq : (⟨0, k, nm, info, qual⟩ : Req) = q at hr
  have hc : q.code = 0 := by subst hq; rfl
  have hv : q.value = k := by subst hq; rfl
  have hvn : q.vname = nm := by subst hq; rfl
  have hinfo : q.info = info := by subst hq; rfl
  have hs : q.sumstat = false := by rcases hi with h | h <;> simp [Req.sumstat, hinfo, h]
  have h00 : q.summary = false ∧ q.stat = false := by
    rcases hi with h | h <;> simp [Req.summary, Req.stat, hinfo, h]
  have hmu : q.mult = false := by simp [Req.mult, hc]
  obtain ⟨n, e1, hkn⟩ := eclOne_known (q := q) (hv ▸ hk) (hv ▸ h0) (by rw [hvn, hv]; exact hn)
  rw [hv] at hkn
  obtain ⟨db', e2⟩ := ecl_other (w := w) hc hs (hv ▸ hk) e1 (hkn.addr.1.trans hv.symm)
  rw [hv] at e2
  refine ⟨n, nm, hkn, ?_⟩
  rw [hq]
  have hi4 : ¬info = 4 := by omega
  unfold World.answer World.layers
  rw [hr]
  simp only [hi4, if_false, e2]
  unfold World.rout
  have hcc : q.char = true → q.counters = false := by
    intro h; simp [Req.char] at h; simp [Req.counters, h]
  by_cases hx : k = w.exec
  · subst hx
    cases hch : q.char with
    | false =>
      have hct : q.counters = true := by
        rcases hi with h | h
        · simp [Req.char, hinfo, h] at hch
        · simp [Req.counters, hinfo, h]
      cases q.pick <;> simp [hct, Resp.upd, sorted_one hc, post, pre, hch, execSet, CounterRec, hkn.addr.1, hs, h00]
    | true =>
      cases hp : q.pick with
      | none =>
        simp [Resp.upd, sorted_one hc, post, pre, hch, execSet, CharRec, hkn.addr.1, hkn.addr.2, hs, h00, hp]
      | some p =>
        simp only [hcc hch, hmu, hv, beq_self_eq_true, Bool.not_false, Bool.and_self, Bool.true_or, Bool.false_eq_true,
          if_true, if_false]
        rw [set_one rfl]
        simp [Resp.upd, sorted_one hc, post, pre, hch, execSet, CharRec, hkn.addr.1, hkn.addr.2, hs, h00, hp]
  · have hx' : ¬n.addr = w.exec := by rw [hkn.addr.1]; exact hx
    cases hch : q.char with
    | false =>
      have hct : q.counters = true := by
        rcases hi with h | h
        · simp [Req.char, hinfo, h] at hch
        · simp [Req.counters, hinfo, h]
      cases q.pick <;> simp [hct, Resp.upd, sorted_one hc, post, pre, hch, CounterRec, hx, hx']
    | true =>
      cases hp : q.pick <;>
        simp [hcc hch, hmu, hv, hx, hx', Resp.upd, sorted_one hc, post, pre, hch, CharRec]

/-- **Counters of one node (C135).** -/
theorem counters_single (g : w.Good db) (hm : Means w db e k) (hk : Address k) :
    ∃ n, Known db k n ∧ w.answer db e 3 qual = .ok (.recs [CounterRec w n]) := by
  obtain ⟨n, nm, h1, h2⟩ := answer_single (qual := qual) g hm hk (.inr rfl)
  exact ⟨n, h1, h2⟩

example : exW.answer exDb (.name [70, 65]) 3 none =
    .ok (.recs [{ addr := 1027, name := [70, 65], counters := some 7 }]) := by
  obtain ⟨n, h1 | h1, h2⟩ := counters_single (qual := none) exGood
    (.name [70, 65] nodeFar (by simp [exDb]) (by simp [exDb]) rfl (by simp [nodeFar])) ⟨by simp [nodeFar], by simp [nodeFar]⟩
  · have : n = nodeFar := exGood.unique n h1.1 nodeFar (by simp [exDb]) h1.2.1 rfl h1.2.2
    rw [h2, this]; rfl
  · exact absurd rfl (h1.1 nodeFar (by simp [exDb]) rfl)

/-- A node nobody has heard of. -/
example : ∃ n, Known exDb 1030 n ∧ exW.answer exDb (.addr 1030) 3 none = .ok (.recs [CounterRec exW n]) :=
  counters_single exGood (.addr 1030 (by omega)) ⟨by omega, by omega⟩

/-- **Characteristics of one node (C135).** -/
theorem characteristics_single (g : w.Good db) (hm : Means w db e k) (hk : Address k) :
    ∃ n b, Known db k n ∧ (b = true ↔ Plain qual) ∧ w.answer db e 2 qual = .ok (.recs [CharRec w b n]) := by
  obtain ⟨n, nm, h1, h2⟩ := answer_single (qual := qual) g hm hk (.inl rfl)
  exact ⟨n, (Req.pick ⟨0, k, nm, 2, qual⟩).isSome, h1, pick_plain, h2⟩

example : ∃ n b, Known exDb 1025 n ∧ exW.answer exDb (.addr 0) 2 none = .ok (.recs [CharRec exW b n]) ∧ b = true := by
  obtain ⟨n, b, h1, h2, h3⟩ := characteristics_single (qual := none) exGood .exec exGood.exec.1
  exact ⟨n, b, h1, h3, h2.2 (by simp [Plain])⟩

/-- **Loop nodes by name (C135, negation).**  A loop node that is asked for by its name is shown without its circuit,
and with counters of zero, whatever its own are. -/
theorem loop_by_name (g : w.Good db) {s : Str} {n : Node} (hn : (s, n) ∈ db.byname)
    (hu : ∀ p ∈ db.byname, p.1 = s → p = (s, n)) {c : Str} (hl : n.loop = some c)
    (hz : ∀ m ∈ db.byid, m.loop = none → m.addr ≠ 0) :
    w.answer db (.name s) 2 qual = .ok (.recs [{ addr := 0, name := n.name }]) ∧
      w.answer db (.name s) 3 qual = .ok (.recs [{ addr := 0, name := n.name, counters := some 0 }]) := by
  have haddr : n.addr = 0 := g.loop n (g.named _ hn) (by simp [hl])
  have hnamed : db.named s = some n := by
    unfold Db.named
    cases hf : db.byname.find? (fun p => p.1 == s) with
    | none =>
      rw [List.find?_eq_none] at hf
      exact absurd (beq_self_eq_true s) (hf _ hn)
    | some p =>
      rw [hu p (List.mem_of_find?_eq_some hf) (by simpa using List.find?_some hf)]
      rfl
  have hfind : db.find 0 = none := find_none.2 hz
  have hx : ¬0 = w.exec := fun e => g.exec.2 e.symm
  have hva : validAddr 0 = true := by decide
  have e1 : ∀ info, info = 2 ∨ info = 3 → w.ecl ⟨0, 0, n.name, info, qual⟩ ⟨db, []⟩ =
      .ok ⟨{ db with byid := db.byid ++ [⟨0, n.name, none, 0, false, 0⟩] },
        [(0, pre w ⟨0, 0, n.name, info, qual⟩ ⟨0, n.name, none, 0, false, 0⟩)]⟩ := by
    intro info hi
    have hs : Req.sumstat ⟨0, 0, n.name, info, qual⟩ = false := by
      rcases hi with h | h <;> simp [Req.sumstat, h]
    simp [World.ecl, Req.adj, Req.mult, eclOne, Db.nodeinfo, hfind, hva, Except.map, World.eclNode, St.set, Resp.has,
      eclSet_fresh hs]
  have hr : ∀ info, w.resolve db info qual (.name s) = some ⟨0, 0, n.name, info, qual⟩ := by
    intro info
    simp only [World.resolve, hnamed, Option.map_some, haddr]
  have hx' : ¬w.exec = 0 := g.exec.2
  constructor
  · unfold World.answer World.layers
    rw [hr]
    simp only [show ¬(2 : Nat) = 4 by omega, if_false, e1 2 (.inl rfl)]
    unfold World.rout
    cases Req.pick ⟨0, 0, n.name, 2, qual⟩ <;>
      simp [Req.counters, Req.char, Req.mult, hx, Resp.upd, sorted_one, pre]
  · unfold World.answer World.layers
    rw [hr]
    simp only [show ¬(3 : Nat) = 4 by omega, if_false, e1 3 (.inr rfl)]
    unfold World.rout
    cases Req.pick ⟨0, 0, n.name, 3, qual⟩ <;>
      simp [Req.counters, Req.char, Req.mult, hx, Resp.upd, sorted_one, pre]

example : exW.answer exDb (.name [76, 80]) 2 none = .ok (.recs [{ addr := 0, name := [76, 80] }]) :=
  (loop_by_name exGood (s := [76, 80]) (n := nodeLoop) (by simp [exDb]) (by simp [exDb]) rfl
    (by simp [exDb, nodeMe, nodeFar, nodeLoop])).1

/-- The request for all loop nodes does show the circuit. -/
example : ∃ rs, exW.answer exDb (.plural (-3)) 2 none = .ok (.recs rs) ∧
    ({ addr := 0, name := [76, 80], circuit := some ptpC } : Rec) ∈ rs := by
  obtain ⟨rs, b, h1, _, _, h4, _, h6⟩ := characteristics_plural (qual := none) exGood
    (.plural (-3) (by omega) (by omega)) (by simp [exDb, nodeMe, nodeFar, nodeLoop])
  obtain ⟨r, hr, ha⟩ := h6 nodeLoop (by simp [exDb]) ⟨by omega, .inr (.inr (.inr (.inl ⟨rfl, by simp [nodeLoop]⟩)))⟩
    (.inl (by omega))
  obtain ⟨n, hn, _, _, he⟩ := h4 r hr
  refine ⟨rs, h1, ?_⟩
  simp only [exDb, List.mem_cons, List.not_mem_nil, or_false] at hn
  rcases hn with rfl | rfl | rfl
  · rw [he] at ha; simp [CharRec, nodeMe, nodeLoop, exW] at ha
  · rw [he] at ha; simp [CharRec, nodeFar, nodeLoop, exW] at ha
  · have : r = { addr := 0, name := [76, 80], circuit := some ptpC } := by
      rw [he]; simp [CharRec, nodeLoop, exW]
    exact this ▸ hr

end Verif.NiceRead
