import Verif.NiceRead.Answer

/-!
# Requests for one node
-/

namespace Verif.NiceRead

variable {w : World} {db : Db}

theorem set_one {s : St} {k : Nat} {v : Rec} (h : s.resp = [(k, v)]) (nm : Str) (f : Rec → Rec) :
    s.set k nm f = .ok { s with resp := [(k, f v)] } := by
  unfold St.set
  simp [h, Resp.has, Resp.upd]

/-- The node NSP finds. -/
theorem eclOne_ok {q : Req} (hk : Address q.value) (h0 : q.value ≠ 0)
    (hn : q.vname = db.nameOf q.value ∨ q.vname = []) :
    ∃ n, eclOne db q = .ok n ∧ n.addr = q.value ∧ n.name = db.nameOf q.value ∧
      ((n ∈ db.byid ∧ n.loop = none) ∨ ((∀ m ∈ db.byid, m.loop = none → m.addr ≠ q.value) ∧ n.delay = 0)) := by
  unfold eclOne
  rw [if_neg h0]
  cases hf : db.find q.value with
  | some n =>
    obtain ⟨h1, h2, h3⟩ := find_some hf
    exact ⟨n, rfl, h3, by simp [Db.nameOf, hf], .inl ⟨h1, h2⟩⟩
  | none =>
    have hnm : db.nameOf q.value = [] := by simp [Db.nameOf, hf]
    have hv : q.vname = [] := by
      rcases hn with h | h
      · rw [h, hnm]
      · exact h
    unfold Db.nodeinfo
    simp only [hf, validAddr_iff.2 hk, ↓reduceIte, Except.map, hv]
    exact ⟨_, rfl, rfl, hnm.symm, .inr ⟨find_none.1 hf, rfl⟩⟩

/-- The record NSP makes. -/
theorem ecl_one (g : w.Good db) {q : Req} (hc : q.code = 0) (hi : q.info ≤ 1) (hk : Address q.value) (h0 : q.value ≠ 0)
    (hn : q.vname = db.nameOf q.value ∨ q.vname = []) :
    ∃ db' v, w.ecl q ⟨db, []⟩ = .ok ⟨db', [(q.value, v)]⟩ ∧ Inv db ⟨db', [(q.value, v)]⟩ ∧
      v.addr = q.value ∧ nameIn db q.value v.name ∧ v.executor = false ∧
      (∀ m, v.links = some m ↔ m = w.conns.count q.value ∧ m ≠ 0) ∧
      (∀ m, v.delay = some m ↔
        ∃ n ∈ db.byid, n.loop = none ∧ n.addr = q.value ∧ n.delay ≠ 0 ∧ m = max 1 (n.delay / 1000)) ∧
      v.state = none ∧ v.adjCircuit = none ∧ v.nextNode = none ∧ v.hops = none ∧ v.cost = none ∧ v.adjType = none := by
  obtain ⟨n, e1, a1, n1, d1⟩ := eclOne_ok hk h0 hn
  have hadj : q.adj = false := by simp [Req.adj, hc]
  have hm : q.mult = false := by simp [Req.mult, hc]
  have hs : q.sumstat = true := by simp [Req.sumstat]; omega
  obtain ⟨m, db', h1, h2, h3, h4, h5⟩ := nodeinfo_ok db n.name hk
  have hset : w.ecl q ⟨db, []⟩ = .ok ⟨db', [(q.value, w.eclSet q n { addr := m.addr, name := m.name })]⟩ := by
    unfold World.ecl World.eclNode
    simp only [hadj, hm, Bool.false_eq_true, if_false, e1]
    unfold St.set
    simp [Resp.has, a1, validAddr_iff.2 hk, h1, Except.map]
  refine ⟨db', _, hset, ?_, ?_⟩
  · refine ⟨by simp, ?_⟩
    intro a ha
    by_cases h : a = q.value
    · subst h
      show ((db'.find _).map (·.name)).getD [] = _
      rw [h4, Option.map_some, Option.getD_some, h3, n1]
      unfold Db.nameOf
      cases db.find q.value <;> simp
    · show ((db'.find _).map (·.name)).getD [] = _
      rw [h5 a h]
      rfl
  · unfold World.eclSet
    simp only [hs, ↓reduceIte, a1, n1]
    refine ⟨trivial, nameOf_in db _, trivial, ?_, ?_, trivial, trivial, trivial, trivial, trivial, trivial⟩
    · intro x
      have hc : w.links q.value = w.conns.count q.value := rfl
      rw [hc]
      by_cases hz : w.conns.count q.value = 0
      · simp [hz]
      · simp only [ne_eq, hz, not_false_eq_true, ↓reduceIte, Option.some.injEq]
        constructor
        · rintro rfl; exact ⟨rfl, hz⟩
        · rintro ⟨rfl, _⟩; rfl
    · intro x
      rcases d1 with ⟨hb, hl⟩ | ⟨hb, hd⟩
      · by_cases hz : n.delay = 0
        · simp only [ne_eq, hz, not_true_eq_false, if_false, reduceCtorEq, false_iff]
          rintro ⟨n', hn', hl', ha', hz', _⟩
          exact hz' (g.unique n' hn' n hb hl' hl (ha'.trans a1.symm) ▸ hz)
        · simp only [ne_eq, hz, not_false_eq_true, ↓reduceIte, Option.some.injEq]
          constructor
          · intro h
            refine ⟨n, hb, hl, a1, hz, ?_⟩
            split at h <;> omega
          · rintro ⟨n', hn', hl', ha', hz', rfl⟩
            rw [g.unique n' hn' n hb hl' hl (ha'.trans a1.symm)]
            split <;> omega
      · simp only [hd, ne_eq, not_true_eq_false, if_false, reduceCtorEq, false_iff]
        rintro ⟨n', hn', hl', ha', _⟩
        exact hb n' hn' hl' ha'

/-- The request that the layers see. -/
theorem resolve_means (g : w.Good db) {e : Ent} {k : Nat} (h : Means w db e k) (info : Nat) (qual : Option (Int × Str)) :
    ∃ nm, w.resolve db info qual e = some ⟨0, k, nm, info, qual⟩ ∧ (nm = db.nameOf k ∨ nm = []) ∧ k ≠ 0 := by
  cases h with
  | addr a h0 => exact ⟨[], by simp [World.resolve, h0], .inr rfl, h0⟩
  | exec => exact ⟨[], by simp [World.resolve], .inr rfl, g.exec.2⟩
  | name s n h1 h2 h3 h4 =>
    refine ⟨n.name, ?_, .inl ?_, h4⟩
    · simp only [World.resolve, Db.named]
      cases hf : db.byname.find? (fun p => p.1 == s) with
      | none =>
        rw [List.find?_eq_none] at hf
        exact absurd (beq_self_eq_true s) (hf _ h1)
      | some p =>
        rw [h2 p (List.mem_of_find?_eq_some hf) (by simpa using List.find?_some hf)]
        rfl
    · rw [Db.nameOf, find_of_mem g (g.named _ h1) h3]
      rfl

/-- Sorting one record. -/
theorem sorted_one {q : Req} (hc : q.code = 0) {k : Nat} {v : Rec} : w.sorted q [(k, v)] = [(k, v)] := by
  unfold World.sorted
  have : q.matches k = true := by simp [Req.matches, hc]
  by_cases h : k = w.exec
  · simp [h, Req.matches, hc]
  · simp [h, this]

/-- From the record after Routing to the answer. -/
theorem answer_one {e : Ent} {k info : Nat} {qual : Option (Int × Str)} {nm : Str}
    (hr : w.resolve db info qual e = some ⟨0, k, nm, info, qual⟩) (hi : info ≤ 1) {s : St} {db' : Db} {v : Rec}
    (he : w.ecl ⟨0, k, nm, info, qual⟩ ⟨db, []⟩ = .ok s)
    (ho : w.rout ⟨0, k, nm, info, qual⟩ s = .ok ⟨db', [(k, v)]⟩) :
    w.answer db e info qual =
      .ok (.recs [if k = w.exec then execSet w ⟨0, k, nm, info, qual⟩ v else v]) := by
  unfold World.answer World.layers
  rw [hr]
  have : ¬info = 4 := by omega
  simp only [this, if_false, he, ho]
  by_cases h : k = w.exec
  · subst h
    simp [Resp.upd, Req.mult, sorted_one]
  · simp [Resp.upd, Req.mult, sorted_one, h]

theorem plain_pick {q : Req} (h : Plain q.qual) : ∃ p, q.pick = some p := by
  unfold Req.pick
  cases hq : q.qual with
  | none => exact ⟨_, rfl⟩
  | some x =>
    obtain ⟨c, v⟩ := x
    rcases h c v hq with h1 | h1
    · exact ⟨none, by simp [h1]⟩
    · have : ¬c < 0 := by omega
      simp only [this, if_false]
      split <;> exact ⟨_, rfl⟩

theorem hopOf_route {k : Nat} (hw : w.Router) {hop : Option Hop} (hr : Route w k hop) :
    ∃ tid, w.hopOf k = .ok (tid, hop) ∧ (k / 1024 = w.exec / 1024 → tid = k % 1024) ∧
      (k / 1024 ≠ w.exec / 1024 → tid = 0) := by
  have h2 : w.kind ≠ .phase2 := by rcases hw with h | h <;> simp [h]
  unfold World.hopOf
  rw [if_neg h2]
  cases hr with
  | here h1 h3 => exact ⟨k % 1024, by simp [h1, h3], fun _ => rfl, fun h => absurd h1 h⟩
  | out h1 h3 => exact ⟨0, by simp [h1, h3], fun h => absurd h h3, fun _ => rfl⟩
  | area h1 h3 h4 => exact ⟨0, by simp [h1, h3, h4], fun h => absurd h h3, fun _ => rfl⟩

/-- What the records `r` and `v` have in common. -/
def Same (r v : Rec) : Prop :=
  r.addr = v.addr ∧ r.name = v.name ∧ r.executor = v.executor ∧ r.links = v.links ∧ r.delay = v.delay ∧ r.state = v.state

theorem lanLoop_one {q : Req} (hc : q.code = 0) (name : Str) (cost : Nat) {k : Nat} (hv : q.value = k) :
    ∀ (as : List LanAdj) (db1 : Db) (v : Rec), ∃ v', lanLoop name cost q as ⟨db1, [(k, v)]⟩ = .ok ⟨db1, [(k, v')]⟩ ∧
      Same v' v ∧
      ((∃ a ∈ as, a.up = true ∧ a.node = k) → v'.adjCircuit = some name ∧
        (q.stat = false → v'.nextNode = some k) ∧ (q.stat = true → v'.hops = some 1 ∧ v'.cost = some cost)) ∧
      ((¬∃ a ∈ as, a.up = true ∧ a.node = k) → v' = v) ∧
      (v.adjCircuit = some name ∧ (q.stat = false → v.nextNode = some k) ∧
        (q.stat = true → v.hops = some 1 ∧ v.cost = some cost) → v'.adjCircuit = some name ∧
        (q.stat = false → v'.nextNode = some k) ∧ (q.stat = true → v'.hops = some 1 ∧ v'.cost = some cost))
  | [], db1, v => ⟨v, rfl, ⟨rfl, rfl, rfl, rfl, rfl, rfl⟩, by simp, fun _ => rfl, fun h => h⟩
  | a :: as, db1, v => by
    have hm : q.mult = false := by simp [Req.mult, hc]
    unfold lanLoop
    by_cases h : a.up = true ∧ a.node = k
    · have hcond : (a.up && (q.mult || q.value == a.node)) = true := by simp [h.1, h.2, hv]
      rw [if_pos hcond, h.2, set_one rfl]
      simp only
      obtain ⟨v', e, s, h1, h2, h3⟩ := lanLoop_one hc name cost hv as db1 (lanSet name cost a q v)
      have hset : (lanSet name cost a q v).adjCircuit = some name ∧
          (q.stat = false → (lanSet name cost a q v).nextNode = some k) ∧
          (q.stat = true → (lanSet name cost a q v).hops = some 1 ∧ (lanSet name cost a q v).cost = some cost) := by
        unfold lanSet
        cases hs : q.stat <;> simp [h.2]
      have hsame : Same (lanSet name cost a q v) v := by
        unfold lanSet
        split <;> exact ⟨rfl, rfl, rfl, rfl, rfl, rfl⟩
      obtain ⟨s1, s2, s3, s4, s5, s6⟩ := s
      obtain ⟨t1, t2, t3, t4, t5, t6⟩ := hsame
      refine ⟨v', e, ⟨s1.trans t1, s2.trans t2, s3.trans t3, s4.trans t4, s5.trans t5, s6.trans t6⟩, fun _ => h3 hset,
        fun hn => absurd ⟨a, by simp, h⟩ hn, fun _ => h3 hset⟩
    · have hcond : (a.up && (q.mult || q.value == a.node)) = false := by
        rw [Bool.eq_false_iff]
        simp only [hm, Bool.false_or, ne_eq, Bool.and_eq_true, beq_iff_eq, hv]
        rintro ⟨h1, h2⟩
        exact h ⟨h1, h2.symm⟩
      rw [if_neg (by simp [hcond])]
      obtain ⟨v', e, s, h1, h2, h3⟩ := lanLoop_one hc name cost hv as db1 v
      have hex : (∃ b ∈ a :: as, b.up = true ∧ b.node = k) ↔ ∃ b ∈ as, b.up = true ∧ b.node = k := by
        constructor
        · rintro ⟨b, hb, hb'⟩
          rcases List.mem_cons.1 hb with rfl | hb''
          · exact absurd hb' h
          · exact ⟨b, hb'', hb'⟩
        · rintro ⟨b, hb, hb'⟩
          exact ⟨b, by simp [hb], hb'⟩
      exact ⟨v', e, s, fun hh => h1 (hex.1 hh), fun hh => h2 (fun hx => hh (hex.2 hx)), h3⟩

end Verif.NiceRead
