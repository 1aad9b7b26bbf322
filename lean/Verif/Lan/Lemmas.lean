import Verif.Lan.Model

namespace Verif.Lan

/-- The same but for timers, hellos and the designated router. -/
structure Quiet (st st' : St) : Prop where
  adjs : st'.adjs = st.adjs
  gone : st'.gone = st.gone
  now : st'.now = st.now
  fresh : st'.fresh = st.fresh
  out : ∃ hs, st'.out = st.out ++ hs ∧ ∀ x ∈ hs, ∃ r e, x = .hello r e

theorem Quiet.refl (st : St) : Quiet st st := ⟨rfl, rfl, rfl, rfl, [], by simp, by simp⟩

theorem Quiet.trans {a b c : St} (h : Quiet a b) (h' : Quiet b c) : Quiet a c := by
  refine ⟨h'.adjs.trans h.adjs, h'.gone.trans h.gone, h'.now.trans h.now, h'.fresh.trans h.fresh, ?_⟩
  obtain ⟨x, e, p⟩ := h.out
  obtain ⟨y, e', p'⟩ := h'.out
  refine ⟨x ++ y, by rw [e', e, List.append_assoc], ?_⟩
  intro z hz
  rcases List.mem_append.1 hz with hz | hz
  · exact p z hz
  · exact p' z hz

theorem Quiet.routers {a b : St} (h : Quiet a b) : routers b = routers a := by unfold Lan.routers; rw [h.adjs]

theorem Quiet.best {c : Cfg} {a b : St} (h : Quiet a b) : findbestdr c b = findbestdr c a := by
  unfold findbestdr; rw [h.routers]

/-- The same designated router. -/
structure SameDr (st st' : St) : Prop where
  isdr : st'.isdr = st.isdr
  dr : st'.dr = st.dr
  drtimer : st'.drtimer = st.drtimer

theorem sendhello_form {c : Cfg} {st st' : St} (h : sendhello c st = some st') : Quiet st st' ∧ SameDr st st' := by
  unfold sendhello at h
  split at h
  · cases h
  · cases h
    exact ⟨⟨rfl, rfl, rfl, rfl, [_], rfl, fun x hx => ⟨_, _, List.mem_singleton.1 hx⟩⟩, rfl, rfl, rfl⟩

theorem newhello_form {c : Cfg} {st st' : St} (h : newhello c st = some st') : Quiet st st' ∧ SameDr st st' := by
  unfold newhello at h
  simp only at h
  split at h
  · split at h
    · cases h; exact ⟨.refl _, rfl, rfl, rfl⟩
    · cases h; exact ⟨⟨rfl, rfl, rfl, rfl, [], by simp, by simp⟩, rfl, rfl, rfl⟩
  · exact sendhello_form h

/-- The circuit acts on the result of the election. -/
structure DrOk (c : Cfg) (st : St) : Prop where
  me : findbestdr c st = none → st.isdr = true ∨ st.drtimer ≠ none
  other : ∀ o, findbestdr c st = some o → st.isdr = false ∧ st.dr.isId o.id = true

/-- The router that is named is an object of that address. -/
def DrId (st : St) : Prop :=
  ∀ u i, st.dr = .adj u i → u < st.fresh ∧ ∀ o ∈ st.adjs ++ st.gone, o.uid = u → o.id = i ∧ o.nt ≠ ENDNODE

theorem DrOk.quiet {c : Cfg} {a b : St} (h : DrOk c a) (q : Quiet a b) (d : SameDr a b) : DrOk c b := by
  refine ⟨?_, ?_⟩
  · rw [q.best, d.isdr, d.drtimer]; exact h.me
  · rw [q.best, d.isdr, d.dr]; exact h.other

theorem isId_iff {d : Dr} {i : Nat} : d.isId i = true ↔ ∃ u, d = .adj u i := by
  cases d with
  | none => simp [Dr.isId]
  | me => simp [Dr.isId]
  | adj u j => simp [Dr.isId, eq_comm]

theorem calcdr_form {c : Cfg} {st st' : St} (h : calcdr c st = some st') :
    Quiet st st' ∧ DrOk c st' ∧ (st'.dr = st.dr ∨ ∃ o, findbestdr c st = some o ∧ st'.dr = .adj o.uid o.id) := by
  unfold calcdr at h
  split at h
  · rename_i hb
    split at h
    · cases h
      refine ⟨⟨rfl, rfl, rfl, rfl, [], by simp, by simp⟩, ⟨?_, ?_⟩, Or.inl rfl⟩
      · intro _; right; simp
      · intro o ho
        have : findbestdr c st = some o := ho
        rw [hb] at this; cases this
    · rename_i hn
      cases h
      refine ⟨.refl _, ⟨?_, ?_⟩, Or.inl rfl⟩
      · intro _
        by_cases hi : st.isdr = true
        · exact Or.inl hi
        · right; intro ht
          exact hn ⟨by simpa using hi, ht⟩
      · intro o ho
        rw [hb] at ho; cases ho
  · rename_i o hb
    obtain ⟨st1, h1, h2⟩ := Option.map_eq_some_iff.1 h
    have q : Quiet st st1 ∧ st1.isdr = false ∧ st1.dr = st.dr ∧ st1.drtimer = st.drtimer := by
      split at h1
      · obtain ⟨q, d⟩ := newhello_form h1
        exact ⟨⟨q.adjs, q.gone, q.now, q.fresh, q.out⟩, d.isdr, d.dr, d.drtimer⟩
      · rename_i hi
        cases h1
        exact ⟨.refl _, by simpa using hi, rfl, rfl⟩
    obtain ⟨q, i1, i2, i3⟩ := q
    have hb1 := q.best (c := c)
    rw [hb] at hb1
    split at h2
    · rename_i hid
      cases h2
      refine ⟨q, ⟨?_, ?_⟩, Or.inl i2⟩
      · intro hn; rw [hb1] at hn; cases hn
      · intro o' ho'
        rw [hb1] at ho'
        cases ho'
        exact ⟨i1, hid⟩
    · cases h2
      refine ⟨⟨q.adjs, q.gone, q.now, q.fresh, q.out⟩, ⟨?_, ?_⟩, Or.inr ⟨o, hb, rfl⟩⟩
      · intro hn
        have hn' : findbestdr c st1 = none := hn
        rw [hb1] at hn'; cases hn'
      · intro o' ho'
        have ho'' : findbestdr c st1 = some o' := ho'
        rw [hb1] at ho''
        cases ho''
        exact ⟨i1, by simp [Dr.isId]⟩

theorem becomedr_form {c : Cfg} {st st' : St} (h : becomedr c st = some st') :
    Quiet st st' ∧ DrOk c st' ∧
      (st'.dr = st.dr ∨ st'.dr = .me ∨ ∃ o, findbestdr c st = some o ∧ st'.dr = .adj o.uid o.id) := by
  unfold becomedr at h
  simp only at h
  split at h
  · rename_i hb
    obtain ⟨q, d⟩ := newhello_form h
    have q' : Quiet st st' := ⟨q.adjs, q.gone, q.now, q.fresh, q.out⟩
    refine ⟨q', ⟨?_, ?_⟩, Or.inr (Or.inl d.dr)⟩
    · intro _; left; exact d.isdr
    · intro o ho
      rw [q.best] at ho
      have : findbestdr c st = some o := ho
      have hb' : findbestdr c st = none := hb
      rw [hb'] at this; cases this
  · obtain ⟨q, d, e⟩ := calcdr_form h
    have q' : Quiet st st' := ⟨q.adjs, q.gone, q.now, q.fresh, q.out⟩
    refine ⟨q', d, ?_⟩
    rcases e with e | e
    · exact Or.inl e
    · exact Or.inr (Or.inr e)

/-- What `deladj` does to the objects. -/
def delCore (o : Obj) (st : St) : St :=
  remove o.id (if o.up then downOut o (upd o.uid (fun o => { o with up := false, timer := none }) st) else st)

theorem deladj_form {c : Cfg} {o : Obj} {st st' : St} (h : deladj c o st = some st') :
    Quiet (delCore o st) st' ∧
    (o.nt ≠ ENDNODE → DrOk c st' ∧
      (st'.dr = st.dr ∨ st'.dr = .none ∨ ∃ o', findbestdr c (delCore o st) = some o' ∧ st'.dr = .adj o'.uid o'.id)) ∧
    (o.nt = ENDNODE → st'.isdr = st.isdr ∧ st'.drtimer = st.drtimer ∧
      st'.dr = if st.dr.isUid o.uid then .none else st.dr) := by
  unfold deladj at h
  simp only at h
  have hdc : ∀ x : Bool, (if x then downOut o (upd o.uid (fun o => { o with up := false, timer := none }) st) else st).dr = st.dr := by
    intro x; cases x <;> rfl
  have hdr : (delCore o st).dr = st.dr := by
    unfold delCore; exact hdc o.up
  have his : (delCore o st).isdr = st.isdr ∧ (delCore o st).drtimer = st.drtimer := by
    unfold delCore
    cases o.up <;> exact ⟨rfl, rfl⟩
  have e : remove o.id (if o.up then downOut o (upd o.uid (fun o => { o with up := false, timer := none }) st) else st) =
      delCore o st := rfl
  rw [e] at h
  generalize hs : (if (delCore o st).dr.isUid o.uid then { delCore o st with dr := .none } else delCore o st) = s1 at h
  have q1 : Quiet (delCore o st) s1 ∧ s1.dr = (if st.dr.isUid o.uid then .none else st.dr) ∧
      s1.isdr = st.isdr ∧ s1.drtimer = st.drtimer := by
    rw [← hs, hdr]
    by_cases hu : st.dr.isUid o.uid = true
    · rw [if_pos hu, if_pos hu]
      exact ⟨⟨rfl, rfl, rfl, rfl, [], by simp, by simp⟩, rfl, his.1, his.2⟩
    · rw [if_neg hu, if_neg hu]
      exact ⟨.refl _, hdr, his.1, his.2⟩
  obtain ⟨q1, d1, d2, d3⟩ := q1
  by_cases hn : o.nt ≠ ENDNODE
  · rw [if_pos hn] at h
    obtain ⟨s2, h2, h3⟩ := Option.bind_eq_some_iff.1 h
    obtain ⟨q2, ok, e2⟩ := calcdr_form h2
    obtain ⟨q3, d⟩ := newhello_form h3
    refine ⟨(q1.trans q2).trans q3, ?_, fun h => absurd h hn⟩
    intro _
    refine ⟨ok.quiet q3 d, ?_⟩
    rw [d.dr]
    rcases e2 with e2 | ⟨o', ho', e2⟩
    · rw [e2, d1]
      by_cases hu : st.dr.isUid o.uid = true
      · rw [if_pos hu]; exact Or.inr (Or.inl rfl)
      · rw [if_neg hu]; exact Or.inl rfl
    · rw [q1.best] at ho'
      exact Or.inr (Or.inr ⟨o', ho', e2⟩)
  · rw [if_neg hn] at h
    cases h
    refine ⟨q1, fun h => absurd h hn, fun _ => ⟨d2, d3, d1⟩⟩

/-! ## Election -/

theorem keyLt_iff {a b : Nat × Nat} : keyLt a b = true ↔ a.1 < b.1 ∨ (a.1 = b.1 ∧ a.2 < b.2) := by
  simp [keyLt]

theorem keyLt_trans_not {a b d : Nat × Nat} (h1 : ¬ keyLt a b = true) (h2 : ¬ keyLt b d = true) : ¬ keyLt a d = true := by
  rw [keyLt_iff] at *; omega

theorem maxObj_spec (l : List Obj) : ∀ m, (maxObj m l = m ∨ maxObj m l ∈ l) ∧ ¬ keyLt (maxObj m l).key m.key = true ∧
    ∀ o ∈ l, ¬ keyLt (maxObj m l).key o.key = true := by
  induction l with
  | nil => intro m; exact ⟨Or.inl rfl, by rw [keyLt_iff]; simp [maxObj], by simp⟩
  | cons o l ih =>
    intro m
    rw [maxObj]
    by_cases hk : keyLt m.key o.key = true
    · rw [if_pos hk]
      obtain ⟨h1, h2, h3⟩ := ih o
      refine ⟨?_, ?_, ?_⟩
      · rcases h1 with h1 | h1
        · right; rw [h1]; simp
        · right; simp [h1]
      · apply keyLt_trans_not h2; rw [keyLt_iff] at *; omega
      · intro x hx
        rcases List.mem_cons.1 hx with rfl | hx
        · exact h2
        · exact h3 x hx
    · rw [if_neg hk]
      obtain ⟨h1, h2, h3⟩ := ih m
      refine ⟨?_, h2, ?_⟩
      · rcases h1 with h1 | h1
        · exact Or.inl h1
        · right; simp [h1]
      · intro x hx
        rcases List.mem_cons.1 hx with rfl | hx
        · exact keyLt_trans_not h2 hk
        · exact h3 x hx

theorem minObj_spec (l : List Obj) : ∀ m, (minObj m l = m ∨ minObj m l ∈ l) ∧ ¬ keyLt m.key (minObj m l).key = true ∧
    ∀ o ∈ l, ¬ keyLt o.key (minObj m l).key = true := by
  induction l with
  | nil => intro m; exact ⟨Or.inl rfl, by rw [keyLt_iff]; simp [minObj], by simp⟩
  | cons o l ih =>
    intro m
    rw [minObj]
    by_cases hk : keyLt o.key m.key = true
    · rw [if_pos hk]
      obtain ⟨h1, h2, h3⟩ := ih o
      refine ⟨?_, ?_, ?_⟩
      · rcases h1 with h1 | h1
        · right; rw [h1]; simp
        · right; simp [h1]
      · refine keyLt_trans_not (b := o.key) ?_ h2
        rw [keyLt_iff] at *; omega
      · intro x hx
        rcases List.mem_cons.1 hx with rfl | hx
        · exact h2
        · exact h3 x hx
    · rw [if_neg hk]
      obtain ⟨h1, h2, h3⟩ := ih m
      refine ⟨?_, h2, ?_⟩
      · rcases h1 with h1 | h1
        · exact Or.inl h1
        · right; simp [h1]
      · intro x hx
        rcases List.mem_cons.1 hx with rfl | hx
        · exact keyLt_trans_not hk h2
        · exact h3 x hx

/-- A router of this area. -/
def InArea (c : Cfg) (st : St) (o : Obj) : Prop := o ∈ st.adjs ∧ o.nt ≠ ENDNODE ∧ o.id / 1024 = c.own / 1024

theorem best_none {c : Cfg} {st : St} :
    findbestdr c st = none ↔ ∀ o, InArea c st o → keyLt o.key (c.prio, c.own) = true := by
  unfold findbestdr
  have hm : ∀ o, o ∈ (routers st).filter (fun o => o.id / 1024 = c.own / 1024) ↔ InArea c st o := by
    intro o
    unfold InArea routers
    simp only [isRouter, List.mem_filter, decide_eq_true_eq, and_assoc]
  split
  · rename_i he
    constructor
    · intro _ o ho
      rw [← hm o, he] at ho
      simp at ho
    · intro _; rfl
  · rename_i a l he
    simp only [he] at hm
    obtain ⟨h1, h2, h3⟩ := maxObj_spec l a
    constructor
    · intro h o ho
      simp only at h
      split at h
      · rename_i hk
        have : ¬ keyLt (maxObj a l).key o.key = true := by
          rcases List.mem_cons.1 ((hm o).2 ho) with rfl | hx
          · exact h2
          · exact h3 o hx
        rw [keyLt_iff] at *; omega
      · cases h
    · intro h
      rw [if_pos]
      apply h
      rw [← hm]
      rcases h1 with h1 | h1
      · rw [h1]; simp
      · simp [h1]

theorem best_some {c : Cfg} {st : St} {b : Obj} (h : findbestdr c st = some b) :
    InArea c st b ∧ ¬ keyLt b.key (c.prio, c.own) = true ∧ ∀ o, InArea c st o → ¬ keyLt b.key o.key = true := by
  unfold findbestdr at h
  have hm : ∀ o, o ∈ (routers st).filter (fun o => o.id / 1024 = c.own / 1024) ↔ InArea c st o := by
    intro o
    unfold InArea routers
    simp only [isRouter, List.mem_filter, decide_eq_true_eq, and_assoc]
  split at h
  · cases h
  · rename_i a l he
    simp only [he] at hm
    obtain ⟨h1, h2, h3⟩ := maxObj_spec l a
    simp only at h
    split at h
    · cases h
    · rename_i hk
      cases h
      refine ⟨?_, hk, ?_⟩
      · rw [← hm]
        rcases h1 with h1 | h1
        · rw [h1]; simp
        · simp [h1]
      · intro o ho
        rcases List.mem_cons.1 ((hm o).2 ho) with rfl | hx
        · exact h2
        · exact h3 o hx

end Verif.Lan
