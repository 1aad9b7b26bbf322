import Verif.Lan.Lemmas

namespace Verif.Lan

/-- All objects. -/
abbrev St.all (st : St) : List Obj := st.adjs ++ st.gone

theorem all_upd (u : Nat) (f : Obj → Obj) (st : St) :
    (upd u f st).all = st.all.map fun o => if o.uid = u then f o else o := by
  simp [St.all, upd]

theorem mem_upd {u : Nat} {f : Obj → Obj} {st : St} {o : Obj} :
    o ∈ (upd u f st).all ↔ ∃ o0 ∈ st.all, o = if o0.uid = u then f o0 else o0 := by
  rw [all_upd, List.mem_map]
  constructor
  · rintro ⟨a, h, rfl⟩; exact ⟨a, h, rfl⟩
  · rintro ⟨a, h, rfl⟩; exact ⟨a, h, rfl⟩

/-- `f` changes only the state and the timer. -/
def Keeps (f : Obj → Obj) (o : Obj) : Prop :=
  (f o).uid = o.uid ∧ (f o).id = o.id ∧ (f o).nt = o.nt ∧ (f o).prio = o.prio ∧ (f o).t4 = o.t4

/-- The objects of a circuit; `T` tells which addresses are end nodes. -/
structure Objs (n : Nat) (T : Nat → Bool) (st : St) : Prop where
  ids : (st.adjs.map (·.id)).Nodup
  uids : (st.all.map (·.uid)).Nodup
  lt : ∀ o ∈ st.all, o.uid < st.fresh
  typed : ∀ o ∈ st.all, (o.nt = ENDNODE ↔ T o.id = true)
  limit : (routers st).length ≤ n

theorem Objs.quiet {n T a b} (h : Objs n T a) (q : Quiet a b) : Objs n T b := by
  refine ⟨?_, ?_, ?_, ?_, ?_⟩
  · rw [q.adjs]; exact h.ids
  · show ((b.adjs ++ b.gone).map _).Nodup
    rw [q.adjs, q.gone]; exact h.uids
  · show ∀ o ∈ b.adjs ++ b.gone, _
    rw [q.adjs, q.gone, q.fresh]; exact h.lt
  · show ∀ o ∈ b.adjs ++ b.gone, _
    rw [q.adjs, q.gone]; exact h.typed
  · rw [q.routers]; exact h.limit

theorem Objs.uid_inj {n T st} (h : Objs n T st) {a b : Obj} (ha : a ∈ st.all) (hb : b ∈ st.all) (e : a.uid = b.uid) :
    a = b := by
  have h := h.uids
  generalize st.all = l at h ha hb
  induction l with
  | nil => simp at ha
  | cons x l ih =>
    rw [List.map_cons, List.nodup_cons] at h
    rcases List.mem_cons.1 ha with rfl | ha'
    · rcases List.mem_cons.1 hb with rfl | hb'
      · rfl
      · exact absurd (List.mem_map.2 ⟨b, hb', e.symm⟩) h.1
    · rcases List.mem_cons.1 hb with rfl | hb'
      · exact absurd (List.mem_map.2 ⟨a, ha', e⟩) h.1
      · exact ih h.2 ha' hb'

theorem Objs.id_inj {n T st} (h : Objs n T st) {a b : Obj} (ha : a ∈ st.adjs) (hb : b ∈ st.adjs) (e : a.id = b.id) :
    a = b := by
  have h := h.ids
  generalize st.adjs = l at h ha hb
  induction l with
  | nil => simp at ha
  | cons x l ih =>
    rw [List.map_cons, List.nodup_cons] at h
    rcases List.mem_cons.1 ha with rfl | ha'
    · rcases List.mem_cons.1 hb with rfl | hb'
      · rfl
      · exact absurd (List.mem_map.2 ⟨b, hb', e.symm⟩) h.1
    · rcases List.mem_cons.1 hb with rfl | hb'
      · exact absurd (List.mem_map.2 ⟨a, ha', e⟩) h.1
      · exact ih h.2 ha' hb'

theorem map_keep {α : Type} (g : Obj → α) (u : Nat) (f : Obj → Obj) (l : List Obj)
    (h : ∀ o ∈ l, o.uid = u → g (f o) = g o) : (l.map fun o => if o.uid = u then f o else o).map g = l.map g := by
  rw [List.map_map]
  apply List.map_congr_left
  intro o ho
  show g (if o.uid = u then f o else o) = g o
  by_cases hu : o.uid = u
  · rw [if_pos hu]; exact h o ho hu
  · rw [if_neg hu]

theorem filter_len_keep (u : Nat) (f : Obj → Obj) (l : List Obj) (h : ∀ o ∈ l, o.uid = u → (f o).nt = o.nt) :
    ((l.map fun o => if o.uid = u then f o else o).filter isRouter).length = (l.filter isRouter).length := by
  induction l with
  | nil => rfl
  | cons x l ih =>
    have ih' := ih fun o ho => h o (by simp [ho])
    have hx : isRouter (if x.uid = u then f x else x) = isRouter x := by
      by_cases hu : x.uid = u
      · rw [if_pos hu]; unfold isRouter; rw [h x (by simp) hu]
      · rw [if_neg hu]
    rw [List.map_cons, List.filter_cons, List.filter_cons, hx]
    split
    · rw [List.length_cons, List.length_cons, ih']
    · exact ih'

theorem Objs.upd {n T st} (h : Objs n T st) (u : Nat) (f : Obj → Obj) (hf : ∀ o ∈ st.all, o.uid = u → Keeps f o) :
    Objs n T (upd u f st) := by
  refine ⟨?_, ?_, ?_, ?_, ?_⟩
  · show ((st.adjs.map fun o => if o.uid = u then f o else o).map (·.id)).Nodup
    rw [map_keep _ _ _ _ (fun o ho hu => (hf o (List.mem_append_left _ ho) hu).2.1)]
    exact h.ids
  · rw [all_upd, map_keep _ _ _ _ (fun o ho hu => (hf o ho hu).1)]
    exact h.uids
  · intro o ho
    obtain ⟨o0, h0, rfl⟩ := mem_upd.1 ho
    show _ < st.fresh
    by_cases hu : o0.uid = u
    · rw [if_pos hu, (hf o0 h0 hu).1]; exact h.lt o0 h0
    · rw [if_neg hu]; exact h.lt o0 h0
  · intro o ho
    obtain ⟨o0, h0, rfl⟩ := mem_upd.1 ho
    by_cases hu : o0.uid = u
    · rw [if_pos hu, (hf o0 h0 hu).2.1, (hf o0 h0 hu).2.2.1]; exact h.typed o0 h0
    · rw [if_neg hu]; exact h.typed o0 h0
  · show ((st.adjs.map fun o => if o.uid = u then f o else o).filter isRouter).length ≤ _
    rw [filter_len_keep _ _ _ (fun o ho hu => (hf o (List.mem_append_left _ ho) hu).2.2.1)]
    exact h.limit

theorem mem_remove_all {i : Nat} {st : St} {o : Obj} : o ∈ (remove i st).all ↔ o ∈ st.all := by
  unfold remove St.all
  simp only [List.mem_append, List.mem_filter, decide_eq_true_eq]
  by_cases h : o.id = i
  · simp [h]; exact Or.comm
  · simp [h]

theorem Objs.remove {n T st} (h : Objs n T st) (i : Nat) : Objs n T (remove i st) := by
  refine ⟨?_, ?_, ?_, ?_, ?_⟩
  · exact List.Nodup.sublist (List.Sublist.map _ List.filter_sublist) h.ids
  · have hp : (Lan.remove i st).all.Perm st.all := by
      unfold Lan.remove St.all
      simp only
      have e : (st.adjs.filter (fun o => o.id ≠ i) ++ st.adjs.filter (fun o => o.id = i)).Perm st.adjs := by
        have := List.filter_append_perm (fun o : Obj => decide (o.id ≠ i)) st.adjs
        have e2 : st.adjs.filter (fun x => !decide (x.id ≠ i)) = st.adjs.filter (fun o => o.id = i) := by
          apply List.filter_congr
          intro x _
          simp
        rw [e2] at this
        exact this
      refine List.Perm.trans (List.Perm.append_left _ List.perm_append_comm) ?_
      rw [← List.append_assoc]
      exact List.Perm.append_right _ e
    exact (List.Perm.nodup_iff (hp.map (·.uid))).2 h.uids
  · intro o ho; exact h.lt o (mem_remove_all.1 ho)
  · intro o ho; exact h.typed o (mem_remove_all.1 ho)
  · refine Nat.le_trans (List.Sublist.length_le ?_) h.limit
    exact List.Sublist.filter _ List.filter_sublist

/-- `remove` when the limit is not known before. -/
theorem mem_remove {i : Nat} {st : St} {o : Obj} : o ∈ (remove i st).adjs ↔ o ∈ st.adjs ∧ o.id ≠ i := by
  unfold remove; simp

theorem downOut_obj {n T o st} (h : Objs n T st) : Objs n T (downOut o st) := ⟨h.ids, h.uids, h.lt, h.typed, h.limit⟩

theorem Objs.delCore {n T st} (h : Objs n T st) (o : Obj) : Objs n T (delCore o st) := by
  unfold Lan.delCore
  apply Objs.remove
  cases o.up with
  | true =>
    rw [if_pos rfl]
    exact downOut_obj (h.upd _ _ fun _ _ _ => ⟨rfl, rfl, rfl, rfl, rfl⟩)
  | false => exact h

/-- The listen timer. -/
def TimOk (now : Nat) (o : Obj) : Prop :=
  (∀ d, o.timer = some d → now ≤ d ∧ d ≤ now + o.t4) ∧ (o.up = true → o.nt ≠ PHASE2 → o.timer ≠ none)

def Tim (st : St) : Prop := ∀ o ∈ st.all, TimOk st.now o

theorem Tim.quiet {a b : St} (h : Tim a) (q : Quiet a b) : Tim b := by
  intro o ho
  have : o ∈ a.adjs ++ a.gone := by rw [← q.adjs, ← q.gone]; exact ho
  rw [q.now]; exact h o this

theorem Tim.upd {st : St} (h : Tim st) (u : Nat) (f : Obj → Obj) (hf : ∀ o ∈ st.all, o.uid = u → TimOk st.now (f o)) :
    Tim (upd u f st) := by
  intro o ho
  obtain ⟨o0, h0, rfl⟩ := mem_upd.1 ho
  show TimOk st.now _
  by_cases hu : o0.uid = u
  · rw [if_pos hu]; exact hf o0 h0 hu
  · rw [if_neg hu]; exact h o0 h0

theorem Tim.remove {st : St} (h : Tim st) (i : Nat) : Tim (remove i st) :=
  fun o ho => h o (mem_remove_all.1 ho)

theorem timOk_off (now : Nat) (o : Obj) : TimOk now { o with up := false, timer := none } :=
  ⟨(fun _ hd => nomatch hd), (fun h => nomatch h)⟩

theorem Tim.delCore {st : St} (h : Tim st) (o : Obj) : Tim (delCore o st) := by
  unfold Lan.delCore
  apply Tim.remove
  cases o.up with
  | true =>
    rw [if_pos rfl]
    exact h.upd o.uid (fun o => { o with up := false, timer := none }) fun _ _ _ => timOk_off _ _
  | false => exact h

theorem listen_spec {now : Nat} {o o' : Obj} (h : o.listen now = some o') :
    Keeps (fun _ => o') o ∧ o'.up = o.up ∧ (TimOk now { o with up := false } → TimOk now o') ∧
    (o.nt ≠ PHASE2 → o'.timer = some (now + o.t4)) := by
  unfold Obj.listen at h
  split at h
  · rename_i h2
    cases h
    refine ⟨⟨rfl, rfl, rfl, rfl, rfl⟩, rfl, ?_, fun hn => absurd h2 hn⟩
    intro ht
    exact ⟨ht.1, fun _ hn => absurd h2 hn⟩
  · split at h
    · cases h
    · cases h
      refine ⟨⟨rfl, rfl, rfl, rfl, rfl⟩, rfl, ?_, fun _ => rfl⟩
      intro _
      refine ⟨?_, fun _ _ => by simp⟩
      intro d hd
      simp at hd
      show now ≤ d ∧ d ≤ now + o.t4
      omega

theorem lookup_some {i : Nat} {st : St} {a : Obj} (h : lookup i st = some a) : a ∈ st.adjs ∧ a.id = i := by
  unfold lookup at h
  exact ⟨List.mem_of_find?_eq_some h, by simpa using List.find?_some h⟩

theorem lookup_none {i : Nat} {st : St} (h : lookup i st = none) : ∀ a ∈ st.adjs, a.id ≠ i := by
  unfold lookup at h
  intro a ha
  have := List.find?_eq_none.1 h a ha
  simpa using this

theorem elect_form {c : Cfg} {ch : Bool} {st st' : St} (h : elect c ch st = some st') :
    Quiet st st' ∧ DrOk c st' ∧ (st'.dr = st.dr ∨ ∃ o, findbestdr c st = some o ∧ st'.dr = .adj o.uid o.id) := by
  unfold elect at h
  obtain ⟨s1, h1, h2⟩ := Option.bind_eq_some_iff.1 h
  obtain ⟨q, ok, e⟩ := calcdr_form h1
  split at h2
  · obtain ⟨q2, d⟩ := newhello_form h2
    refine ⟨q.trans q2, ok.quiet q2 d, ?_⟩
    rw [d.dr]; exact e
  · cases h2; exact ⟨q, ok, e⟩

theorem DrId.upd {st : St} (h : DrId st) (u : Nat) (f : Obj → Obj) (hf : ∀ o ∈ st.all, o.uid = u → Keeps f o) :
    DrId (upd u f st) := by
  intro v i hd
  obtain ⟨h1, h2⟩ := h v i hd
  refine ⟨h1, ?_⟩
  intro o ho hv
  obtain ⟨o0, h0, rfl⟩ := mem_upd.1 ho
  by_cases hu : o0.uid = u
  · rw [if_pos hu] at hv ⊢
    obtain ⟨k1, k2, k3, _⟩ := hf o0 h0 hu
    rw [k1] at hv
    rw [k2, k3]
    exact h2 o0 h0 hv
  · rw [if_neg hu] at hv ⊢
    exact h2 o0 h0 hv

theorem DrId.remove {st : St} (h : DrId st) (i : Nat) : DrId (remove i st) := by
  intro v j hd
  obtain ⟨h1, h2⟩ := h v j hd
  exact ⟨h1, fun o ho => h2 o (mem_remove_all.1 ho)⟩

theorem DrId.delCore {st : St} (h : DrId st) (o : Obj) : DrId (delCore o st) := by
  unfold Lan.delCore
  apply DrId.remove
  cases o.up with
  | true =>
    rw [if_pos rfl]
    exact h.upd o.uid (fun o => { o with up := false, timer := none }) fun _ _ _ => ⟨rfl, rfl, rfl, rfl, rfl⟩
  | false => exact h

theorem DrId.next {c : Cfg} {n : Nat} {T : Nat → Bool} {st st' : St} (h : DrId st) (ho : Objs n T st) (q : Quiet st st')
    (e : st'.dr = st.dr ∨ st'.dr = .none ∨ st'.dr = .me ∨ ∃ o, findbestdr c st = some o ∧ st'.dr = .adj o.uid o.id) :
    DrId st' := by
  intro u i hd
  rw [q.fresh, q.adjs, q.gone]
  rcases e with e | e | e | ⟨o, hb, e⟩
  · rw [e] at hd; exact h u i hd
  · rw [e] at hd; cases hd
  · rw [e] at hd; cases hd
  · rw [e] at hd
    injection hd with hd1 hd2
    obtain ⟨hb1, hb2, _⟩ := (best_some hb).1
    have hob : o ∈ st.all := List.mem_append_left _ hb1
    refine ⟨by rw [← hd1]; exact ho.lt o hob, ?_⟩
    intro o' ho' hu
    have := ho.uid_inj ho' hob (by omega)
    rw [this]
    exact ⟨hd2, hb2⟩

/-- The fields of the election. -/
structure Drs (st : St) : Prop where
  me : st.isdr = true ↔ st.dr = .me
  tm : ∀ t, st.drtimer = some t → st.now ≤ t ∧ t ≤ st.now + DRDELAY

theorem Drs.same {a b : St} (h : Drs a) (s : SameDr a b) (n : b.now = a.now) : Drs b := by
  refine ⟨?_, ?_⟩
  · rw [s.isdr, s.dr]; exact h.me
  · rw [s.drtimer, n]; exact h.tm

theorem Drs.calcdr {c : Cfg} {st st' : St} (h : Drs st) (e : calcdr c st = some st') : Drs st' := by
  unfold Lan.calcdr at e
  split at e
  · split at e
    · cases e
      refine ⟨h.me, ?_⟩
      intro t ht
      have : st.now + DRDELAY = t := by simpa using ht
      show st.now ≤ t ∧ t ≤ st.now + DRDELAY
      omega
    · cases e; exact h
  · rename_i o hb
    obtain ⟨s1, h1, h2⟩ := Option.map_eq_some_iff.1 e
    have q : s1.isdr = false ∧ s1.dr = st.dr ∧ s1.drtimer = st.drtimer ∧ s1.now = st.now := by
      split at h1
      · obtain ⟨q, d⟩ := newhello_form h1
        exact ⟨d.isdr, d.dr, d.drtimer, q.now⟩
      · rename_i hi
        cases h1
        exact ⟨by simpa using hi, rfl, rfl, rfl⟩
    obtain ⟨q1, q2, q3, q4⟩ := q
    split at h2
    · rename_i hid
      cases h2
      refine ⟨?_, ?_⟩
      · rw [q1]
        obtain ⟨u, hu⟩ := isId_iff.1 hid
        rw [hu]; simp
      · rw [q3, q4]; exact h.tm
    · cases h2
      refine ⟨?_, fun t ht => nomatch ht⟩
      show s1.isdr = true ↔ Dr.adj o.uid o.id = .me
      rw [q1]; simp

theorem Drs.becomedr {c : Cfg} {st st' : St} (e : becomedr c st = some st') : Drs st' := by
  unfold Lan.becomedr at e
  simp only at e
  split at e
  · obtain ⟨q, d⟩ := newhello_form e
    refine ⟨?_, ?_⟩
    · rw [d.isdr, d.dr]; simp
    · rw [d.drtimer]; exact fun t ht => nomatch ht
  · rename_i o hb
    unfold Lan.calcdr at e
    rw [hb] at e
    simp only at e
    obtain ⟨s1, h1, h2⟩ := Option.map_eq_some_iff.1 e
    obtain ⟨q, d⟩ := newhello_form h1
    have d1 : s1.isdr = false := d.isdr
    have d2 : s1.drtimer = none := d.drtimer
    split at h2
    · rename_i hid
      cases h2
      refine ⟨?_, ?_⟩
      · rw [d1]
        obtain ⟨u, hu⟩ := isId_iff.1 hid
        rw [hu]; simp
      · rw [d2]; exact fun t ht => nomatch ht
    · cases h2
      refine ⟨?_, fun t ht => nomatch ht⟩
      show s1.isdr = true ↔ Dr.adj o.uid o.id = .me
      rw [d1]; simp

/-- The part of `deladj` before the election. -/
theorem deladj_drs {c : Cfg} {o : Obj} {st st' : St} (hd : Drs st) (h : deladj c o st = some st') : Drs st' := by
  unfold deladj at h
  simp only at h
  have e : remove o.id (if o.up then downOut o (upd o.uid (fun o => { o with up := false, timer := none }) st) else st) =
      delCore o st := rfl
  rw [e] at h
  have hc : (delCore o st).dr = st.dr ∧ (delCore o st).isdr = st.isdr ∧ (delCore o st).drtimer = st.drtimer ∧
      (delCore o st).now = st.now := by
    unfold delCore
    cases o.up <;> exact ⟨rfl, rfl, rfl, rfl⟩
  have hs : Drs (if (delCore o st).dr.isUid o.uid then { delCore o st with dr := .none } else delCore o st) := by
    have h0 : Drs (delCore o st) := hd.same ⟨hc.2.1, hc.1, hc.2.2.1⟩ hc.2.2.2
    by_cases hu : (delCore o st).dr.isUid o.uid = true
    · rw [if_pos hu]
      refine ⟨?_, h0.tm⟩
      show (delCore o st).isdr = true ↔ Dr.none = .me
      rw [h0.me]
      have : (delCore o st).dr ≠ .me := by intro hm; rw [hm] at hu; cases hu
      simp [this]
    · rw [if_neg hu]; exact h0
  by_cases hn : o.nt ≠ ENDNODE
  · rw [if_pos hn] at h
    obtain ⟨s2, h2, h3⟩ := Option.bind_eq_some_iff.1 h
    obtain ⟨q3, d⟩ := newhello_form h3
    exact (hs.calcdr h2).same d q3.now
  · rw [if_neg hn] at h
    cases h
    exact hs

/-- What holds for a circuit at all times. -/
structure Inv (n : Nat) (T : Nat → Bool) (st : St) : Prop where
  objs : Objs n T st
  tim : Tim st
  drid : DrId st
  drs : Drs st

theorem Inv.upd {n T st} (h : Inv n T st) (u : Nat) (f : Obj → Obj) (hf : ∀ o ∈ st.all, o.uid = u → Keeps f o)
    (ht : ∀ o ∈ st.all, o.uid = u → TimOk st.now (f o)) : Inv n T (upd u f st) :=
  ⟨h.objs.upd u f hf, h.tim.upd u f ht, h.drid.upd u f hf, ⟨h.drs.me, h.drs.tm⟩⟩

theorem Inv.out {n T st} (h : Inv n T st) (l : List Out) : Inv n T { st with out := l } :=
  ⟨⟨h.objs.ids, h.objs.uids, h.objs.lt, h.objs.typed, h.objs.limit⟩, h.tim, h.drid, ⟨h.drs.me, h.drs.tm⟩⟩

theorem Inv.newhello {n T st c st'} (h : Inv n T st) (e : newhello c st = some st') : Inv n T st' := by
  obtain ⟨q, d⟩ := newhello_form e
  exact ⟨h.objs.quiet q, h.tim.quiet q, h.drid.next (c := c) h.objs q (Or.inl d.dr), h.drs.same d q.now⟩

theorem Inv.sendhello {n T st c st'} (h : Inv n T st) (e : sendhello c st = some st') : Inv n T st' := by
  obtain ⟨q, d⟩ := sendhello_form e
  exact ⟨h.objs.quiet q, h.tim.quiet q, h.drid.next (c := c) h.objs q (Or.inl d.dr), h.drs.same d q.now⟩

theorem Inv.calcdr {n T st c st'} (h : Inv n T st) (e : calcdr c st = some st') : Inv n T st' := by
  obtain ⟨q, _, d⟩ := calcdr_form e
  refine ⟨h.objs.quiet q, h.tim.quiet q, h.drid.next (c := c) h.objs q ?_, h.drs.calcdr e⟩
  rcases d with d | d
  · exact Or.inl d
  · exact Or.inr (Or.inr (Or.inr d))

theorem Inv.elect {n T st c ch st'} (h : Inv n T st) (e : elect c ch st = some st') : Inv n T st' := by
  unfold Lan.elect at e
  obtain ⟨s1, h1, h2⟩ := Option.bind_eq_some_iff.1 e
  have h' := h.calcdr h1
  split at h2
  · exact h'.newhello h2
  · cases h2; exact h'

theorem Inv.becomedr {n T st c st'} (h : Inv n T st) (e : becomedr c st = some st') : Inv n T st' := by
  obtain ⟨q, _, d⟩ := becomedr_form e
  refine ⟨h.objs.quiet q, h.tim.quiet q, h.drid.next (c := c) h.objs q ?_, Drs.becomedr e⟩
  rcases d with d | d | d
  · exact Or.inl d
  · exact Or.inr (Or.inr (Or.inl d))
  · exact Or.inr (Or.inr (Or.inr d))

theorem deladj_dr {c : Cfg} {o : Obj} {st st' : St} (h : deladj c o st = some st') :
    st'.dr = st.dr ∨ st'.dr = .none ∨ st'.dr = .me ∨
      ∃ o', findbestdr c (delCore o st) = some o' ∧ st'.dr = .adj o'.uid o'.id := by
  obtain ⟨_, h1, h2⟩ := deladj_form h
  by_cases hn : o.nt = ENDNODE
  · obtain ⟨_, _, e⟩ := h2 hn
    rw [e]
    by_cases hu : st.dr.isUid o.uid = true
    · rw [if_pos hu]; exact Or.inr (Or.inl rfl)
    · rw [if_neg hu]; exact Or.inl rfl
  · obtain ⟨_, e⟩ := h1 hn
    rcases e with e | e | e
    · exact Or.inl e
    · exact Or.inr (Or.inl e)
    · exact Or.inr (Or.inr (Or.inr e))

theorem delCore_dr (o : Obj) (st : St) : (delCore o st).dr = st.dr := by
  unfold delCore; cases o.up <;> rfl

/-- `deladj`; the timers are seen to separately. -/
theorem Inv.deladj {n T st c o st'} (ho : Objs n T st) (ht : Tim (delCore o st)) (hi : DrId st) (hd : Drs st)
    (e : deladj c o st = some st') : Inv n T st' := by
  obtain ⟨q, _, _⟩ := deladj_form e
  refine ⟨(ho.delCore o).quiet q, ht.quiet q, (hi.delCore o).next (c := c) (ho.delCore o) q ?_, deladj_drs hd e⟩
  rw [delCore_dr]
  exact deladj_dr e

end Verif.Lan
