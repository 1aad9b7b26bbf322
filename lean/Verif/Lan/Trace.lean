import Verif.Lan.Hist

namespace Verif.Lan

/-! ## The election is acted on -/

theorem DrOk.eq {c : Cfg} {a b : St} (h : DrOk c a) (hr : routers b = routers a) (d : SameDr a b) : DrOk c b := by
  have hb : findbestdr c b = findbestdr c a := by unfold findbestdr; rw [hr]
  refine ⟨?_, ?_⟩
  · rw [hb, d.isdr, d.drtimer]; exact h.me
  · rw [hb, d.isdr, d.dr]; exact h.other

theorem filter_upd_end {u : Nat} {f : Obj → Obj} {l : List Obj}
    (h : ∀ o ∈ l, o.uid = u → o.nt = ENDNODE ∧ (f o).nt = o.nt) :
    (l.map fun o => if o.uid = u then f o else o).filter isRouter = l.filter isRouter := by
  induction l with
  | nil => rfl
  | cons x l ih =>
    have ih' := ih fun o ho => h o (by simp [ho])
    rw [List.map_cons]
    by_cases hu : x.uid = u
    · obtain ⟨h1, h2⟩ := h x (by simp) hu
      rw [if_pos hu, List.filter_cons_of_neg (by simp [isRouter, h2, h1]), List.filter_cons_of_neg (by simp [isRouter, h1])]
      exact ih'
    · rw [if_neg hu, List.filter_cons, List.filter_cons, ih']

theorem routers_remove_end {n T st i} (ho : Objs n T st) (hT : T i = true) : routers (remove i st) = routers st := by
  unfold routers remove
  simp only
  rw [List.filter_filter]
  apply List.filter_congr
  intro x hx
  by_cases hi : x.id = i
  · have := (ho.typed x (List.mem_append_left _ hx)).2 (by rw [hi]; exact hT)
    simp [isRouter, this]
  · simp [hi]

theorem routers_delCore_end {n T st o} (ho : Objs n T st) (hm : ∃ o0 ∈ st.all, o0.uid = o.uid ∧ o0.id = o.id)
    (hT : T o.id = true) : routers (delCore o st) = routers st := by
  unfold delCore
  obtain ⟨o0, h0, hu, hid⟩ := hm
  have hup : ∀ x : Bool, routers (if x = true then downOut o (upd o.uid (fun o => { o with up := false, timer := none }) st) else st) = routers st ∧
      Objs n T (if x = true then downOut o (upd o.uid (fun o => { o with up := false, timer := none }) st) else st) := by
    intro x
    cases x with
    | false => exact ⟨rfl, ho⟩
    | true =>
      rw [if_pos rfl]
      refine ⟨?_, downOut_obj (ho.upd _ _ fun _ _ _ => ⟨rfl, rfl, rfl, rfl, rfl⟩)⟩
      refine filter_upd_end fun y hy e => ⟨?_, rfl⟩
      have := ho.uid_inj (List.mem_append_left _ hy) h0 (by omega)
      rw [this]
      exact (ho.typed o0 h0).2 (by rw [hid]; exact hT)
  rw [routers_remove_end (hup o.up).2 hT, (hup o.up).1]

theorem deladj_end {n T c st o st'} (ho : Objs n T st) (hi : DrId st)
    (hm : ∃ o0 ∈ st.all, o0.uid = o.uid ∧ o0.id = o.id ∧ o0.nt = o.nt) (hT : T o.id = true)
    (e : deladj c o st = some st') : routers st' = routers st ∧ SameDr st st' := by
  obtain ⟨o0, h0, hu, hid, hnt⟩ := hm
  have hn : o.nt = ENDNODE := by
    rw [← hnt]; exact (ho.typed o0 h0).2 (by rw [hid]; exact hT)
  obtain ⟨q, _, h2⟩ := deladj_form e
  obtain ⟨d1, d2, d3⟩ := h2 hn
  refine ⟨?_, d1, ?_, d2⟩
  · rw [q.routers, routers_delCore_end ho ⟨o0, h0, hu, hid⟩ hT]
  · rw [d3, if_neg]
    intro hx
    cases hd : st.dr with
    | none => rw [hd] at hx; cases hx
    | me => rw [hd] at hx; cases hx
    | adj u i =>
      rw [hd] at hx
      have hx' : o.uid = u := by simpa [Dr.isUid] using hx
      have := (hi u i hd).2 o0 h0 (by omega)
      rw [hnt] at this
      exact this.2 hn

theorem endHello_dr {c : Cfg} {T h st st'} (hi : Inv c.nr T st) (hT : T h.id = true)
    (e : endHello c h st = some st') : routers st' = routers st ∧ SameDr st st' := by
  unfold endHello at e
  split at e
  · cases e; exact ⟨rfl, rfl, rfl, rfl⟩
  · split at e
    · rename_i a hl
      obtain ⟨hl1, hl2⟩ := lookup_some hl
      have ha := List.mem_append_left st.gone hl1
      have hd : ∀ s', deladj c a st = some s' → routers s' = routers st ∧ SameDr st s' := fun s' e =>
        deladj_end hi.objs hi.drid ⟨a, ha, rfl, rfl, rfl⟩ (by rw [hl2]; exact hT) e
      split at e
      · exact hd _ e
      · split at e
        · rename_i hn
          obtain ⟨a', h1, rfl⟩ := Option.map_eq_some_iff.1 e
          refine ⟨filter_upd_end fun y hy ey => ?_, rfl, rfl, rfl⟩
          obtain ⟨⟨_, _, k3, _, _⟩, _⟩ := listen_spec h1
          simp only at k3
          have := hi.objs.uid_inj (List.mem_append_left _ hy) ha ey
          rw [this]
          exact ⟨hn, k3⟩
        · exact hd _ e
    · split at e
      · cases e; exact ⟨rfl, rfl, rfl, rfl⟩
      · simp only at e
        obtain ⟨a', h1, rfl⟩ := Option.map_eq_some_iff.1 e
        obtain ⟨⟨_, _, k3, _, _⟩, _⟩ := listen_spec h1
        simp only at k3
        refine ⟨?_, rfl, rfl, rfl⟩
        unfold routers
        simp only
        rw [List.filter_append, List.filter_cons_of_neg (by simp [isRouter, k3]), List.filter_nil, List.append_nil]

theorem twoway_dr {c h a ch st st'} (e : twoway c h a ch st = some st') : DrOk c st' := by
  obtain ⟨s1, ch', _, e'⟩ := twoway_form e
  exact (elect_form e').2.1

theorem hello_dr {c : Cfg} {T h st st'} (hi : Inv c.nr T st) (hn : h.nt ≠ ENDNODE) (hT : T h.id = false)
    (e : routerHello c h st = some st') (hig : ignored c h.id h.nt = false) : DrOk c st' := by
  cases routerHello_form hn e with
  | ignored hg => rw [hig] at hg; cases hg
  | new _ _ _ h2 => exact twoway_dr h2
  | refused _ _ _ _ h2 => exact ((deladj_form h2).2.1 hn).1
  | evicts s2 a2 _ _ _ _ _ _ _ h3 => exact twoway_dr h3
  | changed a a' _ hl hls _ h2 =>
    refine ((deladj_form h2).2.1 ?_).1
    obtain ⟨⟨_, _, k3, _, _⟩, _⟩ := listen_spec hls
    simp only at k3
    rw [k3]
    intro hx
    obtain ⟨hl1, hl2⟩ := lookup_some hl
    have := (hi.objs.typed a (List.mem_append_left _ hl1)).1 hx
    rw [hl2, hT] at this; cases this
  | known _ _ _ _ _ _ _ h2 => exact twoway_dr h2

theorem step_drOk {c : Cfg} {T st e st'} (hi : Inv c.nr T st) (hv : Valid T st e) (h : step c st e = some st')
    (hd : DrOk c st) : DrOk c st' := by
  cases e with
  | tick d => cases h; exact hd.eq rfl ⟨rfl, rfl, rfl⟩
  | router h' =>
    cases hig : ignored c h'.id h'.nt with
    | false => exact hello_dr hi hv.1 hv.2 h hig
    | true =>
      have h0 : routerHello c h' st = some st' := h
      unfold routerHello at h0
      rw [if_pos hig] at h0
      cases h0; exact hd
  | endnode h' =>
    obtain ⟨h1, h2⟩ := endHello_dr hi hv h
    exact hd.eq h1 h2
  | expire u =>
    have h0 : expire c u st = some st' := h
    unfold expire at h0
    split at h0
    · cases h0; exact hd
    · rename_i o hf
      have ho : o ∈ st.all := List.mem_of_find?_eq_some hf
      have hu : o.uid = u := by simpa using List.find?_some hf
      simp only at h0
      by_cases hn : o.nt = ENDNODE
      · have ho1 := hi.objs.upd u (fun o => { o with timer := none }) fun _ _ _ => ⟨rfl, rfl, rfl, rfl, rfl⟩
        have hd1 := hi.drid.upd u (fun o => { o with timer := none }) fun _ _ _ => ⟨rfl, rfl, rfl, rfl, rfl⟩
        have hT := (hi.objs.typed o ho).1 hn
        obtain ⟨r1, r2⟩ := deladj_end (T := T) (n := c.nr) (downOut_obj (o := o) ho1) hd1
          ⟨{ o with timer := none }, mem_upd.2 ⟨o, ho, by rw [if_pos hu]⟩, rfl, rfl, rfl⟩ hT h0
        have r3 : routers (downOut o (upd u (fun o => { o with timer := none }) st)) = routers st := by
          refine filter_upd_end fun y hy ey => ⟨?_, rfl⟩
          rw [hi.objs.uid_inj (List.mem_append_left _ hy) ho (by omega)]; exact hn
        exact hd.eq (r1.trans r3) ⟨r2.isdr, r2.dr, r2.drtimer⟩
      · exact ((deladj_form h0).2.1 hn).1
  | hellotime =>
    dsimp only [step] at h
    obtain ⟨s1, h1, h2⟩ := Option.bind_eq_some_iff.1 h
    obtain ⟨q, d⟩ := sendhello_form h2
    exact (calcdr_form h1).2.1.quiet q d
  | drtime => exact (becomedr_form h).2.1

theorem steps_drOk {c : Cfg} {T st es st'} (hi : Inv c.nr T st) (hd : DrOk c st) (h : Steps c T st es st') : DrOk c st' := by
  induction h with
  | nil => exact hd
  | snoc hs hv he ih => exact step_drOk (steps_inv hi hs) hv he ih

/-- Events with an election. -/
def Elects (c : Cfg) : Ev → Prop
  | .hellotime => True
  | .drtime => True
  | .router h => ignored c h.id h.nt = false
  | _ => False

theorem elects_drOk {c : Cfg} {T st e st'} (hi : Inv c.nr T st) (hv : Valid T st e) (h : step c st e = some st')
    (he : Elects c e) : DrOk c st' := by
  cases e with
  | hellotime =>
    dsimp only [step] at h
    obtain ⟨s1, h1, h2⟩ := Option.bind_eq_some_iff.1 h
    obtain ⟨q, d⟩ := sendhello_form h2
    exact (calcdr_form h1).2.1.quiet q d
  | drtime => exact (becomedr_form h).2.1
  | router h' => exact hello_dr hi hv.1 hv.2 h he
  | tick => cases he
  | endnode => cases he
  | expire => cases he

theorem steps_elected {c : Cfg} {T st es st'} (hi : Inv c.nr T st) (h : Steps c T st es st')
    (he : ∃ e ∈ es, Elects c e) : DrOk c st' := by
  induction h with
  | nil => obtain ⟨e, he, _⟩ := he; simp at he
  | snoc hs hv hst ih =>
    obtain ⟨e, hm, hel⟩ := he
    rcases List.mem_append.1 hm with hm | hm
    · exact step_drOk (steps_inv hi hs) hv hst (ih ⟨e, hm, hel⟩)
    · rw [List.mem_singleton.1 hm] at hel
      exact elects_drOk (steps_inv hi hs) hv hst hel

/-! ## The delay before becoming designated router -/

structure Keep (a b : St) : Prop where
  isdr : a.isdr = true → b.isdr = true
  tm : ∀ t, a.drtimer = some t → b.drtimer = some t ∨ b.isdr = true

theorem Keep.refl (a : St) : Keep a a := ⟨id, fun _ h => Or.inl h⟩

theorem Keep.trans {a b d : St} (h : Keep a b) (h' : Keep b d) : Keep a d := by
  refine ⟨fun x => h'.isdr (h.isdr x), ?_⟩
  intro t ht
  rcases h.tm t ht with h1 | h1
  · exact h'.tm t h1
  · exact Or.inr (h'.isdr h1)

theorem SameDr.keep {a b : St} (h : SameDr a b) : Keep a b :=
  ⟨by rw [h.isdr]; exact id, by rw [h.drtimer]; exact fun _ h => Or.inl h⟩

theorem calcdr_keep {c : Cfg} {st st' : St} (hb : findbestdr c st = none) (h : calcdr c st = some st') : Keep st st' := by
  unfold calcdr at h
  rw [hb] at h
  simp only at h
  split at h
  · rename_i hn
    cases h
    exact ⟨id, fun t ht => absurd (hn.2.symm.trans ht) (by simp)⟩
  · cases h; exact .refl _

theorem elect_keep {c : Cfg} {ch : Bool} {st st' : St} (hb : findbestdr c st' = none) (h : elect c ch st = some st') :
    Keep st st' := by
  have hq := (elect_form h).1
  have hb0 : findbestdr c st = none := by rw [← hq.best]; exact hb
  unfold elect at h
  obtain ⟨s1, h1, h2⟩ := Option.bind_eq_some_iff.1 h
  have k := calcdr_keep hb0 h1
  split at h2
  · exact k.trans (newhello_form h2).2.keep
  · cases h2; exact k

theorem deladj_keep {c : Cfg} {o : Obj} {st st' : St} (hb : findbestdr c st' = none) (h : deladj c o st = some st') :
    Keep st st' := by
  have hq := (deladj_form h).1
  have hb0 : findbestdr c (delCore o st) = none := by rw [← hq.best]; exact hb
  unfold deladj at h
  simp only at h
  have e : remove o.id (if o.up then downOut o (upd o.uid (fun o => { o with up := false, timer := none }) st) else st) =
      delCore o st := rfl
  rw [e] at h
  have k0 : Keep st (delCore o st) := by
    unfold delCore
    cases o.up <;> exact ⟨id, fun _ h => Or.inl h⟩
  generalize hs : (if (delCore o st).dr.isUid o.uid then { delCore o st with dr := .none } else delCore o st) = s1 at h
  have k1 : Keep (delCore o st) s1 ∧ findbestdr c s1 = none := by
    rw [← hs]
    by_cases hu : (delCore o st).dr.isUid o.uid = true
    · rw [if_pos hu]; exact ⟨⟨id, fun _ h => Or.inl h⟩, hb0⟩
    · rw [if_neg hu]; exact ⟨.refl _, hb0⟩
  by_cases hn : o.nt ≠ ENDNODE
  · rw [if_pos hn] at h
    obtain ⟨s2, h2, h3⟩ := Option.bind_eq_some_iff.1 h
    exact ((k0.trans k1.1).trans (calcdr_keep k1.2 h2)).trans (newhello_form h3).2.keep
  · rw [if_neg hn] at h
    cases h
    exact k0.trans k1.1

theorem best_upd {c : Cfg} {st : St} {u : Nat} {f : Obj → Obj} (hf : ∀ o ∈ st.all, o.uid = u → Keeps f o)
    (h : findbestdr c (upd u f st) = none) : findbestdr c st = none := by
  rw [best_none] at h ⊢
  intro o ho
  have hk : (if o.uid = u then f o else o).key = o.key ∧ (if o.uid = u then f o else o).nt = o.nt ∧
      (if o.uid = u then f o else o).id = o.id := by
    by_cases hu : o.uid = u
    · rw [if_pos hu]
      obtain ⟨_, k2, k3, k4, _⟩ := hf o (List.mem_append_left _ ho.1) hu
      exact ⟨by simp [Obj.key, k2, k4], k3, k2⟩
    · rw [if_neg hu]; exact ⟨rfl, rfl, rfl⟩
  rw [← hk.1]
  apply h
  refine ⟨List.mem_map.2 ⟨o, ho.1, rfl⟩, ?_, ?_⟩
  · rw [hk.2.1]; exact ho.2.1
  · rw [hk.2.2]; exact ho.2.2

theorem twoway_keep {n T c h a ch st st'} (hi : Objs n T st) (ha : a ∈ st.all) (hb : findbestdr c st' = none)
    (e : twoway c h a ch st = some st') : Keep st st' ∧ findbestdr c st = none := by
  obtain ⟨s1, ch', t, e'⟩ := twoway_form e
  have k := elect_keep hb e'
  have hb1 : findbestdr c s1 = none := by rw [← (elect_form e').1.best]; exact hb
  cases t with
  | same => exact ⟨k, hb1⟩
  | up a' _ _ hl =>
    refine ⟨⟨k.isdr, k.tm⟩, ?_⟩
    obtain ⟨kk, _⟩ := listen_spec hl
    refine best_upd (u := a.uid) (f := fun _ => a') ?_ hb1
    intro o ho eo
    rw [uid_mem hi ha o ho eo]; exact kk
  | down =>
    exact ⟨⟨k.isdr, k.tm⟩, best_upd (u := a.uid) (f := fun o => { o with up := false, timer := none })
      (fun _ _ _ => ⟨rfl, rfl, rfl, rfl, rfl⟩) hb1⟩

theorem step_keep {c : Cfg} {T st e st'} (hi : Inv c.nr T st) (hv : Valid T st e) (h : step c st e = some st')
    (hb : findbestdr c st' = none) : Keep st st' := by
  cases e with
  | tick d => cases h; exact ⟨id, fun _ h => Or.inl h⟩
  | endnode h' => exact (endHello_dr hi hv h).2.keep
  | hellotime =>
    dsimp only [step] at h
    obtain ⟨s1, h1, h2⟩ := Option.bind_eq_some_iff.1 h
    obtain ⟨q, d⟩ := sendhello_form h2
    have hb1 : findbestdr c s1 = none := by rw [← q.best]; exact hb
    have hb0 : findbestdr c { st with htimer := none } = none := by rw [← (calcdr_form h1).1.best]; exact hb1
    have k := (calcdr_keep hb0 h1).trans d.keep
    exact ⟨k.isdr, k.tm⟩
  | drtime =>
    have h0 : becomedr c st = some st' := h
    have hb0 : findbestdr c st = none := by rw [← (becomedr_form h0).1.best]; exact hb
    have hd : st'.isdr = true := by
      unfold becomedr at h0
      simp only at h0
      have hb1 : findbestdr c { st with isdr := true, drtimer := none } = none := hb0
      rw [hb1] at h0
      exact (newhello_form h0).2.isdr
    exact ⟨fun _ => hd, fun _ _ => Or.inr hd⟩
  | expire u =>
    have h0 : expire c u st = some st' := h
    unfold expire at h0
    split at h0
    · cases h0; exact .refl _
    · simp only at h0
      have k := deladj_keep hb h0
      exact ⟨k.isdr, k.tm⟩
  | router h' =>
    have h0 : routerHello c h' st = some st' := h
    have hmem : newObj c h' st ∈ (addObj (newObj c h' st) st).all := mem_addObj.2 (Or.inr rfl)
    have hty : (newObj c h' st).nt = ENDNODE ↔ T (newObj c h' st).id = true := by
      show h'.nt = ENDNODE ↔ T h'.id = true
      rw [hv.2]; simp [hv.1]
    have hadd : lookup h'.id st = none → Inv _ T (addObj (newObj c h' st) st) := fun hl =>
      hi.add rfl (lookup_none hl) hty (newObj_tim _ _ _ _) (Nat.le_refl _)
    cases routerHello_form hv.1 h0 with
    | ignored => exact .refl _
    | new _ hl hlen h2 =>
      have k := (twoway_keep (hadd hl).objs hmem hb h2).1
      exact ⟨k.isdr, k.tm⟩
    | refused _ _ _ _ h2 =>
      have k := deladj_keep hb h2
      exact ⟨k.isdr, k.tm⟩
    | evicts s2 a2 _ hl hlen hm hid hmin h2 h3 =>
      have h1 := hadd hl
      have h4 := Inv.deladj h1.objs (h1.tim.delCore _) h1.drid h1.drs h2
      have q := (deladj_form h2).1
      have hm2 : newObj c h' st ∈ s2.all := by
        show _ ∈ s2.adjs ++ s2.gone
        rw [q.adjs, q.gone]
        refine mem_delCore hmem ?_
        intro he
        have := hi.objs.lt a2 (List.mem_append_left _ (List.mem_filter.1 hm).1)
        have he' : st.fresh = a2.uid := he
        omega
      obtain ⟨k, hb2⟩ := twoway_keep h4.objs hm2 hb h3
      have k' := (deladj_keep hb2 h2).trans k
      exact ⟨k'.isdr, k'.tm⟩
    | changed a a' _ hl hls _ h2 =>
      have k := deladj_keep hb h2
      exact ⟨k.isdr, k.tm⟩
    | known a a' _ hl hls _ _ h2 =>
      have ha := List.mem_append_left st.gone (lookup_some hl).1
      have k := (twoway_keep (hi.listen ha hls).objs (mem_upd_const ha) hb h2).1
      exact ⟨k.isdr, k.tm⟩

/-! ## Reports -/

/-- Everything reported between the two states satisfies `P`. -/
def Adds (P : Out → Prop) (a b : St) : Prop := ∃ l, b.out = a.out ++ l ∧ ∀ x ∈ l, P x

theorem Adds.refl (P : Out → Prop) (a : St) : Adds P a a := ⟨[], by simp, by simp⟩

theorem Adds.trans {P : Out → Prop} {a b d : St} (h : Adds P a b) (h' : Adds P b d) : Adds P a d := by
  obtain ⟨x, e, p⟩ := h
  obtain ⟨y, e', p'⟩ := h'
  refine ⟨x ++ y, by rw [e', e, List.append_assoc], ?_⟩
  intro z hz
  rcases List.mem_append.1 hz with hz | hz
  · exact p z hz
  · exact p' z hz

/-- `P` allows anything but reports of adjacencies up. -/
def NotUp (P : Out → Prop) : Prop := (∀ u i, P (.down u i)) ∧ ∀ r e, P (.hello r e)

theorem Quiet.adds {P : Out → Prop} {a b : St} (hp : NotUp P) (q : Quiet a b) : Adds P a b := by
  obtain ⟨hs, e, h⟩ := q.out
  refine ⟨hs, e, ?_⟩
  intro x hx
  obtain ⟨r, e, rfl⟩ := h x hx
  exact hp.2 r e

theorem downOut_adds {P : Out → Prop} (hp : NotUp P) (o : Obj) (st : St) : Adds P st (downOut o st) :=
  ⟨[_], rfl, by intro x hx; rw [List.mem_singleton.1 hx]; exact hp.1 _ _⟩

theorem deladj_adds {P : Out → Prop} {c : Cfg} {o : Obj} {st st' : St} (hp : NotUp P) (h : deladj c o st = some st') :
    Adds P st st' := by
  refine Adds.trans ?_ ((deladj_form h).1.adds hp)
  unfold delCore
  cases o.up with
  | false => exact ⟨[], by simp [remove], by simp⟩
  | true => exact downOut_adds hp o (upd o.uid _ st)

theorem twoway_adds {P : Out → Prop} {c h a ch st st'} (hp : NotUp P)
    (hu : (c.own, c.prio) ∈ h.rs → ∀ u, P (.up u a.id)) (e : twoway c h a ch st = some st') : Adds P st st' := by
  obtain ⟨s1, ch', t, e'⟩ := twoway_form e
  refine Adds.trans ?_ ((elect_form e').1.adds hp)
  cases t with
  | same => exact .refl _ _
  | up a' _ hm _ => exact ⟨[_], rfl, by intro x hx; rw [List.mem_singleton.1 hx]; exact hu hm _⟩
  | down => exact downOut_adds hp a (upd a.uid _ st)

/-- An event that entitles the circuit to call the neighbour `i` up. -/
def Entitles (c : Cfg) (i : Nat) : Ev → Prop
  | .router h => h.id = i ∧ (c.own, c.prio) ∈ h.rs ∧ (i / 1024 = c.own / 1024 ∨ (c.l2 = true ∧ h.nt = L2ROUTER))
  | .endnode h => h.id = i ∧ h.ok = true ∧ i / 1024 = c.own / 1024
  | _ => False

theorem ignored_false {c : Cfg} {i nt : Nat} (h : ignored c i nt = false) :
    i / 1024 = c.own / 1024 ∨ (c.l2 = true ∧ nt = L2ROUTER) := by
  unfold ignored at h
  by_cases hx : i / 1024 = c.own / 1024
  · exact Or.inl hx
  · right
    simpa [hx] using h

theorem step_adds {c : Cfg} {T st e st'} (hv : Valid T st e) (h : step c st e = some st') :
    Adds (fun x => ∀ u i, x = .up u i → Entitles c i e) st st' := by
  have hp : NotUp (fun x => ∀ u i, x = .up u i → Entitles c i e) := ⟨(fun _ _ _ _ h => nomatch h), (fun _ _ _ _ h => nomatch h)⟩
  cases e with
  | tick d => cases h; exact ⟨[], by simp, by simp⟩
  | endnode h' =>
    have e : endHello c h' st = some st' := h
    unfold endHello at e
    split at e
    · cases e; exact .refl _ _
    · rename_i hig
      split at e
      · split at e
        · exact deladj_adds hp e
        · split at e
          · obtain ⟨a', h1, rfl⟩ := Option.map_eq_some_iff.1 e
            exact ⟨[], by simp [upd], by simp⟩
          · exact deladj_adds hp e
      · split at e
        · cases e; exact .refl _ _
        · rename_i hok
          simp only at e
          obtain ⟨a', h1, rfl⟩ := Option.map_eq_some_iff.1 e
          refine ⟨[_], rfl, ?_⟩
          intro x hx u i hxe
          rw [List.mem_singleton.1 hx] at hxe
          injection hxe with _ e2
          refine ⟨e2, by simpa using hok, ?_⟩
          rcases ignored_false (by simpa using hig) with h3 | h3
          · rw [← e2]; exact h3
          · exact absurd h3.2 (by decide)
  | hellotime =>
    dsimp only [step] at h
    obtain ⟨s1, h1, h2⟩ := Option.bind_eq_some_iff.1 h
    have h3 := Adds.trans (b := s1) ((calcdr_form h1).1.adds hp) ((sendhello_form h2).1.adds hp)
    exact h3
  | drtime => exact (becomedr_form h).1.adds hp
  | expire u =>
    have h0 : expire c u st = some st' := h
    unfold expire at h0
    split at h0
    · cases h0; exact .refl _ _
    · simp only at h0
      exact Adds.trans (b := downOut _ (upd u _ st)) (downOut_adds hp _ (upd u _ st)) (deladj_adds hp h0)
  | router h' =>
    have h0 : routerHello c h' st = some st' := h
    have hu : ∀ i, i = h'.id → ignored c h'.id h'.nt = false → (c.own, c.prio) ∈ h'.rs →
        ∀ u v j, Out.up u i = .up v j → Entitles c j (.router h') := by
      intro i hi hg hm u v j hj
      injection hj with _ hj
      subst hi hj
      exact ⟨rfl, hm, ignored_false hg⟩
    cases routerHello_form hv.1 h0 with
    | ignored => exact .refl _ _
    | new hg hl hlen h2 =>
      have h3 := twoway_adds hp (fun hm u => hu _ rfl hg hm u) h2
      exact h3
    | refused _ _ _ _ h2 =>
      have h3 := deladj_adds hp h2
      exact h3
    | evicts s2 a2 hg hl hlen hm hid hmin h2 h3 =>
      have h4 := (deladj_adds hp h2).trans (twoway_adds hp (fun hm u => hu _ rfl hg hm u) h3)
      exact h4
    | changed a a' _ hl hls _ h2 =>
      have h3 := deladj_adds hp h2
      exact h3
    | known a a' hg hl hls _ _ h2 =>
      have haid : a'.id = h'.id → Adds _ (upd a.uid (fun _ => a') st) st' := fun hk =>
        twoway_adds hp (fun hm u => hu _ hk hg hm u) h2
      apply haid
      obtain ⟨⟨_, k, _⟩, _⟩ := listen_spec hls
      simp only at k
      rw [k, (lookup_some hl).2]

/-! ## Silence -/

/-- A hello from node `i`. -/
def HelloFrom (i : Nat) : Ev → Prop
  | .router h => h.id = i
  | .endnode h => h.id = i
  | _ => False

theorem delCore_adjs {n T st o} (ho : Objs n T st) (hm : ∃ o0 ∈ st.all, o0.uid = o.uid ∧ o0.id = o.id) {x : Obj}
    (hx : x ∈ (delCore o st).adjs) : x ∈ st.adjs ∧ x.id ≠ o.id := by
  unfold delCore at hx
  rw [mem_remove] at hx
  refine ⟨?_, hx.2⟩
  cases hu : o.up with
  | false => rw [hu] at hx; exact hx.1
  | true =>
    rw [hu, if_pos rfl] at hx
    obtain ⟨x0, h0, e⟩ := List.mem_map.1 hx.1
    by_cases hxu : x0.uid = o.uid
    · rw [if_pos hxu] at e
      obtain ⟨o0, m0, e1, e2⟩ := hm
      have := ho.uid_inj (List.mem_append_left _ h0) m0 (by omega)
      exfalso
      apply hx.2
      rw [← e]
      show x0.id = o.id
      rw [this, e2]
    · rw [if_neg hxu] at e
      rw [← e]; exact h0

theorem Two.other {n T c h a st s1} (ho : Objs n T st) (ha : a ∈ st.all) (t : Two c h a st s1) {x : Obj}
    (hx : x ∈ s1.adjs) (hid : x.id ≠ a.id) : x ∈ st.adjs := by
  cases t with
  | same => exact hx
  | up a' _ _ hl =>
    obtain ⟨x0, h0, e⟩ := List.mem_map.1 hx
    by_cases hu : x0.uid = a.uid
    · rw [if_pos hu] at e
      obtain ⟨⟨_, k, _⟩, _⟩ := listen_spec hl
      simp only at k
      rw [← e] at hid
      exact absurd k hid
    · rw [if_neg hu] at e; rw [← e]; exact h0
  | down =>
    obtain ⟨x0, h0, e⟩ := List.mem_map.1 hx
    by_cases hu : x0.uid = a.uid
    · rw [if_pos hu] at e
      have := ho.uid_inj (List.mem_append_left _ h0) ha hu
      rw [← e] at hid
      exact absurd (by rw [this]) hid
    · rw [if_neg hu] at e; rw [← e]; exact h0

theorem listen_other {st : St} {a a' x : Obj} (hl : a.listen st.now = some a')
    (hx : x ∈ (upd a.uid (fun _ => a') st).adjs) (hid : x.id ≠ a.id) : x ∈ st.adjs := by
  obtain ⟨x0, h0, e⟩ := List.mem_map.1 hx
  by_cases hu : x0.uid = a.uid
  · rw [if_pos hu] at e
    obtain ⟨⟨_, k, _⟩, _⟩ := listen_spec hl
    simp only at k
    rw [← e] at hid
    exact absurd k hid
  · rw [if_neg hu] at e; rw [← e]; exact h0

/-- A step without a hello from node `i` leaves the adjacency of that node as
it is, or removes it. -/
theorem step_silent {c : Cfg} {T st e st'} (hi : Inv c.nr T st) (hv : Valid T st e) (h : step c st e = some st')
    {i : Nat} (hs : ¬ HelloFrom i e) : ∀ x ∈ st'.adjs, x.id = i → x ∈ st.adjs := by
  intro x hx hxi
  cases e with
  | tick d => cases h; exact hx
  | endnode h' =>
    have hne : h'.id ≠ i := hs
    have e : endHello c h' st = some st' := h
    unfold endHello at e
    split at e
    · cases e; exact hx
    · split at e
      · rename_i a hl
        obtain ⟨hl1, hl2⟩ := lookup_some hl
        have ha := List.mem_append_left st.gone hl1
        have hd : ∀ s', deladj c a st = some s' → x ∈ s'.adjs → x ∈ st.adjs := by
          intro s' e hx
          rw [(deladj_form e).1.adjs] at hx
          exact (delCore_adjs hi.objs ⟨a, ha, rfl, rfl⟩ hx).1
        split at e
        · exact hd _ e hx
        · split at e
          · obtain ⟨a', h1, rfl⟩ := Option.map_eq_some_iff.1 e
            exact listen_other h1 hx (by rw [hl2, hxi]; exact fun h => hne h.symm)
          · exact hd _ e hx
      · split at e
        · cases e; exact hx
        · simp only at e
          obtain ⟨a', h1, rfl⟩ := Option.map_eq_some_iff.1 e
          rcases List.mem_append.1 hx with hx | hx
          · exact hx
          · obtain ⟨⟨_, k, _⟩, _⟩ := listen_spec h1
            simp only at k
            rw [List.mem_singleton.1 hx, k] at hxi
            exact absurd hxi hne
  | hellotime =>
    dsimp only [step] at h
    obtain ⟨s1, h1, h2⟩ := Option.bind_eq_some_iff.1 h
    rw [(sendhello_form h2).1.adjs, (calcdr_form h1).1.adjs] at hx
    exact hx
  | drtime =>
    rw [(becomedr_form h).1.adjs] at hx
    exact hx
  | expire u =>
    have h0 : expire c u st = some st' := h
    unfold expire at h0
    split at h0
    · cases h0; exact hx
    · rename_i o hf
      have ho : o ∈ st.all := List.mem_of_find?_eq_some hf
      have hu : o.uid = u := by simpa using List.find?_some hf
      simp only at h0
      have ho1 := hi.objs.upd u (fun o => { o with timer := none }) fun _ _ _ => ⟨rfl, rfl, rfl, rfl, rfl⟩
      rw [(deladj_form h0).1.adjs] at hx
      obtain ⟨h3, h4⟩ := delCore_adjs (downOut_obj (o := o) ho1)
        ⟨{ o with timer := none }, mem_upd.2 ⟨o, ho, by rw [if_pos hu]⟩, rfl, rfl⟩ hx
      obtain ⟨x0, m0, e⟩ := List.mem_map.1 h3
      by_cases hxu : x0.uid = u
      · rw [if_pos hxu] at e
        have := hi.objs.uid_inj (List.mem_append_left _ m0) ho (by omega)
        rw [← e] at h4
        exact absurd (by rw [this]) h4
      · rw [if_neg hxu] at e; rw [← e]; exact m0
  | router h' =>
    have hne : h'.id ≠ i := hs
    have hxn : x.id ≠ h'.id := by rw [hxi]; exact fun h => hne h.symm
    have h0 : routerHello c h' st = some st' := h
    have hmem : newObj c h' st ∈ (addObj (newObj c h' st) st).all := mem_addObj.2 (Or.inr rfl)
    have hty : (newObj c h' st).nt = ENDNODE ↔ T (newObj c h' st).id = true := by
      show h'.nt = ENDNODE ↔ T h'.id = true
      rw [hv.2]; simp [hv.1]
    have hadd : lookup h'.id st = none → Inv _ T (addObj (newObj c h' st) st) := fun hl =>
      hi.add rfl (lookup_none hl) hty (newObj_tim _ _ _ _) (Nat.le_refl _)
    have hback : x ∈ (addObj (newObj c h' st) st).adjs → x ∈ st.adjs := by
      intro hx
      rcases List.mem_append.1 hx with hx | hx
      · exact hx
      · rw [List.mem_singleton.1 hx] at hxn; exact absurd rfl hxn
    have htw : ∀ {a ch s s'} {n}, Objs n T s → a ∈ s.all → a.id = h'.id → twoway c h' a ch s = some s' → x ∈ s'.adjs → x ∈ s.adjs := by
      intro a ch s s' n ho ha haid e hx
      obtain ⟨s1, ch', t, e'⟩ := twoway_form e
      rw [(elect_form e').1.adjs] at hx
      exact t.other ho ha hx (by rw [haid]; exact hxn)
    cases routerHello_form hv.1 h0 with
    | ignored => exact hx
    | new _ hl hlen h2 => exact hback (htw (hadd hl).objs hmem rfl h2 hx)
    | refused _ hl _ _ h2 =>
      rw [(deladj_form h2).1.adjs] at hx
      exact hback (delCore_adjs (hadd hl).objs ⟨_, hmem, rfl, rfl⟩ hx).1
    | evicts s2 a2 _ hl hlen hm hid hmin h2 h3 =>
      have h1 := hadd hl
      have h4 := Inv.deladj h1.objs (h1.tim.delCore _) h1.drid h1.drs h2
      have q := (deladj_form h2).1
      have hm2 : newObj c h' st ∈ s2.all := by
        show _ ∈ s2.adjs ++ s2.gone
        rw [q.adjs, q.gone]
        refine mem_delCore hmem ?_
        intro he
        have := hi.objs.lt a2 (List.mem_append_left _ (List.mem_filter.1 hm).1)
        have he' : st.fresh = a2.uid := he
        omega
      have hx2 := htw h4.objs hm2 rfl h3 hx
      rw [q.adjs] at hx2
      exact hback (delCore_adjs h1.objs ⟨a2, mem_addObj.2 (Or.inl (List.mem_append_left _ (List.mem_filter.1 hm).1)), rfl, rfl⟩ hx2).1
    | changed a a' _ hl hls _ h2 =>
      obtain ⟨hl1, hl2⟩ := lookup_some hl
      have ha := List.mem_append_left st.gone hl1
      have h1 := hi.listen ha hls
      rw [(deladj_form h2).1.adjs] at hx
      exact listen_other hls (delCore_adjs h1.objs ⟨a', mem_upd_const ha, rfl, rfl⟩ hx).1 (by rw [hl2]; exact hxn)
    | known a a' _ hl hls _ _ h2 =>
      obtain ⟨hl1, hl2⟩ := lookup_some hl
      have ha := List.mem_append_left st.gone hl1
      have h1 := hi.listen ha hls
      obtain ⟨⟨_, k, _⟩, _⟩ := listen_spec hls
      simp only at k
      have hx2 := htw h1.objs (mem_upd_const ha) (k.trans hl2) h2 hx
      exact listen_other hls hx2 (by rw [hl2]; exact hxn)

end Verif.Lan
