import Verif.Lan.Trace

namespace Verif.Lan

theorem nodup_len {l : List Nat} : ∀ {m : List Nat}, l.Nodup → (∀ x ∈ l, x ∈ m) → l.length ≤ m.length := by
  induction l with
  | nil => intro m _ _; simp
  | cons a l ih =>
    intro m hn hm
    rw [List.nodup_cons] at hn
    have ha := hm a (by simp)
    have : l.length ≤ (m.erase a).length := by
      apply ih hn.2
      intro x hx
      refine (List.mem_erase_of_ne ?_).2 (hm x (by simp [hx]))
      rintro rfl; exact hn.1 hx
    rw [List.length_erase_of_mem ha] at this
    have : 0 < m.length := List.length_pos_of_mem ha
    rw [List.length_cons]
    omega

/-- Same node, type and priority. -/
def Like (x y : Obj) : Prop := y.id = x.id ∧ y.nt = x.nt ∧ y.prio = x.prio

theorem upd_like {st : St} {u : Nat} {f : Obj → Obj} (hf : ∀ o ∈ st.all, o.uid = u → Keeps f o) {x : Obj}
    (hx : x ∈ (upd u f st).adjs) : ∃ y ∈ st.adjs, Like x y := by
  obtain ⟨x0, h0, e⟩ := List.mem_map.1 hx
  refine ⟨x0, h0, ?_⟩
  by_cases hu : x0.uid = u
  · rw [if_pos hu] at e
    obtain ⟨_, k2, k3, k4, _⟩ := hf x0 (List.mem_append_left _ h0) hu
    rw [← e]; exact ⟨k2.symm, k3.symm, k4.symm⟩
  · rw [if_neg hu] at e
    rw [← e]; exact ⟨rfl, rfl, rfl⟩

theorem upd_like' {st : St} {u : Nat} {f : Obj → Obj} (hf : ∀ o ∈ st.all, o.uid = u → Keeps f o) {y : Obj}
    (hy : y ∈ st.adjs) : ∃ x ∈ (upd u f st).adjs, Like x y := by
  refine ⟨_, List.mem_map.2 ⟨y, hy, rfl⟩, ?_⟩
  by_cases hu : y.uid = u
  · rw [if_pos hu]
    obtain ⟨_, k2, k3, k4, _⟩ := hf y (List.mem_append_left _ hy) hu
    exact ⟨k2.symm, k3.symm, k4.symm⟩
  · rw [if_neg hu]; exact ⟨rfl, rfl, rfl⟩

theorem Like.trans {x y z : Obj} (h : Like x y) (h' : Like y z) : Like x z :=
  ⟨h'.1.trans h.1, h'.2.1.trans h.2.1, h'.2.2.trans h.2.2⟩

theorem Like.refl (x : Obj) : Like x x := ⟨rfl, rfl, rfl⟩

theorem twoway_like {n T c h a ch st st'} (hi : Objs n T st) (ha : a ∈ st.all) (e : twoway c h a ch st = some st') :
    (∀ x ∈ st'.adjs, ∃ y ∈ st.adjs, Like x y) ∧ ∀ y ∈ st.adjs, ∃ x ∈ st'.adjs, Like x y := by
  obtain ⟨s1, ch', t, e'⟩ := twoway_form e
  rw [(elect_form e').1.adjs]
  cases t with
  | same => exact ⟨fun x hx => ⟨x, hx, .refl x⟩, fun x hx => ⟨x, hx, .refl x⟩⟩
  | up a' _ _ hl =>
    obtain ⟨kk, _⟩ := listen_spec hl
    have hf : ∀ o ∈ st.all, o.uid = a.uid → Keeps (fun _ => a') o := by
      intro o ho eo
      rw [uid_mem hi ha o ho eo]; exact kk
    exact ⟨fun x hx => upd_like hf hx, fun x hx => upd_like' hf hx⟩
  | down =>
    have hf : ∀ o ∈ st.all, o.uid = a.uid → Keeps (fun o => { o with up := false, timer := none }) o :=
      fun _ _ _ => ⟨rfl, rfl, rfl, rfl, rfl⟩
    exact ⟨fun x hx => upd_like hf hx, fun x hx => upd_like' hf hx⟩

theorem listen_keeps {n T st} {a a' : Obj} (ho : Objs n T st) (ha : a ∈ st.all) (hl : a.listen st.now = some a') :
    ∀ o ∈ st.all, o.uid = a.uid → Keeps (fun _ => a') o := by
  intro o h e
  rw [uid_mem ho ha o h e]
  exact (listen_spec hl).1

/-- What the routers of the LAN are; `R i` is type and priority of node `i`. -/
def Reg (R : Nat → Option (Nat × Nat)) (st : St) : Prop :=
  ∀ o ∈ st.adjs, o.nt ≠ ENDNODE → R o.id = some (o.nt, o.prio)

/-- Router hellos say what the routers are. -/
def Truthful (R : Nat → Option (Nat × Nat)) : Ev → Prop
  | .router h => R h.id = some (h.nt, h.prio)
  | _ => True

theorem Reg.like {R : Nat → Option (Nat × Nat)} {a b : St} (h : Reg R a) (hl : ∀ x ∈ b.adjs, ∃ y ∈ a.adjs, Like x y) : Reg R b := by
  intro x hx hn
  obtain ⟨y, hy, l⟩ := hl x hx
  rw [← l.1, ← l.2.1, ← l.2.2]
  exact h y hy (by rw [l.2.1]; exact hn)

theorem deladj_like {n T c st o st'} (ho : Objs n T st) (hm : ∃ o0 ∈ st.all, o0.uid = o.uid ∧ o0.id = o.id)
    (e : deladj c o st = some st') : ∀ x ∈ st'.adjs, ∃ y ∈ st.adjs, Like x y := by
  intro x hx
  rw [(deladj_form e).1.adjs] at hx
  exact ⟨x, (delCore_adjs ho hm hx).1, .refl x⟩

theorem step_reg {c : Cfg} {T R st e st'} (hi : Inv c.nr T st) (hv : Valid T st e) (h : step c st e = some st')
    (ht : Truthful R e) (hr : Reg R st) : Reg R st' := by
  cases e with
  | tick d => cases h; exact hr
  | endnode h' =>
    have hrt := (endHello_dr hi hv h).1
    intro x hx hn
    have : x ∈ routers st' := List.mem_filter.2 ⟨hx, decide_eq_true hn⟩
    rw [hrt] at this
    exact hr x (List.mem_filter.1 this).1 hn
  | hellotime =>
    dsimp only [step] at h
    obtain ⟨s1, h1, h2⟩ := Option.bind_eq_some_iff.1 h
    refine hr.like fun x hx => ⟨x, ?_, .refl x⟩
    rw [(sendhello_form h2).1.adjs, (calcdr_form h1).1.adjs] at hx
    exact hx
  | drtime =>
    refine hr.like fun x hx => ⟨x, ?_, .refl x⟩
    rw [(becomedr_form h).1.adjs] at hx
    exact hx
  | expire u =>
    have h0 : expire c u st = some st' := h
    unfold expire at h0
    split at h0
    · cases h0; exact hr
    · rename_i o hf
      have ho : o ∈ st.all := List.mem_of_find?_eq_some hf
      have hu : o.uid = u := by simpa using List.find?_some hf
      simp only at h0
      have hk : ∀ o ∈ st.all, o.uid = u → Keeps (fun o => { o with timer := none }) o := fun _ _ _ => ⟨rfl, rfl, rfl, rfl, rfl⟩
      have ho1 := hi.objs.upd u _ hk
      have h1 := deladj_like (downOut_obj (o := o) ho1) ⟨{ o with timer := none }, mem_upd.2 ⟨o, ho, by rw [if_pos hu]⟩, rfl, rfl⟩ h0
      refine hr.like fun x hx => ?_
      obtain ⟨y, hy, l⟩ := h1 x hx
      obtain ⟨z, hz, l'⟩ := upd_like hk hy
      exact ⟨z, hz, l.trans l'⟩
  | router h' =>
    have h0 : routerHello c h' st = some st' := h
    have hmem : newObj c h' st ∈ (addObj (newObj c h' st) st).all := mem_addObj.2 (Or.inr rfl)
    have hty : (newObj c h' st).nt = ENDNODE ↔ T (newObj c h' st).id = true := by
      show h'.nt = ENDNODE ↔ T h'.id = true
      rw [hv.2]; simp [hv.1]
    have hadd : lookup h'.id st = none → Inv _ T (addObj (newObj c h' st) st) := fun hl =>
      hi.add rfl (lookup_none hl) hty (newObj_tim _ _ _ _) (Nat.le_refl _)
    have hr1 : Reg R (addObj (newObj c h' st) st) := by
      intro x hx hn
      rcases List.mem_append.1 hx with hx | hx
      · exact hr x hx hn
      · rw [List.mem_singleton.1 hx]; exact ht
    cases routerHello_form hv.1 h0 with
    | ignored => exact hr
    | new _ hl hlen h2 => exact hr1.like (twoway_like (hadd hl).objs hmem h2).1
    | refused _ hl _ _ h2 => exact hr1.like (deladj_like (hadd hl).objs ⟨_, hmem, rfl, rfl⟩ h2)
    | evicts s2 a2 _ hl hlen hm hid hmin h2 h3 =>
      have h1 := hadd hl
      have h4 := Inv.deladj h1.objs (h1.tim.delCore _) h1.drid h1.drs h2
      have q := (deladj_form h2).1
      have hm2 : newObj c h' st ∈ s2.all := by
        show _ ∈ s2.adjs ++ s2.gone
        rw [q.adjs, q.gone]
        refine mem_delCore hmem ?_
        intro he
        have := hi.objs.lt a2 (List.mem_append_left _ (List.mem_filter.1 hm).1)
        have he' : st.fresh = a2.uid := he
        omega
      refine Reg.like ?_ (twoway_like h4.objs hm2 h3).1
      exact hr1.like (deladj_like h1.objs ⟨a2, mem_addObj.2 (Or.inl (List.mem_append_left _ (List.mem_filter.1 hm).1)), rfl, rfl⟩ h2)
    | changed a a' _ hl hls _ h2 =>
      obtain ⟨hl1, hl2⟩ := lookup_some hl
      have ha := List.mem_append_left st.gone hl1
      have h1 := hi.listen ha hls
      refine Reg.like ?_ (deladj_like h1.objs ⟨a', mem_upd_const ha, rfl, rfl⟩ h2)
      exact hr.like fun x hx => upd_like (listen_keeps hi.objs ha hls) hx
    | known a a' _ hl hls _ _ h2 =>
      obtain ⟨hl1, hl2⟩ := lookup_some hl
      have ha := List.mem_append_left st.gone hl1
      have h1 := hi.listen ha hls
      refine Reg.like ?_ (twoway_like h1.objs (mem_upd_const ha) h2).1
      exact hr.like fun x hx => upd_like (listen_keeps hi.objs ha hls) hx

/-- With room for all the routers, none is dropped unless its timer expires,
and one that was heard is there. -/
theorem step_present {c : Cfg} {T R st e st'} {ids : List Nat} (hi : Inv c.nr T st) (hv : Valid T st e)
    (h : step c st e = some st') (ht : Truthful R e) (hr : Reg R st) (hR : ∀ i, R i ≠ none → i ∈ ids)
    (hlen : ids.length ≤ c.nr) (hx : ∀ u, e ≠ .expire u) :
    (∀ y ∈ st.adjs, y.nt ≠ ENDNODE → ∃ x ∈ st'.adjs, Like x y) ∧
    (∀ h', e = .router h' → ignored c h'.id h'.nt = false → ∃ x ∈ st'.adjs, x.id = h'.id ∧ x.nt = h'.nt ∧ x.prio = h'.prio) := by
  cases e with
  | tick d => cases h; exact ⟨fun y hy _ => ⟨y, hy, .refl y⟩, fun _ h => nomatch h⟩
  | endnode h' =>
    have hrt := (endHello_dr hi hv h).1
    refine ⟨?_, fun _ h => nomatch h⟩
    intro y hy hn
    have : y ∈ routers st := List.mem_filter.2 ⟨hy, decide_eq_true hn⟩
    rw [← hrt] at this
    exact ⟨y, (List.mem_filter.1 this).1, .refl y⟩
  | hellotime =>
    dsimp only [step] at h
    obtain ⟨s1, h1, h2⟩ := Option.bind_eq_some_iff.1 h
    refine ⟨fun y hy _ => ⟨y, ?_, .refl y⟩, fun _ h => nomatch h⟩
    rw [(sendhello_form h2).1.adjs, (calcdr_form h1).1.adjs]
    exact hy
  | drtime =>
    refine ⟨fun y hy _ => ⟨y, ?_, .refl y⟩, fun _ h => nomatch h⟩
    rw [(becomedr_form h).1.adjs]
    exact hy
  | expire u => exact absurd rfl (hx u)
  | router h' =>
    have h0 : routerHello c h' st = some st' := h
    have hmem : newObj c h' st ∈ (addObj (newObj c h' st) st).all := mem_addObj.2 (Or.inr rfl)
    have hmem' : newObj c h' st ∈ (addObj (newObj c h' st) st).adjs := by unfold addObj; simp
    have hty : (newObj c h' st).nt = ENDNODE ↔ T (newObj c h' st).id = true := by
      show h'.nt = ENDNODE ↔ T h'.id = true
      rw [hv.2]; simp [hv.1]
    have hadd : lookup h'.id st = none → Inv _ T (addObj (newObj c h' st) st) := fun hl =>
      hi.add rfl (lookup_none hl) hty (newObj_tim _ _ _ _) (Nat.le_refl _)
    have hr1 : Reg R (addObj (newObj c h' st) st) := by
      intro x hx hn
      rcases List.mem_append.1 hx with hx | hx
      · exact hr x hx hn
      · rw [List.mem_singleton.1 hx]; exact ht
    have hroom : lookup h'.id st = none → (routers (addObj (newObj c h' st) st)).length ≤ c.nr := by
      intro hl
      refine Nat.le_trans ?_ hlen
      rw [← List.length_map (f := fun o : Obj => o.id)]
      apply nodup_len
      · exact List.Nodup.sublist (List.Sublist.map _ List.filter_sublist) (hadd hl).objs.ids
      · intro i hii
        obtain ⟨o, ho, rfl⟩ := List.mem_map.1 hii
        obtain ⟨o1, o2⟩ := List.mem_filter.1 ho
        apply hR
        rw [hr1 o o1 (of_decide_eq_true o2)]
        simp
    cases routerHello_form hv.1 h0 with
    | ignored hg =>
      refine ⟨fun y hy _ => ⟨y, hy, .refl y⟩, ?_⟩
      intro h'' e hg'
      cases e
      rw [hg] at hg'; cases hg'
    | new _ hl _ h2 =>
      have tl := (twoway_like (hadd hl).objs hmem h2).2
      refine ⟨fun y hy _ => tl y (List.mem_append_left _ hy), ?_⟩
      intro h'' e _
      cases e
      obtain ⟨x, hx, l⟩ := tl _ hmem'
      exact ⟨x, hx, l.1.symm, l.2.1.symm, l.2.2.symm⟩
    | refused _ hl hlen' _ _ => have := hroom hl; omega
    | evicts _ _ _ hl hlen' _ _ _ _ _ => have := hroom hl; omega
    | changed a a' _ hl hls hc h2 =>
      exfalso
      obtain ⟨hl1, hl2⟩ := lookup_some hl
      have hn : a.nt ≠ ENDNODE := by
        intro hx
        have := (hi.objs.typed a (List.mem_append_left _ hl1)).1 hx
        rw [hl2, hv.2] at this; cases this
      have := hr a hl1 hn
      rw [hl2, show R h'.id = some (h'.nt, h'.prio) from ht] at this
      injection this with this
      injection this with e1 e2
      rcases hc with hc | hc | hc
      · exact hn hc
      · exact hc e1.symm
      · exact hc e2.symm
    | known a a' _ hl hls hn hp h2 =>
      obtain ⟨hl1, hl2⟩ := lookup_some hl
      have ha := List.mem_append_left st.gone hl1
      have h1 := hi.listen ha hls
      have tl := (twoway_like h1.objs (mem_upd_const ha) h2).2
      have hall : ∀ y ∈ st.adjs, ∃ x ∈ st'.adjs, Like x y := by
        intro y hy
        obtain ⟨z, hz, l⟩ := upd_like' (listen_keeps hi.objs ha hls) hy
        obtain ⟨x, hx, l'⟩ := tl z hz
        exact ⟨x, hx, l'.trans l⟩
      refine ⟨fun y hy _ => hall y hy, ?_⟩
      intro h'' e _
      cases e
      obtain ⟨x, hx, l⟩ := hall a hl1
      exact ⟨x, hx, by rw [← l.1, hl2], by rw [← l.2.1, hn], by rw [← l.2.2, hp]⟩

theorem steps_reg {c : Cfg} {T R st es st'} (hi : Inv c.nr T st) (h : Steps c T st es st')
    (ht : ∀ e ∈ es, Truthful R e) (hr : Reg R st) : Reg R st' := by
  induction h with
  | nil => exact hr
  | snoc hs hv hst ih =>
    exact step_reg (steps_inv hi hs) hv hst (ht _ (by simp)) (ih fun e he => ht e (by simp [he]))

theorem steps_present {c : Cfg} {T R st es st'} {ids : List Nat} (hi : Inv c.nr T st) (h : Steps c T st es st')
    (ht : ∀ e ∈ es, Truthful R e) (hr : Reg R st) (hR : ∀ i, R i ≠ none → i ∈ ids)
    (hlen : ids.length ≤ c.nr) (hx : ∀ u, Ev.expire u ∉ es) :
    ∀ h', Ev.router h' ∈ es → ignored c h'.id h'.nt = false →
      ∃ x ∈ st'.adjs, x.id = h'.id ∧ x.nt = h'.nt ∧ x.prio = h'.prio := by
  induction h with
  | nil => intro h' hm; simp at hm
  | @snoc st1 st2 es e hs hv hst ih =>
    intro h' hm hig
    have hte : ∀ e ∈ es, Truthful R e := fun e he => ht e (by simp [he])
    have hp := step_present (steps_inv hi hs) hv hst (ht _ (by simp)) (steps_reg hi hs hte hr) hR hlen
      (fun u hu => hx u (by simp [hu]))
    rcases List.mem_append.1 hm with hm | hm
    · obtain ⟨y, hy, y1, y2, y3⟩ := ih hte (fun u hu => hx u (by simp [hu])) h' hm hig
      by_cases hn : y.nt = ENDNODE
      · exfalso
        have h1 := (steps_inv hi hs).objs.typed y (List.mem_append_left _ hy)
        -- a router hello of an end node is not valid
        have : ∀ {es s}, Steps c T st es s → Ev.router h' ∈ es → h'.nt ≠ ENDNODE := by
          intro es s hs
          induction hs with
          | nil => intro h; simp at h
          | snoc _ hv _ ih =>
            intro hm
            rcases List.mem_append.1 hm with hm | hm
            · exact ih hm
            · rw [← List.mem_singleton.1 hm] at hv; exact hv.1
        exact this hs hm (by rw [← y2]; exact hn)
      · obtain ⟨x, hx', l⟩ := hp.1 y hy hn
        exact ⟨x, hx', by rw [← l.1, y1], by rw [← l.2.1, y2], by rw [← l.2.2, y3]⟩
    · exact hp.2 h' (List.mem_singleton.1 hm).symm hig

end Verif.Lan
