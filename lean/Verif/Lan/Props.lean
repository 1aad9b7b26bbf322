import Verif.Lan.View

/-!
# Properties of the routers on a LAN (C22-C24)
-/

namespace Verif.Lan

/-! ## C22: one designated router -/

/-- A router on the LAN. -/
structure Node where
  c : Cfg
  st : St

/-- (priority, address) of a node. -/
def Node.key (p : Node) : Nat × Nat := (p.c.prio, p.c.own)

/-- `p` is lower than `q`: by priority, then by address. -/
def Below (p q : Node) : Prop := p.c.prio < q.c.prio ∨ (p.c.prio = q.c.prio ∧ p.c.own < q.c.own)

/-- The routers of an area see each other: the routers of the own area a node
has in its table are just the others, with their priorities. -/
def SeeEachOther (L : List Node) : Prop :=
  ∀ p ∈ L,
    (∀ o ∈ p.st.adjs, o.nt ≠ ENDNODE → o.id / 1024 = p.c.own / 1024 →
      ∃ q ∈ L, q.c.own ≠ p.c.own ∧ o.id = q.c.own ∧ o.prio = q.c.prio) ∧
    (∀ q ∈ L, q.c.own ≠ p.c.own →
      ∃ o ∈ p.st.adjs, o.nt ≠ ENDNODE ∧ o.id / 1024 = p.c.own / 1024 ∧ o.id = q.c.own ∧ o.prio = q.c.prio)

/-- The highest of the nodes. -/
theorem exists_highest {L : List Node} (hne : L ≠ []) : ∃ b ∈ L, ∀ p ∈ L, ¬ Below b p := by
  induction L with
  | nil => exact absurd rfl hne
  | cons a l ih =>
    by_cases hl : l = []
    · subst hl
      refine ⟨a, by simp, ?_⟩
      intro p hp
      rw [List.mem_singleton.1 hp]
      unfold Below; omega
    · obtain ⟨b, hb, h⟩ := ih hl
      by_cases hab : Below b a
      · refine ⟨a, by simp, ?_⟩
        intro p hp
        rcases List.mem_cons.1 hp with rfl | hp
        · unfold Below; omega
        · have := h p hp
          unfold Below at *; omega
      · refine ⟨b, by simp [hb], ?_⟩
        intro p hp
        rcases List.mem_cons.1 hp with rfl | hp
        · exact hab
        · exact h p hp

/-- One router is designated, and all agree on it: the one highest by
(priority, address) is designated router or waits to become it, no other one
is, and all others name it. -/
def Agreed (L : List Node) : Prop :=
  ∃ b ∈ L, (∀ p ∈ L, p ≠ b → Below p b) ∧
    (b.st.isdr = true ∨ ∃ t, b.st.drtimer = some t ∧ t ≤ b.st.now + 5000) ∧
    ∀ p ∈ L, p ≠ b → p.st.isdr = false ∧ ∃ u, p.st.dr = .adj u b.c.own

theorem elected {L : List Node} (hne : L ≠ []) (hd : ∀ p ∈ L, ∀ q ∈ L, p.c.own = q.c.own → p = q)
    (hs : SeeEachOther L) (hdr : ∀ p ∈ L, DrOk p.c p.st ∧ Drs p.st) : Agreed L := by
  obtain ⟨b, hb, hmax⟩ := exists_highest hne
  have hlow : ∀ p ∈ L, p ≠ b → Below p b := by
    intro p hp hpb
    have h1 := hmax p hp
    have h2 : p.c.own ≠ b.c.own := fun e => hpb (hd p hp b hb e)
    unfold Below at *; omega
  refine ⟨b, hb, hlow, ?_, ?_⟩
  · have hn : findbestdr b.c b.st = none := by
      rw [best_none]
      rintro o ⟨h1, h2, h3⟩
      obtain ⟨q, hq, hqo, e1, e2⟩ := (hs b hb).1 o h1 h2 h3
      have := hlow q hq (fun e => hqo (by rw [e]))
      rw [keyLt_iff]
      unfold Obj.key
      unfold Below at this
      simp only
      omega
    rcases (hdr b hb).1.me hn with h | h
    · exact Or.inl h
    · right
      cases ht : b.st.drtimer with
      | none => exact absurd ht h
      | some t => exact ⟨t, rfl, ((hdr b hb).2.tm t ht).2⟩
  · intro p hp hpb
    have hbel := hlow p hp hpb
    have hbo : b.c.own ≠ p.c.own := fun e => hpb (hd p hp b hb e.symm)
    obtain ⟨o, h1, h2, h3, h4, h5⟩ := (hs p hp).2 b hb hbo
    cases hf : findbestdr p.c p.st with
    | none =>
      have := best_none.1 hf o ⟨h1, h2, h3⟩
      rw [keyLt_iff] at this
      unfold Obj.key at this
      unfold Below at hbel
      simp only at this
      omega
    | some x =>
      obtain ⟨g1, g2, g3⟩ := best_some hf
      have hx := g3 o ⟨h1, h2, h3⟩
      obtain ⟨q, hq, _, e1, e2⟩ := (hs p hp).1 x g1.1 g1.2.1 g1.2.2
      have hqb : ¬ Below b q := hmax q hq
      have hxb : x.id = b.c.own := by
        rw [keyLt_iff] at hx
        unfold Obj.key at hx
        unfold Below at hqb
        simp only at hx
        by_cases hqe : q = b
        · rw [e1, hqe]
        · have := hlow q hq hqe
          unfold Below at this
          omega
      obtain ⟨i1, i2⟩ := (hdr p hp).1.other x hf
      refine ⟨i1, ?_⟩
      rw [← hxb]
      exact isId_iff.1 i2

/-- What happened at a router `p` of the LAN, up to now.  `R` is the type and
priority of the other routers on the LAN, as they say in their hellos.  The
second part of the history is the part since which no adjacency timed out: the
node heard from each other router of the area (`L`) in it, and did at least
one election. -/
structure Heard (R : Nat → Option (Nat × Nat)) (L : List Node) (p : Node) : Prop where
  hist : ∃ T now es1 es2 s1, Steps p.c T (start p.c now) es1 s1 ∧ Steps p.c T s1 es2 p.st ∧
    (∀ e ∈ es1 ++ es2, Truthful R e) ∧ (∀ u, Ev.expire u ∉ es2) ∧ (∃ e ∈ es2, Elects p.c e) ∧
    (∀ q ∈ L, q.c.own ≠ p.c.own → ∃ h, Ev.router h ∈ es2 ∧ h.id = q.c.own) ∧
    -- It does not hear itself
    (∀ h, Ev.router h ∈ es1 ++ es2 → h.id ≠ p.c.own)

theorem steps_append {c : Cfg} {T a es1 b es2 d} (h1 : Steps c T a es1 b) (h2 : Steps c T b es2 d) :
    Steps c T a (es1 ++ es2) d := by
  induction h2 with
  | nil => rw [List.append_nil]; exact h1
  | snoc _ hv hs ih => rw [← List.append_assoc]; exact .snoc ih hv hs

theorem steps_router {c : Cfg} {T a es b} (h : Steps c T a es b) {x : RHello} (hm : Ev.router x ∈ es) : x.nt ≠ ENDNODE := by
  induction h with
  | nil => simp at hm
  | snoc _ hv _ ih =>
    rcases List.mem_append.1 hm with hm | hm
    · exact ih hm
    · rw [← List.mem_singleton.1 hm] at hv; exact hv.1

/-- In an adjacency table there are only nodes that sent a hello. -/
theorem adj_heard {c : Cfg} {T now es st} (h : Steps c T (start c now) es st) : ∀ x ∈ st.adjs, ∃ e ∈ es, HelloFrom x.id e := by
  induction h with
  | nil => intro x hx; simp [start] at hx
  | snoc hs hv hst ih =>
    rename_i s1 s2 es e
    intro x hx
    by_cases hh : HelloFrom x.id e
    · exact ⟨e, by simp, hh⟩
    · obtain ⟨e', he', hh'⟩ := ih x (step_silent (steps_inv (start_inv _ _ _) hs) hv hst hh x hx rfl)
      exact ⟨e', by simp [he'], hh'⟩

theorem ignored_own {c : Cfg} {i nt : Nat} (h : i / 1024 = c.own / 1024) : ignored c i nt = false := by
  unfold ignored; simp [h]

/-- **C22.**  If the routers `L` of an area, with different addresses, are the
routers of this area on the LAN, each has room for all routers, and each heard
from each other one, then they agree on one designated router: the highest one
by (priority, address). -/
theorem lan_agrees {R : Nat → Option (Nat × Nat)} {ids : List Nat} {L : List Node} {area : Nat} (hne : L ≠ [])
    (hd : ∀ p ∈ L, ∀ q ∈ L, p.c.own = q.c.own → p = q)
    (harea : ∀ p ∈ L, p.c.own / 1024 = area)
    -- The routers on the LAN
    (hR : ∀ i, R i ≠ none → i ∈ ids)
    (hRL : ∀ i nt pr, R i = some (nt, pr) → i / 1024 = area → ∃ p ∈ L, p.c.own = i ∧ p.c.prio = pr)
    (hLen : ∀ p ∈ L, ids.length ≤ p.c.nr)
    (hH : ∀ p ∈ L, Heard R L p) : Agreed L := by
  apply elected hne hd
  · intro p hp
    obtain ⟨T, now, es1, es2, s1, hs1, hs2, ht, hx, hel, hall, hself⟩ := (hH p hp).hist
    have hs := steps_append hs1 hs2
    have hi0 := start_inv p.c T now
    have hr0 : Reg R (start p.c now) := by intro o ho; simp [start] at ho
    have hreg := steps_reg hi0 hs ht hr0
    refine ⟨?_, ?_⟩
    · intro o ho hn har
      have hro := hreg o ho hn
      obtain ⟨q, hq, e1, e2⟩ := hRL _ _ _ hro (by rw [har]; exact harea p hp)
      refine ⟨q, hq, ?_, e1.symm, e2.symm⟩
      obtain ⟨e, he, hh⟩ := adj_heard hs o ho
      have hinv := (steps_inv hi0 hs).objs.typed o (List.mem_append_left _ ho)
      have hvt : ∀ {es s}, Steps p.c T (start p.c now) es s → ∀ h, Ev.endnode h ∈ es → T h.id = true := by
        intro es s hs
        induction hs with
        | nil => intro h hm; simp at hm
        | snoc _ hv _ ih =>
          intro h hm
          rcases List.mem_append.1 hm with hm | hm
          · exact ih h hm
          · rw [← List.mem_singleton.1 hm] at hv; exact hv
      cases e with
      | router h =>
        have hid : h.id = o.id := hh
        rw [e1, ← hid]; exact hself h he
      | endnode h =>
        have hid : h.id = o.id := hh
        have := hvt hs h he
        rw [hid] at this
        exact absurd (hinv.2 this) hn
      | tick => cases hh
      | expire => cases hh
      | hellotime => cases hh
      | drtime => cases hh
    · intro q hq hqo
      obtain ⟨h, hm, hid⟩ := hall q hq hqo
      have hi1 := steps_inv hi0 hs1
      have ht1 : ∀ e ∈ es1, Truthful R e := fun e he => ht e (by simp [he])
      have ht2 : ∀ e ∈ es2, Truthful R e := fun e he => ht e (by simp [he])
      have hig : ignored p.c h.id h.nt = false := by
        apply ignored_own
        rw [hid, harea q hq, harea p hp]
      obtain ⟨x, hx1, x1, x2, x3⟩ := steps_present hi1 hs2 ht2 (steps_reg hi0 hs1 ht1 hr0) hR (hLen p hp) hx h hm hig
      have hRh : R h.id = some (h.nt, h.prio) := ht2 _ hm
      obtain ⟨q', hq', e1, e2⟩ := hRL _ _ _ hRh (by rw [hid]; exact harea q hq)
      have : q' = q := hd q' hq' q hq (by rw [e1, hid])
      subst this
      refine ⟨x, hx1, ?_, ?_, ?_, ?_⟩
      · rw [x2]; exact steps_router hs2 hm
      · rw [x1, hid, harea q' hq, harea p hp]
      · rw [x1, hid]
      · rw [x3, e2]
  · intro p hp
    obtain ⟨T, now, es1, es2, s1, hs1, hs2, _, _, hel, _, _⟩ := (hH p hp).hist
    have hi1 := steps_inv (start_inv p.c T now) hs1
    exact ⟨steps_elected hi1 hs2 hel, (steps_inv hi1 hs2).drs⟩

/-- A router that stays the highest it knows of becomes designated router
within `DRDELAY` (5 seconds), and stays it. -/
theorem becomes_dr {c : Cfg} {T st es st'} (hi : Inv c.nr T st) (hdr : DrOk c st) (h : Steps c T st es st')
    (hbest : ∀ es1 es2 s, es = es1 ++ es2 → Steps c T st es1 s → Steps c T s es2 st' →
      ∀ o ∈ s.adjs, o.nt ≠ ENDNODE → o.id / 1024 = c.own / 1024 →
        o.prio < c.prio ∨ (o.prio = c.prio ∧ o.id < c.own))
    (hnow : st.now + 5000 < st'.now) : st'.isdr = true := by
  have hb : ∀ es1 es2 s, es = es1 ++ es2 → Steps c T st es1 s → Steps c T s es2 st' → findbestdr c s = none := by
    intro es1 es2 s e h1 h2
    rw [best_none]
    rintro o ⟨o1, o2, o3⟩
    rw [keyLt_iff]
    exact hbest es1 es2 s e h1 h2 o o1 o2 o3
  have key : ∀ {es s}, Steps c T st es s → (∀ es1 es2 s', es = es1 ++ es2 → Steps c T st es1 s' → Steps c T s' es2 s → findbestdr c s' = none) →
      s.isdr = true ∨ ∃ t, s.drtimer = some t ∧ t ≤ st.now + DRDELAY := by
    intro es s hs
    induction hs with
    | nil =>
      intro hb
      rcases hdr.me (hb [] [] st rfl .nil .nil) with h | h
      · exact Or.inl h
      · right
        cases ht : st.drtimer with
        | none => exact absurd ht h
        | some t => exact ⟨t, rfl, (hi.drs.tm t ht).2⟩
    | @snoc s1 s2 es e hs hv hst ih =>
      intro hb
      have k := step_keep (steps_inv hi hs) hv hst (hb (es ++ [e]) [] s2 (by simp) (.snoc hs hv hst) .nil)
      rcases ih (fun es1 es2 s' he h1 h2 => hb es1 (es2 ++ [e]) s' (by rw [he, List.append_assoc]) h1 (.snoc h2 hv hst)) with h | ⟨t, h1, h2⟩
      · exact Or.inl (k.isdr h)
      · rcases k.tm t h1 with h | h
        · exact Or.inr ⟨t, h, h2⟩
        · exact Or.inl h
  rcases key h hb with h1 | ⟨t, h1, h2⟩
  · exact h1
  · have := ((steps_inv hi h).drs.tm t h1).1
    unfold DRDELAY at h2
    omega

/-- Being designated router and naming oneself is the same. -/
theorem isdr_iff {c : Cfg} {T now es st} (h : Steps c T (start c now) es st) : st.isdr = true ↔ st.dr = .me :=
  (steps_inv (start_inv _ _ _) h).drs.me

/-! ## C23: two-way check, limit -/

/-- **C23.**  A neighbour is reported up only on a hello from it: from a router
one that lists this node with its priority, from an end node one with good test
data; and it is in this area, or both are area routers. -/
theorem up_entitled {c : Cfg} {T st e st'} (hv : Valid T st e) (h : step c st e = some st') :
    ∃ l, st'.out = st.out ++ l ∧ ∀ u i, Out.up u i ∈ l → Entitles c i e := by
  obtain ⟨l, h1, h2⟩ := step_adds hv h
  exact ⟨l, h1, fun u i hm => h2 _ hm u i rfl⟩

/-- The same for a history. -/
theorem up_heard {c : Cfg} {T now es st} (h : Steps c T (start c now) es st) :
    ∀ u i, Out.up u i ∈ st.out → ∃ e ∈ es, Entitles c i e := by
  induction h with
  | nil => intro u i hm; simp [start] at hm
  | snoc hs hv hst ih =>
    intro u i hm
    obtain ⟨l, h1, h2⟩ := up_entitled hv hst
    rw [h1] at hm
    rcases List.mem_append.1 hm with hm | hm
    · obtain ⟨e, he, h⟩ := ih u i hm
      exact ⟨e, by simp [he], h⟩
    · exact ⟨_, by simp, h2 u i hm⟩

/-- There are never more router adjacencies than configured. -/
theorem router_limit {c : Cfg} {T now es st} (h : Steps c T (start c now) es st) :
    (st.adjs.filter fun o => o.nt ≠ ENDNODE).length ≤ c.nr :=
  (steps_inv (start_inv _ _ _) h).objs.limit

/-- One adjacency for a node. -/
theorem one_adjacency {c : Cfg} {T now es st} (h : Steps c T (start c now) es st) :
    ∀ a ∈ st.adjs, ∀ b ∈ st.adjs, a.id = b.id → a = b :=
  fun _ ha _ hb e => (steps_inv (start_inv _ _ _) h).objs.id_inj ha hb e

theorem delCore_keeps {o y : Obj} {st : St} (hy : y ∈ st.adjs) (h : y.id ≠ o.id) :
    ∃ x ∈ (delCore o st).adjs, Like x y := by
  unfold delCore
  cases o.up with
  | false => exact ⟨y, mem_remove.2 ⟨hy, h⟩, .refl y⟩
  | true =>
    rw [if_pos rfl]
    obtain ⟨x, hx, l⟩ := upd_like' (u := o.uid) (f := fun o => { o with up := false, timer := none })
      (fun _ _ _ => ⟨rfl, rfl, rfl, rfl, rfl⟩) hy
    exact ⟨x, mem_remove.2 ⟨hx, by rw [← l.1]; exact h⟩, l⟩

/-- When a hello comes from a new router and the table is full, the lowest by
(priority, address) of the old ones and the new one is dropped, and no other. -/
theorem lowest_dropped {c : Cfg} {T st h st'} (hi : Inv c.nr T st) (hv : Valid T st (.router h))
    (e : step c st (.router h) = some st') (hnew : ∀ o ∈ st.adjs, o.id ≠ h.id)
    (harea : h.id / 1024 = c.own / 1024 ∨ (c.l2 = true ∧ h.nt = L2ROUTER))
    (hfull : (st.adjs.filter fun o => o.nt ≠ ENDNODE).length = c.nr) :
    ∃ pr id, ((pr, id) = (h.prio, h.id) ∨ ∃ o ∈ st.adjs, o.nt ≠ ENDNODE ∧ (pr, id) = (o.prio, o.id)) ∧
      (∀ o ∈ st.adjs, o.nt ≠ ENDNODE → pr < o.prio ∨ (pr = o.prio ∧ id ≤ o.id)) ∧
      (pr < h.prio ∨ (pr = h.prio ∧ id ≤ h.id)) ∧
      (∀ x ∈ st'.adjs, x.id ≠ id) ∧
      (∀ o ∈ st.adjs, o.id ≠ id → ∃ x ∈ st'.adjs, x.id = o.id ∧ x.prio = o.prio) ∧
      (h.id ≠ id → ∃ x ∈ st'.adjs, x.id = h.id ∧ x.prio = h.prio) := by
  have h0 : routerHello c h st = some st' := e
  have hl0 : lookup h.id st = none := by
    unfold lookup
    rw [List.find?_eq_none]
    intro x hx
    simpa using hnew x hx
  have hig0 : ignored c h.id h.nt = false := by
    unfold ignored
    rcases harea with ha | ⟨ha, hb⟩
    · simp [ha]
    · simp [ha, hb]
  have hty : (newObj c h st).nt = ENDNODE ↔ T (newObj c h st).id = true := by
    show h.nt = ENDNODE ↔ T h.id = true
    rw [hv.2]; simp [hv.1]
  have hadd : Inv _ T (addObj (newObj c h st) st) := hi.add rfl (lookup_none hl0) hty (newObj_tim _ _ _ _) (Nat.le_refl _)
  have hmem : newObj c h st ∈ (addObj (newObj c h st) st).all := mem_addObj.2 (Or.inr rfl)
  have hmem' : newObj c h st ∈ (addObj (newObj c h st) st).adjs := by unfold addObj; simp
  have hrt : ∀ o ∈ st.adjs, o.nt ≠ ENDNODE → o ∈ routers (addObj (newObj c h st) st) := by
    intro o ho hn
    exact List.mem_filter.2 ⟨List.mem_append_left _ ho, decide_eq_true hn⟩
  have hrn : newObj c h st ∈ routers (addObj (newObj c h st) st) := List.mem_filter.2 ⟨hmem', decide_eq_true hv.1⟩
  have hlen : (routers (addObj (newObj c h st) st)).length = c.nr + 1 := by
    unfold routers addObj
    simp only
    rw [List.filter_append, List.length_append, List.filter_cons_of_pos (show isRouter (newObj c h st) = true from decide_eq_true hv.1)]
    have : (st.adjs.filter isRouter).length = c.nr := hfull
    rw [this]; rfl
  cases routerHello_form hv.1 h0 with
  | ignored hg => rw [hig0] at hg; cases hg
  | new _ _ hle _ => omega
  | changed _ _ _ hl _ _ _ => rw [hl0] at hl; cases hl
  | known _ _ _ hl _ _ _ _ => rw [hl0] at hl; cases hl
  | refused _ _ _ hmin h2 =>
    have hq := (deladj_form h2).1.adjs
    refine ⟨h.prio, h.id, Or.inl rfl, ?_, Or.inr ⟨rfl, Nat.le_refl _⟩, ?_, ?_, fun hx => absurd rfl hx⟩
    · intro o ho hn
      have := hmin o (hrt o ho hn)
      rw [keyLt_iff] at this
      simp only [Obj.key, newObj] at this
      omega
    · intro x hx
      rw [hq] at hx
      exact (delCore_adjs hadd.objs ⟨_, hmem, rfl, rfl⟩ hx).2
    · intro o ho hne
      rw [hq]
      obtain ⟨x, hx, l⟩ := delCore_keeps (o := newObj c h st) (st := addObj (newObj c h st) st) (List.mem_append_left _ ho) hne
      exact ⟨x, hx, l.1.symm, l.2.2.symm⟩
  | evicts s2 a2 _ _ _ hm hid hmin h2 h3 =>
    obtain ⟨m1, m2⟩ := List.mem_filter.1 hm
    have hq := (deladj_form h2).1
    have ha2 : a2 ∈ (addObj (newObj c h st) st).all := mem_addObj.2 (Or.inl (List.mem_append_left _ m1))
    have h4 := Inv.deladj hadd.objs (hadd.tim.delCore _) hadd.drid hadd.drs h2
    have hm2 : newObj c h st ∈ s2.all := by
      show _ ∈ s2.adjs ++ s2.gone
      rw [hq.adjs, hq.gone]
      refine mem_delCore hmem ?_
      intro he
      have := hi.objs.lt a2 (List.mem_append_left _ m1)
      have he' : st.fresh = a2.uid := he
      omega
    have tl := twoway_like h4.objs hm2 h3
    refine ⟨a2.prio, a2.id, Or.inr ⟨a2, m1, of_decide_eq_true m2, rfl⟩, ?_, ?_, ?_, ?_, ?_⟩
    · intro o ho hn
      have := hmin o (hrt o ho hn)
      rw [keyLt_iff] at this
      simp only [Obj.key] at this
      omega
    · have := hmin _ hrn
      rw [keyLt_iff] at this
      simp only [Obj.key, newObj] at this
      omega
    · intro x hx
      obtain ⟨y, hy, l⟩ := tl.1 x hx
      rw [hq.adjs] at hy
      rw [← l.1]
      exact (delCore_adjs hadd.objs ⟨a2, ha2, rfl, rfl⟩ hy).2
    · intro o ho hne
      obtain ⟨y, hy, l⟩ := delCore_keeps (o := a2) (st := addObj (newObj c h st) st) (List.mem_append_left _ ho) hne
      obtain ⟨x, hx, l'⟩ := tl.2 y (by rw [hq.adjs]; exact hy)
      exact ⟨x, hx, by rw [← l'.1, ← l.1], by rw [← l'.2.2, ← l.2.2]⟩
    · intro hne
      obtain ⟨y, hy, l⟩ := delCore_keeps (o := a2) (y := newObj c h st) (st := addObj (newObj c h st) st) hmem' hne
      obtain ⟨x, hx, l'⟩ := tl.2 y (by rw [hq.adjs]; exact hy)
      exact ⟨x, hx, by rw [← l'.1, ← l.1]; rfl, by rw [← l'.2.2, ← l.2.2]; rfl⟩

/-! ## C24: silence -/

theorem steps_silent {c : Cfg} {T st es st'} (hi : Inv c.nr T st) (h : Steps c T st es st') {i : Nat}
    (hs : ∀ e ∈ es, ¬ HelloFrom i e) : ∀ x ∈ st'.adjs, x.id = i → x ∈ st.adjs := by
  induction h with
  | nil => exact fun x hx _ => hx
  | snoc hs' hv hst ih =>
    intro x hx hxi
    exact ih (fun e he => hs e (by simp [he])) x (step_silent (steps_inv hi hs') hv hst (hs _ (by simp)) x hx hxi) hxi

/-- **C24**, the part that holds: a neighbour whose listen timer runs (every
end node, every router that is up, unless it says it is Phase II) and that
sends no hello for longer than its listen time is not in the table any more.

Missing: a router that was never up, or that went back to the initialising
state, has no timer (`silent_router_stays`). -/
theorem silent_dropped_partial {c : Cfg} {T now es1 es2 st st' i} (h1 : Steps c T (start c now) es1 st)
    (h2 : Steps c T st es2 st') (hs : ∀ e ∈ es2, ¬ HelloFrom i e)
    (hlive : ∀ o ∈ st.adjs, o.id = i → (o.timer ≠ none ∨ (o.up = true ∧ o.nt ≠ PHASE2)) ∧ st.now + o.t4 < st'.now) :
    ∀ x ∈ st'.adjs, x.id ≠ i := by
  intro x hx hxi
  have hi := steps_inv (start_inv c T now) h1
  have hi' := steps_inv hi h2
  have hxs := steps_silent hi h2 hs x hx hxi
  obtain ⟨hl, hlt⟩ := hlive x hxs hxi
  obtain ⟨t1, t2⟩ := hi.tim x (List.mem_append_left _ hxs)
  have : x.timer ≠ none := by
    rcases hl with h | ⟨h, h'⟩
    · exact h
    · exact t2 h h'
  cases ht : x.timer with
  | none => exact this ht
  | some d =>
    have := (t1 d ht).2
    have := ((hi'.tim x (List.mem_append_left _ hx)).1 d ht).1
    omega

/-- Nothing keeps a neighbour that is gone from being heard of again. -/
theorem timer_expiry_removes {c : Cfg} {T now es st u o st'} (h : Steps c T (start c now) es st)
    (ho : o ∈ st.adjs) (hu : o.uid = u) (ht : o.timer ≠ none) (e : step c st (.expire u) = some st') :
    (∀ x ∈ st'.adjs, x.id ≠ o.id) ∧ Out.down o.uid o.id ∈ st'.out := by
  have hi := steps_inv (start_inv c T now) h
  have h0 : expire c u st = some st' := e
  unfold expire at h0
  split at h0
  · rename_i hf
    have := List.find?_eq_none.1 hf o (List.mem_append_left _ ho)
    simp [hu] at this
  · rename_i o' hf
    have ho' : o' ∈ st.all := List.mem_of_find?_eq_some hf
    have hu' : o'.uid = u := by simpa using List.find?_some hf
    have : o' = o := hi.objs.uid_inj ho' (List.mem_append_left _ ho) (by omega)
    subst this
    simp only at h0
    have ho1 := hi.objs.upd u (fun o => { o with timer := none }) fun _ _ _ => ⟨rfl, rfl, rfl, rfl, rfl⟩
    refine ⟨?_, ?_⟩
    · intro x hx
      rw [(deladj_form h0).1.adjs] at hx
      exact (delCore_adjs (downOut_obj (o := o') ho1)
        ⟨{ o' with timer := none }, mem_upd.2 ⟨o', ho', by rw [if_pos hu]⟩, rfl, rfl⟩ hx).2
    · obtain ⟨l, e1, _⟩ := deladj_adds (P := fun _ => True) ⟨fun _ _ => trivial, fun _ _ => trivial⟩ h0
      rw [e1]
      apply List.mem_append_left
      show _ ∈ st.out ++ [_]
      simp

/-! ### What does not hold -/

/-- Events of a LAN on which no hello arrives any more and no listen timer runs. -/
def Calm : Ev → Prop
  | .tick _ => True
  | .hellotime => True
  | .drtime => True
  | _ => False

theorem calm_adjs {c : Cfg} {T st es st'} (h : Steps c T st es st') (hc : ∀ e ∈ es, Calm e) : st'.adjs = st.adjs := by
  induction h with
  | nil => rfl
  | @snoc s1 s2 es e hs hv hst ih =>
    rw [← ih fun e he => hc e (by simp [he])]
    have := hc e (by simp)
    cases e with
    | tick => cases hst; rfl
    | hellotime =>
      dsimp only [step] at hst
      obtain ⟨s3, h1, h2⟩ := Option.bind_eq_some_iff.1 hst
      rw [(sendhello_form h2).1.adjs, (calcdr_form h1).1.adjs]
    | drtime => exact (becomedr_form hst).1.adjs
    | router => cases this
    | endnode => cases this
    | expire => cases this

/-- Router 1.2, priority 64, limit 32. -/
def c2 : Cfg := ⟨1026, 64, false, 32, 15000⟩

/-- A hello of router 1.3 that does not list 1.2. -/
def h3 : RHello := ⟨1027, L1ROUTER, 64, 591, 15, [], false⟩

/-- **The negation of C24.**  After one hello of another router that does not
list this node, that router stays in the table for ever, and wins the election:
however long the LAN is silent, this node names it designated router and does
not become it. -/
theorem silent_router_stays {T : Nat → Bool} (hT : T 1027 = false) :
    ∃ st, Steps c2 T (start c2 0) [.router h3] st ∧
      ∀ es st', Steps c2 T st es st' → (∀ e ∈ es, Calm e) →
        (∃ o ∈ st'.adjs, o.id = 1027) ∧ st'.isdr = false ∧ st'.dr = .adj 0 1027 := by
  refine ⟨((step c2 (start c2 0) (.router h3)).getD (start c2 0)), ?_, ?_⟩
  · exact Steps.snoc (es := []) .nil (show Valid T (start c2 0) (.router h3) from ⟨by decide, hT⟩) (by rfl)
  · intro es st' hs hc
    have hi : Inv c2.nr T ((step c2 (start c2 0) (.router h3)).getD (start c2 0)) :=
      step_inv (start_inv c2 T 0) (show Valid T (start c2 0) (.router h3) from ⟨by decide, hT⟩) (by rfl)
    have hd : DrOk c2 ((step c2 (start c2 0) (.router h3)).getD (start c2 0)) :=
      elects_drOk (start_inv c2 T 0) (show Valid T (start c2 0) (.router h3) from ⟨by decide, hT⟩) (by rfl)
        (show Elects c2 (.router h3) by unfold Elects; decide)
    have ha := calm_adjs hs hc
    have hd' := steps_drOk hi hd hs
    have hb : findbestdr c2 st' = some ⟨0, 1027, L1ROUTER, 64, 591, 46000, false, none⟩ := by
      unfold findbestdr routers
      rw [ha]
      decide
    obtain ⟨i1, i2⟩ := hd'.other _ hb
    refine ⟨?_, i1, ?_⟩
    · rw [ha]
      exact ⟨⟨0, 1027, L1ROUTER, 64, 591, 46000, false, none⟩, by decide, rfl⟩
    · obtain ⟨u, hu⟩ := isId_iff.1 i2
      have hid := (steps_inv hi hs).drid u 1027 hu
      have : u = 0 := by
        have h1 := hid.1
        have hf : st'.fresh = 1 := by
          clear hd' hb i1 i2 hu hid h1
          induction hs with
          | nil => rfl
          | @snoc s1 s2 es e hs hv hst ih =>
            have ih' := ih (fun e he => hc e (by simp [he])) (calm_adjs hs fun e he => hc e (by simp [he]))
            have := hc e (by simp)
            cases e with
            | tick => cases hst; exact ih'
            | hellotime =>
              dsimp only [step] at hst
              obtain ⟨s3, h1, h2⟩ := Option.bind_eq_some_iff.1 hst
              rw [(sendhello_form h2).1.fresh, (calcdr_form h1).1.fresh]; exact ih'
            | drtime => rw [(becomedr_form hst).1.fresh]; exact ih'
            | router => cases this
            | endnode => cases this
            | expire => cases this
        omega
      rw [hu, this]

/-- Such histories of any length exist: time passes without limit. -/
theorem silent_goes_on (d : Nat) {T : Nat → Bool} (hT : T 1027 = false) :
    ∃ st, Steps c2 T (start c2 0) [.router h3, .tick d] st ∧ st.now = d ∧ st.adjs.length = 1 := by
  have h1 : Steps c2 T (start c2 0) [.router h3] ((step c2 (start c2 0) (.router h3)).getD (start c2 0)) :=
    Steps.snoc (es := []) .nil (show Valid T (start c2 0) (.router h3) from ⟨by decide, hT⟩) (by rfl)
  refine ⟨{ ((step c2 (start c2 0) (.router h3)).getD (start c2 0)) with now := 0 + d }, ?_, by simp, rfl⟩
  refine Steps.snoc (es := [.router h3]) h1 (show Valid T _ (.tick d) from ⟨?_, ?_⟩) rfl
  · have : ((step c2 (start c2 0) (.router h3)).getD (start c2 0)).all = [⟨0, 1027, L1ROUTER, 64, 591, 46000, false, none⟩] := by decide
    rw [this]
    intro o ho t ht
    rw [List.mem_singleton.1 ho] at ht
    cases ht
  · have : ((step c2 (start c2 0) (.router h3)).getD (start c2 0)).drtimer = none := by decide
    rw [this]
    intro t ht; cases ht

/-- Run a list of events. -/
def run (c : Cfg) : Option St → List Ev → Option St
  | s, [] => s
  | s, e :: es => run c (s.bind fun s => step c s e) es

/-- A listed hello of 1.3, and one with another priority. -/
def h3up : RHello := { h3 with rs := [(1026, 64)] }
def h3p : RHello := { h3up with prio := 70 }

/-- The timer of an adjacency that was deleted while initialising keeps running
and removes a later adjacency of the same node, although hellos of this node
arrive all the time: 1.3 is heard (not listing 1.2), changes its priority, comes
up again; then the timer of the old object expires. -/
theorem stale_timer_removes :
    ∃ s, run c2 (some (start c2 0)) [.router h3, .tick 10000, .router h3, .tick 30000, .router h3p, .tick 100,
        .router h3p, .tick 15900, .router h3p, .tick 30000] = some s ∧
      (s.adjs.map fun o => (o.id, o.up, o.timer)) = [(1027, true, some 102000)] ∧
      (s.gone.map fun o => (o.uid, o.timer)) = [(0, some 86000)] ∧ s.now = 86000 ∧
      ∃ s', step c2 s (.expire 0) = some s' ∧ s'.adjs = [] := by
  refine ⟨_, rfl, by decide +kernel, by decide +kernel, by decide +kernel, _, rfl, by decide +kernel⟩

/-- A router list in which this node has another priority is an exception (a
NameError), which stops the node. -/
theorem wrong_priority_stops {c : Cfg} {now : Nat} {h : RHello} {p : Nat} (hn : h.nt ≠ ENDNODE)
    (hc : h.id / 1024 = c.own / 1024) (hnr : 0 < c.nr) (hrs : h.rs = [(c.own, p)]) (hp : p ≠ c.prio) :
    step c (start c now) (.router h) = none := by
  show routerHello c h (start c now) = none
  cases e : routerHello c h (start c now) with
  | none => rfl
  | some st' =>
    exfalso
    have tw : ∀ a s, twoway c h a true s = none := by
      intro a s
      unfold twoway
      rw [hrs]
      simp [hp]
    cases routerHello_form hn e with
    | ignored hg => rw [ignored_own hc] at hg; cases hg
    | new _ _ _ h2 => rw [tw] at h2; cases h2
    | refused _ _ hlen _ _ =>
      have : (routers (addObj (newObj c h (start c now)) (start c now))).length ≤ 1 := by
        have := routers_add (newObj c h (start c now)) (start c now)
        have h0 : (routers (start c now)).length = 0 := rfl
        omega
      omega
    | evicts _ _ _ _ _ hm _ _ _ _ => simp [routers, start] at hm
    | changed _ _ _ hl _ _ _ => simp [lookup, start] at hl
    | known _ _ _ hl _ _ _ _ => simp [lookup, start] at hl

/-- A router that gives a hello time of 1162 seconds or more stops the node
with its second hello; so does an end node with its first one. -/
theorem long_hello_time_stops : run c2 (some (start c2 0)) [.router { h3 with timer := 1162 }, .router { h3 with timer := 1162 }] = none ∧
    run c2 (some (start c2 0)) [.endnode ⟨1028, 591, 1162, true⟩] = none ∧
    run c2 (some (start c2 0)) [.endnode ⟨1028, 591, 1161, true⟩] ≠ none := by
  refine ⟨rfl, rfl, ?_⟩
  intro h; cases h

/-- A router with priority 128 or more stops the node when it sends its next hello. -/
theorem high_priority_stops : run c2 (some (start c2 0)) [.router { h3 with prio := 128 }, .tick 15000, .hellotime] = none ∧
    run c2 (some (start c2 0)) [.router { h3 with prio := 127 }, .tick 15000, .hellotime] ≠ none := by
  refine ⟨rfl, ?_⟩
  intro h; cases h

/-! ## Examples -/

/-- Three routers with one view: 1.3 wins. -/
def T0 : Nat → Bool := fun i => i = 1100

def cA : Cfg := ⟨1026, 64, false, 32, 15000⟩
def cB : Cfg := ⟨1027, 64, false, 32, 15000⟩
def cC : Cfg := ⟨1028, 50, false, 32, 15000⟩
def hOf (c : Cfg) (l : List Cfg) : RHello := ⟨c.own, L1ROUTER, c.prio, 591, 15, l.map fun c => (c.own, c.prio), false⟩

def viewOf (c a b : Cfg) : St := ((run c (some (start c 0)) [.router (hOf a []), .router (hOf b [c])]).getD (start c 0))

def L3 : List Node := [⟨cA, viewOf cA cB cC⟩, ⟨cB, viewOf cB cA cC⟩, ⟨cC, viewOf cC cA cB⟩]

def R3 : Nat → Option (Nat × Nat) := fun i =>
  if i = 1026 then some (2, 64) else if i = 1027 then some (2, 64) else if i = 1028 then some (2, 50) else none

theorem heard3 (c a b : Cfg) (ha : a.own ≠ 1100) (hb : b.own ≠ 1100) (hRa : R3 a.own = some (2, a.prio))
    (hRb : R3 b.own = some (2, b.prio)) (hac : a.own ≠ c.own) (hbc : b.own ≠ c.own) (hig : a.own / 1024 = c.own / 1024)
    (s1 : St) (hs1 : step c (start c 0) (.router (hOf a [])) = some s1)
    (hs2 : step c s1 (.router (hOf b [c])) = some (viewOf c a b))
    (hL : ∀ q ∈ L3, q.c.own ≠ c.own → q.c.own = a.own ∨ q.c.own = b.own) : Heard R3 L3 ⟨c, viewOf c a b⟩ := by
  refine ⟨T0, 0, [], [.router (hOf a []), .router (hOf b [c])], start c 0, .nil, ?_, ?_, ?_, ?_, ?_, ?_⟩
  · refine Steps.snoc (es := [.router (hOf a [])]) (Steps.snoc (es := []) .nil ?_ hs1) ?_ hs2
    · exact ⟨(by decide : L1ROUTER ≠ ENDNODE), decide_eq_false ha⟩
    · exact ⟨(by decide : L1ROUTER ≠ ENDNODE), decide_eq_false hb⟩
  · intro e he
    simp at he
    rcases he with rfl | rfl
    · exact hRa
    · exact hRb
  · intro u hu; simp at hu
  · exact ⟨.router (hOf a []), by simp, ignored_own hig⟩
  · intro q hq hqo
    rcases hL q hq hqo with h | h
    · exact ⟨hOf a [], by simp, h.symm⟩
    · exact ⟨hOf b [c], by simp, h.symm⟩
  · intro h hm
    simp at hm
    rcases hm with rfl | rfl
    · exact hac
    · exact hbc

example : Agreed L3 := by
  refine lan_agrees (R := R3) (ids := [1026, 1027, 1028]) (area := 1) (by simp [L3]) ?_ ?_ ?_ ?_ ?_ ?_
  · intro p hp q hq e
    simp [L3] at hp hq
    rcases hp with rfl | rfl | rfl <;> rcases hq with rfl | rfl | rfl <;> first | rfl | (simp [cA, cB, cC] at e)
  · intro p hp
    simp [L3] at hp
    rcases hp with rfl | rfl | rfl <;> rfl
  · intro i hi
    unfold R3 at hi
    split at hi
    · simp_all
    · split at hi
      · simp_all
      · split at hi
        · simp_all
        · exact absurd rfl hi
  · intro i nt pr hi _
    unfold R3 at hi
    split at hi
    · cases hi; exact ⟨⟨cA, viewOf cA cB cC⟩, by simp [L3], by simp_all [cA], rfl⟩
    · split at hi
      · cases hi; exact ⟨⟨cB, viewOf cB cA cC⟩, by simp [L3], by simp_all [cB], rfl⟩
      · split at hi
        · cases hi; exact ⟨⟨cC, viewOf cC cA cB⟩, by simp [L3], by simp_all [cC], rfl⟩
        · cases hi
  · intro p hp
    simp [L3] at hp
    rcases hp with rfl | rfl | rfl <;> decide
  · intro p hp
    simp [L3] at hp
    rcases hp with rfl | rfl | rfl
    · exact heard3 cA cB cC (by decide) (by decide) rfl rfl (by decide) (by decide) rfl _ rfl rfl (by
        intro q hq hqo
        simp [L3] at hq
        rcases hq with rfl | rfl | rfl
        · exact absurd rfl hqo
        · exact Or.inl rfl
        · exact Or.inr rfl)
    · exact heard3 cB cA cC (by decide) (by decide) rfl rfl (by decide) (by decide) rfl _ rfl rfl (by
        intro q hq hqo
        simp [L3] at hq
        rcases hq with rfl | rfl | rfl
        · exact Or.inl rfl
        · exact absurd rfl hqo
        · exact Or.inr rfl)
    · exact heard3 cC cA cB (by decide) (by decide) rfl rfl (by decide) (by decide) rfl _ rfl rfl (by
        intro q hq hqo
        simp [L3] at hq
        rcases hq with rfl | rfl | rfl
        · exact Or.inl rfl
        · exact Or.inr rfl
        · exact absurd rfl hqo)

example : (viewOf cA cB cC).dr = .adj 0 1027 ∧ (viewOf cC cA cB).dr = .adj 1 1027 ∧ (viewOf cB cA cC).drtimer = some 5000 := by
  decide +kernel

/-- 1.3 becomes designated router after 5 seconds. -/
example : ∃ s, run cB (some (start cB 0)) [.router (hOf cA []), .router (hOf cC [cB]), .tick 5000, .drtime, .tick 1] = some s ∧
    s.isdr = true ∧ s.dr = .me ∧ s.now = 5001 := ⟨_, rfl, by decide +kernel, by decide +kernel, by decide +kernel⟩

/-- With room for one router: 1.4 (priority 50) is dropped for 1.2. -/
example : ∃ s, run { cB with nr := 1 } (some (start cB 0)) [.router (hOf cC [cB]), .router (hOf cA [cB])] = some s ∧
    (s.adjs.map fun o => (o.id, o.up)) = [(1026, true)] ∧
    (s.out.filter fun x => match x with | .hello .. => false | _ => true) = [.up 0 1028, .down 0 1028, .up 1 1026] :=
  ⟨_, rfl, by decide +kernel, by decide +kernel⟩

/-- A router that is up and falls silent is dropped. -/
example : ∃ s, run cB (some (start cB 0)) [.router (hOf cC [cB]), .tick 46000, .expire 0] = some s ∧ s.adjs = [] ∧ s.now = 46000 :=
  ⟨_, rfl, by decide +kernel, by decide +kernel⟩

end Verif.Lan
