import Verif.Lan.Inv

namespace Verif.Lan

/-- What the circuit is given: end nodes do not send router hellos and the
other way round (`T`: which addresses are end nodes); timers expire only when
running, and time does not pass beyond the expiry of a timer. -/
def Valid (T : Nat → Bool) (st : St) : Ev → Prop
  | .tick d => (∀ o ∈ st.all, ∀ t, o.timer = some t → st.now + d ≤ t) ∧ (∀ t, st.drtimer = some t → st.now + d ≤ t)
  | .router h => h.nt ≠ ENDNODE ∧ T h.id = false
  | .endnode h => T h.id = true
  | .expire u => ∃ o ∈ st.all, o.uid = u ∧ o.timer ≠ none
  | .hellotime => True
  | .drtime => st.drtimer ≠ none

/-- Histories. -/
inductive Steps (c : Cfg) (T : Nat → Bool) : St → List Ev → St → Prop
  | nil {st} : Steps c T st [] st
  | snoc {st st1 st2 es e} : Steps c T st es st1 → Valid T st1 e → step c st1 e = some st2 → Steps c T st (es ++ [e]) st2

/-! ## What a hello does -/

/-- The state with one more adjacency. -/
def addObj (a : Obj) (st : St) : St := { st with adjs := st.adjs ++ [a], fresh := st.fresh + 1 }

def newObj (c : Cfg) (h : RHello) (st : St) : Obj := ⟨st.fresh, h.id, h.nt, h.prio, h.blk, t4of c.t3 h.timer, false, none⟩

inductive Two (c : Cfg) (h : RHello) (a : Obj) (st : St) : St → Prop
  | same : (a.up = true → (c.own, c.prio) ∈ h.rs) → Two c h a st st
  | up (a' : Obj) : a.up = false → (c.own, c.prio) ∈ h.rs → Obj.listen st.now { a with up := true } = some a' →
      Two c h a st { upd a.uid (fun _ => a') st with out := st.out ++ [.up a.uid a.id] }
  | down : a.up = true → (∀ p, (c.own, p) ∉ h.rs) →
      Two c h a st (downOut a (upd a.uid (fun o => { o with up := false, timer := none }) st))

theorem twoway_form {c h a ch st st'} (e : twoway c h a ch st = some st') :
    ∃ s1 ch', Two c h a st s1 ∧ elect c ch' s1 = some st' := by
  unfold twoway at e
  split at e
  · rename_i x hx
    have hm := List.mem_of_find?_eq_some hx
    have hi : x.1 = c.own := by simpa using List.find?_some hx
    split at e
    · cases e
    · rename_i hp
      have hp' : x.2 = c.prio := by simpa using hp
      have hmem : (c.own, c.prio) ∈ h.rs := by rw [← hi, ← hp']; exact hm
      split at e
      · exact ⟨st, ch, .same fun _ => hmem, e⟩
      · rename_i hu
        obtain ⟨a', h1, h2⟩ := Option.bind_eq_some_iff.1 e
        exact ⟨_, true, .up a' (by simpa using hu) hmem h1, h2⟩
  · rename_i hx
    split at e
    · cases e
    · split at e
      · rename_i hu
        refine ⟨_, true, .down hu ?_, e⟩
        intro p hp
        have := List.find?_eq_none.1 hx _ hp
        simp at this
      · rename_i hu
        exact ⟨st, ch, .same fun h => absurd h hu, e⟩

inductive Hello (c : Cfg) (h : RHello) (st : St) : St → Prop
  | ignored : Lan.ignored c h.id h.nt = true → Hello c h st st
  /-- A new neighbour. -/
  | new {st'} : ignored c h.id h.nt = false → lookup h.id st = none →
      (routers (addObj (newObj c h st) st)).length ≤ c.nr →
      twoway c h (newObj c h st) true (addObj (newObj c h st) st) = some st' → Hello c h st st'
  /-- A new neighbour, and the table is full: it is the lowest. -/
  | refused {st'} : ignored c h.id h.nt = false → lookup h.id st = none →
      (routers (addObj (newObj c h st) st)).length > c.nr →
      (∀ o ∈ routers (addObj (newObj c h st) st), ¬ keyLt o.key (newObj c h st).key = true) →
      deladj c (newObj c h st) (addObj (newObj c h st) st) = some st' → Hello c h st st'
  /-- Another one is. -/
  | evicts {st'} (s2 : St) (a2 : Obj) : ignored c h.id h.nt = false → lookup h.id st = none →
      (routers (addObj (newObj c h st) st)).length > c.nr →
      a2 ∈ routers st → a2.id ≠ h.id →
      (∀ o ∈ routers (addObj (newObj c h st) st), ¬ keyLt o.key a2.key = true) →
      deladj c a2 (addObj (newObj c h st) st) = some s2 →
      twoway c h (newObj c h st) true s2 = some st' → Hello c h st st'
  /-- A known one, whose type or priority changed. -/
  | changed {st'} (a a' : Obj) : ignored c h.id h.nt = false → lookup h.id st = some a →
      a.listen st.now = some a' → (a.nt = ENDNODE ∨ a.nt ≠ h.nt ∨ a.prio ≠ h.prio) →
      deladj c a' (upd a.uid (fun _ => a') st) = some st' → Hello c h st st'
  | known {st'} (a a' : Obj) : ignored c h.id h.nt = false → lookup h.id st = some a →
      a.listen st.now = some a' → a.nt = h.nt → a.prio = h.prio →
      twoway c h a' false (upd a.uid (fun _ => a') st) = some st' → Hello c h st st'

theorem routerHello_form {c : Cfg} {h : RHello} {st st' : St} (hn : h.nt ≠ ENDNODE)
    (e : routerHello c h st = some st') : Hello c h st st' := by
  unfold routerHello at e
  by_cases hig : Lan.ignored c h.id h.nt = true
  · rw [if_pos hig] at e; cases e; exact .ignored hig
  rw [if_neg hig] at e
  have hig' : Lan.ignored c h.id h.nt = false := by simpa using hig
  split at e
  · rename_i hl
    simp only at e
    have hct : ∀ s, routerHello.checkType c h (newObj c h st) true s = twoway c h (newObj c h st) true s := by
      intro s
      unfold routerHello.checkType
      rw [if_neg]
      simp [newObj, hn]
    split at e
    · rename_i hr
      have hr' : routers (addObj (newObj c h st) st) = [] := hr
      have e' : routerHello.checkType c h (newObj c h st) true (addObj (newObj c h st) st) = some st' := e
      rw [hct] at e'
      refine .new hig' hl ?_ e'
      rw [hr']; exact Nat.zero_le _
    · rename_i o l hr
      have hr' : routers (addObj (newObj c h st) st) = o :: l := hr
      have e' : (if (routers (addObj (newObj c h st) st)).length > c.nr then
          (deladj c (minObj o l) (addObj (newObj c h st) st)).bind fun st1 =>
            if (minObj o l).id = (newObj c h st).id then some st1 else routerHello.checkType c h (newObj c h st) true st1
        else routerHello.checkType c h (newObj c h st) true (addObj (newObj c h st) st)) = some st' := e
      split at e'
      · rename_i hlen
        obtain ⟨s2, h1, h2⟩ := Option.bind_eq_some_iff.1 e'
        obtain ⟨m1, m2, m3⟩ := minObj_spec l o
        have hmin : ∀ x ∈ routers (addObj (newObj c h st) st), ¬ keyLt x.key (minObj o l).key = true := by
          rw [hr']
          intro x hx
          rcases List.mem_cons.1 hx with rfl | hx
          · exact m2
          · exact m3 x hx
        have hmem : minObj o l ∈ routers (addObj (newObj c h st) st) := by
          rw [hr']
          rcases m1 with m1 | m1
          · rw [m1]; simp
          · simp [m1]
        have hsp : minObj o l ∈ routers st ∨ minObj o l = newObj c h st := by
          unfold routers at hmem
          obtain ⟨h3, h4⟩ := List.mem_filter.1 hmem
          rcases List.mem_append.1 h3 with h3 | h3
          · exact Or.inl (List.mem_filter.2 ⟨h3, h4⟩)
          · exact Or.inr (List.mem_singleton.1 h3)
        split at h2
        · rename_i hid
          cases h2
          rcases hsp with hs | hs
          · exact absurd hid (lookup_none hl _ (List.mem_filter.1 hs).1)
          · rw [hs] at h1 hmin
            exact .refused hig' hl hlen hmin h1
        · rename_i hid
          rcases hsp with hs | hs
          · rw [hct] at h2
            exact .evicts s2 _ hig' hl hlen hs hid hmin h1 h2
          · exact absurd (by rw [hs]) hid
      · rename_i hlen
        rw [hct] at e'
        exact .new hig' hl (by omega) e'
  · rename_i a hl
    split at e
    · cases e
    · rename_i a' ha
      obtain ⟨⟨_, _, k3, k4, _⟩, _⟩ := listen_spec ha
      simp only at k3 k4
      unfold routerHello.checkType at e
      split at e
      · rename_i hc
        rw [k3, k4] at hc
        exact .changed a a' hig' hl ha hc e
      · rename_i hc
        rw [k3, k4] at hc
        simp only [not_or, Decidable.not_not] at hc
        exact .known a a' hig' hl ha hc.2.1 hc.2.2 e

/-! ## The invariant is kept -/

theorem uid_mem {n T st} (h : Objs n T st) {a : Obj} (ha : a ∈ st.all) : ∀ o ∈ st.all, o.uid = a.uid → o = a :=
  fun _ ho e => h.uid_inj ho ha e

theorem all_out (st : St) (l : List Out) : ({ st with out := l } : St).all = st.all := rfl

theorem Two.inv {n T c h a st s1} (hi : Inv n T st) (ha : a ∈ st.all) (t : Two c h a st s1) : Inv n T s1 := by
  cases t with
  | same => exact hi
  | up a' hu _ hl =>
    obtain ⟨k, _, tk, _⟩ := listen_spec hl
    refine (hi.upd a.uid (fun _ => a') ?_ ?_).out _
    · intro o ho e
      rw [uid_mem hi.objs ha o ho e]; exact k
    · intro o ho e
      apply tk
      exact ⟨(hi.tim a ha).1, (fun h => nomatch h)⟩
  | down => exact (hi.upd a.uid (fun o => { o with up := false, timer := none })
      (fun _ _ _ => ⟨rfl, rfl, rfl, rfl, rfl⟩) (fun _ _ _ => timOk_off _ _)).out _

theorem twoway_inv {n T c h a ch st st'} (hi : Inv n T st) (ha : a ∈ st.all) (e : twoway c h a ch st = some st') :
    Inv n T st' := by
  obtain ⟨s1, ch', t, e'⟩ := twoway_form e
  exact (t.inv hi ha).elect e'

theorem Inv.listen {n T st a a'} (hi : Inv n T st) (ha : a ∈ st.all) (hl : a.listen st.now = some a') :
    Inv n T (Lan.upd a.uid (fun _ => a') st) := by
  obtain ⟨k, _, tk, _⟩ := listen_spec hl
  refine hi.upd a.uid (fun _ => a') ?_ ?_
  · intro o ho e
    rw [uid_mem hi.objs ha o ho e]; exact k
  · intro o ho e
    exact tk ⟨(hi.tim a ha).1, (fun h => nomatch h)⟩

theorem mem_upd_const {st : St} {a a' : Obj} (ha : a ∈ st.all) :
    a' ∈ (Lan.upd a.uid (fun _ => a') st).all :=
  mem_upd.2 ⟨a, ha, by simp⟩

theorem mem_addObj {a o : Obj} {st : St} : o ∈ (addObj a st).all ↔ o ∈ st.all ∨ o = a := by
  unfold addObj St.all; simp only [List.mem_append, List.mem_singleton]
  constructor
  · rintro ((h | h) | h)
    · exact Or.inl (Or.inl h)
    · exact Or.inr h
    · exact Or.inl (Or.inr h)
  · rintro ((h | h) | h)
    · exact Or.inl (Or.inl h)
    · exact Or.inr h
    · exact Or.inl (Or.inr h)

theorem routers_add (a : Obj) (st : St) : (routers (addObj a st)).length ≤ (routers st).length + 1 := by
  unfold routers addObj
  rw [List.filter_append, List.length_append]
  have : ([a].filter isRouter).length ≤ 1 := List.length_filter_le _ _
  omega

theorem Inv.add {n m T st a} (hi : Inv n T st) (hu : a.uid = st.fresh) (hid : ∀ o ∈ st.adjs, o.id ≠ a.id)
    (hty : a.nt = ENDNODE ↔ T a.id = true) (ht : TimOk st.now a) (hm : (routers (addObj a st)).length ≤ m) :
    Inv m T (addObj a st) := by
  refine ⟨⟨?_, ?_, ?_, ?_, hm⟩, ?_, ?_, ⟨hi.drs.me, hi.drs.tm⟩⟩
  · unfold addObj
    simp only [List.map_append, List.map_cons, List.map_nil]
    rw [List.nodup_append]
    refine ⟨hi.objs.ids, by simp, ?_⟩
    intro x hx y hy
    obtain ⟨o, ho, rfl⟩ := List.mem_map.1 hx
    rw [List.mem_singleton.1 hy]
    exact hid o ho
  · have hp : (addObj a st).all.Perm (a :: st.all) := by
      unfold addObj St.all
      simp only
      rw [List.append_assoc]
      exact List.perm_middle
    rw [List.Perm.nodup_iff (hp.map (·.uid)), List.map_cons, List.nodup_cons]
    refine ⟨?_, hi.objs.uids⟩
    intro hx
    obtain ⟨o, ho, e⟩ := List.mem_map.1 hx
    have := hi.objs.lt o ho
    omega
  · intro o ho
    show o.uid < st.fresh + 1
    rcases mem_addObj.1 ho with h | rfl
    · have := hi.objs.lt o h; omega
    · omega
  · intro o ho
    rcases mem_addObj.1 ho with h | rfl
    · exact hi.objs.typed o h
    · exact hty
  · intro o ho
    show TimOk st.now o
    rcases mem_addObj.1 ho with h | rfl
    · exact hi.tim o h
    · exact ht
  · intro u i hd
    have hd' : st.dr = .adj u i := hd
    obtain ⟨h1, h2⟩ := hi.drid u i hd'
    refine ⟨?_, ?_⟩
    · show u < st.fresh + 1; omega
    · intro o ho e
      rcases mem_addObj.1 ho with h | rfl
      · exact h2 o h e
      · omega

theorem newObj_tim (c : Cfg) (h : RHello) (st : St) (now : Nat) : TimOk now (newObj c h st) :=
  ⟨(fun _ h => nomatch h), (fun h => nomatch h)⟩

theorem filter_remove_lt {i : Nat} {l : List Obj} {p : Obj → Bool} {o : Obj} (ho : o ∈ l) (hp : p o = true) (hi : o.id = i) :
    ((l.filter fun o => o.id ≠ i).filter p).length + 1 ≤ (l.filter p).length := by
  induction l with
  | nil => simp at ho
  | cons x l ih =>
    have hle : ((l.filter fun o => o.id ≠ i).filter p).length ≤ (l.filter p).length :=
      List.Sublist.length_le (List.Sublist.filter _ List.filter_sublist)
    rcases List.mem_cons.1 ho with rfl | h
    · rw [List.filter_cons_of_neg (by simp [hi]), List.filter_cons_of_pos hp, List.length_cons]
      omega
    · have := ih h
      by_cases hx : x.id = i
      · rw [List.filter_cons_of_neg (by simp [hx])]
        by_cases hpx : p x = true
        · rw [List.filter_cons_of_pos hpx, List.length_cons]; omega
        · rw [List.filter_cons_of_neg hpx]; exact this
      · rw [List.filter_cons_of_pos (by simp [hx])]
        by_cases hpx : p x = true
        · rw [List.filter_cons_of_pos hpx, List.filter_cons_of_pos hpx, List.length_cons, List.length_cons]; omega
        · rw [List.filter_cons_of_neg hpx, List.filter_cons_of_neg hpx]; exact this

theorem routers_upd_len {st : St} {u : Nat} {f : Obj → Obj} (hf : ∀ o ∈ st.adjs, o.uid = u → (f o).nt = o.nt) :
    (routers (upd u f st)).length = (routers st).length := filter_len_keep u f st.adjs hf

theorem routers_delCore {o : Obj} {st : St} (ho : o ∈ routers st) : (routers (delCore o st)).length + 1 ≤ (routers st).length := by
  unfold delCore
  obtain ⟨h1, h2⟩ := List.mem_filter.1 ho
  cases hu : o.up with
  | false => exact filter_remove_lt h1 h2 rfl
  | true =>
    rw [if_pos rfl]
    have e : (routers (downOut o (upd o.uid (fun o => { o with up := false, timer := none }) st))).length =
        (routers st).length := routers_upd_len fun _ _ _ => rfl
    rw [← e]
    refine filter_remove_lt (o := { o with up := false, timer := none }) ?_ h2 rfl
    show _ ∈ st.adjs.map _
    rw [List.mem_map]
    exact ⟨o, h1, by simp⟩

theorem Inv.less {n m T st} (h : Inv n T st) (hm : (routers st).length ≤ m) : Inv m T st :=
  ⟨⟨h.objs.ids, h.objs.uids, h.objs.lt, h.objs.typed, hm⟩, h.tim, h.drid, h.drs⟩

theorem mem_delCore {o x : Obj} {st : St} (hx : x ∈ st.all) (h : x.uid ≠ o.uid) : x ∈ (delCore o st).all := by
  unfold delCore
  rw [mem_remove_all]
  cases o.up with
  | false => exact hx
  | true =>
    rw [if_pos rfl]
    exact mem_upd.2 ⟨x, hx, by rw [if_neg h]⟩

theorem routerHello_inv {c : Cfg} {T h st st'} (hi : Inv c.nr T st) (hn : h.nt ≠ ENDNODE) (hT : T h.id = false)
    (e : routerHello c h st = some st') : Inv c.nr T st' := by
  have hty : (newObj c h st).nt = ENDNODE ↔ T (newObj c h st).id = true := by
    show h.nt = ENDNODE ↔ T h.id = true
    rw [hT]; simp [hn]
  have hadd : lookup h.id st = none → ∀ m, (routers (addObj (newObj c h st) st)).length ≤ m →
      Inv m T (addObj (newObj c h st) st) := fun hl m hm =>
    hi.add rfl (lookup_none hl) hty (newObj_tim _ _ _ _) hm
  have hmem : newObj c h st ∈ (addObj (newObj c h st) st).all := mem_addObj.2 (Or.inr rfl)
  cases routerHello_form hn e with
  | ignored => exact hi
  | new _ hl hlen h2 => exact twoway_inv (hadd hl _ hlen) hmem h2
  | refused _ hl hlen hmin h2 =>
    have h1 := hadd hl _ (Nat.le_refl _)
    have h3 := Inv.deladj h1.objs (h1.tim.delCore _) h1.drid h1.drs h2
    refine h3.less ?_
    rw [(deladj_form h2).1.routers]
    have hr : newObj c h st ∈ routers (addObj (newObj c h st) st) := by
      unfold routers
      refine List.mem_filter.2 ⟨by unfold addObj; simp, ?_⟩
      unfold isRouter
      exact decide_eq_true hn
    have := routers_delCore hr
    have := routers_add (newObj c h st) st
    have := hi.objs.limit
    omega
  | evicts s2 a2 _ hl hlen hm hid hmin h2 h3 =>
    have h1 := hadd hl _ (Nat.le_refl _)
    have h4 := Inv.deladj h1.objs (h1.tim.delCore _) h1.drid h1.drs h2
    have hr : a2 ∈ routers (addObj (newObj c h st) st) := by
      unfold routers at hm ⊢
      obtain ⟨x, y⟩ := List.mem_filter.1 hm
      exact List.mem_filter.2 ⟨by unfold addObj; simp [x], y⟩
    have h5 : Inv c.nr T _ := h4.less (m := c.nr) (by
      rw [(deladj_form h2).1.routers]
      have := routers_delCore hr
      have := routers_add (newObj c h st) st
      have := hi.objs.limit
      omega)
    refine twoway_inv h5 ?_ h3
    have q := (deladj_form h2).1
    show _ ∈ _ ++ _
    rw [q.adjs, q.gone]
    refine mem_delCore hmem ?_
    intro he
    have := hi.objs.lt a2 (List.mem_append_left _ (List.mem_filter.1 hm).1)
    have he' : st.fresh = a2.uid := he
    omega
  | changed a a' _ hl hls _ h2 =>
    have ha := List.mem_append_left st.gone (lookup_some hl).1
    have h1 := hi.listen ha hls
    exact Inv.deladj h1.objs (h1.tim.delCore _) h1.drid h1.drs h2
  | known a a' _ hl hls _ _ h2 =>
    have ha := List.mem_append_left st.gone (lookup_some hl).1
    have h1 := hi.listen ha hls
    exact twoway_inv h1 (mem_upd_const ha) h2

theorem endHello_inv {c : Cfg} {T h st st'} (hi : Inv c.nr T st) (hT : T h.id = true)
    (e : endHello c h st = some st') : Inv c.nr T st' := by
  unfold endHello at e
  split at e
  · cases e; exact hi
  · split at e
    · rename_i a hl
      have ha := List.mem_append_left st.gone (lookup_some hl).1
      split at e
      · exact Inv.deladj hi.objs (hi.tim.delCore _) hi.drid hi.drs e
      · split at e
        · obtain ⟨a', h1, rfl⟩ := Option.map_eq_some_iff.1 e
          exact hi.listen ha h1
        · exact Inv.deladj hi.objs (hi.tim.delCore _) hi.drid hi.drs e
    · rename_i hl
      split at e
      · cases e; exact hi
      · simp only at e
        obtain ⟨a', h1, rfl⟩ := Option.map_eq_some_iff.1 e
        obtain ⟨⟨k1, k2, k3, k4, k5⟩, _, tk, _⟩ := listen_spec h1
        simp only at k1 k2 k3 k4 k5
        have : Inv c.nr T (addObj a' st) := by
          refine hi.add k1 ?_ ?_ ?_ ?_
          · rw [k2]; exact lookup_none hl
          · rw [k2, k3]; simp [hT]
          · exact tk ⟨(fun _ h => nomatch h), (fun h => nomatch h)⟩
          · unfold routers addObj
            simp only
            rw [List.filter_append, List.filter_cons_of_neg (by simp [isRouter, k3]), List.filter_nil, List.append_nil]
            exact hi.objs.limit
        exact this.out _

theorem expire_inv {c : Cfg} {T u st st'} (hi : Inv c.nr T st)
    (e : expire c u st = some st') : Inv c.nr T st' := by
  unfold expire at e
  split at e
  · cases e; exact hi
  · rename_i o hf
    have ho : o ∈ st.all := List.mem_of_find?_eq_some hf
    have hu : o.uid = u := by simpa using List.find?_some hf
    simp only at e
    have ho1 := hi.objs.upd u (fun o => { o with timer := none }) fun _ _ _ => ⟨rfl, rfl, rfl, rfl, rfl⟩
    have hd1 := hi.drid.upd u (fun o => { o with timer := none }) fun _ _ _ => ⟨rfl, rfl, rfl, rfl, rfl⟩
    refine Inv.deladj (downOut_obj ho1) ?_ hd1 ⟨hi.drs.me, hi.drs.tm⟩ e
    unfold delCore
    apply Tim.remove
    cases hup : o.up with
    | false =>
      rw [if_neg (by simp)]
      intro x hx
      obtain ⟨x0, h0, rfl⟩ := mem_upd.1 hx
      show TimOk st.now _
      by_cases hx0 : x0.uid = u
      · rw [if_pos hx0]
        have := uid_mem hi.objs ho x0 h0 (by omega)
        rw [this]
        exact ⟨(fun _ h => nomatch h), fun h => absurd (h.symm.trans hup) (by simp)⟩
      · rw [if_neg hx0]; exact hi.tim x0 h0
    | true =>
      rw [if_pos rfl]
      intro x hx
      obtain ⟨x1, h1, rfl⟩ := mem_upd.1 hx
      obtain ⟨x0, h0, rfl⟩ := mem_upd.1 h1
      show TimOk st.now _
      by_cases hx0 : x0.uid = u
      · rw [if_pos hx0, if_pos (show x0.uid = o.uid by omega)]
        exact timOk_off _ _
      · rw [if_neg hx0, if_neg (show x0.uid ≠ o.uid by omega)]; exact hi.tim x0 h0

theorem step_inv {c : Cfg} {T st e st'} (hi : Inv c.nr T st) (hv : Valid T st e) (h : step c st e = some st') :
    Inv c.nr T st' := by
  cases e with
  | tick d =>
    cases h
    refine ⟨⟨hi.objs.ids, hi.objs.uids, hi.objs.lt, hi.objs.typed, hi.objs.limit⟩, ?_, hi.drid, ⟨hi.drs.me, ?_⟩⟩
    · intro o ho
      obtain ⟨h1, h2⟩ := hi.tim o ho
      refine ⟨?_, h2⟩
      intro t ht
      have := h1 t ht
      have := hv.1 o ho t ht
      show st.now + d ≤ t ∧ t ≤ st.now + d + o.t4
      omega
    · intro t ht
      have := hi.drs.tm t ht
      have := hv.2 t ht
      show st.now + d ≤ t ∧ t ≤ st.now + d + DRDELAY
      omega
  | router h' => exact routerHello_inv hi hv.1 hv.2 h
  | endnode h' => exact endHello_inv hi hv h
  | expire u => exact expire_inv hi h
  | hellotime =>
    dsimp only [step] at h
    obtain ⟨s1, h1, h2⟩ := Option.bind_eq_some_iff.1 h
    have h0 : Inv c.nr T { st with htimer := none } :=
      ⟨⟨hi.objs.ids, hi.objs.uids, hi.objs.lt, hi.objs.typed, hi.objs.limit⟩, hi.tim, hi.drid, ⟨hi.drs.me, hi.drs.tm⟩⟩
    exact (h0.calcdr h1).sendhello h2
  | drtime => exact hi.becomedr h

theorem start_inv (c : Cfg) (T : Nat → Bool) (now : Nat) : Inv c.nr T (start c now) := by
  refine ⟨⟨by simp [start], by simp [start], by simp [start], by simp [start], by simp [start, routers]⟩, ?_, ?_, ⟨by simp [start], ?_⟩⟩
  · intro o ho; simp [start] at ho
  · intro u i h; cases h
  · intro t h; cases h

theorem steps_inv {c : Cfg} {T st es st'} (hi : Inv c.nr T st) (h : Steps c T st es st') : Inv c.nr T st' := by
  induction h with
  | nil => exact hi
  | snoc _ hv hs ih => exact step_inv ih hv hs

end Verif.Lan
