import Verif.Conn.Lemmas

/-!
# The invariant is kept by every event
-/

namespace Verif.Conn

theorem down_not (s : State) (l : Log) (x : Ev × List Out) (h : s.up = true ↔ ¬ Down l) (hd : .down ∉ x.2) :
    s.up = true ↔ ¬ Down (l ++ [x]) := by
  rw [down_snoc]; simp [hd, h]

theorem hand_eq (l : Log) (x : Ev × List Out) :
    (fun c => hand c (l ++ [x])) = fun c => x.2.foldl (handOut c) (hand c l) := by
  funext c; rw [hand_snoc, handStep_eq]

theorem called_skip {b l q e o} (h : Called b l q) (he : ∀ m, e ≠ .line m) : Called b (l ++ [(e, o)]) q :=
  .skip h fun m _ _ hm => absurd hm (he m)

theorem inv_exch {late pipe s l} (hi : Inv late s l) :
    Inv late (step late pipe s .exch).1 (l ++ [(.exch, (step late pipe s .exch).2)]) := by
  have ht : ∀ t, waiting t (l ++ [(Ev.exch, [Out.asked (s.tag + 1)])])
      = if t = s.tag + 1 then some false else waiting t l := by
    intro t
    rw [waiting_snoc]
    simp [waitStep]
  refine ⟨?_, ?_, ?_, ?_, ?_, ?_, ?_, ?_⟩
  · rw [hand_eq]
    exact hi.tab.same rfl rfl fun _ => ⟨rfl, rfl⟩
  · exact down_not s l _ hi.up (by simp [step])
  · intro hu t
    have := hi.exch hu t
    simp only [step, get_put, ht]
    split
    · simp
    · exact this
  · intro t h
    simp only [step, get_put] at h ⊢
    split at h
    · omega
    · have := hi.old t h; omega
  · intro t h
    simp only [step, ht] at h ⊢
    split at h
    · omega
    · have := hi.wait t h; omega
  · intro c
    have := heard_snoc (x := (.exch, [Out.asked (s.tag + 1)])) (hi.heard c)
    simpa [brings, gotten_snoc, gotten, step] using this
  · intro c
    have := called_skip (e := .exch) (o := [Out.asked (s.tag + 1)]) (hi.called c) (by simp)
    simpa [answered_snoc, answered, step] using this
  · exact hi.new

theorem step_cancel (late pipe : Bool) (s : State) (t : Nat) :
    ∃ ex, step late pipe s (.cancel t) = ({ s with exch := ex }, []) ∧
      ∀ j, get ex j = if j = t then (get s.exch t).bind fun _ => if late then some true else none
        else get s.exch j := by
  unfold step
  cases h : get s.exch t with
  | none =>
    refine ⟨s.exch, by simp [h], fun j => ?_⟩
    by_cases e : j = t
    · subst e; simp [h]
    · simp [e]
  | some b =>
    refine ⟨_, by simp [h]; rfl, fun j => ?_⟩
    cases late
    · simp [get_del]
    · simp [get_put]

theorem inv_cancel {late pipe s l} (t : Nat) (hi : Inv late s l) :
    Inv late (step late pipe s (.cancel t)).1 (l ++ [(.cancel t, (step late pipe s (.cancel t)).2)]) := by
  obtain ⟨ex, he, hex⟩ := step_cancel late pipe s t
  rw [he]
  have ht : ∀ j, waiting j (l ++ [(Ev.cancel t, [])])
      = if j = t then (waiting j l).map (fun _ => true) else waiting j l := by
    intro j
    rw [waiting_snoc]
    by_cases e : j = t
    · subst e; simp [waitStep]
    · simp [waitStep, e, Ne.symm e]
  refine ⟨?_, ?_, ?_, ?_, ?_, ?_, ?_, ?_⟩
  · rw [hand_eq]
    exact hi.tab.same rfl rfl fun _ => ⟨rfl, rfl⟩
  · exact down_not s l _ hi.up (by simp)
  · intro hu j
    have := hi.exch hu j
    simp only [hex, ht]
    by_cases e : j = t
    · subst e
      rw [if_pos rfl, if_pos rfl, this]
      cases late <;> rcases hw : waiting j l with _ | _ | _ <;> simp
    · rw [if_neg e, if_neg e, this]
  · intro j h
    simp only [hex] at h
    split at h
    · rename_i e; subst e
      refine hi.old j fun hn => ?_
      rw [hn] at h; simp at h
    · exact hi.old j h
  · intro j h
    simp only [ht] at h
    refine hi.wait j fun hn => ?_
    rw [hn] at h; simp at h
  · intro c
    have := heard_snoc (x := (.cancel t, [])) (hi.heard c)
    simpa [brings, gotten_snoc, gotten] using this
  · intro c
    have := called_skip (e := .cancel t) (o := []) (hi.called c) (by simp)
    simpa [answered_snoc, answered] using this
  · exact hi.new

/-- Events of the application on a connection. -/
theorem inv_app {late s l s' e o} (hi : Inv late s l) (he : ∀ m, e ≠ .line m) (hc : ∀ t, e ≠ .cancel t)
    (hd : Out.down ∉ o) (ha : ∀ t, Out.asked t ∉ o)
    (ht : Tab s' (fun c => o.foldl (handOut c) (hand c l))) (hu : s'.up = s.up) (hx : s'.exch = s.exch)
    (hg : s'.tag = s.tag)
    (hr : ∀ c, gotten c [(e, o)] ++ (s'.obj c).recvq = (s.obj c).recvq)
    (hl : ∀ c, answered c [(e, o)] ++ (s'.obj c).listenq = (s.obj c).listenq)
    (hn : s'.next = s.next) :
    Inv late s' (l ++ [(e, o)]) := by
  have hw : ∀ t, waiting t (l ++ [(e, o)]) = waiting t l := by
    intro t
    rw [waiting_snoc]
    unfold waitStep
    rw [if_neg (ha t), if_neg (hc t)]
    cases e <;> first | rfl | exact absurd rfl (he _)
  refine ⟨?_, ?_, ?_, ?_, ?_, ?_, ?_, ?_⟩
  · rw [hand_eq]; exact ht
  · rw [hu]; exact down_not s l _ hi.up hd
  · intro h t; rw [hx, hw]; exact hi.exch (hu ▸ h) t
  · intro t h; rw [hg]; exact hi.old t (hx ▸ h)
  · intro t h; rw [hg]; exact hi.wait t (hw t ▸ h)
  · intro c
    have := heard_snoc (x := (e, o)) (hi.heard c)
    rw [gotten_snoc, List.append_assoc, hr]
    have hb : brings c l (e, o) = [] := by
      unfold brings
      cases e <;> first | rfl | exact absurd rfl (he _)
    rwa [hb, List.append_nil] at this
  · intro c
    rw [answered_snoc, List.append_assoc, hl]
    exact called_skip (hi.called c) he
  · intro c h
    rw [hn] at h
    have h1 := hi.new c h
    have h2 := hr c
    have h3 := hl c
    rw [h1.1] at h2; rw [h1.2] at h3
    exact ⟨(List.append_eq_nil_iff.mp h2).2, (List.append_eq_nil_iff.mp h3).2⟩

theorem inv_none {late s l} (e : Ev) (he : ∀ m, e ≠ .line m) (hc : ∀ t, e ≠ .cancel t) (hi : Inv late s l)
    (o : List Out) (ho : o = [] ∨ (∃ c, o = [.isClosed c]) ∨ ∃ h, o = [.sent h false]) :
    Inv late s (l ++ [(e, o)]) := by
  rcases ho with rfl | ⟨c, rfl⟩ | ⟨h, rfl⟩ <;>
  exact inv_app hi he hc (by simp) (by simp) hi.tab rfl rfl rfl (by simp [gotten]) (by simp [answered]) rfl

theorem close_fields (s : State) (c : Nat) :
    (close s c).1.up = s.up ∧ (close s c).1.exch = s.exch ∧ (close s c).1.tag = s.tag ∧
    (close s c).1.next = s.next ∧
    ∀ i, ((close s c).1.obj i).recvq = (s.obj i).recvq ∧ ((close s c).1.obj i).listenq = (s.obj i).listenq := by
  unfold close
  split
  · simp
  · refine ⟨rfl, rfl, rfl, rfl, fun i => ?_⟩
    by_cases e : i = c
    · subst e; simp
    · simp [e]

theorem inv_recv {late pipe s l} (c : Nat) (hi : Inv late s l) :
    Inv late (step late pipe s (.recv c)).1 (l ++ [(.recv c, (step late pipe s (.recv c)).2)]) := by
  simp only [step]
  split
  · rename_i hlt
    unfold recv
    split
    · exact inv_none _ (by simp) (by simp) hi _ (by simp)
    · rename_i hcl
      have hcl : (s.obj c).closed = false := by simpa using hcl
      split
      · exact inv_none _ (by simp) (by simp) hi _ (by simp)
      · rename_i m q hq
        dsimp only
        have htab : Tab (s.set c { s.obj c with recvq := q }) (fun i => hand i l) := by
          refine hi.tab.same rfl rfl fun i => ?_
          by_cases e : i = c
          · subst e; simp
          · simp [e]
        have hr : ∀ i, gotten i [(Ev.recv c, [Out.got c m])]
            ++ ((s.set c { s.obj c with recvq := q }).obj i).recvq = (s.obj i).recvq := by
          intro i
          by_cases e : i = c
          · subst e; simp [gotten, hq]
          · simp [gotten, e, Ne.symm e]
        have hl : ∀ i, ((s.set c { s.obj c with recvq := q }).obj i).listenq = (s.obj i).listenq := by
          intro i
          by_cases e : i = c
          · subst e; simp
          · simp [e]
        have plain : Inv late (s.set c { s.obj c with recvq := q }) (l ++ [(.recv c, [.got c m])]) := by
          refine inv_app hi (by simp) (by simp) (by simp) (by simp) ?_ rfl rfl rfl hr ?_ rfl
          · exact htab
          · intro i; rw [hl i]; simp [answered]
        split
        · exact plain
        · split
          · obtain ⟨h1, h2⟩ := htab.close (c := c) hlt (by simp [hcl])
            obtain ⟨f1, f2, f3, f4, f5⟩ := close_fields (s.set c { s.obj c with recvq := q }) c
            rw [h2]
            refine inv_app hi (by simp) (by simp) (by simp) (by simp) ?_ f1 f2 f3 ?_ ?_ f4
            · exact h1
            · intro i
              rw [(f5 i).1]
              have hg : gotten i [(Ev.recv c, [Out.got c m, Out.closed c])]
                  = gotten i [(Ev.recv c, [Out.got c m])] := by
                simp [gotten, List.filterMap_cons]
              rw [hg]; exact hr i
            · intro i; rw [(f5 i).2, hl i]; simp [answered]
          · exact plain
  · exact inv_none _ (by simp) (by simp) hi _ (by simp)

theorem inv_listen {late pipe s l} (c : Nat) (hi : Inv late s l) :
    Inv late (step late pipe s (.listen c)).1 (l ++ [(.listen c, (step late pipe s (.listen c)).2)]) := by
  simp only [step]
  split
  · rename_i hlt
    unfold listen
    split
    · exact inv_none _ (by simp) (by simp) hi _ (by simp)
    · rename_i n q hq
      have htab : Tab (s.set c { s.obj c with listenq := q }) (fun i => hand i l) := by
        refine hi.tab.same rfl rfl fun i => ?_
        by_cases e : i = c
        · subst e; simp
        · simp [e]
      refine inv_app hi (by simp) (by simp) (by simp) (by simp) htab rfl rfl rfl ?_ ?_ rfl
      · intro i
        by_cases e : i = c
        · subst e; simp [gotten]
        · simp [gotten, e]
      · intro i
        by_cases e : i = c
        · subst e; simp [answered, hq]
        · simp [answered, e, Ne.symm e]
  · exact inv_none _ (by simp) (by simp) hi _ (by simp)

theorem inv_call {late pipe s l} (c : Nat) (b : Bool) (hi : Inv late s l) :
    Inv late (step late pipe s (.call c b)).1 (l ++ [(.call c b, (step late pipe s (.call c b)).2)]) := by
  simp only [step]
  split
  · rename_i hlt
    unfold call
    split
    · exact inv_none _ (by simp) (by simp) hi _ (by simp)
    · rename_i hcl
      split
      · obtain ⟨h1, h2⟩ := hi.tab.close (c := c) hlt (by simpa using hcl)
        obtain ⟨f1, f2, f3, f4, f5⟩ := close_fields s c
        rw [h2]
        refine inv_app hi (by simp) (by simp) (by simp) (by simp) h1 f1 f2 f3 ?_ ?_ f4
        · intro i; rw [(f5 i).1]; simp [gotten]
        · intro i; rw [(f5 i).2]; simp [answered]
      · exact inv_none _ (by simp) (by simp) hi _ (by simp)
  · exact inv_none _ (by simp) (by simp) hi _ (by simp)

/-- Outputs that are no news of connections. -/
def Plain (o : List Out) : Prop := ∀ x ∈ o, x = .down ∨ ∃ t rc m, x = .done t rc m

theorem Plain.hand {o : List Out} (h : Plain o) (c : Nat) (k : Option Nat) : o.foldl (handOut c) k = k := by
  induction o with
  | nil => rfl
  | cons x o ih =>
    rw [List.foldl_cons]
    have hx : handOut c k x = k := by
      rcases h x (by simp) with rfl | ⟨t, rc, m, rfl⟩ <;> simp [handOut]
    rw [hx]
    exact ih fun y hy => h y (by simp [hy])

/-- What `parse` leaves behind. -/
structure Parsed (s : State) (l : Log) (m : Msg) (s1 : State) (rc : Option Nat) (o1 : List Out) : Prop where
  tab : Tab s1 (fun c => o1.foldl (handOut c) (hand c l))
  exch : s1.exch = s.exch
  tag : s1.tag = s.tag
  up : s1.up = s.up
  next : s.next ≤ s1.next
  recvq : ∀ c, (s1.obj c).recvq = (s.obj c).recvq
  rc : ∀ c, rc = some c ↔ o1.foldl (handOut c) (hand c l) = some m.handle
  quiet : ∀ o ∈ o1, (∃ c h, o = .opened c h) ∨ (∃ h b, o = .sent h b) ∨ ∃ c, o = .closed c
  called : ∀ o2, Plain o2 → ∀ c, Called c (l ++ [(.line m, o1 ++ o2)]) (answered c l ++ (s1.obj c).listenq)
  new : ∀ c, s1.next ≤ c → (s1.obj c).listenq = []

theorem not_opened {o2 : List Out} (h : Plain o2) (c k : Nat) : Out.opened c k ∉ o2 := by
  intro hx
  rcases h _ hx with h | ⟨_, _, _, h⟩ <;> cases h

theorem parsed_same {late s l m rc} (hi : Inv late s l)
    (hrc : ∀ c, rc = some c ↔ hand c l = some m.handle) : Parsed s l m s rc [] := by
  refine ⟨hi.tab, rfl, rfl, rfl, Nat.le_refl _, fun _ => rfl, hrc, by simp, ?_, fun c h => (hi.new c h).2⟩
  intro o2 h2 c
  refine .skip (hi.called c) fun m' c' bh _ ho => ?_
  exact absurd ho (not_opened h2 _ _)

theorem fresh_obj (s : State) (k i : Nat) :
    (fresh s k).obj i = if i = s.next then ⟨k, false, [], []⟩ else s.obj i := rfl

theorem fresh_q {late s l} (hi : Inv late s l) (k i : Nat) :
    ((fresh s k).obj i).recvq = (s.obj i).recvq ∧ ((fresh s k).obj i).listenq = (s.obj i).listenq := by
  rw [fresh_obj]
  split
  · rename_i e; subst e
    have := hi.new s.next (Nat.le_refl _)
    simp [this.1, this.2]
  · exact ⟨rfl, rfl⟩

/-- The handle of the new object, and of no other. -/
theorem fresh_hand {late s l} {m : Msg} (hi : Inv late s l) (hf : get s.conns m.handle = none) (c : Nat) :
    handOut c (hand c l) (.opened s.next m.handle) = some m.handle ↔ c = s.next := by
  by_cases e : c = s.next
  · subst e; simp [handOut]
  · have e' : s.next ≠ c := Ne.symm e
    simp only [handOut, reduceCtorEq, if_false, if_neg e', e, iff_false]
    rw [hi.tab.hand c]
    intro h
    split at h
    · rename_i hh
      have := (hi.tab.conns m.handle c).mpr ⟨hh.1, hh.2, Option.some.inj h⟩
      rw [hf] at this; cases this
    · cases h

/-- No bound connection gets the new one. -/
theorem called_none {late s l m o} (hi : Inv late s l) (c : Nat)
    (h : m.type ≠ .connect ∨ m.listen = none ∨ ∀ bh, m.listen = some bh → hand c (l ++ [(.line m, o)]) ≠ some bh) :
    Called c (l ++ [(.line m, o)]) (answered c l ++ (s.obj c).listenq) := by
  refine .skip (hi.called c) fun m' c' bh hm ho ht hl hh => ?_
  simp only [Ev.line.injEq] at hm
  subst hm
  rcases h with h | h | h
  · exact h ht
  · rw [h] at hl; cases hl
  · exact h bh hl hh

theorem parsed_new {late pipe s l m} (hi : Inv late s l) (hz : m.handle ≠ 0)
    (hf : get s.conns m.handle = none) :
    Parsed s l m (makeconn pipe s m).1 (makeconn pipe s m).2.1 (makeconn pipe s m).2.2 := by
  have htab : Tab (fresh s m.handle) (fun c => handOut c (hand c l) (.opened s.next m.handle)) :=
    hi.tab.open hz hf
  have hq := fun i => fresh_q hi m.handle i
  have base : ∀ s1 : State, s1.exch = s.exch → s1.tag = s.tag → s1.up = s.up → s1.next = s.next + 1 →
      s1.conns = (fresh s m.handle).conns →
      (∀ c, (s1.obj c).closed = ((fresh s m.handle).obj c).closed ∧
        (s1.obj c).handle = ((fresh s m.handle).obj c).handle) →
      (∀ c, (s1.obj c).recvq = (s.obj c).recvq) →
      (∀ o2, Plain o2 → ∀ c, Called c (l ++ [(.line m, [.opened s.next m.handle] ++ o2)])
        (answered c l ++ (s1.obj c).listenq)) →
      (∀ c, s1.next ≤ c → (s1.obj c).listenq = []) →
      Parsed s l m s1 (some s.next) [.opened s.next m.handle] := by
    intro s1 h1 h2 h3 h4 h5 h6 h7 h8 h9
    refine ⟨?_, h1, h2, h3, by omega, h7, ?_, by simp, h8, h9⟩
    · refine htab.same ?_ h5 h6
      rw [h4]; rfl
    · intro c
      simp only [List.foldl_cons, List.foldl_nil, fresh_hand hi hf, Option.some.injEq]
      exact eq_comm
  unfold makeconn place
  dsimp only
  split
  · rename_i ht
    split
    · rename_i hl
      refine base _ ?_ ?_ ?_ ?_ ?_ ?_ ?_ ?_ ?_
      · cases pipe <;> rfl
      · cases pipe <;> rfl
      · cases pipe <;> rfl
      · cases pipe <;> rfl
      · cases pipe <;> rfl
      · intro c; cases pipe <;> exact ⟨rfl, rfl⟩
      · intro c; cases pipe <;> exact (hq c).1
      · intro o2 h2 c
        have : (((if pipe = true then { fresh s m.handle with
            listenq := (fresh s m.handle).listenq ++ [s.next] } else fresh s m.handle) : State).obj c).listenq
            = (s.obj c).listenq := by
          cases pipe <;> exact (hq c).2
        rw [this]
        exact called_none hi c (Or.inr (Or.inl hl))
      · intro c hc
        have hlt : s.next ≤ c := by
          cases pipe <;> (simp [fresh] at hc; omega)
        have := (hi.new c hlt).2
        cases pipe <;> exact (hq c).2.trans this
    · rename_i b hl
      split
      · rename_i bc hb
        have hbc := (htab.conns b bc).mp hb
        refine base _ rfl rfl rfl rfl rfl ?_ ?_ ?_ ?_
        · intro c
          by_cases e : c = bc
          · subst e; simp
          · simp [e]
        · intro c
          by_cases e : c = bc
          · subst e; simp [(hq c).1]
          · simp [e, (hq c).1]
        · intro o2 h2 c
          have hh : hand c (l ++ [(Ev.line m, [.opened s.next m.handle] ++ o2)])
              = handOut c (hand c l) (.opened s.next m.handle) := by
            rw [hand_snoc, handStep_eq, List.foldl_append, h2.hand]; rfl
          by_cases e : c = bc
          · subst e
            have h1 : hand c (l ++ [(Ev.line m, [.opened s.next m.handle] ++ o2)]) = some b := by
              rw [hh, htab.hand c, if_pos ⟨hbc.1, hbc.2.1⟩, hbc.2.2]
            have := Called.call (hi.called c) (c := s.next) (bh := b) (m := m)
              (o := [.opened s.next m.handle] ++ o2) (by simp) ht hl h1
            simpa [(hq c).2] using this
          · have : ((State.set (fresh s m.handle) bc { (fresh s m.handle).obj bc with
                listenq := ((fresh s m.handle).obj bc).listenq ++ [s.next] }).obj c).listenq
                = (s.obj c).listenq := by
              rw [set_obj, if_neg e]; exact (hq c).2
            rw [this]
            refine called_none hi c (Or.inr (Or.inr fun bh hbh => ?_))
            rw [hl] at hbh
            have hbh : b = bh := Option.some.inj hbh
            subst hbh
            rw [hh, htab.hand c]
            intro hx
            split at hx
            · rename_i hh2
              have h3 := (htab.conns b c).mpr ⟨hh2.1, hh2.2, Option.some.inj hx⟩
              rw [hb] at h3
              exact e (Option.some.inj h3).symm
            · cases hx
        · intro c hc
          have hlt : s.next + 1 ≤ c := hc
          have hne : c ≠ bc := by
            have := hbc.1
            simp only [fresh] at this
            omega
          have := (hi.new c (by omega)).2
          simp only [set_obj, if_neg hne]
          exact (hq c).2.trans this
      · rename_i hb
        obtain ⟨h1, h2⟩ := htab.close (c := s.next) (by simp [fresh]) (by simp [fresh])
        obtain ⟨f1, f2, f3, f4, f5⟩ := close_fields (fresh s m.handle) s.next
        rw [h2]
        have hcl : ∀ c, handOut c (handOut c (hand c l) (.opened s.next m.handle)) (.closed s.next)
            ≠ some m.handle := by
          intro c hx
          by_cases e : s.next = c
          · subst e; simp [handOut] at hx
          · have : handOut c (handOut c (hand c l) (.opened s.next m.handle)) (.closed s.next)
                = handOut c (hand c l) (.opened s.next m.handle) := by
              simp [handOut, e]
            rw [this, fresh_hand hi hf] at hx
            exact e hx.symm
        refine ⟨?_, f2, f3, f1, ?_, ?_, ?_, ?_, ?_, ?_⟩
        · have : (fun c => List.foldl (handOut c) (hand c l)
              [.opened s.next m.handle, .sent m.handle true, .closed s.next])
              = fun c => handOut c (handOut c (hand c l) (.opened s.next m.handle)) (.closed s.next) := by
            funext c; simp [handOut]
          rw [this]; exact h1
        · rw [f4]; simp [fresh]
        · intro c; rw [(f5 c).1]; exact (hq c).1
        · intro c
          simp only [reduceCtorEq, false_iff]
          have := hcl c
          simpa [handOut] using this
        · simp
        · intro o2 ho2 c
          rw [(f5 c).2, (hq c).2]
          refine called_none hi c (Or.inr (Or.inr fun bh hbh => ?_))
          rw [hl] at hbh
          have hbh : b = bh := Option.some.inj hbh
          subst hbh
          rw [hand_snoc, handStep_eq, List.foldl_append, ho2.hand]
          have : List.foldl (handOut c) (hand c l)
              [.opened s.next m.handle, .sent m.handle true, .closed s.next]
              = handOut c (handOut c (hand c l) (.opened s.next m.handle)) (.closed s.next) := by
            simp [handOut]
          rw [this, h1.hand c, f4]
          intro hx
          split at hx
          · rename_i hh2
            by_cases e : c = s.next
            · subst e
              have := hh2.2
              simp [close, fresh] at this
            · have hsame : ((close (fresh s m.handle) s.next).1.obj c) = (fresh s m.handle).obj c := by
                simp [close, fresh, e]
              rw [hsame] at hh2 hx
              have := (htab.conns b c).mpr ⟨hh2.1, hh2.2, Option.some.inj hx⟩
              rw [hb] at this; cases this
          · cases hx
        · intro c hc
          rw [f4] at hc
          rw [(f5 c).2, (hq c).2]
          exact (hi.new c (by simp [fresh] at hc; omega)).2
  · rename_i ht
    refine base _ rfl rfl rfl rfl rfl (fun _ => ⟨rfl, rfl⟩) (fun c => (hq c).1) ?_ ?_
    · intro o2 h2 c
      rw [(hq c).2]
      exact called_none hi c (Or.inl ht)
    · intro c hc
      have hlt : s.next + 1 ≤ c := hc
      exact (hq c).2.trans (hi.new c (by omega)).2

/-- The result of `parse`. -/
theorem parsed {late pipe s l m r} (hi : Inv late s l) (h : parse pipe s m = some r) :
    Parsed s l m r.1 r.2.1 r.2.2 := by
  unfold parse at h
  split at h
  · rename_i hz
    cases h
    refine parsed_same hi fun c => ?_
    simp only [reduceCtorEq, false_iff]
    rw [hi.tab.hand c]
    intro hx
    split at hx
    · rename_i hh
      exact hi.tab.nz c hh.1 ((Option.some.inj hx).trans hz)
    · cases hx
  · rename_i hz
    split at h
    · rename_i c hc
      cases h
      have h1 := (hi.tab.conns _ _).mp hc
      refine parsed_same hi fun i => ?_
      rw [hi.tab.hand i]
      constructor
      · intro e
        have e := Option.some.inj e
        subst e
        rw [if_pos ⟨h1.1, h1.2.1⟩, h1.2.2]
      · intro hx
        split at hx
        · rename_i hh
          have := (hi.tab.conns m.handle i).mpr ⟨hh.1, hh.2, Option.some.inj hx⟩
          rw [hc] at this; exact this
        · cases hx
    · rename_i hf
      split at h
      · cases h
        exact parsed_new hi hz hf
      · cases h

/-- `parse` fails on stray messages only. -/
theorem parse_none {late pipe s l m} (hi : Inv late s l) : parse pipe s m = none ↔ Stray l m := by
  have hty : m.type.opens = false ↔ m.type ≠ .connect ∧ m.type ≠ .connecting ∧ m.type ≠ .bind := by
    cases m.type <;> simp [Ty.opens]
  have hget : get s.conns m.handle = none ↔ ∀ c, hand c l ≠ some m.handle := by
    constructor
    · intro h c hx
      rw [hi.tab.hand c] at hx
      split at hx
      · rename_i hh
        have := (hi.tab.conns m.handle c).mpr ⟨hh.1, hh.2, Option.some.inj hx⟩
        rw [h] at this; cases this
      · cases hx
    · intro h
      cases hg : get s.conns m.handle with
      | none => rfl
      | some c =>
        have h1 := (hi.tab.conns _ _).mp hg
        refine absurd ?_ (h c)
        rw [hi.tab.hand c, if_pos ⟨h1.1, h1.2.1⟩, h1.2.2]
  unfold parse Stray
  split
  · rename_i hz; simp [hz]
  · rename_i hz
    rw [← hget]
    split
    · rename_i c hc; simp [hc]
    · rename_i hc
      rw [← hty]
      cases m.type.opens <;> simp [hz, hc]

theorem quiet_down {s l m s1 rc o1} (h : Parsed s l m s1 rc o1) : Out.down ∉ o1 := by
  intro hx
  rcases h.quiet _ hx with ⟨_, _, h⟩ | ⟨_, _, h⟩ | ⟨_, h⟩ <;> cases h

theorem quiet_asked {s l m s1 rc o1} (h : Parsed s l m s1 rc o1) (t : Nat) : Out.asked t ∉ o1 := by
  intro hx
  rcases h.quiet _ hx with ⟨_, _, h⟩ | ⟨_, _, h⟩ | ⟨_, h⟩ <;> cases h

theorem quiet_gotten {o1 : List Out}
    (h : ∀ o ∈ o1, (∃ c h, o = Out.opened c h) ∨ (∃ h b, o = .sent h b) ∨ ∃ c, o = .closed c)
    {o2 : List Out} (h2 : Plain o2) (e : Ev) (c : Nat) :
    gotten c [(e, o1 ++ o2)] = [] ∧ answered c [(e, o1 ++ o2)] = [] := by
  constructor
  · simp only [gotten, List.flatMap_cons, List.flatMap_nil, List.append_nil, List.filterMap_eq_nil_iff,
      List.mem_append]
    rintro a (ha | ha)
    · rcases h a ha with ⟨_, _, rfl⟩ | ⟨_, _, rfl⟩ | ⟨_, rfl⟩ <;> rfl
    · rcases h2 a ha with rfl | ⟨_, _, _, rfl⟩ <;> rfl
  · simp only [answered, List.flatMap_cons, List.flatMap_nil, List.append_nil, List.filterMap_eq_nil_iff,
      List.mem_append]
    rintro a (ha | ha)
    · rcases h a ha with ⟨_, _, rfl⟩ | ⟨_, _, rfl⟩ | ⟨_, rfl⟩ <;> rfl
    · rcases h2 a ha with rfl | ⟨_, _, _, rfl⟩ <;> rfl

theorem waiting_line {l : Log} {m : Msg} {o : List Out} (ha : ∀ t, Out.asked t ∉ o) (t : Nat) :
    waiting t (l ++ [(.line m, o)]) = if m.tag = some t then none else waiting t l := by
  rw [waiting_snoc]
  simp [waitStep, ha t]

/-- Assembling the invariant after a line. -/
theorem inv_line {late s l m s1 rc o1 s2 o2} (hi : Inv late s l) (hp : Parsed s l m s1 rc o1) (h2 : Plain o2)
    (hu : s.up = true)
    (hup : s2.up = true ↔ Out.down ∉ o2)
    (hex : ∀ t, get s2.exch t = if m.tag = some t then none else get s.exch t)
    (htag : s2.tag = s.tag)
    (htab : s2.next = s1.next ∧ s2.conns = s1.conns ∧
      ∀ c, (s2.obj c).closed = (s1.obj c).closed ∧ (s2.obj c).handle = (s1.obj c).handle)
    (hr : ∀ c, (s2.obj c).recvq = (s1.obj c).recvq ++ if m.tag = none ∧ rc = some c then [m] else [])
    (hl : ∀ c, (s2.obj c).listenq = (s1.obj c).listenq) :
    Inv late s2 (l ++ [(.line m, o1 ++ o2)]) := by
  have ha : ∀ t, Out.asked t ∉ o1 ++ o2 := by
    intro t hx
    rcases List.mem_append.mp hx with hx | hx
    · exact quiet_asked hp t hx
    · rcases h2 _ hx with h | ⟨_, _, _, h⟩ <;> cases h
  have hd : ¬ Down l := hi.up.mp hu
  have hhand : ∀ c, hand c (l ++ [(.line m, o1 ++ o2)]) = o1.foldl (handOut c) (hand c l) := by
    intro c
    rw [hand_snoc, handStep_eq, List.foldl_append, h2.hand]
  have hq := fun c => quiet_gotten hp.quiet h2 (.line m) c
  refine ⟨?_, ?_, ?_, ?_, ?_, ?_, ?_, ?_⟩
  · have : (fun c => hand c (l ++ [(Ev.line m, o1 ++ o2)])) = fun c => o1.foldl (handOut c) (hand c l) :=
      funext hhand
    rw [this]
    exact hp.tab.same htab.1 htab.2.1 htab.2.2
  · rw [hup, down_snoc]
    simp [hd, quiet_down hp]
  · intro _ t
    rw [hex, waiting_line ha, hi.exch hu t]
    split <;> simp
  · intro t h
    rw [htag]
    rw [hex] at h
    split at h
    · exact absurd rfl h
    · exact hi.old t h
  · intro t h
    rw [htag]
    rw [waiting_line ha] at h
    split at h
    · exact absurd rfl h
    · exact hi.wait t h
  · intro c
    have := heard_snoc (x := (.line m, o1 ++ o2)) (hi.heard c)
    rw [gotten_snoc, (hq c).1, List.append_nil, hr, hp.recvq, ← List.append_assoc]
    have hb : brings c l (.line m, o1 ++ o2) = if m.tag = none ∧ rc = some c then [m] else [] := by
      unfold brings
      simp only [hhand, ← hp.rc c, hd, not_false_eq_true, true_and]
    rwa [hb] at this
  · intro c
    rw [answered_snoc, (hq c).2, List.append_nil, hl]
    exact hp.called o2 h2 c
  · intro c hc
    rw [htab.1] at hc
    have h1 := hi.new c (Nat.le_trans hp.next hc)
    rw [hl, hr, hp.recvq, h1.1, hp.new c hc]
    refine ⟨?_, rfl⟩
    rw [if_neg]; rfl
    rintro ⟨_, hx⟩
    have h2 := (hp.rc c).mp hx
    rw [hp.tab.hand c, if_neg] at h2
    · cases h2
    · rintro ⟨h3, _⟩; omega

theorem inv_dispatch {late pipe s l} (m : Msg) (hi : Inv late s l) (hu : s.up = true) :
    Inv late (dispatch pipe s m).1 (l ++ [(.line m, (dispatch pipe s m).2)]) := by
  unfold dispatch
  split
  · -- a stray message
    rename_i hn
    unfold die
    have ha : ∀ t, Out.asked t ∉ [Out.down] := by simp
    refine ⟨?_, ?_, ?_, ?_, ?_, ?_, ?_, ?_⟩
    · rw [hand_eq]
      have : (fun c => List.foldl (handOut c) (hand c l) ([] ++ [Out.down])) = fun c => hand c l := by
        funext c; simp [handOut]
      rw [this]
      exact hi.tab.same rfl rfl fun _ => ⟨rfl, rfl⟩
    · rw [down_snoc]; simp
    · intro h; cases h
    · exact hi.old
    · intro t h
      rw [List.nil_append, waiting_line ha] at h
      split at h
      · exact absurd rfl h
      · exact hi.wait t h
    · intro c
      have := heard_snoc (x := (.line m, [Out.down])) (hi.heard c)
      have hb : brings c l (.line m, [Out.down]) = [] := by
        unfold brings
        simp only
        rw [if_neg]
        rintro ⟨_, _, h⟩
        rw [hand_snoc, handStep_eq] at h
        simp only [List.foldl_cons, List.foldl_nil, handOut, reduceCtorEq, if_false] at h
        exact ((parse_none hi).mp hn).2.1 c h
      rw [hb, List.append_nil] at this
      simpa [gotten_snoc, gotten] using this
    · intro c
      rw [answered_snoc]
      have : answered c [(Ev.line m, [] ++ [Out.down])] = [] := rfl
      rw [this, List.append_nil]
      exact .skip (hi.called c) fun m' c' bh _ ho => by simp at ho
    · exact hi.new
  · rename_i s1 rc o1 hs
    have hp : Parsed s l m s1 rc o1 := parsed hi hs
    unfold deliver
    split
    · rename_i t ht
      have hnt : ∀ c : Nat, (if m.tag = none ∧ rc = some c then [m] else []) = [] := by
        intro c; rw [if_neg]; rw [ht]; simp
      split
      · rename_i hg
        have := inv_line (o2 := []) (s2 := s1) hi hp (by simp [Plain]) hu (by simp [hp.up, hu]) ?_ hp.tag
          ⟨rfl, rfl, fun _ => ⟨rfl, rfl⟩⟩ (by intro c; rw [hnt, List.append_nil]) (fun _ => rfl)
        · simpa using this
        · intro j
          rw [hp.exch] at hg ⊢
          rw [ht]
          by_cases e : t = j
          · subst e; simp [hg]
          · simp [e]
      · rename_i hg
        refine inv_line (o2 := [.down]) (s2 := { s1 with exch := del s1.exch t, up := false }) hi hp (by simp [Plain]) hu (by simp) ?_ hp.tag
          ⟨rfl, rfl, fun _ => ⟨rfl, rfl⟩⟩ (by intro c; rw [hnt, List.append_nil]) (fun _ => rfl)
        intro j
        simp only [get_del, hp.exch, ht, Option.some.injEq]
        by_cases e : t = j
        · subst e; simp
        · simp [e, Ne.symm e]
      · rename_i hg
        refine inv_line (o2 := [.done t rc m]) (s2 := { s1 with exch := del s1.exch t }) hi hp (by simp [Plain]) hu (by simp [hp.up, hu]) ?_ hp.tag
          ⟨rfl, rfl, fun _ => ⟨rfl, rfl⟩⟩ (by intro c; rw [hnt, List.append_nil]) (fun _ => rfl)
        intro j
        simp only [get_del, hp.exch, ht, Option.some.injEq]
        by_cases e : t = j
        · subst e; simp
        · simp [e, Ne.symm e]
    · rename_i ht
      split
      · rename_i c
        have := inv_line (o2 := []) (s2 := s1.set c { s1.obj c with recvq := (s1.obj c).recvq ++ [m] })
          hi hp (by simp [Plain]) hu (by simp [hp.up, hu]) (by simp [hp.exch, ht]) hp.tag
          ⟨rfl, rfl, ?_⟩ ?_ ?_
        · simpa using this
        · intro i
          by_cases e : i = c
          · subst e; simp
          · simp [e]
        · intro i
          by_cases e : i = c
          · subst e; simp [ht]
          · simp [e, Ne.symm e]
        · intro i
          by_cases e : i = c
          · subst e; simp
          · simp [e]
      · have := inv_line (o2 := []) (s2 := { s1 with recvq := s1.recvq ++ [m] })
          hi hp (by simp [Plain]) hu (by simp [hp.up, hu]) (by simp [hp.exch, ht]) hp.tag
          ⟨rfl, rfl, fun _ => ⟨rfl, rfl⟩⟩ (by simp) (fun _ => rfl)
        simpa using this

theorem inv_step {late pipe s l} (e : Ev) (hi : Inv late s l) :
    Inv late (step late pipe s e).1 (l ++ [(e, (step late pipe s e).2)]) := by
  cases e with
  | exch => exact inv_exch hi
  | cancel t => exact inv_cancel t hi
  | line m =>
    by_cases hu : s.up = true
    · have : step late pipe s (.line m) = dispatch pipe s m := by simp [step, hu]
      rw [this]
      exact inv_dispatch m hi hu
    · have : step late pipe s (.line m) = (s, []) := by simp [step, hu]
      rw [this]
      have hd : Down l := Classical.byContradiction fun h => hu (hi.up.mpr h)
      refine ⟨?_, ?_, ?_, ?_, ?_, ?_, ?_, ?_⟩
      · rw [hand_eq]; exact hi.tab
      · rw [down_snoc]; simp [hd, hu]
      · intro h; exact absurd h hu
      · exact hi.old
      · intro t h
        rw [waiting_line (by simp)] at h
        split at h
        · exact absurd rfl h
        · exact hi.wait t h
      · intro c
        have := heard_snoc (x := (.line m, [])) (hi.heard c)
        have hb : brings c l (.line m, []) = [] := by simp [brings, hd]
        rw [hb, List.append_nil] at this
        simpa [gotten_snoc, gotten] using this
      · intro c
        rw [answered_snoc]
        have : answered c [(Ev.line m, [])] = [] := rfl
        rw [this, List.append_nil]
        exact .skip (hi.called c) fun m' c' bh _ ho => by simp at ho
      · exact hi.new
  | recv c => exact inv_recv c hi
  | listen c => exact inv_listen c hi
  | call c b => exact inv_call c b hi

end Verif.Conn
