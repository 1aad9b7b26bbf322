import Verif.Mapper.Steps

/-!
# Histories of the mapper
-/

namespace Verif.Mapper

theorem getElem?_split {α : Type} {l : List α} {k : Nat} {x : α} (h : l[k]? = some x) :
    ∃ a b, l = a ++ x :: b ∧ ∀ y, l.set k y = a ++ y :: b := by
  induction l generalizing k with
  | nil => simp at h
  | cons c r ih =>
    cases k with
    | zero =>
      simp only [List.getElem?_cons_zero, Option.some.injEq] at h
      subst h
      exact ⟨[], r, rfl, fun y => rfl⟩
    | succ k =>
      simp only [List.getElem?_cons_succ] at h
      obtain ⟨a, b, h1, h2⟩ := ih h
      refine ⟨c :: a, b, by rw [h1]; rfl, fun y => ?_⟩
      simp only [List.set_cons_succ, h2 y, List.cons_append]

theorem set_same {α : Type} {l : List α} {k : Nat} {x : α} (h : l[k]? = some x) : l.set k x = l := by
  obtain ⟨a, b, h1, h2⟩ := getElem?_split h
  rw [h2 x, ← h1]

/-- The constants of a poll of the mapper. -/
def S.k (C : Prop) (T : Nat) (s : S) (p : Poller) : K where
  C := C
  full := s.full
  ts := s.pollts
  T := T
  L := since s.out
  cur := p.cur
  id := p.id
  N := s.m.nodes.map Prod.fst
  todo := p.todo
  nx := s.m.next

theorem rest_poller {C : Prop} {T : Nat} {s : S} (h : Mid C T s) {p : Poller} (hp : Polls s p) :
    Rest (s.k C T p) { m := s.m, p := p } := by
  refine ⟨⟨?_, rfl, hp.cur, hp.ts, rfl, ?_, ?_, ?_, fun _ h => h, Nat.le_refl _⟩, hp.dones, rfl, hp.waits, hp.timer⟩
  · simp only [S.k, List.append_nil]; exact h.mi
  · intro _ r c j hj; simp at hj
  · intro _ e he; exact Or.inl (List.mem_map_of_mem he)
  · intro o ho; simp at ho

/-- A poller acts. -/
theorem si_poller {C : Prop} {T : Nat} {s : S} (h : SI C T s) {k : Nat} {p : Poller}
    (hk : s.pollers[k]? = some p) (hp : Polls s p) (f : W → W)
    (hf : Fin (s.k C T p) (f { m := s.m, p := p })) :
    SI C T (s.withPoller k f) ∧ Shows C s (s.withPoller k f) := by
  have hst : s.st = .polling := by
    by_cases hst : s.st = .polling
    · exact hst
    · have := (h.idle hst).2.2.2.2 p (List.mem_of_getElem? hk)
      have h1 := hp.dones
      have h2 := this.1
      omega
  obtain ⟨hm, hne⟩ := h.busy hst
  have e : s.withPoller k f = { s with
      m := (f { m := s.m, p := p }).m, pollers := s.pollers.set k (f { m := s.m, p := p }).p
      queue := s.queue ++ (f { m := s.m, p := p }).q, out := s.out ++ (f { m := s.m, p := p }).out } := by
    simp only [S.withPoller, hk]
  rw [e]
  generalize f { m := s.m, p := p } = w at hf
  obtain ⟨hw, hcase⟩ := hf
  have hsince : since (s.out ++ w.out) = since s.out ++ w.out :=
    since_append _ _ (fun x hx => isSaw_scan (hw.saws x hx))
  have hpoll : polledOf (s.out ++ w.out) = polledOf s.out := polledOf_saws _ _ hw.saws
  obtain ⟨a, b, hab, hset⟩ := getElem?_split hk
  have hmid : Mid C T { s with
      m := w.m, pollers := s.pollers.set k w.p
      queue := s.queue ++ w.q, out := s.out ++ w.out } := by
    have hin : ∀ q, q ∈ s.pollers → q = p ∨ q ∈ a ∨ q ∈ b := by
      intro q hq
      rw [hab] at hq
      simp only [List.mem_append, List.mem_cons] at hq
      rcases hq with hq | hq | hq
      · exact Or.inr (Or.inl hq)
      · exact Or.inl hq
      · exact Or.inr (Or.inr hq)
    have hin2 : ∀ q, q ∈ s.pollers.set k w.p ↔ q = w.p ∨ q ∈ a ∨ q ∈ b := by
      intro q
      rw [hset w.p]
      simp only [List.mem_append, List.mem_cons]
      constructor
      · rintro (h | h | h)
        · exact Or.inr (Or.inl h)
        · exact Or.inl h
        · exact Or.inr (Or.inr h)
      · rintro (h | h | h)
        · exact Or.inr (Or.inl h)
        · exact Or.inl h
        · exact Or.inr (Or.inr h)
    have hw2 : ∀ i, i ∈ w.p.todo → Pend { s with
        m := w.m, pollers := s.pollers.set k w.p
        queue := s.queue ++ w.q, out := s.out ++ w.out } i := by
      intro i hi
      rcases hcase with ⟨h1, _, _, _⟩ | ⟨_, h2, _, _⟩
      · exact Or.inr (Or.inr (Or.inr ⟨w.p, (hin2 _).2 (Or.inl rfl), h1, hi⟩))
      · refine Or.inr (Or.inr (Or.inl ⟨(p.id, w.p.todo), ?_, hi⟩))
        simp only [h2, List.mem_append, List.mem_singleton]; exact Or.inr rfl
    have hpend : ∀ i, Pend s i → Pend { s with
        m := w.m, pollers := s.pollers.set k w.p
        queue := s.queue ++ w.q, out := s.out ++ w.out } i := by
      rintro i (h | h | ⟨d, h1, h2⟩ | ⟨q, h1, h2, h3⟩)
      · exact Or.inl h
      · exact Or.inr (Or.inl h)
      · exact Or.inr (Or.inr (Or.inl ⟨d, by simp [h1], h2⟩))
      · rcases hin q h1 with hq | hq
        · subst hq; exact hw2 i (hw.mono i h3)
        · exact Or.inr (Or.inr (Or.inr ⟨q, (hin2 q).2 (Or.inr hq), h2, h3⟩))
    refine ⟨?_, hm.dnd, hm.pnd, hm.sub, hm.len, ?_, ?_, ?_, ?_, ?_, ?_⟩
    · simp only [hsince]; exact hw.mi
    · have hacc := hm.acc
      have e1 : s.active = (a.filter fun p => p.dones = 0).map Poller.id ++ p.id ::
          (b.filter fun p => p.dones = 0).map Poller.id := by
        unfold S.active
        rw [hab, List.filter_append, List.map_append]
        simp [hp.dones]
      rw [e1] at hacc
      simp only [S.active, hset w.p, List.filter_append, List.map_append]
      rcases hcase with ⟨h1, h2, _, _⟩ | ⟨h1, h2, _, _⟩
      · have hid : w.p.id = p.id := hw.id
        simp only [h1, h2, List.filter_cons, decide_true, if_true, List.map_cons, hid, List.map_nil,
          List.append_nil]
        exact hacc
      · have : ¬ w.p.dones = 0 := by omega
        have hid : (s.k C T p).id = p.id := rfl
        simp only [List.filter_cons, this, decide_false, Bool.false_eq_true, if_false, h2,
          List.map_cons, List.map_nil, hid]
        refine List.Perm.trans ?_ hacc
        rw [List.append_assoc, List.append_assoc]
        refine List.Perm.append_left _ ?_
        rw [List.cons_append, ← List.append_assoc]
        exact List.perm_append_comm
    · intro q hq
      have hwn : ∀ q : Poller, q ∈ a ∨ q ∈ b → q ∈ s.pollers := by
        intro q hq; rw [hab]; simp only [List.mem_append, List.mem_cons]
        exact hq.imp id Or.inr
      rcases (hin2 q).1 hq with hq | hq
      · rw [hq]
        rcases hcase with ⟨h1, h2, h3, h4⟩ | ⟨h1, h2, h3, h4⟩
        · exact Or.inl ⟨h1, hw.ts, by have := hw.lt; rw [hw.cur]; exact this, h3, h4⟩
        · exact Or.inr ⟨h1, h3, h4⟩
      · refine (hm.pol q (hwn q hq)).imp (fun h => ⟨h.dones, h.ts, ?_, h.waits, h.timer⟩) id
        exact Nat.lt_of_lt_of_le h.cur hw.next
    · simp only [hpoll]; exact hm.polled
    · exact fun hf => hpend _ (hm.own hf)
    · intro hf r c j hj
      simp only [hsince, List.mem_append] at hj
      rcases hj with hj | hj
      · exact hpend _ (hm.saws hf r c j hj)
      · exact hw2 _ (hw.outs hf r c j hj)
    · intro hf h1 e he
      rcases hw.nodes hf e he with hn | hn
      · obtain ⟨x, hx, hxe⟩ := List.mem_map.1 hn
        rw [← hxe]; exact hpend _ (hm.nodes hf h1 x hx)
      · exact hw2 _ hn
  refine ⟨⟨hmid.mi, ?_, fun hh => absurd hst hh, fun _ => ⟨hmid, hne⟩, ?_, ?_⟩, w.out, rfl, ?_⟩
  · show (polledOf (s.out ++ w.out)).Nodup
    rw [hpoll]; exact h.once
  · intro hh; simp only [hst] at hh; cases hh
  · intro hh; simp only [hst] at hh; cases hh
  · intro hh; have := hw.saws _ hh; exact this.elim

end Verif.Mapper

namespace Verif.Mapper

theorem MI.mono {C : Prop} {full : Bool} {ts T T' : Nat} {m : Map} {L : List Out}
    (h : MI C full ts T m L) (ht : C → T ≤ T') : MI C full ts T' m L :=
  { h with
    times := fun hc r => before_mono (h.times hc r) (ht hc)
    adjs := fun hc r e he => before_mono (h.adjs hc r e he) (ht hc)
    stamp := fun hc => Nat.le_trans (h.stamp hc) (ht hc) }

theorem Mid.mono {C : Prop} {T T' : Nat} {s : S} (h : Mid C T s) (ht : C → T ≤ T') : Mid C T' s :=
  { h with mi := h.mi.mono ht }

theorem SI.mono {C : Prop} {T T' : Nat} {s : S} (h : SI C T s) (ht : C → T ≤ T') : SI C T' s :=
  { h with mi := h.mi.mono ht, busy := fun hs => ⟨(h.busy hs).1.mono ht, (h.busy hs).2⟩ }

theorem Shows.refl {C : Prop} (s : S) : Shows C s s := ⟨[], by simp, by simp⟩

theorem SI.toIdle {C : Prop} {T : Nat} {s : S} (h : SI C T s) (hs : s.st ≠ .polling) : Idle C T s := by
  obtain ⟨h1, h2, h3, h4, h5⟩ := h.idle hs
  exact ⟨by have := h.mi; rw [h3] at this; exact this, h.once, h1, h2, h3, h4, h5⟩

/-- The map changes outside full scans. -/
theorem si_map {C : Prop} {T T' : Nat} {s t : S} (h : SI C T s) (hf : s.full = false)
    (hm : MI C false s.pollts T' t.m (since s.out)) (hn : s.m.next ≤ t.m.next)
    (e1 : t.out = s.out) (e2 : t.pollts = s.pollts) (e3 : t.full = s.full) (e4 : t.polls = s.polls)
    (e5 : t.done = s.done) (e6 : t.queue = s.queue) (e7 : t.pollers = s.pollers) (e8 : t.st = s.st)
    (e9 : t.timer = s.timer ∨ t.timer = true) (e10 : t.thread = s.thread ∨ t.timer = true) :
    SI C T' t ∧ Shows C s t := by
  refine ⟨⟨?_, ?_, ?_, ?_, ?_, ?_⟩, [], by simp [e1], by simp⟩
  · rw [e1, e2, e3, hf]; exact hm
  · rw [e1]; exact h.once
  · rw [e3, e4, e5, e6, e7, e8]; exact h.idle
  · intro hs
    rw [e8] at hs
    obtain ⟨hmid, hne⟩ := h.busy hs
    have hft : t.full = false := e3.trans hf
    refine ⟨⟨?_, ?_, ?_, ?_, ?_, ?_, ?_, ?_, ?_, ?_, ?_⟩, by rw [e4]; exact hne⟩
    · rw [e1, e2, e3, hf]; exact hm
    · rw [e5]; exact hmid.dnd
    · rw [e4]; exact hmid.pnd
    · rw [e4, e5]; exact hmid.sub
    · rw [e4]; exact hmid.len
    · have := hmid.acc
      simp only [S.active, e7, e6, e4] at this ⊢
      exact this
    · intro p hp
      rw [e7] at hp
      exact (hmid.pol p hp).imp (fun h => ⟨h.dones, by rw [e2]; exact h.ts,
        Nat.lt_of_lt_of_le h.cur hn, h.waits, h.timer⟩) id
    · rw [e1, e5]; exact hmid.polled
    · intro hh; rw [hft] at hh; cases hh
    · intro hh; rw [hft] at hh; cases hh
    · intro hh; rw [hft] at hh; cases hh
  · intro hs
    rcases e9 with e9 | e9
    · rw [e9]; exact h.tmr (by rw [← e8]; exact hs)
    · exact e9
  · intro hs
    rcases e9 with e9 | e9
    · rcases e10 with e10 | e10
      · rw [e9, e10]; exact h.tmrd (by rw [← e8]; exact hs)
      · exact Or.inr e10
    · exact Or.inr e9

/-- The clock after an event. -/
def tick (T : Nat) : Ev → Nat
  | .timeout now _ _ => now
  | .circ _ _ _ _ now => max T now
  | .reach _ _ now => max T now
  | _ => T

/-- The clock goes forward. -/
def Fwd (T : Nat) : Ev → Prop
  | .timeout now _ _ => T < now
  | _ => True

theorem clock_cons (T : Nat) (e : Ev) (es : List Ev) :
    Clock T (e :: es) ↔ Fwd T e ∧ Clock (tick T e) es := by
  cases e <;> simp [Clock, Fwd, tick]

theorem filter_perm_head {a : Id} {l m : List Id} (h : (a :: l).Perm m) (hm : m.Nodup) :
    l.Perm (m.filter (· ≠ a)) := by
  have h1 := h.filter (fun x => decide (x ≠ a))
  have h2 : (a :: l).Nodup := (h.nodup_iff).2 hm
  have h3 : (a :: l).filter (fun x => decide (x ≠ a)) = l := by
    rw [List.filter_cons]
    simp only [ne_eq, not_true, decide_false, Bool.false_eq_true, if_false]
    rw [List.filter_eq_self]
    intro x hx
    have := (List.nodup_cons.1 h2).1
    simp only [decide_eq_true_eq]
    intro hh; subst hh; exact this hx
  rw [h3] at h1
  exact h1

/-- A poller that does nothing. -/
theorem withPoller_id {s : S} {k : Nat} {p : Poller} (hk : s.pollers[k]? = some p) (f : W → W)
    (hf : f { m := s.m, p := p } = { m := s.m, p := p }) : s.withPoller k f = s := by
  simp only [S.withPoller, hk, hf, set_same hk, List.append_nil]

theorem withPoller_none {s : S} {k : Nat} (hk : s.pollers[k]? = none) (f : W → W) :
    s.withPoller k f = s := by
  simp only [S.withPoller, hk]

theorem SI.pol {C : Prop} {T : Nat} {s : S} (h : SI C T s) {p : Poller} (hp : p ∈ s.pollers) :
    (Polls s p ∧ Mid C T s) ∨ p.Over := by
  by_cases hst : s.st = .polling
  · exact ((h.busy hst).1.pol p hp).imp (fun h1 => ⟨h1, (h.busy hst).1⟩) id
  · exact Or.inr ((h.idle hst).2.2.2.2 p hp)

theorem si_step {C : Prop} {T : Nat} {s : S} (h : SI C T s) (c : Dec) (e : Ev) (hok : Ok s e)
    (hc : C → Fwd T e) : SI C (tick T e) (s.step c e) ∧ Shows C s (s.step c e) := by
  cases e with
  | timeout now iso pick =>
    have hn : C → T < now := hc
    have hpick : Picks pick := hok
    show SI C now (if s.timer then S.idle now iso pick { s with timer := false } else s) ∧
      Shows C s (if s.timer then S.idle now iso pick { s with timer := false } else s)
    split
    · have h3 : s.st = .s0 ∨ s.st = .dbupdating ∨ s.st = .polling := by cases s.st <;> simp
      rcases h3 with hst | hst | hst
      · have hi := h.toIdle (by rw [hst]; simp)
        have e1 : S.idle now iso pick { s with timer := false } =
            if s.forceDb || decide (s.lastupdate + 86400 < now) then
              { s with timer := false, forceDb := false, thread := true, st := .dbupdating }
            else S.check now iso pick { s with timer := false } := by
          simp only [S.idle, hst]
        rw [e1]
        split
        · refine ⟨⟨?_, h.once, fun _ => h.idle (by rw [hst]; simp), ?_, ?_, fun _ => Or.inl rfl⟩, [], by simp, by simp⟩
          · exact h.mi.mono (fun hc => Nat.le_of_lt (hn hc))
          · intro hh; simp at hh
          · intro hh; simp at hh
        · exact si_check (s := { s with timer := false }) ⟨hi.mi, hi.once, hi.polls, hi.done, hi.full, hi.queue, hi.over⟩ iso hpick hn
      · have hi := h.toIdle (by rw [hst]; simp)
        have e1 : S.idle now iso pick { s with timer := false } =
            S.check now iso pick { s with timer := false, m := s.m.updateMap } := by
          simp only [S.idle, hst]
        rw [e1]
        exact si_check (s := { s with timer := false, m := s.m.updateMap })
          ⟨hi.mi.updateMap, hi.once, hi.polls, hi.done, hi.full, hi.queue, hi.over⟩ iso hpick hn
      · have e1 : S.idle now iso pick { s with timer := false } = { s with timer := false } := by
          simp only [S.idle, hst]
        rw [e1]
        obtain ⟨hmid, hne⟩ := h.busy hst
        have hmid' := hmid.mono (T' := now) (fun hc => Nat.le_of_lt (hn hc))
        refine ⟨⟨hmid'.mi, h.once, fun hh => absurd hst hh, fun _ => ⟨?_, hne⟩, ?_, ?_⟩, [], by simp, by simp⟩
        · exact ⟨hmid'.mi, hmid.dnd, hmid.pnd, hmid.sub, hmid.len, hmid.acc,
            fun p hp => (hmid.pol p hp).imp (fun h => ⟨h.dones, h.ts, h.cur, h.waits, h.timer⟩) id,
            hmid.polled, hmid.own, hmid.saws, hmid.nodes⟩
        · intro hh; simp only [hst] at hh; cases hh
        · intro hh; simp only [hst] at hh; cases hh
    · exact ⟨h.mono (fun hc => Nat.le_of_lt (hn hc)), Shows.refl s⟩
  | deliver now iso pick =>
    have hpick : Picks pick := hok
    cases hq : s.queue with
    | nil =>
      simp only [S.step, hq]
      exact ⟨h, Shows.refl s⟩
    | cons d q =>
      have hst : s.st = .polling := by
        by_cases hst : s.st = .polling
        · exact hst
        · have := (h.idle hst).2.2.2.1; rw [hq] at this; cases this
      obtain ⟨hmid, hne⟩ := h.busy hst
      simp only [S.step, hq, S.polldone, hst]
      refine si_nextnode (C := C) (T := T) (s := { s with
        queue := q, polls := s.polls.filter (· ≠ d.1), todo := s.todo ++ d.2, st := .polling }) ?_ hpick |> fun hh => ⟨hh.1, ?_⟩
      · have hp : ∀ i, Pend s i → Pend { s with
            queue := q, polls := s.polls.filter (· ≠ d.1), todo := s.todo ++ d.2, st := .polling } i := by
          rintro i (h | h | ⟨d', h1, h2⟩ | h)
          · exact Or.inl h
          · exact Or.inr (Or.inl (by simp [h]))
          · rw [hq] at h1
            rcases List.mem_cons.1 h1 with h1 | h1
            · subst h1; exact Or.inr (Or.inl (by simp [h2]))
            · exact Or.inr (Or.inr (Or.inl ⟨d', h1, h2⟩))
          · exact Or.inr (Or.inr (Or.inr h))
        refine ⟨hmid.mi, hmid.dnd, hmid.pnd.sublist List.filter_sublist,
          fun i hi => hmid.sub i (List.mem_filter.1 hi).1,
          Nat.le_trans (List.length_filter_le _ _) hmid.len, ?_,
          fun p hp => (hmid.pol p hp).imp (fun h => ⟨h.dones, h.ts, h.cur, h.waits, h.timer⟩) id,
          hmid.polled, fun hf => hp _ (hmid.own hf), fun hf r c j hj => hp _ (hmid.saws hf r c j hj),
          fun hf h1 e he => hp _ (hmid.nodes hf h1 e he)⟩
        have hacc := hmid.acc
        rw [hq] at hacc
        simp only [List.map_cons] at hacc
        exact filter_perm_head (List.perm_middle.symm.trans hacc) hmid.pnd
      · obtain ⟨l, hl, hl2⟩ := hh.2
        exact ⟨l, hl, hl2⟩
  | start k =>
    simp only [S.step, tick]
    cases hk : s.pollers[k]? with
    | none => rw [withPoller_none hk]; exact ⟨h, Shows.refl s⟩
    | some p =>
      rcases h.pol (List.mem_of_getElem? hk) with ⟨hp, hmid⟩ | hp
      · exact si_poller h hk hp _ (fin_start (rest_poller hmid hp))
      · rw [withPoller_id hk _ (by rw [if_neg]; exact hp.2.2)]
        exact ⟨h, Shows.refl s⟩
  | item k env i =>
    simp only [S.step, tick]
    cases hk : s.pollers[k]? with
    | none => rw [withPoller_none hk]; exact ⟨h, Shows.refl s⟩
    | some p =>
      obtain ⟨h0, hi⟩ := hok p hk
      rcases h.pol (List.mem_of_getElem? hk) with ⟨hp, hmid⟩ | hp
      · exact si_poller h hk hp _ (fin_item (rest_poller hmid hp) c env s.own i hi)
      · have := hp.1; omega
  | ptimeout k env =>
    simp only [S.step, tick]
    cases hk : s.pollers[k]? with
    | none => rw [withPoller_none hk]; exact ⟨h, Shows.refl s⟩
    | some p =>
      rcases h.pol (List.mem_of_getElem? hk) with ⟨hp, hmid⟩ | hp
      · exact si_poller h hk hp _ (fin_timeout (rest_poller hmid hp) env)
      · rw [withPoller_id hk _ (by simp [W.timeout, hp.2.1])]
        exact ⟨h, Shows.refl s⟩
  | circ up src circ adj now =>
    simp only [S.step, tick]
    split
    · exact ⟨h.mono (fun _ => Nat.le_max_left _ _), Shows.refl s⟩
    · next hf =>
      have hf : s.full = false := by simpa using hf
      have hmi : MI C false s.pollts T s.m (since s.out) := by rw [← hf]; exact h.mi
      obtain ⟨a1, a2, a3⟩ := hmi.mapnode src ""
      obtain ⟨b1, b2, b3⟩ := a1.mapnode adj ""
      exact si_map h hf (b1.laterAdj (max T now) (Nat.le_max_left _ _) _ _ _ up now (Nat.le_max_right _ _))
        (Nat.le_trans a3 b3) rfl rfl rfl rfl rfl rfl rfl rfl (Or.inr rfl) (Or.inr rfl)
  | reach n ok now =>
    simp only [S.step, tick]
    split
    · exact ⟨h.mono (fun _ => Nat.le_max_left _ _), Shows.refl s⟩
    · next hf =>
      have hf : s.full = false := by simpa using hf
      have hmi : MI C false s.pollts T s.m (since s.out) := by rw [← hf]; exact h.mi
      obtain ⟨a1, a2, a3⟩ := hmi.mapnode n ""
      split
      · exact si_map h hf (a1.mono (fun _ => Nat.le_max_left _ _)) a3 rfl rfl rfl rfl rfl rfl rfl rfl
          (Or.inr rfl) (Or.inr rfl)
      · exact si_map h hf (a1.later (max T now) (Nat.le_max_left _ _) _ false now (Nat.le_max_right _ _))
          a3 rfl rfl rfl rfl rfl rfl rfl rfl (Or.inr rfl) (Or.inr rfl)
  | record n =>
    obtain ⟨hst, h1, h2⟩ := hok
    simp only [S.step, tick]
    split
    · have hf := (h.idle (by rw [hst]; simp)).2.2.1
      have hmi : MI C false s.pollts T s.m (since s.out) := by rw [← hf]; exact h.mi
      exact si_map h hf (hmi.addnode n h1 h2) (addnode_next s.m n) rfl rfl rfl rfl rfl rfl rfl rfl
        (Or.inl rfl) (Or.inl rfl)
    · exact ⟨h, Shows.refl s⟩
  | dbEnd upd =>
    simp only [S.step, tick]
    split
    · refine ⟨⟨h.mi, h.once, h.idle, ?_, fun _ => rfl, fun _ => Or.inr rfl⟩, [], by simp, by simp⟩
      intro hst
      obtain ⟨hmid, hne⟩ := h.busy hst
      exact ⟨⟨hmid.mi, hmid.dnd, hmid.pnd, hmid.sub, hmid.len, hmid.acc,
            fun p hp => (hmid.pol p hp).imp (fun h => ⟨h.dones, h.ts, h.cur, h.waits, h.timer⟩) id,
            hmid.polled, hmid.own, hmid.saws, hmid.nodes⟩, hne⟩
    · exact ⟨h, Shows.refl s⟩

end Verif.Mapper
