import Verif.Mapper.SchedInv

/-!
# The invariant is kept
-/

namespace Verif.Mapper

/-- The invariant between events. -/
structure SI (C : Prop) (T : Nat) (s : S) : Prop where
  mi : MI C s.full s.pollts T s.m (since s.out)
  once : (polledOf s.out).Nodup
  idle : s.st ≠ .polling → s.polls = [] ∧ s.done = [] ∧ s.full = false ∧ s.queue = [] ∧
    ∀ p, p ∈ s.pollers → p.Over
  busy : s.st = .polling → Mid C T s ∧ s.polls ≠ []
  tmr : s.st = .s0 → s.timer = true
  tmrd : s.st = .dbupdating → s.thread = true ∨ s.timer = true

/-- What a step does to what is seen. -/
def Shows (C : Prop) (s t : S) : Prop :=
  ∃ l, t.out = s.out ++ l ∧ (Out.ended true ∈ l → FullEnd C t)

theorem active_nil {C : Prop} {T : Nat} {s : S} (h : Mid C T s) (hp : s.polls = []) :
    s.queue = [] ∧ ∀ p, p ∈ s.pollers → p.Over := by
  have h1 := h.acc
  rw [hp] at h1
  have h2 := h1.eq_nil
  rw [List.append_eq_nil_iff] at h2
  refine ⟨by simpa using h2.2, ?_⟩
  intro p hm
  rcases h.pol p hm with h3 | h3
  · have : p.id ∈ s.active := by
      unfold S.active
      exact List.mem_map_of_mem (List.mem_filter.2 ⟨hm, by simp [h3.dones]⟩)
    rw [h2.1] at this; cases this
  · exact h3

theorem pend_done {C : Prop} {T : Nat} {s : S} (h : Mid C T s) (hp : s.polls = [])
    (ht : s.todo = []) {i : Id} (hi : Pend s i) : i ∈ polledOf s.out := by
  obtain ⟨hq, ho⟩ := active_nil h hp
  rw [h.polled]
  rcases hi with hi | hi | ⟨d, hd, _⟩ | ⟨p, h1, h2, _⟩
  · exact hi
  · rw [ht] at hi; cases hi
  · rw [hq] at hd; cases hd
  · have := (ho p h1).1; omega

theorem si_finish {C : Prop} {T : Nat} {s : S} (h : Mid C T s) (hp : s.polls = [])
    (ht : s.todo = []) (hf : s.full = true → s.first = false) :
    SI C T s.finish ∧ s.finish.out = s.out ++ [.ended s.full] ∧ (s.full = true → FullEnd C s.finish) := by
  obtain ⟨hq, ho⟩ := active_nil h hp
  have hs : since (s.out ++ [.ended s.full]) = since s.out ++ [.ended s.full] := since_snoc _ _ rfl
  have hpo : polledOf (s.out ++ [.ended s.full]) = polledOf s.out := by
    rw [polledOf_append _ _ (by intro x hx; simp only [List.mem_singleton] at hx; rw [hx]; rfl)]
    simp
  have hm : s.finish.m = (if s.full then s.m.down s.pollts else s.m).updateMap := rfl
  have hmi : MI C false s.pollts T s.finish.m (since s.finish.out) := by
    have : s.finish.out = s.out ++ [.ended s.full] := rfl
    rw [this, hs, hm]
    refine MI.more ?_ (Nat.le_refl _) (L := since s.out) (by simp) (by simp)
    refine MI.updateMap ?_
    split
    · exact h.mi.down
    · exact h.mi.over
  refine ⟨⟨hmi, ?_, ?_, ?_, fun _ => rfl, ?_⟩, rfl, ?_⟩
  · show (polledOf (s.out ++ [.ended s.full])).Nodup
    rw [hpo, h.polled]; exact h.dnd
  · intro _; exact ⟨rfl, rfl, rfl, hq, ho⟩
  · intro hh; exact absurd hh (by simp [S.finish])
  · intro hh; exact absurd hh (by simp [S.finish])
  · intro hfull
    have hout : s.finish.out = s.out ++ [.ended s.full] := rfl
    have hm2 : s.finish.m = (s.m.down s.pollts).updateMap := by rw [hm, hfull]; rfl
    have hu := updateMap_spec (m := s.m.down s.pollts) (fun i r hi => (h.mi.down.refs i r hi).1)
    refine ⟨?_, ?_, ?_, ?_⟩
    · rw [hout, hpo]; exact pend_done h hp ht (h.own hfull)
    · intro r c j hj
      rw [hout, hs] at hj
      rw [hout, hpo]
      exact pend_done h hp ht (h.saws hfull r c j (by simpa using hj))
    · intro i r hi
      rw [hout, hpo]
      rw [hm2] at hi ⊢
      rcases hu.2.2.2 _ hi with hi | hi
      · exact Or.inl (pend_done h hp ht (h.nodes hfull (hf hfull) _ hi))
      · exact Or.inr hi.2.2
    · intro hc i r hi
      have hmi' : MI C true s.pollts T s.m (since s.out) := by rw [← hfull]; exact h.mi
      rw [hm2] at hi
      have := hmi'.result hc hi
      rw [hm2, hout, hs]
      refine ⟨this.1.trans (by simp), fun e he => (this.2 e he).trans (by simp)⟩

theorem si_polling {C : Prop} {T : Nat} {s : S} (h : Mid C T s) (hp : s.polls ≠ []) :
    SI C T { s with st := .polling } := by
  refine ⟨h.mi, ?_, fun hh => absurd rfl hh, fun _ => ⟨?_, hp⟩, fun hh => by simp at hh, fun hh => by simp at hh⟩
  · show (polledOf s.out).Nodup
    rw [h.polled]; exact h.dnd
  · exact ⟨h.mi, h.dnd, h.pnd, h.sub, h.len, h.acc,
      fun p hp => (h.pol p hp).imp (fun h => ⟨h.dones, h.ts, h.cur, h.waits, h.timer⟩) id, h.polled,
      h.own, h.saws, h.nodes⟩

theorem si_nextnode {C : Prop} {T : Nat} {s : S} (h : Mid C T s) {pick : List Id → List Id}
    (hpick : Picks pick) : SI C T (s.nextnode pick) ∧ Shows C s (s.nextnode pick) := by
  unfold S.nextnode
  simp only
  obtain ⟨h1, f1, t1⟩ := mid_pop (pick s.todo) s (h.retodo _ (fun x hx => (hpick _ x).2 hx))
  obtain ⟨l1, hl1, hp1⟩ := f1.out
  split
  · next hne =>
    exact ⟨si_polling h1 hne, l1, hl1, fun hh => by obtain ⟨i, hi⟩ := hp1 _ hh; cases hi⟩
  · next hne =>
    have he : (S.pop (pick s.todo) s).polls = [] := by simpa using hne
    have ht := t1 he
    split
    · next hfirst =>
      have hmid : Mid C T { (S.pop (pick s.todo) s) with
          first := false, todo := (S.pop (pick s.todo) s).m.nodes.map Prod.fst } := by
        have hp : ∀ i, Pend (S.pop (pick s.todo) s) i → Pend { (S.pop (pick s.todo) s) with
            first := false, todo := (S.pop (pick s.todo) s).m.nodes.map Prod.fst } i := by
          rintro i (h | h | h | h)
          · exact Or.inl h
          · rw [ht] at h; cases h
          · exact Or.inr (Or.inr (Or.inl h))
          · exact Or.inr (Or.inr (Or.inr h))
        exact ⟨h1.mi, h1.dnd, h1.pnd, h1.sub, h1.len, h1.acc,
          fun p hp => (h1.pol p hp).imp (fun h => ⟨h.dones, h.ts, h.cur, h.waits, h.timer⟩) id, h1.polled,
          fun hf => hp _ (h1.own hf), fun hf r c j hj => hp _ (h1.saws hf r c j hj),
          fun hf _ e he => Or.inr (Or.inl (List.mem_map_of_mem he))⟩
      generalize hs2 : ({ (S.pop (pick s.todo) s) with
          first := false, todo := (S.pop (pick s.todo) s).m.nodes.map Prod.fst } : S) = s2 at hmid ⊢
      have htodo2 : (S.pop (pick s.todo) s).m.nodes.map Prod.fst = s2.todo := by rw [← hs2]
      have hout2 : s2.out = s.out ++ l1 := by rw [← hs2]; exact hl1
      have hfirst2 : s2.first = false := by rw [← hs2]
      rw [htodo2]
      obtain ⟨h2, f2, t2⟩ := mid_pop (pick s2.todo) s2 (hmid.retodo _ (fun x hx => (hpick _ x).2 hx))
      obtain ⟨l2, hl2, hp2⟩ := f2.out
      split
      · next hne2 =>
        refine ⟨si_polling h2 hne2, l1 ++ l2, ?_, ?_⟩
        · show (S.pop _ s2).out = _
          rw [hl2, hout2, List.append_assoc]
        · intro hh
          rcases List.mem_append.1 hh with hh | hh
          · obtain ⟨i, hi⟩ := hp1 _ hh; cases hi
          · obtain ⟨i, hi⟩ := hp2 _ hh; cases hi
      · next hne2 =>
        have he2 : (S.pop (pick s2.todo) s2).polls = [] := by simpa using hne2
        obtain ⟨a, b, c⟩ := si_finish h2 he2 (t2 he2) (fun _ => by rw [f2.first, hfirst2])
        refine ⟨a, l1 ++ l2 ++ [.ended (S.pop (pick s2.todo) s2).full], ?_, ?_⟩
        · rw [b, hl2, hout2]; simp
        · intro hh
          simp only [List.mem_append, List.mem_singleton] at hh
          rcases hh with (hh | hh) | hh
          · obtain ⟨i, hi⟩ := hp1 _ hh; cases hi
          · obtain ⟨i, hi⟩ := hp2 _ hh; cases hi
          · injection hh with hh; exact c hh.symm
    · next hfirst =>
      obtain ⟨a, b, c⟩ := si_finish h1 he ht (fun _ => by simpa using hfirst)
      refine ⟨a, l1 ++ [.ended (S.pop (pick s.todo) s).full], ?_, ?_⟩
      · rw [b, hl1]; simp
      · intro hh
        simp only [List.mem_append, List.mem_singleton] at hh
        rcases hh with hh | hh
        · obtain ⟨i, hi⟩ := hp1 _ hh; cases hi
        · injection hh with hh; exact c hh.symm

/-- The parts of the invariant a mapper at rest needs. -/
structure Idle (C : Prop) (T : Nat) (s : S) : Prop where
  mi : MI C false s.pollts T s.m (since s.out)
  once : (polledOf s.out).Nodup
  polls : s.polls = []
  done : s.done = []
  full : s.full = false
  queue : s.queue = []
  over : ∀ p, p ∈ s.pollers → p.Over

theorem active_over {s : S} (h : ∀ p, p ∈ s.pollers → p.Over) : s.active = [] := by
  unfold S.active
  rw [List.map_eq_nil_iff, List.filter_eq_nil_iff]
  intro p hp
  have := (h p hp).1
  simp [this]

theorem si_check {C : Prop} {T : Nat} {s : S} (h : Idle C T s) {now : Nat} (iso : Bool)
    {pick : List Id → List Id} (hpick : Picks pick) (hn : C → T < now) :
    SI C now (s.check now iso pick) ∧ Shows C s (s.check now iso pick) := by
  have hnow : ∀ t : S, t.m = s.m → t.pollts = s.pollts → t.out = s.out → t.polls = s.polls →
      t.done = s.done → t.full = s.full → t.queue = s.queue → t.pollers = s.pollers →
      t.st = .s0 → t.timer = true → SI C now t ∧ Shows C s t := by
    intro t e1 e2 e3 e4 e5 e6 e7 e8 e9 e10
    refine ⟨⟨?_, ?_, ?_, ?_, ?_, ?_⟩, [], by simp [e3], by simp⟩
    · rw [e1, e2, e3, e6, h.full]
      exact { h.mi with
        times := fun hc r => before_mono (h.mi.times hc r) (Nat.le_of_lt (hn hc))
        adjs := fun hc r e he => before_mono (h.mi.adjs hc r e he) (Nat.le_of_lt (hn hc))
        stamp := fun hc => Nat.le_trans (h.mi.stamp hc) (Nat.le_of_lt (hn hc)) }
    · rw [e3]; exact h.once
    · intro _; rw [e4, e5, e6, e7, e8]; exact ⟨h.polls, h.done, h.full, h.queue, h.over⟩
    · intro hh; rw [e9] at hh; cases hh
    · intro _; exact e10
    · intro hh; rw [e9] at hh; cases hh
  unfold S.check
  split
  · exact hnow _ rfl rfl rfl rfl rfl rfl rfl rfl rfl rfl
  · split
    · simp only
      refine ⟨(si_nextnode ?_ hpick).1, ?_⟩
      · refine ⟨?_, ?_, ?_, ?_, ?_, ?_, ?_, ?_, ?_, ?_, ?_⟩
        · simp only [since_scan]; exact h.mi.begin hn
        · simp [h.done]
        · simp [h.polls]
        · simp [h.polls]
        · simp [h.polls]
        · have := active_over h.over
          simp only [S.active] at this ⊢
          simp only [this, h.queue, h.polls]; exact List.Perm.refl _
        · exact fun p hp => Or.inr (h.over p hp)
        · simp [polledOf, since_scan, h.done]
        · intro _; exact Or.inr (Or.inl (by simp))
        · intro _ r c j hj; simp [since_scan] at hj
        · intro _ hh; simp at hh
      · obtain ⟨l, hl, hl2⟩ := (si_nextnode (C := C) (T := now) (s := { s with
            forceScan := false, first := true, todo := s.own :: (s.m.nodes.filter fun e =>
      let n := s.m.obj e.2
      !(((n.typ = some 0 || n.typ = some 1) && decide (n.id / 1024 ≠ s.own / 1024)) || n.typ = some 2)).map Prod.fst
            full := true, inc := false
            lastscan := now, pollts := now, out := s.out ++ [.scan true now] }) (by
          refine ⟨?_, ?_, ?_, ?_, ?_, ?_, ?_, ?_, ?_, ?_, ?_⟩
          · simp only [since_scan]; exact h.mi.begin hn
          · simp [h.done]
          · simp [h.polls]
          · simp [h.polls]
          · simp [h.polls]
          · have := active_over h.over
            simp only [S.active] at this ⊢
            simp only [this, h.queue, h.polls]; exact List.Perm.refl _
          · exact fun p hp => Or.inr (h.over p hp)
          · simp [polledOf, since_scan, h.done]
          · intro _; exact Or.inr (Or.inl (by simp))
          · intro _ r c j hj; simp [since_scan] at hj
          · intro _ hh; simp at hh) hpick).2
        refine ⟨.scan true now :: l, by rw [hl]; simp, fun hh => hl2 ?_⟩
        simpa using hh
    · split
      · have hmid : Mid C now { s with first := false, pollts := now, out := s.out ++ [.scan false now] } := by
          refine ⟨?_, ?_, ?_, ?_, ?_, ?_, ?_, ?_, ?_, ?_, ?_⟩
          · simp only [since_scan, h.full]; exact h.mi.beginInc hn
          · simp [h.done]
          · simp [h.polls]
          · simp [h.polls]
          · simp [h.polls]
          · have := active_over h.over
            simp only [S.active] at this ⊢
            simp only [this, h.queue, h.polls]; exact List.Perm.refl _
          · exact fun p hp => Or.inr (h.over p hp)
          · simp [polledOf, since_scan, h.done]
          · intro hh; simp [h.full] at hh
          · intro hh; simp [h.full] at hh
          · intro hh; simp [h.full] at hh
        obtain ⟨a, l, hl, hl2⟩ := si_nextnode hmid hpick
        refine ⟨a, .scan false now :: l, by rw [hl]; simp, fun hh => hl2 ?_⟩
        simpa using hh
      · exact hnow _ rfl rfl rfl rfl rfl rfl rfl rfl rfl rfl

end Verif.Mapper
