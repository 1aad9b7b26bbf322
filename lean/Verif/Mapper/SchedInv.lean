import Verif.Mapper.PollInv

/-!
# The invariant of the mapper
-/

namespace Verif.Mapper

/-! ## What was seen since the scan began -/

def Out.isScan : Out → Bool
  | .scan _ _ => true
  | _ => false

theorem since_snoc (o : List Out) (x : Out) (h : x.isScan = false) : since (o ++ [x]) = since o ++ [x] := by
  unfold since
  rw [List.foldl_append]
  cases x <;> simp_all [Out.isScan]

theorem since_append (o l : List Out) (h : ∀ x, x ∈ l → x.isScan = false) :
    since (o ++ l) = since o ++ l := by
  induction l generalizing o with
  | nil => simp
  | cons a r ih =>
    have := ih (o ++ [a]) (fun x hx => h x (by simp [hx]))
    rw [List.append_assoc] at this
    simp only [List.singleton_append] at this
    rw [this, since_snoc o a (h a (by simp))]
    simp

theorem since_scan (o : List Out) (f : Bool) (t : Nat) : since (o ++ [.scan f t]) = [] := by
  unfold since; rw [List.foldl_append]; rfl

theorem polledOf_append (o l : List Out) (h : ∀ x, x ∈ l → x.isScan = false) :
    polledOf (o ++ l) = polledOf o ++ l.filterMap (fun o => match o with | .polled i => some i | _ => none) := by
  unfold polledOf
  rw [since_append o l h, List.filterMap_append]
  rfl

theorem isSaw_scan {o : Out} (h : o.isSaw) : o.isScan = false := by
  cases o <;> simp_all [Out.isSaw, Out.isScan]

theorem polledOf_saws (o l : List Out) (h : ∀ x, x ∈ l → x.isSaw) : polledOf (o ++ l) = polledOf o := by
  rw [polledOf_append o l (fun x hx => isSaw_scan (h x hx))]
  have : l.filterMap (fun o => match o with | .polled i => some i | _ => none) = ([] : List Id) := by
    rw [List.filterMap_eq_nil_iff]
    intro a ha
    have := h a ha
    cases a <;> simp_all [Out.isSaw]
  rw [this, List.append_nil]

/-! ## The invariant -/

/-- The node is polled, or will be. -/
def Pend (s : S) (i : Id) : Prop :=
  i ∈ s.done ∨ i ∈ s.todo ∨ (∃ d, d ∈ s.queue ∧ i ∈ d.2) ∨
  ∃ p, p ∈ s.pollers ∧ p.dones = 0 ∧ i ∈ p.todo

/-- A poller of the present scan that has not reported. -/
structure Polls (s : S) (p : Poller) : Prop where
  dones : p.dones = 0
  ts : p.ts = s.pollts
  cur : p.cur < s.m.next
  waits : p.Waits
  timer : p.timer = true → p.st = .polling

/-- A poller that has reported. -/
def Poller.Over (p : Poller) : Prop := p.dones = 1 ∧ p.timer = false ∧ p.st ≠ .s0

/-- The pollers that have not reported. -/
def S.active (s : S) : List Id := (s.pollers.filter fun p => p.dones = 0).map Poller.id

/-- During a scan. -/
structure Mid (C : Prop) (T : Nat) (s : S) : Prop where
  mi : MI C s.full s.pollts T s.m (since s.out)
  dnd : s.done.Nodup
  pnd : s.polls.Nodup
  sub : ∀ i, i ∈ s.polls → i ∈ s.done
  len : s.polls.length ≤ 20
  acc : (s.active ++ s.queue.map Prod.fst).Perm s.polls
  pol : ∀ p, p ∈ s.pollers → Polls s p ∨ p.Over
  polled : polledOf s.out = s.done
  own : s.full = true → Pend s s.own
  saws : s.full = true → ∀ r c j, Out.sawAdj r c j ∈ since s.out → Pend s j
  nodes : s.full = true → s.first = false → ∀ e, e ∈ s.m.nodes → Pend s e.1

/-- What a scan that has ended leaves. -/
structure FullEnd (C : Prop) (t : S) : Prop where
  own : t.own ∈ polledOf t.out
  saws : ∀ r c j, Out.sawAdj r c j ∈ since t.out → j ∈ polledOf t.out
  nodes : ∀ i r, (i, r) ∈ t.m.nodes →
    i ∈ polledOf t.out ∨ t.m.obj r = { id := i, name := "" }
  up : C → ∀ i r, (i, r) ∈ t.m.nodes →
    ((t.m.obj r).it.down < (t.m.obj r).it.up ↔ Out.saw r ∈ since t.out) ∧
    ∀ e ∈ (t.m.obj r).adj, (e.2.down < e.2.up ↔ Out.sawAdj r e.1.1 e.1.2 ∈ since t.out)

/-- The order in which a set is popped does not matter. -/
theorem Mid.retodo {C : Prop} {T : Nat} {s : S} (h : Mid C T s) (l : List Id)
    (hl : ∀ x, x ∈ s.todo → x ∈ l) : Mid C T { s with todo := l } := by
  have hp : ∀ i, Pend s i → Pend { s with todo := l } i := by
    rintro i (h | h | h | h)
    · exact Or.inl h
    · exact Or.inr (Or.inl (hl i h))
    · exact Or.inr (Or.inr (Or.inl h))
    · exact Or.inr (Or.inr (Or.inr h))
  exact ⟨h.mi, h.dnd, h.pnd, h.sub, h.len, h.acc,
    fun p hp => (h.pol p hp).imp (fun h => ⟨h.dones, h.ts, h.cur, h.waits, h.timer⟩) id, h.polled,
    fun hf => hp _ (h.own hf), fun hf r c j hj => hp _ (h.saws hf r c j hj),
    fun hf h1 e he => hp _ (h.nodes hf h1 e he)⟩

/-- What `pop` leaves alone. -/
structure PopFrame (s t : S) : Prop where
  own : t.own = s.own
  full : t.full = s.full
  first : t.first = s.first
  pollts : t.pollts = s.pollts
  st : t.st = s.st
  timer : t.timer = s.timer
  thread : t.thread = s.thread
  queue : t.queue = s.queue
  out : ∃ l, t.out = s.out ++ l ∧ ∀ x, x ∈ l → ∃ i, x = Out.polled i

theorem mid_pop {C : Prop} {T : Nat} (l : List Id) : ∀ (s : S), Mid C T { s with todo := l } →
    Mid C T (S.pop l s) ∧ PopFrame s (S.pop l s) ∧ ((S.pop l s).polls = [] → (S.pop l s).todo = []) := by
  induction l with
  | nil =>
    intro s h
    exact ⟨h, ⟨rfl, rfl, rfl, rfl, rfl, rfl, rfl, rfl, [], by simp [S.pop], by simp⟩, fun _ => rfl⟩
  | cons n r ih =>
    intro s h
    by_cases hlen : s.polls.length < 20
    · by_cases hd : n ∈ s.done
      · have e : S.pop (n :: r) s = S.pop r s := by simp [S.pop, hlen, hd]
        rw [e]
        refine ih s ?_
        have hp : ∀ i, Pend { s with todo := n :: r } i → Pend { s with todo := r } i := by
          rintro i (h | h | h | h)
          · exact Or.inl h
          · rcases List.mem_cons.1 h with h | h
            · subst h; exact Or.inl hd
            · exact Or.inr (Or.inl h)
          · exact Or.inr (Or.inr (Or.inl h))
          · exact Or.inr (Or.inr (Or.inr h))
        exact ⟨h.mi, h.dnd, h.pnd, h.sub, h.len, h.acc,
          fun p hp => (h.pol p hp).imp (fun h => ⟨h.dones, h.ts, h.cur, h.waits, h.timer⟩) id, h.polled,
          fun hf => hp _ (h.own hf), fun hf r c j hj => hp _ (h.saws hf r c j hj),
          fun hf h1 e he => hp _ (h.nodes hf h1 e he)⟩
      · have e : S.pop (n :: r) s = S.pop r { s with
            m := (s.m.mapnode n "").1
            done := s.done ++ [n]
            polls := s.polls ++ [n]
            pollers := s.pollers ++ [{ ts := s.pollts, cur := (s.m.mapnode n "").2, id := n }]
            out := s.out ++ [.polled n] } := by
          rw [S.pop, if_pos hlen, if_neg hd]
        rw [e]
        obtain ⟨hm1, hm2, hm3⟩ := h.mi.mapnode n ""
        have hs : since (s.out ++ [.polled n]) = since s.out ++ [.polled n] := since_snoc _ _ rfl
        have hp : ∀ i, Pend { s with todo := n :: r } i → Pend { s with
            m := (s.m.mapnode n "").1
            done := s.done ++ [n]
            polls := s.polls ++ [n]
            pollers := s.pollers ++ [{ ts := s.pollts, cur := (s.m.mapnode n "").2, id := n }]
            out := s.out ++ [.polled n]
            todo := r } i := by
          rintro i (h | h | h | ⟨p, h1, h2, h3⟩)
          · exact Or.inl (List.mem_append.2 (Or.inl h))
          · rcases List.mem_cons.1 h with h | h
            · exact Or.inl (List.mem_append.2 (Or.inr (by simp [h])))
            · exact Or.inr (Or.inl h)
          · exact Or.inr (Or.inr (Or.inl h))
          · exact Or.inr (Or.inr (Or.inr ⟨p, List.mem_append.2 (Or.inl h1), h2, h3⟩))
        have hnp : n ∉ s.polls := fun hh => hd (h.sub n hh)
        obtain ⟨i1, i2, i3⟩ := ih { s with
            m := (s.m.mapnode n "").1
            done := s.done ++ [n]
            polls := s.polls ++ [n]
            pollers := s.pollers ++ [{ ts := s.pollts, cur := (s.m.mapnode n "").2, id := n }]
            out := s.out ++ [.polled n] } (by
          refine ⟨?_, ?_, ?_, ?_, ?_, ?_, ?_, ?_, ?_, ?_, ?_⟩
          · simp only [hs]
            exact hm1.more (Nat.le_refl _) (by simp) (by simp)
          · have := h.dnd
            rw [List.nodup_append]
            refine ⟨this, by simp, ?_⟩
            intro a ha b hb; simp only [List.mem_singleton] at hb; subst hb
            intro hh; subst hh; exact hd ha
          · have := h.pnd
            rw [List.nodup_append]
            refine ⟨this, by simp, ?_⟩
            intro a ha b hb; simp only [List.mem_singleton] at hb; subst hb
            intro hh; subst hh; exact hnp ha
          · intro i hi
            simp only [List.mem_append, List.mem_singleton] at hi ⊢
            exact hi.imp (h.sub i) id
          · simp only [List.length_append, List.length_singleton]; omega
          · have := h.acc
            simp only [S.active, List.filter_append, List.map_append] at this ⊢
            have e2 : (List.filter (fun p : Poller => decide (p.dones = 0))
              [{ ts := s.pollts, cur := (s.m.mapnode n "").2, id := n }]) =
              [{ ts := s.pollts, cur := (s.m.mapnode n "").2, id := n }] := by simp
            rw [e2]
            simp only [List.map_cons, List.map_nil]
            have h1 := this.append_right [n]
            refine List.Perm.trans ?_ h1
            rw [List.append_assoc, List.append_assoc]
            exact List.Perm.append_left _ List.perm_append_comm
          · intro p hp
            simp only [List.mem_append, List.mem_singleton] at hp
            rcases hp with hp | hp
            · exact (h.pol p hp).imp (fun h => ⟨h.dones, h.ts, Nat.lt_of_lt_of_le h.cur hm3, h.waits, h.timer⟩) id
            · rw [hp]
              exact Or.inl ⟨rfl, rfl, hm2, Or.inl rfl, fun hh => by simp at hh⟩
          · simp only
            rw [polledOf_append _ _ (by intro x hx; simp only [List.mem_singleton] at hx; rw [hx]; rfl)]
            have := h.polled
            simp only at this
            rw [this]; rfl
          · exact fun hf => hp _ (h.own hf)
          · intro hf r' c j hj
            simp only [hs] at hj
            exact hp _ (h.saws hf r' c j (by simpa using hj))
          · intro hf h1 e he
            rcases mapnode_mem he with he | he
            · exact hp _ (h.nodes hf h1 e he)
            · exact Or.inl (by simp [he]))
        refine ⟨i1, ⟨i2.own, i2.full, i2.first, i2.pollts, i2.st, i2.timer, i2.thread, i2.queue, ?_⟩, i3⟩
        obtain ⟨l, hl, hl2⟩ := i2.out
        refine ⟨.polled n :: l, by rw [hl]; simp, ?_⟩
        intro x hx
        rcases List.mem_cons.1 hx with hx | hx
        · exact ⟨n, hx⟩
        · exact hl2 x hx
    · have e : S.pop (n :: r) s = { s with todo := n :: r } := by rw [S.pop, if_neg hlen]
      rw [e]
      refine ⟨h, ⟨rfl, rfl, rfl, rfl, rfl, rfl, rfl, rfl, [], by simp, by simp⟩, ?_⟩
      intro hh
      simp only at hh
      rw [hh] at hlen; simp at hlen

end Verif.Mapper
