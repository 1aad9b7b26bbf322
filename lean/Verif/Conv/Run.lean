import Verif.Conv.Lemmas

namespace Verif.Conv

open Verif.Route

variable {V ℓ : Type} [DecidableEq V] [DecidableEq ℓ]

/-- An infinite run, from tables with any content that were decided on, and any messages under way. -/
structure Run (N : Net V ℓ) where
  st : Nat → St V ℓ
  ev : Nat → Ev ℓ
  next : ∀ t, st (t + 1) = N.step (st t) (ev t)
  now0 : (st 0).now = 0
  best0 : ∀ v, (st 0).best v = N.best (st 0).tbl v
  old : ∀ l, ∀ m ∈ (st 0).chan l, m.stamp = 0
  last0 : ∀ l, (st 0).last l = 0

/-- However late, some message sent after that arrives. -/
def Run.Fair {N : Net V ℓ} (R : Run N) : Prop :=
  ∀ l T, ∃ t m q, R.ev t = .recv l ∧ (R.st t).chan l = m :: q ∧ T ≤ m.stamp

variable {N : Net V ℓ}

theorem Run.now (R : Run N) (t : Nat) : (R.st t).now = t := by
  induction t with
  | zero => exact R.now0
  | succ t ih => rw [R.next, Net.step]; simp [ih]

omit [DecidableEq V] in
theorem best_setf (hN : N.Ok) (tbl : ℓ → Nat × Nat) (l : ℓ) (x : Nat × Nat) (v : V) (hv : v ≠ N.dst l) :
    N.best (setf tbl l x) v = N.best tbl v := by
  unfold Net.best Net.cols
  have : (N.ins v).map (fun k => (⟨(setf tbl l x k).1, (setf tbl l x k).2, some (N.out k)⟩ : Col)) =
      (N.ins v).map (fun k => ⟨(tbl k).1, (tbl k).2, some (N.out k)⟩) := by
    apply List.map_congr_left
    intro k hk
    have hne : k ≠ l := by
      rintro rfl
      exact hv (hN.dst v k hk).symm
    simp [setf, hne]
  rw [this]

theorem receive_best (hN : N.Ok) (s : St V ℓ) (l : ℓ) (m : Msg) (h : ∀ v, s.best v = N.best s.tbl v) :
    ∀ v, (N.receive s l m).best v = N.best (N.receive s l m).tbl v := by
  intro v
  unfold Net.receive
  simp only
  split
  · simp only [setf]
    by_cases hv : v = N.dst l
    · subst hv; simp
    · rw [if_neg hv, h v]
      exact (best_setf hN _ l _ v hv).symm
  · exact h v

theorem Run.best (hN : N.Ok) (R : Run N) (t : Nat) (v : V) : (R.st t).best v = N.best (R.st t).tbl v := by
  induction t generalizing v with
  | zero => exact R.best0 v
  | succ t ih =>
    rw [R.next, Net.step]
    cases R.ev t with
    | send l => exact ih v
    | lose l i => exact ih v
    | recv l =>
      simp only [Net.act]
      cases (R.st t).chan l with
      | nil => exact ih v
      | cons m q =>
        exact receive_best hN { R.st t with chan := setf (R.st t).chan l q, last := setf (R.st t).last l m.stamp } l m ih v

/-- What is under way on a link and was received last. -/
structure LinkInv (R : Run N) (t : Nat) (l : ℓ) : Prop where
  content : ∀ m ∈ (R.st t).chan l, ∀ x, m.stamp = x + 1 → x < t ∧
    m.hops = ((R.st x).best (N.src l)).hops ∧ m.cost = ((R.st x).best (N.src l)).cost
  order : ((R.st t).last l :: ((R.st t).chan l).map (·.stamp)).Pairwise (· ≤ ·)
  bound : ∀ m ∈ (R.st t).chan l, m.stamp ≤ t
  lastBound : (R.st t).last l ≤ t
  used : ∀ x, (R.st t).last l = x + 1 → (R.st t).tbl l = N.adv l ((R.st x).best (N.src l))

omit [DecidableEq V] [DecidableEq ℓ] in
theorem mem_eraseIdx {α : Type} {l : List α} {i : Nat} {x : α} (h : x ∈ l.eraseIdx i) : x ∈ l :=
  (List.eraseIdx_sublist l i).subset h

theorem receive_tbl (s : St V ℓ) (l : ℓ) (m : Msg) :
    (N.receive s l m).tbl = setf s.tbl l (m.hops + 1, m.cost + N.w l) := by
  unfold Net.receive
  simp only
  split
  · rfl
  · rename_i h
    have h := Classical.not_not.1 h
    funext k
    simp only [setf]
    by_cases hk : k = l
    · subst hk; simp [h]
    · rw [if_neg hk]

theorem receive_chan (s : St V ℓ) (l : ℓ) (m : Msg) : (N.receive s l m).chan = s.chan ∧ (N.receive s l m).last = s.last := by
  unfold Net.receive
  simp only
  split <;> exact ⟨rfl, rfl⟩

theorem Run.linkInv (R : Run N) (t : Nat) (l : ℓ) : LinkInv R t l := by
  induction t with
  | zero =>
    refine ⟨?_, ?_, ?_, ?_, ?_⟩
    · intro m hm x hx; have := R.old l m hm; omega
    · rw [List.pairwise_cons]
      constructor
      · intro a _; rw [R.last0]; omega
      · rw [List.pairwise_map]
        refine List.Pairwise.imp_of_mem (R := fun _ _ => True) ?_ (List.pairwise_of_forall (fun _ _ => trivial))
        intro a b ha hb _
        rw [R.old l a ha]; omega
    · intro m hm; rw [R.old l m hm]; omega
    · rw [R.last0]; omega
    · intro x hx; rw [R.last0] at hx; omega
  | succ t ih =>
    have hnow := R.now t
    -- an event on another link
    have skip : (R.st (t + 1)).chan l = (R.st t).chan l → (R.st (t + 1)).last l = (R.st t).last l →
        (R.st (t + 1)).tbl l = (R.st t).tbl l → LinkInv R (t + 1) l := by
      intro h1 h2 h3
      refine ⟨?_, ?_, ?_, ?_, ?_⟩
      · rw [h1]; intro m hm x hx; obtain ⟨a, b⟩ := ih.content m hm x hx; exact ⟨by omega, b⟩
      · rw [h1, h2]; exact ih.order
      · rw [h1]; intro m hm; have := ih.bound m hm; omega
      · rw [h2]; have := ih.lastBound; omega
      · rw [h2, h3]; exact ih.used
    have hnext := R.next t
    cases hev : R.ev t with
    | send k =>
      rw [hev] at hnext
      by_cases hk : l = k
      · subst hk
        have hchan : (R.st (t + 1)).chan l = (R.st t).chan l ++
            [⟨((R.st t).best (N.src l)).hops, ((R.st t).best (N.src l)).cost, t + 1⟩] := by
          rw [hnext]; simp [Net.step, Net.act, setf, hnow]
        have hlast : (R.st (t + 1)).last l = (R.st t).last l := by rw [hnext]; rfl
        have htbl : (R.st (t + 1)).tbl l = (R.st t).tbl l := by rw [hnext]; rfl
        refine ⟨?_, ?_, ?_, ?_, ?_⟩
        · rw [hchan]
          intro m hm x hx
          simp only [List.mem_append, List.mem_singleton] at hm
          rcases hm with hm | rfl
          · obtain ⟨a, b⟩ := ih.content m hm x hx; exact ⟨by omega, b⟩
          · simp only at hx
            have : x = t := by omega
            subst this
            exact ⟨by omega, rfl, rfl⟩
        · rw [hchan, hlast]
          have : ((R.st t).last l :: ((R.st t).chan l ++
            [(⟨((R.st t).best (N.src l)).hops, ((R.st t).best (N.src l)).cost, t + 1⟩ : Msg)]).map (·.stamp)) =
            ((R.st t).last l :: ((R.st t).chan l).map (·.stamp)) ++ [t + 1] := by simp
          rw [this, List.pairwise_append]
          refine ⟨ih.order, by simp, ?_⟩
          intro a ha b hb
          simp only [List.mem_singleton] at hb
          subst hb
          simp only [List.mem_cons, List.mem_map] at ha
          rcases ha with rfl | ⟨m, hm, rfl⟩
          · have := ih.lastBound; omega
          · have := ih.bound m hm; omega
        · rw [hchan]
          intro m hm
          simp only [List.mem_append, List.mem_singleton] at hm
          rcases hm with hm | rfl
          · have := ih.bound m hm; omega
          · exact Nat.le_refl _
        · rw [hlast]; have := ih.lastBound; omega
        · rw [hlast, htbl]; exact ih.used
      · apply skip
        · rw [hnext]; simp [Net.step, Net.act, setf, hk]
        · rw [hnext]; rfl
        · rw [hnext]; rfl
    | lose k i =>
      rw [hev] at hnext
      by_cases hk : l = k
      · subst hk
        have hchan : (R.st (t + 1)).chan l = ((R.st t).chan l).eraseIdx i := by
          rw [hnext]; simp [Net.step, Net.act, setf]
        have hlast : (R.st (t + 1)).last l = (R.st t).last l := by rw [hnext]; rfl
        have htbl : (R.st (t + 1)).tbl l = (R.st t).tbl l := by rw [hnext]; rfl
        refine ⟨?_, ?_, ?_, ?_, ?_⟩
        · rw [hchan]
          intro m hm x hx
          obtain ⟨a, b⟩ := ih.content m (mem_eraseIdx hm) x hx; exact ⟨by omega, b⟩
        · rw [hchan, hlast]
          refine ih.order.sublist ?_
          exact ((List.eraseIdx_sublist _ _).map _).cons₂ _
        · rw [hchan]
          intro m hm; have := ih.bound m (mem_eraseIdx hm); omega
        · rw [hlast]; have := ih.lastBound; omega
        · rw [hlast, htbl]; exact ih.used
      · apply skip
        · rw [hnext]; simp [Net.step, Net.act, setf, hk]
        · rw [hnext]; rfl
        · rw [hnext]; rfl
    | recv k =>
      rw [hev] at hnext
      cases hq : (R.st t).chan k with
      | nil =>
        have he : N.act (R.st t) (.recv k) = R.st t := by simp only [Net.act, hq]
        apply skip <;> rw [hnext, Net.step, he]
      | cons m q =>
        have he : N.act (R.st t) (.recv k) = N.receive { R.st t with chan := setf (R.st t).chan k q, last := setf (R.st t).last k m.stamp } k m := by
          simp only [Net.act, hq]
        have hchan' : (R.st (t + 1)).chan = setf (R.st t).chan k q := by
          rw [hnext, Net.step, he]; exact (receive_chan _ _ _).1
        have hlast' : (R.st (t + 1)).last = setf (R.st t).last k m.stamp := by
          rw [hnext, Net.step, he]; exact (receive_chan _ _ _).2
        have htbl' : (R.st (t + 1)).tbl = setf (R.st t).tbl k (m.hops + 1, m.cost + N.w k) := by
          rw [hnext, Net.step, he]; exact receive_tbl _ _ _
        by_cases hk : l = k
        · subst hk
          have hchan : (R.st (t + 1)).chan l = q := by rw [hchan']; simp [setf]
          have hlast : (R.st (t + 1)).last l = m.stamp := by rw [hlast']; simp [setf]
          have htbl : (R.st (t + 1)).tbl l = (m.hops + 1, m.cost + N.w l) := by rw [htbl']; simp [setf]
          have ho := ih.order
          rw [hq, List.pairwise_cons] at ho
          refine ⟨?_, ?_, ?_, ?_, ?_⟩
          · rw [hchan]
            intro m' hm x hx
            obtain ⟨a, b⟩ := ih.content m' (by rw [hq]; simp [hm]) x hx; exact ⟨by omega, b⟩
          · rw [hchan, hlast]; exact ho.2
          · rw [hchan]
            intro m' hm; have := ih.bound m' (by rw [hq]; simp [hm]); omega
          · rw [hlast]; have := ih.bound m (by rw [hq]; simp); omega
          · rw [hlast, htbl]
            intro x hx
            obtain ⟨_, e1, e2⟩ := ih.content m (by rw [hq]; simp) x hx
            rw [Net.adv, e1, e2]
        · apply skip
          · rw [hchan']; simp [setf, hk]
          · rw [hlast']; simp [setf, hk]
          · rw [htbl']; simp [setf, hk]

theorem Run.last_mono (R : Run N) (l : ℓ) (t : Nat) : (R.st t).last l ≤ (R.st (t + 1)).last l := by
  have ih := R.linkInv t l
  have hnext := R.next t
  cases hev : R.ev t with
  | send k => rw [hev] at hnext; rw [hnext]; exact Nat.le_refl _
  | lose k i => rw [hev] at hnext; rw [hnext]; exact Nat.le_refl _
  | recv k =>
    rw [hev] at hnext
    cases hq : (R.st t).chan k with
    | nil =>
      have he : N.act (R.st t) (.recv k) = R.st t := by simp only [Net.act, hq]
      rw [hnext, Net.step, he]
      exact Nat.le_refl _
    | cons m q =>
      have he : N.act (R.st t) (.recv k) = N.receive { R.st t with chan := setf (R.st t).chan k q, last := setf (R.st t).last k m.stamp } k m := by
        simp only [Net.act, hq]
      have hlast' : (R.st (t + 1)).last = setf (R.st t).last k m.stamp := by
        rw [hnext, Net.step, he]; exact (receive_chan _ _ _).2
      rw [hlast']
      simp only [setf]
      by_cases hk : l = k
      · subst hk
        rw [if_pos rfl]
        have ho := ih.order
        rw [hq, List.pairwise_cons] at ho
        exact ho.1 _ (by simp)
      · rw [if_neg hk]; exact Nat.le_refl _

theorem Run.last_mono' (R : Run N) (l : ℓ) {t t' : Nat} (h : t ≤ t') : (R.st t).last l ≤ (R.st t').last l := by
  induction h with
  | refl => exact Nat.le_refl _
  | step _ ih => exact Nat.le_trans ih (R.last_mono l _)

/-- A fair run goes through rounds without end. -/
theorem Run.fresh (hN : N.Ok) (R : Run N) (hf : R.Fair) (links : List ℓ) (hl : ∀ v, ∀ l ∈ N.ins v, l ∈ links)
    (T : Nat) : ∃ T', Fresh N (fun t => (R.st t).tbl) T T' := by
  have hlist : ∀ ls : List ℓ, ∃ T', ∀ l ∈ ls, T + 1 ≤ (R.st T').last l := by
    intro ls
    induction ls with
    | nil => exact ⟨0, by simp⟩
    | cons k ls ih =>
      obtain ⟨T1, h1⟩ := ih
      obtain ⟨t, m, q, hev, hq, hm⟩ := hf k (T + 1)
      have hk : T + 1 ≤ (R.st (t + 1)).last k := by
        have he : N.act (R.st t) (.recv k) = N.receive { R.st t with chan := setf (R.st t).chan k q, last := setf (R.st t).last k m.stamp } k m := by
          simp only [Net.act, hq]
        rw [R.next, hev, Net.step, he]
        show _ ≤ (N.receive _ k m).last k
        rw [(receive_chan _ _ _).2]
        simp [setf, hm]
      refine ⟨max T1 (t + 1), ?_⟩
      intro l hl
      simp only [List.mem_cons] at hl
      rcases hl with rfl | hl
      · exact Nat.le_trans hk (R.last_mono' _ (Nat.le_max_right _ _))
      · exact Nat.le_trans (h1 l hl) (R.last_mono' _ (Nat.le_max_left _ _))
  obtain ⟨T', h⟩ := hlist links
  refine ⟨T', ?_⟩
  intro t ht v l hlv
  have h1 := Nat.le_trans (h l (hl v l hlv)) (R.last_mono' l ht)
  obtain ⟨x, hx⟩ : ∃ x, (R.st t).last l = x + 1 := ⟨(R.st t).last l - 1, by omega⟩
  refine ⟨x, by omega, ?_⟩
  rw [← R.best hN]
  exact (R.linkInv t l).used x hx

theorem Run.after (hN : N.Ok) (R : Run N) (hf : R.Fair) (links : List ℓ) (hl : ∀ v, ∀ l ∈ N.ins v, l ∈ links)
    (n : Nat) : ∃ T, After N (fun t => (R.st t).tbl) n T := by
  induction n with
  | zero => exact ⟨0, trivial⟩
  | succ n ih =>
    obtain ⟨T, h⟩ := ih
    obtain ⟨T', h'⟩ := R.fresh hN hf links hl T
    exact ⟨T', T, h, h'⟩

end Verif.Conv
