import Verif.Timers.Model
namespace Verif.Timers

theorem run_append (s : State) (a b : List Op) :
    run s (a ++ b) = ((run (run s a).1 b).1, (run s a).2 ++ (run (run s a).1 b).2) := by
  induction a generalizing s with
  | nil => simp [run]
  | cons op ops ih => simp [run, ih]

theorem run_snoc (s : State) (a : List Op) (op : Op) :
    run s (a ++ [op]) = ((step (run s a).1 op).1, (run s a).2 ++ [(step (run s a).1 op).2]) := by
  rw [run_append]; simp [run]

theorem step_size (s : State) (op : Op) : (step s op).1.size = s.size := by
  unfold step
  split <;> (try split) <;> (try split) <;> simp [remove, addBefore] <;> (try split) <;> rfl

theorem run_size (s : State) (ops : List Op) : (run s ops).1.size = s.size := by
  induction ops generalizing s with
  | nil => rfl
  | cons op ops ih => simp [run, ih, step_size]

/-- Snoc induction. -/
theorem snoc_induction {α} {P : List α → Prop} (h0 : P []) (h1 : ∀ l a, P l → P (l ++ [a])) :
    ∀ l, P l := by
  intro l
  rw [← List.reverse_reverse l]
  induction l.reverse with
  | nil => exact h0
  | cons a l ih => rw [List.reverse_cons]; exact h1 _ _ ih

/-! ### Revision counts -/

/-- Events after which a pending timeout of `t` is obsolete. -/
def touches (t : Tid) : Ev → Bool
  | .started u _ => u = t
  | .stopped u => u = t
  | .expired u => u = t
  | _ => false

def touchCount (t : Tid) (evs : List Ev) : Nat := evs.countP (touches t)

theorem touchCount_append (t : Tid) (a b : List Ev) :
    touchCount t (a ++ b) = touchCount t a + touchCount t b := by
  simp [touchCount]

/-- Pending timeouts: the queue, then the one about to be posted. -/
def pending (s : State) : List (Tid × Nat) :=
  s.queue ++ (match s.pc with | .posting t r => [(t, r)] | _ => [])

structure RevInv (s : State) (evs : List Ev) : Prop where
  rev_eq : ∀ t, s.rev t = touchCount t evs
  origin : ∀ t r, (t, r) ∈ pending s →
    ∃ a b, evs = a ++ Ev.expired t :: b ∧ touchCount t a + 1 = r
  increasing : (pending s).Pairwise (fun x y => x.1 = y.1 → x.2 < y.2)
  fresh : ∀ t r, (t, r) ∈ pending s → ∀ a b,
    evs = a ++ Ev.delivered t :: b → touchCount t a < r

theorem append_cons_split {α} {evs : List α} {e x : α} {a b : List α}
    (h : evs ++ [e] = a ++ x :: b) :
    (b = [] ∧ x = e ∧ a = evs) ∨ ∃ b', b = b' ++ [e] ∧ evs = a ++ x :: b' := by
  rcases List.eq_nil_or_concat b with hb | ⟨b', y, hb⟩
  · subst hb
    left
    have := List.append_inj' h (by simp)
    simp at this
    exact ⟨rfl, this.2.symm, this.1.symm⟩
  · subst hb
    right
    have h2 : evs ++ [e] = (a ++ x :: b') ++ [y] := by simpa using h
    have := List.append_inj' h2 (by simp)
    simp at this
    exact ⟨b', by rw [this.2]; simp, this.1⟩

theorem revInv_init (n : Nat) : RevInv (init n) [] := by
  constructor <;> simp [init, pending, touchCount]

/-- Adding an event that does not touch or deliver anything and leaves `rev` alone. -/
theorem revInv_mono {s s' : State} {evs : List Ev} {e : Ev} (h : RevInv s evs)
    (hrev : ∀ t, s'.rev t = s.rev t + (if touches t e then 1 else 0))
    (hpend : ∀ x, x ∈ pending s' → x ∈ pending s)
    (hinc : (pending s').Pairwise (fun x y => x.1 = y.1 → x.2 < y.2))
    (hdel : ∀ t, e = .delivered t → ∀ r, (t, r) ∈ pending s' → s.rev t < r) :
    RevInv s' (evs ++ [e]) := by
  constructor
  · intro t
    rw [hrev, h.rev_eq, touchCount_append]
    congr 1
    by_cases ht : touches t e <;> simp [touchCount, ht]
  · intro t r hm
    obtain ⟨a, b, h1, h2⟩ := h.origin t r (hpend _ hm)
    exact ⟨a, b ++ [e], by rw [h1]; simp, h2⟩
  · exact hinc
  · intro t r hm a b hab
    rcases append_cons_split hab with ⟨_, hx, ha⟩ | ⟨b', _, hb⟩
    · rw [ha, ← h.rev_eq]; exact hdel t hx.symm r hm
    · exact h.fresh t r (hpend _ hm) a b' hb

theorem pending_le {s : State} {evs : List Ev} (h : RevInv s evs) {t r}
    (hm : (t, r) ∈ pending s) : r ≤ s.rev t := by
  obtain ⟨a, b, h1, h2⟩ := h.origin t r hm
  rw [h.rev_eq, h1, touchCount_append]
  have : touchCount t (Ev.expired t :: b) = touchCount t b + 1 := by
    simp [touchCount, touches]
  omega

theorem revInv_step {s : State} {evs : List Ev} (h : RevInv s evs) (op : Op) :
    RevInv (step s op).1 (evs ++ [(step s op).2]) := by
  cases op with
  | start t ticks =>
    simp only [step]
    split
    · exact revInv_mono h (by intro u; simp [touches]) (fun _ hx => hx) h.increasing (by simp)
    · apply revInv_mono h
      · intro u
        simp only [addBefore, remove, touches, decide_eq_true_eq]
        by_cases hu : u = t
        · subst hu; simp
        · have : ¬ t = u := fun h => hu h.symm
          simp [hu, this]
      · intro x hx; exact hx
      · exact h.increasing
      · simp
  | stop t =>
    simp only [step]
    apply revInv_mono h
    · intro u
      simp only [remove, touches, decide_eq_true_eq]
      by_cases hu : u = t
      · subst hu; simp
      · have : ¬ t = u := fun h => hu h.symm
        simp [hu, this]
    · intro x hx; exact hx
    · exact h.increasing
    · simp
  | tick =>
    simp only [step]
    split
    · rename_i hpc
      apply revInv_mono h
      · intro u; simp [touches]
      · intro x hx; simpa [pending, hpc] using hx
      · simpa [pending, hpc] using h.increasing
      · simp
    · exact revInv_mono h (by intro u; simp [touches]) (fun _ hx => hx) h.increasing (by simp)
  | drain =>
    simp only [step]
    split
    · rename_i hpc
      split
      · apply revInv_mono h
        · intro u; simp [touches]
        · intro x hx; simpa [pending, hpc] using hx
        · simpa [pending, hpc] using h.increasing
        · simp
      · rename_i t rest hslot
        have hp : pending s = s.queue := by simp [pending, hpc]
        have hinc := h.increasing
        rw [hp] at hinc
        constructor
        · intro u
          simp only [remove]
          rw [touchCount_append, h.rev_eq]
          by_cases hu : u = t
          · subst hu; simp [touchCount, touches]
          · have : ¬ t = u := fun h => hu h.symm
            simp [hu, touchCount, touches, this]
        · intro u r hm
          simp only [pending, remove, List.mem_append, List.mem_singleton, Prod.mk.injEq] at hm
          rcases hm with hm | ⟨h1, h2⟩
          · obtain ⟨a, b, h1, h2⟩ := h.origin u r (by rw [hp]; exact hm)
            exact ⟨a, b ++ [.expired t], by rw [h1]; simp, h2⟩
          · subst h1; simp at h2
            exact ⟨evs, [], rfl, by rw [h2, h.rev_eq]⟩
        · simp only [pending, remove, List.pairwise_append]
          refine ⟨hinc, by simp, ?_⟩
          intro x hx y hy hxy
          simp at hy; subst hy
          have := pending_le h (t := x.1) (r := x.2) (by rw [hp]; exact hx)
          simp at hxy ⊢
          rw [hxy] at this; omega
        · intro u r hm a b hab
          rcases append_cons_split hab with ⟨_, hx, _⟩ | ⟨b', _, hb⟩
          · simp at hx
          · simp only [pending, remove, List.mem_append, List.mem_singleton, Prod.mk.injEq] at hm
            rcases hm with hm | ⟨h1, h2⟩
            · exact h.fresh u r (by rw [hp]; exact hm) a b' hb
            · subst h1; simp at h2
              rw [h2, h.rev_eq, hb, touchCount_append]; omega
    · exact revInv_mono h (by intro u; simp [touches]) (fun _ hx => hx) h.increasing (by simp)
  | post =>
    simp only [step]
    split
    · rename_i t r hpc
      apply revInv_mono h
      · intro u; simp [touches]
      · intro x hx; simpa [pending, hpc] using hx
      · simpa [pending, hpc] using h.increasing
      · simp
    · exact revInv_mono h (by intro u; simp [touches]) (fun _ hx => hx) h.increasing (by simp)
  | dispatch =>
    simp only [step]
    split
    · exact revInv_mono h (by intro u; simp [touches]) (fun _ hx => hx) h.increasing (by simp)
    · rename_i t r q hq
      have hinc := h.increasing
      have hp : pending s = (t, r) :: pending { s with queue := q } := by simp [pending, hq]
      rw [hp, List.pairwise_cons] at hinc
      split
      · rename_i hr
        apply revInv_mono h
        · intro u; simp [touches]
        · intro x hx; rw [hp]; exact List.mem_cons_of_mem _ hx
        · exact hinc.2
        · intro u hu r' hm
          simp at hu; subst hu
          have := hinc.1 _ hm rfl
          simp at this; omega
      · apply revInv_mono h
        · intro u; simp [touches]
        · intro x hx; rw [hp]; exact List.mem_cons_of_mem _ hx
        · exact hinc.2
        · simp

theorem revInv_run (n : Nat) (ops : List Op) :
    RevInv (run (init n) ops).1 (run (init n) ops).2 := by
  induction ops using snoc_induction with
  | h0 => exact revInv_init n
  | h1 ops op ih => rw [run_snoc]; exact revInv_step ih op

end Verif.Timers

namespace Verif.Timers

theorem run_events_split (s : State) (ops : List Op) {pre post : List Ev} {e : Ev}
    (h : (run s ops).2 = pre ++ e :: post) :
    ∃ ops1 op ops2, ops = ops1 ++ op :: ops2 ∧ (run s ops1).2 = pre ∧
      (step (run s ops1).1 op).2 = e := by
  induction ops generalizing s pre with
  | nil => simp [run] at h
  | cons op ops ih =>
    simp only [run] at h
    cases pre with
    | nil =>
      simp at h
      exact ⟨[], op, ops, rfl, rfl, h.1⟩
    | cons p pre =>
      simp at h
      obtain ⟨o1, o, o2, h1, h2, h3⟩ := ih _ h.2
      exact ⟨op :: o1, o, o2, by simp [h1], by simp [run, h2, h.1], by simpa [run] using h3⟩

/-! ### Armed timers were started and not touched since -/

def ArmInv (s : State) (evs : List Ev) : Prop :=
  ∀ i t, t ∈ s.slot i → ∃ a n b, evs = a ++ Ev.started t n :: b ∧ ∀ e ∈ b, touches t e = false

theorem armInv_weaken {s s' : State} {evs : List Ev} {e : Ev} (h : ArmInv s evs)
    (hs : ∀ i t, t ∈ s'.slot i → t ∈ s.slot i ∧ touches t e = false) :
    ArmInv s' (evs ++ [e]) := by
  intro i t ht
  obtain ⟨h1, h2⟩ := hs i t ht
  obtain ⟨a, n, b, h3, h4⟩ := h i t h1
  refine ⟨a, n, b ++ [e], by rw [h3]; simp, ?_⟩
  intro x hx
  simp at hx
  rcases hx with hx | hx
  · exact h4 x hx
  · rw [hx]; exact h2

theorem armInv_step {s : State} {evs : List Ev} (h : ArmInv s evs) (op : Op) :
    ArmInv (step s op).1 (evs ++ [(step s op).2]) := by
  cases op with
  | start t ticks =>
    simp only [step]
    split
    · exact armInv_weaken h (fun i u hu => ⟨hu, rfl⟩)
    · intro i u hu
      by_cases hut : u = t
      · subst hut
        exact ⟨evs, ticks, [], rfl, by simp⟩
      · have hm : u ∈ s.slot i := by
          simp only [addBefore, remove] at hu
          split at hu
          · simp at hu
            rcases hu with hu | hu
            · exact hu.1
            · exact absurd hu hut
          · simp at hu; exact hu.1
        obtain ⟨a, n, b, h3, h4⟩ := h i u hm
        refine ⟨a, n, b ++ [.started t ticks], by rw [h3]; simp, ?_⟩
        intro x hx
        simp at hx
        rcases hx with hx | hx
        · exact h4 x hx
        · rw [hx]; simp [touches]; exact fun h => hut h.symm
  | stop t =>
    apply armInv_weaken h
    intro i u hu
    simp [step, remove] at hu
    exact ⟨hu.1, by simp [step, touches]; exact fun h => hu.2 h.symm⟩
  | tick =>
    simp only [step]
    split <;> exact armInv_weaken h (fun i u hu => ⟨hu, rfl⟩)
  | drain =>
    simp only [step]
    split
    · split
      · exact armInv_weaken h (fun i u hu => ⟨hu, rfl⟩)
      · apply armInv_weaken h
        intro i u hu
        simp [remove] at hu
        exact ⟨hu.1, by simp [touches]; exact fun h => hu.2 h.symm⟩
    · exact armInv_weaken h (fun i u hu => ⟨hu, rfl⟩)
  | post =>
    simp only [step]
    split <;> exact armInv_weaken h (fun i u hu => ⟨hu, rfl⟩)
  | dispatch =>
    simp only [step]
    split
    · exact armInv_weaken h (fun i u hu => ⟨hu, rfl⟩)
    · split <;> exact armInv_weaken h (fun i u hu => ⟨hu, rfl⟩)

theorem armInv_run (n : Nat) (ops : List Op) :
    ArmInv (run (init n) ops).1 (run (init n) ops).2 := by
  induction ops using snoc_induction with
  | h0 => intro i t ht; simp [run, init] at ht
  | h1 ops op ih => rw [run_snoc]; exact armInv_step ih op

/-! ### Exact expiry -/

/-- `t` is linked in the slot `d` ticks ahead and nowhere else. -/
structure Tracked (s : State) (t : Tid) (d : Nat) : Prop where
  bound : d < s.size
  posok : s.pos < s.size
  here : t ∈ s.slot ((s.pos + d) % s.size)
  only : ∀ i, t ∈ s.slot i → i = (s.pos + d) % s.size
  busy : d = 0 → s.pc ≠ .idle

def Gone (s : State) (t : Tid) : Prop := ∀ i, t ∉ s.slot i

def opTouches (t : Tid) : Op → Bool
  | .start u _ => u = t
  | .stop u => u = t
  | _ => false

def isTick : Ev → Bool
  | .ticked => true
  | _ => false

def tickCount (evs : List Ev) : Nat := evs.countP isTick
def expCount (t : Tid) (evs : List Ev) : Nat := evs.count (.expired t)

theorem gone_step {s : State} {t : Tid} (h : Gone s t) {op : Op} (ho : opTouches t op = false) :
    Gone (step s op).1 t ∧ (step s op).2 ≠ .expired t := by
  cases op with
  | start u ticks =>
    simp [opTouches] at ho
    simp only [step]
    split
    · exact ⟨h, by simp⟩
    · refine ⟨?_, by simp⟩
      intro i hi
      simp only [addBefore, remove] at hi
      split at hi <;> simp at hi
      · rcases hi with hi | hi
        · exact h _ hi.1
        · exact ho hi.symm
      · exact h _ hi.1
  | stop u =>
    refine ⟨?_, by simp [step]⟩
    intro i hi
    simp [step, remove] at hi
    exact h _ hi.1
  | tick => simp only [step]; split <;> exact ⟨h, by simp⟩
  | drain =>
    simp only [step]
    split
    · split
      · exact ⟨h, by simp⟩
      · rename_i u rest hsl
        refine ⟨?_, ?_⟩
        · intro i hi
          simp [remove] at hi
          exact h _ hi.1
        · intro hx
          simp at hx
          subst hx
          exact h s.pos (by rw [hsl]; simp)
    · exact ⟨h, by simp⟩
  | post => simp only [step]; split <;> exact ⟨h, by simp⟩
  | dispatch =>
    simp only [step]
    split
    · exact ⟨h, by simp⟩
    · split <;> exact ⟨h, by simp⟩

theorem tracked_step {s : State} {t : Tid} {d : Nat} (h : Tracked s t d) {op : Op}
    (ho : opTouches t op = false) :
    let r := step s op
    (r.2 = .ticked ∧ 0 < d ∧ Tracked r.1 t (d - 1)) ∨
    (r.2 ≠ .ticked ∧ r.2 ≠ .expired t ∧ Tracked r.1 t d) ∨
    (r.2 = .expired t ∧ d = 0 ∧ Gone r.1 t) := by
  have hsz : 0 < s.size := by have := h.bound; omega
  cases op with
  | start u ticks =>
    simp [opTouches] at ho
    simp only [step]
    split
    · right; left; exact ⟨by simp, by simp, h⟩
    · right; left
      refine ⟨by simp, by simp, ?_⟩
      have ho' : t ≠ u := fun h => ho h.symm
      constructor
      · exact h.bound
      · exact h.posok
      · simp only [addBefore, remove]
        split <;> simp [h.here, ho']
      · intro i hi
        apply h.only
        simp only [addBefore, remove] at hi
        split at hi <;> simp [ho'] at hi <;> exact hi
      · exact h.busy
  | stop u =>
    simp [opTouches] at ho
    have ho' : t ≠ u := fun h => ho h.symm
    right; left
    refine ⟨by simp [step], by simp [step], ?_⟩
    constructor
    · exact h.bound
    · exact h.posok
    · simp [step, remove, h.here, ho']
    · intro i hi
      apply h.only
      simp [step, remove] at hi
      exact hi.1
    · exact h.busy
  | tick =>
    simp only [step]
    split
    · rename_i hpc
      left
      have hd : 0 < d := by
        rcases Nat.eq_zero_or_pos d with h0 | h0
        · exact absurd hpc (h.busy h0)
        · exact h0
      refine ⟨rfl, hd, ?_⟩
      have hmod : ((s.pos + 1) % s.size + (d - 1)) % s.size = (s.pos + d) % s.size := by
        rw [Nat.mod_add_mod]; congr 1; omega
      constructor
      · have := h.bound; show d - 1 < s.size; omega
      · exact Nat.mod_lt _ hsz
      · simp only [hmod]; exact h.here
      · intro i hi; simp only [hmod]; exact h.only i hi
      · simp
    · right; left; exact ⟨by simp, by simp, h⟩
  | drain =>
    simp only [step]
    split
    · rename_i hpc
      split
      · rename_i hsl
        right; left
        refine ⟨by simp, by simp, ⟨h.bound, h.posok, h.here, h.only, ?_⟩⟩
        intro h0
        exfalso
        have hh := h.here
        subst h0
        rw [Nat.add_zero, Nat.mod_eq_of_lt h.posok, hsl] at hh
        simp at hh
      · rename_i u rest hsl
        by_cases hu : u = t
        · right; right
          subst hu
          have hpos : s.pos = (s.pos + d) % s.size := h.only s.pos (by rw [hsl]; simp)
          have hd : d = 0 := by
            have hb := h.bound
            have hp := h.posok
            rcases Nat.lt_or_ge (s.pos + d) s.size with hlt | hge
            · rw [Nat.mod_eq_of_lt hlt] at hpos; omega
            · rw [Nat.mod_eq_sub_mod hge, Nat.mod_eq_of_lt (by omega)] at hpos; omega
          refine ⟨rfl, hd, ?_⟩
          intro i hi
          simp [remove] at hi
        · right; left
          have ht : t ≠ u := fun h => hu h.symm
          refine ⟨by simp, by simp [hu], ⟨h.bound, h.posok, ?_, ?_, by simp⟩⟩
          · simp [remove, h.here, ht]
          · intro i hi
            apply h.only
            simp [remove] at hi
            exact hi.1
    · right; left; exact ⟨by simp, by simp, h⟩
  | post =>
    simp only [step]
    right; left
    split
    · exact ⟨by simp, by simp, ⟨h.bound, h.posok, h.here, h.only, by simp⟩⟩
    · exact ⟨by simp, by simp, h⟩
  | dispatch =>
    simp only [step]
    right; left
    split
    · exact ⟨by simp, by simp, h⟩
    · split <;> exact ⟨by simp, by simp, ⟨h.bound, h.posok, h.here, h.only, h.busy⟩⟩

/-- The combined statement carried through a schedule that leaves `t` alone. -/
theorem tracked_run {s : State} {t : Tid} {n : Nat} (h : Tracked s t n) (ops : List Op)
    (ho : ∀ op ∈ ops, opTouches t op = false) :
    let r := run s ops
    (tickCount r.2 ≤ n ∧ expCount t r.2 = 0 ∧ Tracked r.1 t (n - tickCount r.2)) ∨
    (n ≤ tickCount r.2 ∧ expCount t r.2 = 1 ∧ Gone r.1 t) := by
  induction ops using snoc_induction with
  | h0 => left; simpa [run, tickCount, expCount] using h
  | h1 ops op ih =>
    have ih := ih (fun o hm => ho o (by simp [hm]))
    have hop := ho op (by simp)
    rw [run_snoc]
    simp only [tickCount, expCount, List.countP_append, List.count_append] at *
    rcases ih with ⟨h1, h2, h3⟩ | ⟨h1, h2, h3⟩
    · rcases tracked_step h3 hop with ⟨e, hd, ht⟩ | ⟨e1, e2, ht⟩ | ⟨e, hd, hg⟩
      · left
        rw [e]
        simp [isTick, h2]
        refine ⟨by omega, ?_⟩
        have : n - (List.countP isTick (run s ops).2 + 1) =
          n - List.countP isTick (run s ops).2 - 1 := by omega
        rw [this]; exact ht
      · left
        have hz : List.countP isTick [(step (run s ops).1 op).2] = 0 := by
          rw [List.countP_eq_zero]; intro a ha
          simp at ha; subst ha
          intro hc; apply e1
          revert hc; cases (step (run s ops).1 op).2 <;> simp [isTick]
        have hz2 : List.count (Ev.expired t) [(step (run s ops).1 op).2] = 0 := by
          rw [List.count_eq_zero]; simp; exact fun h => e2 h.symm
        rw [hz, hz2, h2]
        exact ⟨h1, rfl, ht⟩
      · right
        rw [e]
        simp [isTick, h2]
        exact ⟨by omega, hg⟩
    · right
      obtain ⟨g1, g2⟩ := gone_step h3 hop
      have hz2 : List.count (Ev.expired t) [(step (run s ops).1 op).2] = 0 := by
        rw [List.count_eq_zero]; simp; exact fun h => g2 h.symm
      rw [hz2, h2]
      exact ⟨by omega, rfl, g1⟩

theorem pos_lt_run (n : Nat) (hn : 0 < n) (ops : List Op) :
    (run (init n) ops).1.pos < n := by
  have key : ∀ s : State, 0 < s.size → s.pos < s.size → ∀ op, (step s op).1.pos < s.size := by
    intro s h0 h op
    cases op <;> simp only [step] <;> (try split) <;> (try split) <;>
      (try exact Nat.mod_lt _ h0) <;> simpa [remove, addBefore] using h
  induction ops using snoc_induction with
  | h0 => exact hn
  | h1 ops op ih =>
    rw [run_snoc]
    have hs : (run (init n) ops).1.size = n := by rw [run_size]; rfl
    have := key (run (init n) ops).1 (by omega) (by omega) op
    simpa [hs] using this

theorem tracked_start {s : State} {t : Tid} {ticks : Int} (hp : s.pos < s.size)
    (h0 : 0 ≤ ticks) (h1 : effTicks ticks < s.size) :
    (step s (.start t ticks)).2 = .started t ticks ∧
    Tracked (step s (.start t ticks)).1 t (effTicks ticks).toNat := by
  have hge : 0 < effTicks ticks := by unfold effTicks; split <;> omega
  obtain ⟨k, hk⟩ : ∃ k : Nat, effTicks ticks = k := ⟨(effTicks ticks).toNat, by omega⟩
  have hnot : ¬ (effTicks ticks ≥ (s.size : Int)) := by omega
  have hpos : (((s.pos : Int) + effTicks ticks) % (s.size : Int)).toNat = (s.pos + k) % s.size := by
    rw [hk]; norm_cast
  simp only [step, if_neg hnot, hpos]
  refine ⟨trivial, ?_⟩
  have hkt : (effTicks ticks).toNat = k := by omega
  rw [hkt]
  constructor
  · show k < s.size; omega
  · exact hp
  · simp [addBefore, remove]
  · intro i hi
    simp only [addBefore, remove] at hi ⊢
    split at hi
    · assumption
    · simp at hi
  · intro h0; omega

/-! ### First in, first out within a slot -/

/-- `t` is linked before `u` in the same slot, each once. -/
def Before (s : State) (t u : Tid) : Prop :=
  ∃ i a b c, s.slot i = a ++ t :: b ++ u :: c ∧ u ∉ a ∧ u ∉ b ∧ ∀ j, j ≠ i → u ∉ s.slot j

theorem before_step {s : State} {t u : Tid} (htu : t ≠ u) (h : Before s t u) {op : Op}
    (ht : opTouches t op = false) (hu : opTouches u op = false) :
    (step s op).2 ≠ .expired u ∧
    ((step s op).2 = .expired t ∨ Before (step s op).1 t u) := by
  obtain ⟨i, a, b, c, h1, h2, h3, h4⟩ := h
  have hrem : ∀ v, v ≠ t → v ≠ u → ∀ j, (remove s v).slot j =
      if j = i then a.filter (· ≠ v) ++ t :: b.filter (· ≠ v) ++ u :: c.filter (· ≠ v)
      else (s.slot j).filter (· ≠ v) := by
    intro v hv1 hv2 j
    by_cases hj : j = i
    · subst hj
      have e1 : t ≠ v := fun h => hv1 h.symm
      have e2 : u ≠ v := fun h => hv2 h.symm
      simp [remove, h1, e1, e2]
    · simp [remove, hj]
  have hbef : ∀ v, v ≠ t → v ≠ u → Before (remove s v) t u := by
    intro v hv1 hv2
    refine ⟨i, a.filter (· ≠ v), b.filter (· ≠ v), c.filter (· ≠ v), ?_, ?_, ?_, ?_⟩
    · rw [hrem v hv1 hv2]; simp
    · simp [h2]
    · simp [h3]
    · intro j hj
      rw [hrem v hv1 hv2, if_neg hj]
      simp; intro hm; exact absurd hm (h4 j hj)
  cases op with
  | start v ticks =>
    simp [opTouches] at ht hu
    simp only [step]
    split
    · exact ⟨by simp, Or.inr ⟨i, a, b, c, h1, h2, h3, h4⟩⟩
    · refine ⟨by simp, Or.inr ?_⟩
      obtain ⟨i', a', b', c', g1, g2, g3, g4⟩ := hbef v ht hu
      generalize (((s.pos : Int) + effTicks ticks) % (s.size : Int)).toNat = p
      have huv : u ≠ v := fun h => hu h.symm
      refine ⟨i', a', b', c' ++ (if i' = p then [v] else []), ?_, g2, g3, ?_⟩
      · simp only [addBefore]
        rw [g1]; split <;> simp
      · intro j hj
        simp only [addBefore]
        split
        · simp [huv]; exact g4 j hj
        · exact g4 j hj
  | stop v =>
    simp [opTouches] at ht hu
    exact ⟨by simp [step], Or.inr (hbef v ht hu)⟩
  | tick =>
    simp only [step]
    split <;> exact ⟨by simp, Or.inr ⟨i, a, b, c, h1, h2, h3, h4⟩⟩
  | drain =>
    simp only [step]
    split
    · split
      · exact ⟨by simp, Or.inr ⟨i, a, b, c, h1, h2, h3, h4⟩⟩
      · rename_i v rest hsl
        have hvu : v ≠ u := by
          intro hv
          subst hv
          by_cases hi : s.pos = i
          · rw [hi, h1] at hsl
            cases a with
            | nil => simp at hsl; exact htu hsl.1
            | cons x a => simp at hsl; simp at h2; exact h2.1 hsl.1.symm
          · exact h4 s.pos hi (by rw [hsl]; simp)
        refine ⟨by simp [hvu], ?_⟩
        by_cases hvt : v = t
        · left; rw [hvt]
        · right
          exact hbef v hvt hvu
    · exact ⟨by simp, Or.inr ⟨i, a, b, c, h1, h2, h3, h4⟩⟩
  | post =>
    simp only [step]
    split <;> exact ⟨by simp, Or.inr ⟨i, a, b, c, h1, h2, h3, h4⟩⟩
  | dispatch =>
    simp only [step]
    split
    · exact ⟨by simp, Or.inr ⟨i, a, b, c, h1, h2, h3, h4⟩⟩
    · split <;> exact ⟨by simp, Or.inr ⟨i, a, b, c, h1, h2, h3, h4⟩⟩

theorem before_run {s : State} {t u : Tid} (htu : t ≠ u) (h : Before s t u) (ops : List Op)
    (ht : ∀ op ∈ ops, opTouches t op = false) (hu : ∀ op ∈ ops, opTouches u op = false) :
    ∀ pre post, (run s ops).2 = pre ++ .expired u :: post → .expired t ∈ pre := by
  induction ops generalizing s with
  | nil => intro pre post hp; simp [run] at hp
  | cons op ops ih =>
    intro pre post hp
    obtain ⟨b1, b2⟩ := before_step htu h (ht op (by simp)) (hu op (by simp))
    simp only [run] at hp
    cases pre with
    | nil => simp at hp; exact absurd hp.1 b1
    | cons x pre =>
      simp at hp
      rcases b2 with b2 | b2
      · rw [b2] at hp; simp [← hp.1]
      · have := ih b2 (fun o hm => ht o (by simp [hm])) (fun o hm => hu o (by simp [hm]))
          pre post hp.2
        simp [this]

end Verif.Timers
