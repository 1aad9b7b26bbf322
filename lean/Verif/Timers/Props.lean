import Verif.Timers.Lemmas
/-!
# C03, C04, C58: the timer wheel

Everything below is about the trace of outside-visible events of an arbitrary interleaving of
calls (`start`, `stop`) and thread steps (`tick`, `drain`, `post`, `dispatch`).
-/
namespace Verif.Timers

/-- Specification: an operation that names timer `t` (a caller starting or stopping it). -/
def CallsOn (t : Tid) : Op → Prop
  | .start u _ => u = t
  | .stop u => u = t
  | _ => False

/-- Specification: number of ticks of the wheel in a trace. -/
def ticksIn : List Ev → Nat
  | [] => 0
  | .ticked :: l => ticksIn l + 1
  | _ :: l => ticksIn l

/-- Specification: number of expirations of `t` in a trace. -/
def expiriesOf (t : Tid) : List Ev → Nat
  | [] => 0
  | .expired u :: l => (if u = t then 1 else 0) + expiriesOf t l
  | _ :: l => expiriesOf t l

theorem ticksIn_eq (l : List Ev) : ticksIn l = tickCount l := by
  induction l with
  | nil => rfl
  | cons e l ih => cases e <;> simp [ticksIn, ih, tickCount, isTick, List.countP_cons]

theorem expiriesOf_eq (t : Tid) (l : List Ev) : expiriesOf t l = expCount t l := by
  induction l with
  | nil => rfl
  | cons e l ih =>
    cases e <;> simp [expiriesOf, ih, expCount, List.count_cons]
    omega

theorem opTouches_of_not_callsOn {t : Tid} {op : Op} (h : ¬ CallsOn t op) :
    opTouches t op = false := by
  cases op <;> simp_all [CallsOn, opTouches]

/-- The number of ticks a timeout of `ticks` ticks stands for: a zero timeout counts as one. -/
def due (ticks : Int) : Nat := if ticks = 0 then 1 else ticks.toNat

/-- C03.  From any state reached by any schedule on a wheel of `size` slots, a timer started with
a non-negative timeout that fits the wheel, and left alone afterwards, does not expire before
`due` ticks, expires at most once, has expired when one more tick was taken, and in fact has
expired as soon as the timer thread finished the `due`-th tick. -/
theorem expires_exactly (size : Nat) (hist : List Op) (t : Tid) (ticks : Int)
    (h0 : 0 ≤ ticks) (hfit : due ticks < size)
    (ops : List Op) (hleft : ∀ op ∈ ops, ¬ CallsOn t op) :
    let s := (run (init size) hist).1
    let s1 := step s (.start t ticks)
    let r := run s1.1 ops
    s1.2 = .started t ticks ∧
    expiriesOf t r.2 ≤ 1 ∧
    (ticksIn r.2 < due ticks → expiriesOf t r.2 = 0) ∧
    (due ticks < ticksIn r.2 → expiriesOf t r.2 = 1) ∧
    (due ticks ≤ ticksIn r.2 → r.1.pc = .idle → expiriesOf t r.2 = 1) := by
  intro s s1 r
  have hs : s.size = size := by rw [run_size]; rfl
  have hpos : s.pos < s.size := by rw [hs]; exact pos_lt_run size (by omega) hist
  have hdue : (effTicks ticks).toNat = due ticks := by
    unfold effTicks due; split <;> simp
  have hlt : effTicks ticks < s.size := by
    have : 0 ≤ effTicks ticks := by unfold effTicks; split <;> omega
    omega
  obtain ⟨he, ht⟩ := tracked_start (t := t) hpos h0 hlt
  rw [hdue] at ht
  have key := tracked_run ht ops (fun op hm => opTouches_of_not_callsOn (hleft op hm))
  rw [ticksIn_eq, expiriesOf_eq]
  refine ⟨he, ?_⟩
  rcases key with ⟨h1, h2, h3⟩ | ⟨h1, h2, h3⟩
  · change tickCount r.2 ≤ _ at h1
    change expCount t r.2 = _ at h2
    refine ⟨by omega, fun _ => h2, fun h => by omega, fun h hidle => ?_⟩
    have : due ticks - tickCount r.2 = 0 := by omega
    exact absurd hidle (h3.busy this)
  · change _ ≤ tickCount r.2 at h1
    change expCount t r.2 = _ at h2
    exact ⟨by omega, fun h => by omega, fun _ => h2, fun _ _ => h2⟩

/-- C03: a timer that does not fit the wheel is refused and nothing changes. -/
theorem start_refused (size : Nat) (hist : List Op) (t : Tid) (ticks : Int)
    (h : size ≤ due ticks) (h0 : 0 ≤ ticks) :
    step (run (init size) hist).1 (.start t ticks) =
      ((run (init size) hist).1, .refused t ticks) := by
  have hs : (run (init size) hist).1.size = size := by rw [run_size]; rfl
  have : effTicks ticks ≥ (size : Int) := by
    unfold effTicks; unfold due at h; split at h <;> rename_i hz <;> simp [hz] <;> omega
  simp [step, hs, this]

/-- Non-vacuity for `expires_exactly`: a wheel of 10 slots, two timers, one expires. -/
example :
    let s1 := step (run (init 10) [.start 7 3, .tick, .drain]).1 (.start 1 2)
    let r := run s1.1 [.start 2 5, .tick, .drain, .tick, .drain, .post, .drain, .post, .drain]
    r.2 = [.started 2 5, .ticked, .nothing, .ticked, .expired 7, .nothing, .expired 1, .nothing,
      .nothing] := by decide

/-- Specification: an event that makes an earlier expiry of `t` obsolete. -/
def Restarts (t : Tid) (e : Ev) : Prop := (∃ n, e = .started t n) ∨ e = .stopped t

theorem touches_spec {t : Tid} {e : Ev} (h : touches t e = false) :
    ¬ Restarts t e ∧ e ≠ .expired t := by
  cases e <;> simp_all [touches, Restarts]

theorem touches_of {t : Tid} {e : Ev} (h1 : ¬ Restarts t e) (h2 : e ≠ .expired t) :
    touches t e = false := by
  cases e <;> simp_all [touches, Restarts]

theorem touchCount_zero {t : Tid} {l : List Ev} (h : touchCount t l = 0) :
    ∀ e ∈ l, touches t e = false := by
  intro e he
  simp only [touchCount, List.countP_eq_zero] at h
  simpa using h e he

/-- C04: whatever the interleaving, a timeout reaches its owner only if the timer expired and
was neither stopped, nor restarted, nor already delivered since that expiry. -/
theorem delivered_fresh (size : Nat) (ops : List Op) (t : Tid) (pre post : List Ev)
    (h : (run (init size) ops).2 = pre ++ .delivered t :: post) :
    ∃ a b, pre = a ++ .expired t :: b ∧
      ∀ e ∈ b, ¬ Restarts t e ∧ e ≠ .expired t ∧ e ≠ .delivered t := by
  obtain ⟨o1, op, o2, _, h2, h3⟩ := run_events_split _ _ h
  have hinv := revInv_run size o1
  generalize (run (init size) o1).1 = s at *
  rw [h2] at hinv
  cases op with
  | dispatch =>
    simp only [step] at h3
    split at h3
    · simp at h3
    · rename_i u r q hq
      split at h3
      · rename_i hr
        simp at h3; subst h3
        have hm : (u, r) ∈ pending s := by simp [pending, hq]
        obtain ⟨a, b, g1, g2⟩ := hinv.origin u r hm
        have g3 := hinv.rev_eq u
        rw [g1, touchCount_append] at g3
        have g4 : touchCount u (Ev.expired u :: b) = touchCount u b + 1 := by
          simp [touchCount, touches]
        have g5 : touchCount u b = 0 := by omega
        refine ⟨a, b, g1, fun e he => ?_⟩
        obtain ⟨k1, k2⟩ := touches_spec (touchCount_zero g5 e he)
        refine ⟨k1, k2, ?_⟩
        rintro rfl
        obtain ⟨b1, b2, hb⟩ := List.append_of_mem he
        have := hinv.fresh u r hm (a ++ Ev.expired u :: b1) b2 (by rw [g1, hb]; simp)
        rw [touchCount_append] at this
        have g6 : touchCount u (Ev.expired u :: b1) = touchCount u b1 + 1 := by
          simp [touchCount, touches]
        omega
      · simp at h3
  | start u n => simp only [step] at h3; split at h3 <;> simp at h3
  | stop u => simp [step] at h3
  | tick => simp only [step] at h3; split at h3 <;> simp at h3
  | drain => simp only [step] at h3; split at h3 <;> (try split at h3) <;> simp at h3
  | post => simp only [step] at h3; split at h3 <;> simp at h3

/-- C04: an expiry of `t` only happens when `t` was started and neither stopped, restarted nor
expired since. -/
theorem expired_needs_start (size : Nat) (ops : List Op) (t : Tid) (pre post : List Ev)
    (h : (run (init size) ops).2 = pre ++ .expired t :: post) :
    ∃ a n b, pre = a ++ .started t n :: b ∧ ∀ e ∈ b, ¬ Restarts t e ∧ e ≠ .expired t := by
  obtain ⟨o1, op, o2, _, h2, h3⟩ := run_events_split _ _ h
  have hinv := armInv_run size o1
  generalize (run (init size) o1).1 = s at *
  rw [h2] at hinv
  cases op with
  | drain =>
    simp only [step] at h3
    split at h3
    · split at h3
      · simp at h3
      · rename_i u rest hsl
        simp at h3; subst h3
        obtain ⟨a, n, b, g1, g2⟩ := hinv s.pos u (by rw [hsl]; simp)
        exact ⟨a, n, b, g1, fun e he => touches_spec (g2 e he)⟩
    · simp at h3
  | start u n => simp only [step] at h3; split at h3 <;> simp at h3
  | stop u => simp [step] at h3
  | tick => simp only [step] at h3; split at h3 <;> simp at h3
  | dispatch => simp only [step] at h3; split at h3 <;> (try split at h3) <;> simp at h3
  | post => simp only [step] at h3; split at h3 <;> simp at h3

/-- C04: a timeout is discarded only when its timer was stopped, restarted or expired again
after the expiry it came from; so a timer left alone loses no timeout. -/
theorem dropped_only_if_restarted (size : Nat) (ops : List Op) (t : Tid) (pre post : List Ev)
    (h : (run (init size) ops).2 = pre ++ .dropped t :: post) :
    ∃ a b, pre = a ++ .expired t :: b ∧ ∃ e ∈ b, Restarts t e ∨ e = .expired t := by
  obtain ⟨o1, op, o2, _, h2, h3⟩ := run_events_split _ _ h
  have hinv := revInv_run size o1
  generalize (run (init size) o1).1 = s at *
  rw [h2] at hinv
  cases op with
  | dispatch =>
    simp only [step] at h3
    split at h3
    · simp at h3
    · rename_i u r q hq
      split at h3
      · simp at h3
      · rename_i hr
        simp at h3; subst h3
        have hm : (u, r) ∈ pending s := by simp [pending, hq]
        obtain ⟨a, b, g1, g2⟩ := hinv.origin u r hm
        refine ⟨a, b, g1, ?_⟩
        refine Classical.byContradiction fun hcon => ?_
        have hz : touchCount u b = 0 := by
          simp only [touchCount, List.countP_eq_zero]
          intro e he
          have := touches_of (t := u) (e := e)
            (fun h => hcon ⟨e, he, Or.inl h⟩) (fun h => hcon ⟨e, he, Or.inr h⟩)
          simp [this]
        have g3 := hinv.rev_eq u
        rw [g1, touchCount_append] at g3
        have g4 : touchCount u (Ev.expired u :: b) = touchCount u b + 1 := by
          simp [touchCount, touches]
        omega
  | start u n => simp only [step] at h3; split at h3 <;> simp at h3
  | stop u => simp [step] at h3
  | tick => simp only [step] at h3; split at h3 <;> simp at h3
  | drain => simp only [step] at h3; split at h3 <;> (try split at h3) <;> simp at h3
  | post => simp only [step] at h3; split at h3 <;> simp at h3

/-- Non-vacuity for the three theorems above: one trace with a delivery and a drop, the drop
being a timer stopped between expiry and dispatch. -/
example : (run (init 10) [.start 1 1, .start 2 1, .tick, .drain, .post, .drain, .post, .stop 1,
    .dispatch, .dispatch]).2 =
    [.started 1 1, .started 2 1, .ticked, .expired 1, .nothing, .expired 2, .nothing, .stopped 1,
      .dropped 1, .delivered 2] := by decide

/-- C58: two timers that fall due on the same tick expire in the order in which they were
started: if `t` was started first, and both are left alone, then `u` does not expire before `t`
has expired. -/
theorem same_tick_in_start_order (size : Nat) (hist : List Op) (t u : Tid) (htu : t ≠ u)
    (n m : Int) (between after : List Op)
    (hn0 : 0 ≤ n) (hn : due n < size) (hm0 : 0 ≤ m) (hm : due m < size)
    (hb : ∀ op ∈ between, ¬ CallsOn t op)
    (ha : ∀ op ∈ after, ¬ CallsOn t op ∧ ¬ CallsOn u op)
    (hsame : due n = ticksIn (run (step (run (init size) hist).1 (.start t n)).1 between).2 + due m)
    (pre post : List Ev)
    (h : let s := (run (init size) hist).1
         let s1 := (step s (.start t n)).1
         let s2 := (run s1 between).1
         let s3 := (step s2 (.start u m)).1
         (run s3 after).2 = pre ++ .expired u :: post) :
    .expired t ∈ pre := by
  simp only at h
  have hs : (run (init size) hist).1.size = size := by rw [run_size]; rfl
  have hpos : (run (init size) hist).1.pos < size := pos_lt_run size (by omega) hist
  generalize (run (init size) hist).1 = s at *
  have hdue : ∀ k : Int, (effTicks k).toNat = due k := by
    intro k; unfold effTicks due; split <;> simp
  have hge : ∀ k : Int, 0 ≤ k → 0 ≤ effTicks k := by
    intro k hk; unfold effTicks; split <;> omega
  have hdm : 1 ≤ due m := by unfold due; split <;> omega
  obtain ⟨_, ht⟩ := tracked_start (t := t) (ticks := n) (s := s) (by omega) hn0
    (by have := hdue n; have := hge n hn0; omega)
  rw [hdue] at ht
  have key := tracked_run ht between (fun op hmm => opTouches_of_not_callsOn (hb op hmm))
  rw [ticksIn_eq] at hsame
  have hsz2 : (run (step s (.start t n)).1 between).1.size = size := by
    rw [run_size, step_size, hs]
  generalize hr : run (step s (.start t n)).1 between = r at *
  rcases key with ⟨k1, k2, k3⟩ | ⟨k1, _, _⟩
  · have hd : due n - tickCount r.2 = due m := by omega
    rw [hd] at k3
    refine before_run htu ?_ after
      (fun op hmm => opTouches_of_not_callsOn (ha op hmm).1)
      (fun op hmm => opTouches_of_not_callsOn (ha op hmm).2) pre post h
    -- `u` is appended to the slot that holds `t`
    have hnot : ¬ (effTicks m ≥ (r.1.size : Int)) := by
      have := hdue m; have := hge m hm0; omega
    have hp : (((r.1.pos : Int) + effTicks m) % (r.1.size : Int)).toNat
        = (r.1.pos + due m) % r.1.size := by
      have : effTicks m = (due m : Int) := by
        have := hdue m; have := hge m hm0; omega
      rw [this]; norm_cast
    simp only [step, if_neg hnot, hp]
    have hmem : t ∈ (remove r.1 u).slot ((r.1.pos + due m) % r.1.size) := by
      simp [remove, k3.here, htu]
    obtain ⟨a, b, hab⟩ := List.append_of_mem hmem
    have hu : ∀ i, u ∉ (remove r.1 u).slot i := by intro i; simp [remove]
    refine ⟨(r.1.pos + due m) % r.1.size, a, b, [], ?_, ?_, ?_, ?_⟩
    · simp only [addBefore, if_true]; rw [hab]
    · have := hu ((r.1.pos + due m) % r.1.size); rw [hab] at this; simp at this; exact this.1
    · have := hu ((r.1.pos + due m) % r.1.size); rw [hab] at this; simp at this; exact this.2.2
    · intro j hj
      simp only [addBefore, if_neg hj]; exact hu j
  · omega

/-- Non-vacuity for `same_tick_in_start_order`. -/
example :
    let s1 := (step (run (init 10) []).1 (.start 1 3)).1
    let r := run s1 [.tick, .drain]
    let s3 := (step r.1 (.start 2 2)).1
    due 3 = ticksIn r.2 + due 2 ∧
    (run s3 [.tick, .drain, .tick, .drain, .post, .drain, .post, .drain]).2 =
      [.ticked, .nothing, .ticked, .expired 1, .nothing, .expired 2, .nothing, .nothing] := by
  decide

/-- Finding: a negative timeout is accepted (the range check only looks at the upper end,
timers.py 155) and the timer fires after `size - 1` ticks instead of at once or never. -/
theorem negative_timeout_accepted :
    ∃ ops : List Op, (∀ op ∈ ops, ¬ CallsOn 1 op) ∧
      let s1 := step (run (init 4) []).1 (.start 1 (-1))
      s1.2 = .started 1 (-1) ∧ ticksIn (run s1.1 ops).2 = 3 ∧ expiriesOf 1 (run s1.1 ops).2 = 1 :=
  ⟨[.tick, .drain, .tick, .drain, .tick, .drain], by
    refine ⟨by simp [CallsOn], by decide⟩⟩

end Verif.Timers
