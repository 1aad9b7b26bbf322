import Verif.Cque.Lemmas
import Verif.Timers.Props

/-!
# C67: the linked lists of the timer wheel

Every execution of the timer wheel on linked lists, with the unlocked test of the timer thread, is an
execution of the wheel on plain lists (`Verif.Timers`), so that what holds there holds here.
-/
namespace Verif.Cque

open Timers (Ev effTicks due ticksIn expiriesOf Restarts)

/-! ## Specification -/

/-- What is seen from outside. -/
def visible (l : List Ev) : List Ev := l.filter (· ≠ .nothing)

/-- The operation is a call on timer `t`. -/
def CallsOn (t : Nat) : Op → Prop
  | .start u _ => u = t
  | .stop u => u = t
  | _ => False

/-- The abstract wheel in the same state. -/
def absPC : PC → Timers.PC
  | .idle => .idle
  | .testing => .draining
  | .popping => .draining
  | .posting t r => .posting t r

structure Sim (c : State) (s : Timers.State) : Prop where
  size : s.size = c.size
  pos : s.pos = c.pos
  rep : Rep c.mem s.slot
  rev : ∀ t, s.rev t = c.mem.rev (.item t)
  pc : s.pc = absPC c.pc
  queue : s.queue = c.queue

/-! ## The lists -/

/-- What the lists are after `remove` and `add_before`, for any number of lists and timers: removing
takes a timer off whatever list it is on and is harmless if it is on none; adding puts it last. -/
theorem lists {m : Mem} {slot : Nat → List Nat} (r : Rep m slot) (i t : Nat) :
    Rep (remove m (.item t)) (fun j => (slot j).filter (· ≠ t)) ∧
    Rep (addBefore (remove m (.item t)) (.head i) (.item t))
      (fun j => if j = i then (slot j).filter (· ≠ t) ++ [t] else (slot j).filter (· ≠ t)) ∧
    ((∃ j, t ∈ slot j) ↔ islinked m (.item t) = true) :=
  ⟨r.remove_item t, (r.remove_item t).addBefore i t (by simp), (r.linked t).symm⟩

/-- Adding a timer that is on a list without removing it first would break that list: it no longer
leads back to its head. -/
theorem add_linked_breaks :
    let m := addBefore Mem.init (.head 0) (.item 5)
    let m2 := addBefore m (.head 1) (.item 5)
    m2.next (.head 0) = .item 5 ∧ m2.next (.item 5) = .head 1 := by decide

/-- Removing twice is the same as removing once. -/
theorem remove_twice {m : Mem} {slot : Nat → List Nat} (r : Rep m slot) (t : Nat) :
    Rep (remove (remove m (.item t)) (.item t)) (fun j => (slot j).filter (· ≠ t)) := by
  have := (r.remove_item t).remove_item t
  simpa [List.filter_filter] using this

/-! ## Refinement -/

theorem Sim.init (size : Nat) : Sim (init size) (Timers.init size) :=
  ⟨rfl, rfl, Rep.init, fun _ => rfl, rfl, rfl⟩

theorem Sim.remove {c : State} {s : Timers.State} (h : Sim c s) (t : Nat) :
    Sim { c with mem := remove c.mem (.item t) } (Timers.remove s t) := by
  refine ⟨h.size, h.pos, h.rep.remove_item t, fun u => ?_, h.pc, h.queue⟩
  simp only [Timers.remove, remove_rev, h.rev, Node.item.injEq]
  split
  · rename_i e; rw [e]
  · rfl

/-- One action is at most one action of the abstract wheel, a call being the same call. -/
theorem Sim.step {c : State} {s : Timers.State} (h : Sim c s) (op : Op) :
    ∃ ops : List Timers.Op, Sim (step c op).1 (Timers.run s ops).1 ∧
      visible (Timers.run s ops).2 = visible [(Cque.step c op).2] ∧
      (∀ t, ∀ o ∈ ops, Timers.CallsOn t o → CallsOn t op) ∧
      (∀ t n, op = .start t n → ops = [.start t n]) := by
  have none : Sim (Cque.step c op).1 s → (Cque.step c op).2 = .nothing → (∀ t n, op ≠ .start t n) →
      ∃ ops : List Timers.Op, Sim (Cque.step c op).1 (Timers.run s ops).1 ∧
        visible (Timers.run s ops).2 = visible [(Cque.step c op).2] ∧
        (∀ t, ∀ o ∈ ops, Timers.CallsOn t o → CallsOn t op) ∧
        (∀ t n, op = .start t n → ops = [.start t n]) := by
    intro h1 h2 h3
    exact ⟨[], h1, by rw [h2]; rfl, by simp, fun t n e => absurd e (h3 t n)⟩
  cases op with
  | start t n =>
    refine ⟨[.start t n], ?_, ?_, by simp [Timers.CallsOn, CallsOn], by rintro _ _ ⟨⟩; rfl⟩
    · show Sim (Cque.step c (.start t n)).1 (Timers.step s (.start t n)).1
      simp only [Cque.step, Timers.step, h.size, h.pos]
      by_cases hn : effTicks n ≥ (c.size : Int)
      · rw [if_pos hn, if_pos hn]; exact h
      · rw [if_neg hn, if_neg hn]
        have hr := h.remove t
        refine ⟨h.size, h.pos, ?_, fun u => ?_, h.pc, h.queue⟩
        · exact hr.rep.addBefore _ t (by simp [Timers.remove])
        · show (Timers.remove s t).rev u = _
          rw [hr.rev u, addBefore_rev, if_neg (by simp)]
    · show visible [(Timers.step s (.start t n)).2] = _
      simp only [Cque.step, Timers.step, h.size]
      by_cases hn : effTicks n ≥ (c.size : Int)
      · rw [if_pos hn, if_pos hn]
      · rw [if_neg hn, if_neg hn]
  | stop t =>
    exact ⟨[.stop t], h.remove t, rfl, by simp [Timers.CallsOn, CallsOn], by simp⟩
  | tick =>
    have hpc := h.pc
    cases hc : c.pc with
    | idle =>
      rw [hc] at hpc
      refine ⟨[.tick], ?_, ?_, by simp [Timers.CallsOn], by simp⟩
      · show Sim (Cque.step c .tick).1 (Timers.step s .tick).1
        simp only [Cque.step, Timers.step, hc, hpc, absPC]
        exact ⟨h.size, by simp only [h.pos, h.size], h.rep, h.rev, rfl, h.queue⟩
      · show visible [(Timers.step s .tick).2] = _
        simp only [Cque.step, Timers.step, hc, hpc, absPC]
    | testing => exact none (by simp only [Cque.step, hc]; exact h) (by simp only [Cque.step, hc]) (by simp)
    | popping => exact none (by simp only [Cque.step, hc]; exact h) (by simp only [Cque.step, hc]) (by simp)
    | posting a b => exact none (by simp only [Cque.step, hc]; exact h) (by simp only [Cque.step, hc]) (by simp)
  | test =>
    have hpc := h.pc
    cases hc : c.pc with
    | idle => exact none (by simp only [Cque.step, hc]; exact h) (by simp only [Cque.step, hc]) (by simp)
    | popping => exact none (by simp only [Cque.step, hc]; exact h) (by simp only [Cque.step, hc]) (by simp)
    | posting a b => exact none (by simp only [Cque.step, hc]; exact h) (by simp only [Cque.step, hc]) (by simp)
    | testing =>
      rw [hc] at hpc
      by_cases hl : islinked c.mem (.head c.pos) = true
      · refine none ?_ ?_ (by simp)
        · simp only [Cque.step, hc, hl, if_true]
          exact ⟨h.size, h.pos, h.rep, h.rev, by rw [hpc]; rfl, h.queue⟩
        · simp only [Cque.step, hc, hl, if_true]
      · have hempty : s.slot s.pos = [] := by
          have hf := h.rep.first c.pos
          rw [h.pos]
          cases hs : s.slot c.pos with
          | nil => rfl
          | cons t l =>
            rw [hs] at hf
            exact absurd (by simp [islinked, hf]) hl
        refine ⟨[.drain], ?_, ?_, by simp [Timers.CallsOn], by simp⟩
        · show Sim (Cque.step c .test).1 (Timers.step s .drain).1
          simp only [Cque.step, Timers.step, hc, hpc, hempty, absPC]
          rw [if_neg hl]
          exact ⟨h.size, h.pos, h.rep, h.rev, rfl, h.queue⟩
        · show visible [(Timers.step s .drain).2] = _
          simp only [Cque.step, Timers.step, hc, hpc, hempty, absPC]
          rw [if_neg hl]
  | pop =>
    have hpc := h.pc
    cases hc : c.pc with
    | idle => exact none (by simp only [Cque.step, hc]; exact h) (by simp only [Cque.step, hc]) (by simp)
    | testing => exact none (by simp only [Cque.step, hc]; exact h) (by simp only [Cque.step, hc]) (by simp)
    | posting a b => exact none (by simp only [Cque.step, hc]; exact h) (by simp only [Cque.step, hc]) (by simp)
    | popping =>
      rw [hc] at hpc
      have hf := h.rep.first c.pos
      cases hs : s.slot c.pos with
      | nil =>
        rw [hs] at hf
        simp only at hf
        refine none ?_ ?_ (by simp)
        · simp only [Cque.step, hc, pop, hf]
          refine ⟨h.size, h.pos, h.rep.remove_head c.pos hs, fun t => ?_, by rw [hpc]; rfl, h.queue⟩
          rw [h.rev, remove_rev, if_neg (by simp)]
        · simp only [Cque.step, hc, pop, hf]
      | cons t l =>
        rw [hs] at hf
        simp only at hf
        have hsp : s.slot s.pos = t :: l := by rw [h.pos]; exact hs
        have hr := h.remove t
        refine ⟨[.drain], ?_, ?_, by simp [Timers.CallsOn], by simp⟩
        · show Sim (Cque.step c .pop).1 (Timers.step s .drain).1
          simp only [Cque.step, Timers.step, hc, hpc, hsp, pop, hf, absPC]
          refine ⟨h.size, h.pos, hr.rep, hr.rev, ?_, h.queue⟩
          show Timers.PC.posting t _ = Timers.PC.posting t _
          rw [hr.rev t]
        · show visible [(Timers.step s .drain).2] = _
          simp only [Cque.step, Timers.step, hc, hpc, hsp, pop, hf, absPC]
  | post =>
    have hpc := h.pc
    cases hc : c.pc with
    | idle => exact none (by simp only [Cque.step, hc]; exact h) (by simp only [Cque.step, hc]) (by simp)
    | testing => exact none (by simp only [Cque.step, hc]; exact h) (by simp only [Cque.step, hc]) (by simp)
    | popping => exact none (by simp only [Cque.step, hc]; exact h) (by simp only [Cque.step, hc]) (by simp)
    | posting a b =>
      rw [hc] at hpc
      refine ⟨[.post], ?_, ?_, by simp [Timers.CallsOn], by simp⟩
      · show Sim (Cque.step c .post).1 (Timers.step s .post).1
        simp only [Cque.step, Timers.step, hc, hpc, absPC]
        exact ⟨h.size, h.pos, h.rep, h.rev, rfl, by simp only [h.queue]⟩
      · show visible [(Timers.step s .post).2] = _
        simp only [Cque.step, Timers.step, hc, hpc, absPC]
  | dispatch =>
    have hq := h.queue
    cases hc : c.queue with
    | nil => exact none (by simp only [Cque.step, hc]; exact h) (by simp only [Cque.step, hc]) (by simp)
    | cons a q =>
      obtain ⟨t, r⟩ := a
      rw [hc] at hq
      refine ⟨[.dispatch], ?_, ?_, by simp [Timers.CallsOn], by simp⟩
      · show Sim (Cque.step c .dispatch).1 (Timers.step s .dispatch).1
        simp only [Cque.step, Timers.step, hc, hq, h.rev]
        split <;> exact ⟨h.size, h.pos, h.rep, h.rev, h.pc, rfl⟩
      · show visible [(Timers.step s .dispatch).2] = _
        simp only [Cque.step, Timers.step, hc, hq, h.rev]
        split <;> rfl

theorem trun_append (s : Timers.State) (a b : List Timers.Op) :
    Timers.run s (a ++ b) =
      ((Timers.run (Timers.run s a).1 b).1, (Timers.run s a).2 ++ (Timers.run (Timers.run s a).1 b).2) := by
  induction a generalizing s with
  | nil => rfl
  | cons o a ih => simp only [List.cons_append, Timers.run, ih]

theorem run_cons (c : State) (op : Op) (ops : List Op) :
    run c (op :: ops) = ((run (step c op).1 ops).1, (step c op).2 :: (run (step c op).1 ops).2) := rfl

theorem visible_append (a b : List Ev) : visible (a ++ b) = visible a ++ visible b :=
  List.filter_append ..

theorem Sim.run {c : State} {s : Timers.State} (h : Sim c s) (ops : List Op) :
    ∃ tops : List Timers.Op, Sim (run c ops).1 (Timers.run s tops).1 ∧
      visible (Timers.run s tops).2 = visible (run c ops).2 ∧
      (∀ t, (∀ o ∈ ops, ¬ CallsOn t o) → ∀ o ∈ tops, ¬ Timers.CallsOn t o) := by
  induction ops generalizing c s with
  | nil => exact ⟨[], h, rfl, by simp⟩
  | cons op ops ih =>
    obtain ⟨t1, h1, v1, k1, _⟩ := h.step op
    obtain ⟨t2, h2, v2, k2⟩ := ih h1
    refine ⟨t1 ++ t2, ?_, ?_, ?_⟩
    · rw [trun_append]; exact h2
    · rw [trun_append, run_cons]
      show visible (_ ++ _) = visible ([(Cque.step c op).2] ++ _)
      rw [visible_append, visible_append, v1, v2]
    · intro t ht o ho hc
      rcases List.mem_append.1 ho with ho | ho
      · exact ht op (by simp) (k1 t o ho hc)
      · exact k2 t (fun o' ho' => ht o' (by simp [ho'])) o ho hc

/-- Every execution on linked lists looks like one of the wheel on plain lists. -/
theorem refines (size : Nat) (ops : List Op) :
    ∃ tops : List Timers.Op, Sim (run (init size) ops).1 (Timers.run (Timers.init size) tops).1 ∧
      visible (Timers.run (Timers.init size) tops).2 = visible (run (init size) ops).2 := by
  obtain ⟨t, h1, h2, _⟩ := (Sim.init size).run ops
  exact ⟨t, h1, h2⟩

/-! ## What follows -/

theorem ticksIn_visible (l : List Ev) : ticksIn (visible l) = ticksIn l := by
  induction l with
  | nil => rfl
  | cons e l ih =>
    cases e <;> simp only [visible, List.filter, ne_eq, reduceCtorEq, not_false_eq_true, not_true_eq_false,
      decide_true, decide_false, ticksIn] <;> first | exact ih | exact congrArg (· + 1) ih

theorem expiriesOf_visible (t : Nat) (l : List Ev) : expiriesOf t (visible l) = expiriesOf t l := by
  induction l with
  | nil => rfl
  | cons e l ih =>
    cases e <;> simp only [visible, List.filter, ne_eq, reduceCtorEq, not_false_eq_true, not_true_eq_false,
      decide_true, decide_false, expiriesOf] <;> first | exact ih | (rw [← ih]; rfl)

theorem split_visible {l pre post : List Ev} {e : Ev} (h : visible l = pre ++ e :: post) :
    ∃ a b, l = a ++ e :: b ∧ visible a = pre ∧ visible b = post := by
  obtain ⟨a, b, rfl, h1, h2⟩ := List.filter_eq_append_iff.1 h
  obtain ⟨c, d, rfl, h3, _, h4⟩ := List.filter_eq_cons_iff.1 h2
  refine ⟨a ++ c, d, by simp, ?_, h4⟩
  show (a ++ c).filter _ = _
  rw [List.filter_append, h1, List.filter_eq_nil_iff.2 h3, List.append_nil]

/-- C03 on the linked lists: a timer left alone expires exactly after its ticks. -/
theorem expires_exactly (size : Nat) (hist : List Op) (t : Nat) (ticks : Int)
    (h0 : 0 ≤ ticks) (hfit : due ticks < size)
    (ops : List Op) (hleft : ∀ op ∈ ops, ¬ CallsOn t op) :
    let s1 := step (run (init size) hist).1 (.start t ticks)
    let r := run s1.1 ops
    s1.2 = .started t ticks ∧
    expiriesOf t r.2 ≤ 1 ∧
    (ticksIn r.2 < due ticks → expiriesOf t r.2 = 0) ∧
    (due ticks < ticksIn r.2 → expiriesOf t r.2 = 1) ∧
    (due ticks ≤ ticksIn r.2 → r.1.pc = .idle → expiriesOf t r.2 = 1) := by
  obtain ⟨th, hh, _⟩ := refines size hist
  obtain ⟨t1, hs1, hv1, _, ht1⟩ := hh.step (.start t ticks)
  have ht1 := ht1 t ticks rfl
  subst ht1
  obtain ⟨t2, hs2, hv2, hk2⟩ := hs1.run ops
  have key := Timers.expires_exactly size th t ticks h0 hfit t2 (hk2 t hleft)
  have e1 : ∀ x : Timers.Op, (Timers.run (Timers.run (Timers.init size) th).1 [x]) =
      ((Timers.step (Timers.run (Timers.init size) th).1 x).1,
        [(Timers.step (Timers.run (Timers.init size) th).1 x).2]) := fun _ => rfl
  rw [e1] at hs1 hv1 hs2 hv2
  simp only at key hs2 hv2 hv1 ⊢
  obtain ⟨k0, k1, k2, k3, k4⟩ := key
  rw [← ticksIn_visible, ← expiriesOf_visible, hv2, ticksIn_visible, expiriesOf_visible] at k2 k3 k4
  rw [← expiriesOf_visible, hv2, expiriesOf_visible] at k1
  refine ⟨?_, k1, k2, k3, fun h1 h2 => k4 h1 ?_⟩
  · rw [k0] at hv1
    have : visible [(step (run (init size) hist).1 (.start t ticks)).2] = [.started t ticks] := by
      rw [← hv1]; rfl
    generalize (step (run (init size) hist).1 (.start t ticks)).2 = e at this
    cases e <;> simp [visible] at this ⊢
    exact this
  · rw [hs2.pc, h2]; rfl

/-- C04 on the linked lists: a timeout is delivered only if the timer was not stopped or restarted since it
expired. -/
theorem delivered_fresh (size : Nat) (ops : List Op) (t : Nat) (pre post : List Ev)
    (h : (run (init size) ops).2 = pre ++ .delivered t :: post) :
    ∃ a b, pre = a ++ .expired t :: b ∧
      ∀ e ∈ b, ¬ Restarts t e ∧ e ≠ .expired t ∧ e ≠ .delivered t := by
  obtain ⟨tops, _, hv⟩ := refines size ops
  rw [h, visible_append] at hv
  have hv : visible (Timers.run (Timers.init size) tops).2 = visible pre ++ .delivered t :: visible post := hv
  obtain ⟨a, b, hab, ha, hb⟩ := split_visible hv
  obtain ⟨a', b', h1, h2⟩ := Timers.delivered_fresh size tops t a b hab
  rw [h1, visible_append] at ha
  have ha : visible pre = visible a' ++ .expired t :: visible b' := ha.symm
  obtain ⟨c, d, rfl, _, hd⟩ := split_visible ha
  refine ⟨c, d, rfl, fun e he => ?_⟩
  by_cases hn : e = .nothing
  · subst hn
    refine ⟨?_, by simp, by simp⟩
    rintro (⟨_, h⟩ | h) <;> cases h
  · have : e ∈ visible d := List.mem_filter.2 ⟨he, by simpa using hn⟩
    rw [hd] at this
    exact h2 e (List.mem_filter.1 this).1

/-! ## Example: the list is emptied between test and removal -/

example : (run (init 4) [.start 1 1, .tick, .test, .stop 1, .pop, .test, .start 2 3, .tick, .test,
    .tick, .test, .tick, .test, .pop, .post, .dispatch]).2.filter (· ≠ .nothing) =
    [.started 1 1, .ticked, .stopped 1, .started 2 3, .ticked, .ticked, .ticked, .expired 2,
      .delivered 2] := by decide

end Verif.Cque
