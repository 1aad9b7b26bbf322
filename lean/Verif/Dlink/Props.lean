import Verif.Dlink.Step

/-!
# C53, C64, C65: a point-to-point datalink with a receive thread

All statements hold after every history: every interleaving of commands of the owner, actions of
the receive thread, timer expiries, send errors and rounds of the node's main loop.
-/

namespace Verif.Dlink

variable {M : Type}

/-- **C53.**  The reports to the owner alternate, starting with UP, and the last one says whether the
datalink is in its running state. -/
theorem reports_alternate (as : List (Act M)) :
    Alternates false (reports (run as).2) ∧
    (status (run as).2 = true ↔ (run as).1.st = .running) := by
  have i := inv_run as
  exact ⟨i.alt, by rw [i.stat]; exact i.up⟩

/-- What `Alternates` says position by position. -/
theorem alternates_iff (b : Bool) (l : List Bool) :
    Alternates b l ↔ ∀ (i : Nat) (h : i < l.length), l[i] = (if i % 2 = 0 then !b else b) := by
  induction l generalizing b with
  | nil => simp [Alternates]
  | cons x l ih =>
    simp only [Alternates, ih]
    constructor
    · rintro ⟨rfl, h⟩ i hi
      cases i with
      | zero => simp
      | succ i =>
        simp only [List.getElem_cons_succ]
        rw [h i (by simpa using hi)]
        by_cases h2 : i % 2 = 0
        · have : (i + 1) % 2 ≠ 0 := by omega
          simp [h2, this]
        · have : (i + 1) % 2 = 0 := by omega
          simp [h2, this]
    · intro h
      have h0 := h 0 (by simp)
      simp only [List.getElem_cons_zero, Nat.zero_mod, if_true] at h0
      refine ⟨h0, fun i hi => ?_⟩
      have := h (i + 1) (by simpa using hi)
      simp only [List.getElem_cons_succ] at this
      rw [this, h0]
      by_cases h2 : i % 2 = 0
      · have : (i + 1) % 2 ≠ 0 := by omega
        simp [h2, this]
      · have : (i + 1) % 2 = 0 := by omega
        simp [h2, this]

/-! ## C64: the datalink does not get stuck -/

private theorem thread_pending {s : State M} {log : List (Ev M)} (i : Inv s log) (h : s.th ≠ none) :
    Pending s := by
  have hex : ∀ g, Item.threadExit g ∈ s.queue.filter isThr → Item.threadExit g ∈ s.queue :=
    fun g hg => (List.mem_filter.mp hg).1
  have ht := i.thr
  generalize hl : s.queue.filter isThr = l at ht hex
  generalize hth : s.th = th at ht h
  cases ht with
  | absent => exact absurd rfl h
  | waiting => exact .inl ⟨_, hth, by simp⟩
  | failed => exact .inr (.inl ⟨_, hex _ (List.mem_singleton.mpr rfl)⟩)
  | fresh _ he _ =>
    rcases he with ⟨rfl, rfl⟩ | ⟨rfl, rfl⟩
    · exact .inl ⟨_, hth, by simp⟩
    · exact .inr (.inl ⟨_, hex _ (List.mem_append_right _ (List.mem_singleton.mpr rfl))⟩)
  | run _ he _ _ =>
    rcases he with ⟨rfl, rfl⟩ | ⟨rfl, rfl⟩
    · exact .inl ⟨_, hth, by simp⟩
    · exact .inr (.inl ⟨_, hex _ (List.mem_append_right _ (List.mem_singleton.mpr rfl))⟩)
  | idle _ he =>
    rcases he with ⟨rfl, rfl⟩ | ⟨rfl, rfl⟩
    · exact .inl ⟨_, hth, by simp⟩
    · exact .inr (.inl ⟨_, hex _ (List.mem_append_right _ (List.mem_singleton.mpr rfl))⟩)

private theorem thread_exists {s : State M} {log : List (Ev M)} (i : Inv s log)
    (h : s.st = .connecting ∨ s.st = .running ∨ s.st = .shutdown) : s.th ≠ none := by
  intro hn
  have ht := i.thr
  rw [hn] at ht
  generalize s.queue.filter isThr = l at ht
  cases ht with
  | absent h1 h2 h3 =>
    rcases h with h | h | h
    · exact h1 h
    · exact h2 h
    · exact h3 h

/-- **C64.**  A datalink that is not halted, or that last set out to connect and was not told to
stop since, always has something under way: a receive thread, a queued event that its state acts
on, or a running timer.  So it never waits for something that cannot come. -/
theorem never_waits_for_nothing (as : List (Act M))
    (h : (run as).1.st ≠ .halted ∨ wanted (run as).2 = true) : Pending (run as).1 := by
  have i := inv_run as
  cases hs : (run as).1.st with
  | halted =>
    rcases h with h | h
    · exact absurd hs h
    · rcases i.halt hs with g | g
      · exact .inr (.inr (.inl ⟨hs, g⟩))
      · rw [h] at g; cases g
  | shutdown => exact thread_pending i (thread_exists i (.inr (.inr hs)))
  | connecting => exact thread_pending i (thread_exists i (.inl hs))
  | running => exact thread_pending i (thread_exists i (.inr (.inl hs)))
  | reconnecting =>
    rcases i.recon hs with g | g | g
    · exact thread_pending i g
    · exact .inr (.inr (.inr ⟨hs, .inl g⟩))
    · exact .inr (.inr (.inr ⟨hs, .inr g⟩))

/-! ### From every such state the datalink can come up again -/

/-- Upper bound for the number of rounds needed to empty the queue. -/
private def weight : Item M → Nat
  | .timeout _ => 3
  | .reconnect _ => 2
  | .restart => 2
  | .threadExit _ => 2
  | _ => 1

private def total (q : List (Item M)) : Nat := (q.map weight).sum

private structure Good (s : State M) (log : List (Ev M)) : Prop where
  inv : Inv s log
  noStop : Item.stop ∉ s.queue
  want : wanted log = true
  noLoop : ∀ t, s.th = some t → t.phase ≠ .looping

private theorem total_snoc (q : List (Item M)) (x : Item M) : total (q ++ [x]) = total q + weight x := by
  simp [total]

/-- What one round does to the queue, the commands in the log and the thread. -/
private theorem dispatch_facts {s : State M} {x : Item M} {q : List (Item M)} (hx : x ≠ .stop)
    (hl : ∀ t, s.th = some t → t.phase ≠ .looping) (hn : Item.stop ∉ q) :
    let r := handle { s with queue := q } false x
    Item.stop ∉ r.1.queue ∧ wantedFrom true r.2 = true ∧
    (∀ t, r.1.th = some t → t.phase ≠ .looping) ∧ total r.1.queue < weight x + total q := by
  have hst : ∀ t, (s.th.map fun t => { t with stop := true }) = some t → t.phase ≠ .looping := by
    intro t ht
    cases h : s.th with
    | none => rw [h] at ht; cases ht
    | some u =>
      rw [h] at ht
      simp only [Option.map_some, Option.some.injEq] at ht
      rw [← ht]
      exact hl u h
  have hd : ∀ b : Bool, wantedFrom true ((if b then [Ev.down (M := M)] else []) ++ [.attempt]) = true := by
    intro b; cases b <;> rfl
  have hhold : ∀ (th : Option Thr) (now : Bool), (∀ t, th = some t → t.phase ≠ .looping) →
      Item.stop ∉ (hold (State.mk .reconnecting th false now s.armed s.rev s.threads q)).queue ∧
      (∀ t, (hold (State.mk .reconnecting th false now s.armed s.rev s.threads q)).th = some t →
        t.phase ≠ .looping) ∧
      total (hold (State.mk .reconnecting th false now s.armed s.rev s.threads q)).queue < 2 + total q := by
    intro th now hth
    cases now with
    | true =>
      refine ⟨by simp [hold, push, hn], hth, ?_⟩
      show total (q ++ [.start]) < _
      rw [total_snoc]
      simp only [weight]; omega
    | false =>
      refine ⟨hn, hth, ?_⟩
      show total q < _
      omega
  have hrec : ∀ now : Bool,
      Item.stop ∉ (handleReconnect { s with queue := q } now).1.queue ∧
      wantedFrom true (handleReconnect { s with queue := q } now).2 = true ∧
      (∀ t, (handleReconnect { s with queue := q } now).1.th = some t → t.phase ≠ .looping) ∧
      total (handleReconnect { s with queue := q } now).1.queue < 2 + total q := by
    intro now
    have hh : handleReconnect { s with queue := q } now =
        ((if s.th.isSome then
            State.mk .reconnecting (s.th.map fun t => { t with stop := true }) false now s.armed s.rev
              s.threads q
          else hold (State.mk .reconnecting (s.th.map fun t => { t with stop := true }) false now
              s.armed s.rev s.threads q)),
          (if s.isUp then [.down] else []) ++ [.attempt]) := by
      simp [handleReconnect, handleStop, stopThread, reportDown_spec]
    rw [hh]
    have := hhold _ now hst
    by_cases hsome : s.th.isSome = true
    · rw [if_pos hsome]
      refine ⟨hn, hd _, hst, ?_⟩
      show total q < _
      omega
    · rw [if_neg hsome]
      exact ⟨this.1, hd _, this.2.1, this.2.2⟩
  cases x with
  | start =>
    by_cases hs : s.st = .halted
    · simp only [handle, hs, if_true, begin, Bool.false_eq_true, if_false]
      cases hth : s.th with
      | some t =>
        refine ⟨hn, rfl, fun u hu => hl u (by rw [hth]; exact hu), ?_⟩
        simp only [weight]; omega
      | none =>
        refine ⟨hn, rfl, fun u hu => by cases hu; simp, ?_⟩
        simp only [weight]; omega
    · simp only [handle, if_neg hs]
      exact ⟨hn, rfl, hl, by simp only [weight]; omega⟩
  | stop => exact absurd rfl hx
  | restart => exact hrec true
  | reconnect now => exact hrec now
  | connected g =>
    by_cases hs : s.st = .connecting
    · simp only [handle, hs, if_true, reportUp]
      split
      · exact ⟨hn, rfl, hl, by simp only [weight]; omega⟩
      · exact ⟨hn, rfl, hl, by simp only [weight]; omega⟩
    · simp only [handle, if_neg hs]
      exact ⟨hn, rfl, hl, by simp only [weight]; omega⟩
  | received g m =>
    simp only [handle]
    refine ⟨hn, ?_, hl, by simp only [weight]; omega⟩
    split <;> rfl
  | threadExit g =>
    by_cases hs : s.st = .shutdown
    · have hh : handle { s with queue := q } false (.threadExit g) =
          (State.mk .halted none false s.now s.armed s.rev s.threads q,
            if s.isUp then [.down] else []) := by
        simp [handle, reportDown_spec, hs]
      rw [hh]
      refine ⟨hn, by cases s.isUp <;> rfl, fun t ht => (by cases ht), ?_⟩
      simp only [weight]; omega
    · have hh : handle { s with queue := q } false (.threadExit g) =
          (hold (State.mk .reconnecting none false s.now s.armed s.rev s.threads q),
            (if s.isUp then [.down] else []) ++ [.attempt]) := by
        simp [handle, reportDown_spec, hs]
      rw [hh]
      have := hhold none s.now (fun t ht => by cases ht)
      exact ⟨this.1, hd _, this.2.1, this.2.2⟩
  | timeout r =>
    by_cases hr : r = s.rev
    · simp only [handle, hr, if_true]
      cases hs : s.st with
      | reconnecting =>
        refine ⟨by simp [push, hn], rfl, hl, ?_⟩
        show total (q ++ [.start]) < _
        rw [total_snoc]; simp only [weight]; omega
      | connecting =>
        refine ⟨by simp [push, hn], rfl, hl, ?_⟩
        show total (q ++ [.reconnect true]) < _
        rw [total_snoc]; simp only [weight]; omega
      | halted => exact ⟨hn, rfl, hl, by simp only [weight]; omega⟩
      | shutdown => exact ⟨hn, rfl, hl, by simp only [weight]; omega⟩
      | running => exact ⟨hn, rfl, hl, by simp only [weight]; omega⟩
    · simp only [handle, if_neg hr]
      exact ⟨hn, rfl, hl, by simp only [weight]; omega⟩

/-- Several actions from any state. -/
def runFrom (s : State M) (log : List (Ev M)) (as : List (Act M)) : State M × List (Ev M) :=
  as.foldl (fun p a => let r := step p.1 a; (r.1, p.2 ++ r.2)) (s, log)

private theorem runFrom_cons (s : State M) (log : List (Ev M)) (a : Act M) (as : List (Act M)) :
    runFrom s log (a :: as) = runFrom (step s a).1 (log ++ (step s a).2) as := rfl

private theorem runFrom_append (s : State M) (log : List (Ev M)) (as bs : List (Act M)) :
    runFrom s log (as ++ bs) = runFrom (runFrom s log as).1 (runFrom s log as).2 bs := by
  simp [runFrom, List.foldl_append]

theorem run_append (as bs : List (Act M)) : run (as ++ bs) = runFrom (run as).1 (run as).2 bs := by
  simp [run, runFrom, List.foldl_append]

private theorem drain (n : Nat) : ∀ (s : State M) (log : List (Ev M)), Good s log → total s.queue ≤ n →
    ∃ k, Good (runFrom s log (List.replicate k (.dispatch false))).1
        (runFrom s log (List.replicate k (.dispatch false))).2 ∧
      (runFrom s log (List.replicate k (.dispatch false))).1.queue = [] := by
  induction n with
  | zero =>
    intro s log g h
    refine ⟨0, g, ?_⟩
    show s.queue = []
    cases hq : s.queue with
    | nil => rfl
    | cons x q =>
      rw [hq] at h
      simp only [total, List.map_cons, List.sum_cons] at h
      cases x <;> simp [weight] at h
  | succ n ih =>
    intro s log g h
    cases hq : s.queue with
    | nil => exact ⟨0, g, hq⟩
    | cons x q =>
      have hns := g.noStop
      rw [hq] at hns
      simp only [List.mem_cons, not_or] at hns
      have hstep : step s (.dispatch false) = handle { s with queue := q } false x := by
        simp [step, hq]
      obtain ⟨f1, f2, f3, f4⟩ := dispatch_facts (s := s) (x := x) (q := q) (Ne.symm hns.1) g.noLoop hns.2
      have g' : Good (step s (.dispatch false)).1 (log ++ (step s (.dispatch false)).2) := by
        refine ⟨g.inv.step _, ?_, ?_, ?_⟩
        · rw [hstep]; exact f1
        · rw [wanted_append, g.want, hstep]; exact f2
        · rw [hstep]; exact f3
      have hle : total (step s (.dispatch false)).1.queue ≤ n := by
        rw [hstep]
        rw [hq] at h
        simp only [total, List.map_cons, List.sum_cons] at h f4 ⊢
        omega
      obtain ⟨k, hk⟩ := ih _ _ g' hle
      refine ⟨k + 1, ?_⟩
      rw [List.replicate_succ, runFrom_cons]
      exact hk

/-- With an empty queue and no thread, or one that waits for its connection. -/
private theorem from_empty (s : State M) (log : List (Ev M)) (g : Good s log) (hq : s.queue = []) :
    ∃ as, (∀ a ∈ as, a ≠ .open ∧ a ≠ .restart) ∧ status (runFrom s log as).2 = true := by
  have fin : ∀ as, (runFrom s log as).1.isUp = true → (∃ l, Inv (runFrom s log as).1 l ∧
      l = (runFrom s log as).2) → status (runFrom s log as).2 = true := by
    rintro as hu ⟨l, i, rfl⟩
    rw [i.stat]; exact hu
  have invFrom : ∀ as, Inv (runFrom s log as).1 (runFrom s log as).2 := by
    intro as
    have key : ∀ (as : List (Act M)) s log, Inv s log → Inv (runFrom s log as).1 (runFrom s log as).2 := by
      intro as
      induction as with
      | nil => intro s log i; exact i
      | cons a as ih => intro s log i; rw [runFrom_cons]; exact ih _ _ (i.step a)
    exact key as s log g.inv
  have wrap : ∀ as, (∀ a ∈ as, a ≠ Act.open ∧ a ≠ .restart) → (runFrom s log as).1.isUp = true →
      ∃ as, (∀ a ∈ as, a ≠ Act.open ∧ a ≠ .restart) ∧ status (runFrom s log as).2 = true :=
    fun as h1 h2 => ⟨as, h1, fin as h2 ⟨_, invFrom as, rfl⟩⟩
  have hup : s.isUp = true ∨ s.isUp = false := by cases s.isUp <;> simp
  rcases hup with hup | hup
  · exact wrap [] (by simp) hup
  have hnr : s.st ≠ .running := fun h => by rw [g.inv.up.mpr h] at hup; cases hup
  have htail := g.inv.thr
  rw [hq] at htail
  cases hs : s.st with
  | running => exact absurd hs hnr
  | halted =>
    rcases g.inv.halt hs with h | h
    · rw [hq] at h; cases h
    · rw [g.want] at h; cases h
  | shutdown =>
    have := g.inv.shut hs
    rw [g.want] at this; cases this
  | connecting =>
    cases hth : s.th with
    | none => exact absurd hth (thread_exists g.inv (.inl hs))
    | some t =>
      rw [hth] at htail
      have hw : t.phase = .waiting := by
        generalize hf : ([] : List (Item M)).filter isThr = l at htail
        have hf' : l = [] := by rw [← hf]; rfl
        cases htail with
        | waiting => rfl
        | failed => cases hf'
        | fresh => cases hf'
        | run _ he _ _ =>
          rcases he with ⟨rfl, _⟩ | ⟨rfl, rfl⟩
          · exact absurd rfl (g.noLoop _ hth)
          · simp at hf'
        | idle _ he =>
          rcases he with ⟨rfl, _⟩ | ⟨rfl, rfl⟩
          · exact absurd rfl (g.noLoop _ hth)
          · simp at hf'
      refine wrap [.connOk, .dispatch false] (by simp) ?_
      simp [runFrom, step, hth, hw, push, hq, handle, hs, reportUp, hup]
  | reconnecting =>
    cases hth : s.th with
    | none =>
      have ha : s.armed = true := by
        rcases g.inv.recon hs with h | h | h
        · exact absurd hth h
        · exact h
        · rw [hq] at h; cases h
      refine wrap [.expire, .dispatch false, .dispatch false, .connOk, .dispatch false] (by simp) ?_
      simp [runFrom, step, hth, ha, push, hq, handle, hs, begin, reportUp, hup]
    | some t =>
      rw [hth] at htail
      have hw : t.phase = .waiting := by
        generalize hf : ([] : List (Item M)).filter isThr = l at htail
        have hf' : l = [] := by rw [← hf]; rfl
        cases htail with
        | waiting => rfl
        | failed => cases hf'
        | fresh => cases hf'
        | run _ he _ _ =>
          rcases he with ⟨rfl, _⟩ | ⟨rfl, rfl⟩
          · exact absurd rfl (g.noLoop _ hth)
          · simp at hf'
        | idle _ he =>
          rcases he with ⟨rfl, _⟩ | ⟨rfl, rfl⟩
          · exact absurd rfl (g.noLoop _ hth)
          · simp at hf'
      cases hn : s.now with
      | true =>
        refine wrap [.connFail, .dispatch false, .dispatch false, .connOk, .dispatch false] (by simp) ?_
        simp [runFrom, step, hth, hw, push, hq, handle, hs, reportDown, hup, hold, hn, begin, reportUp]
      | false =>
        refine wrap [.connFail, .dispatch false, .expire, .dispatch false, .dispatch false, .connOk,
          .dispatch false] (by simp) ?_
        simp [runFrom, step, hth, hw, push, hq, handle, hs, reportDown, hup, hold, hn, begin, reportUp]

/-- **C64, recovery.**  Whatever happened before, a datalink that last set out to connect, and has no
stop command waiting, can come UP without any further command of its owner: only its timer, its
receive thread and rounds of the main loop are needed. -/
theorem can_recover (as : List (Act M)) (hw : wanted (run as).2 = true)
    (hn : Item.stop ∉ (run as).1.queue) :
    ∃ bs : List (Act M), (∀ b ∈ bs, b ≠ .open ∧ b ≠ .restart) ∧ status (run (as ++ bs)).2 = true := by
  have i := inv_run as
  -- the receive thread ends, if it is in its loop
  have h1 : ∃ cs : List (Act M), (∀ b ∈ cs, b ≠ .open ∧ b ≠ .restart) ∧
      Good (runFrom (run as).1 (run as).2 cs).1 (runFrom (run as).1 (run as).2 cs).2 := by
    by_cases hl : ∃ t, (run as).1.th = some t ∧ t.phase = .looping
    · obtain ⟨t, ht, hp⟩ := hl
      refine ⟨[.exit], by simp, ?_⟩
      have hst : step (run as).1 .exit =
          ({ push (run as).1 (.threadExit t.gen) with th := some { t with phase := .done } }, []) := by
        simp [step, ht, hp]
      have hi := i.step .exit
      show Good (step (run as).1 .exit).1 ((run as).2 ++ (step (run as).1 .exit).2)
      refine ⟨hi, ?_, ?_, ?_⟩
      · rw [hst]
        simp only [push, List.mem_append, List.mem_singleton, reduceCtorEq, or_false]
        exact hn
      · rw [hst, List.append_nil]; exact hw
      · rw [hst]; intro u hu; cases hu; simp
    · refine ⟨[], by simp, ⟨i, hn, hw, ?_⟩⟩
      intro t ht hp
      exact hl ⟨t, ht, hp⟩
  obtain ⟨cs, hc1, hc2⟩ := h1
  obtain ⟨k, hk1, hk2⟩ := drain _ _ _ hc2 (Nat.le_refl _)
  obtain ⟨ds, hd1, hd2⟩ := from_empty _ _ hk1 hk2
  refine ⟨cs ++ List.replicate k (.dispatch false) ++ ds, ?_, ?_⟩
  · intro b hb
    rcases List.mem_append.mp hb with hb | hb
    · rcases List.mem_append.mp hb with hb | hb
      · exact hc1 b hb
      · rw [List.mem_replicate] at hb
        rw [hb.2]; simp
    · exact hd1 b hb
  · rw [run_append, runFrom_append, runFrom_append]
    exact hd2

/-! ## C65: messages -/

/-- **C65.**  While the datalink is UP, the messages passed to the owner since it came up all come
from one connection, and they are the first messages received on it, in order: none is missing,
repeated or left over from an earlier connection. -/
theorem passed_in_order (as : List (Act M)) (h : status (run as).2 = true) :
    ∃ g, (∀ x ∈ sinceUp (run as).2, x.1 = g) ∧
      (sinceUp (run as).2).map Prod.snd <+: got g (run as).2 := by
  have i := inv_run as
  rw [i.stat] at h
  have hr := i.up.mp h
  have ht := i.thr
  generalize (run as).1.queue.filter isThr = l at ht
  generalize (run as).1.th = th at ht
  cases ht with
  | absent _ h2 _ => exact absurd hr h2
  | waiting h2 => exact absurd hr h2
  | failed h2 => exact absurd hr h2
  | fresh h2 => exact absurd hr h2
  | idle h2 => exact absurd hr h2
  | run _ _ hg hs => exact ⟨_, hs, ⟨_, hg.symm⟩⟩

private theorem step_pass (s : State M) (a : Act M) (pre post : List (Ev M)) (g : Nat) (m : M)
    (h : (step s a).2 = pre ++ .pass g m :: post) : s.st = .running ∧ reports pre = [] := by
  have hmem : Ev.pass g m ∈ (step s a).2 := by rw [h]; simp
  have hno : ∀ (b : Bool) (c : Ev M), (∀ g m, c ≠ .pass g m) →
      Ev.pass g m ∉ (if b then [Ev.down] else []) ++ [c] := by
    intro b c hc hm
    rcases List.mem_append.mp hm with hm | hm
    · cases b <;> simp at hm
    · simp at hm; exact hc g m hm.symm
  have hrec : ∀ (s : State M) (now : Bool), Ev.pass g m ∉ (handleReconnect s now).2 := by
    intro s now
    have : (handleReconnect s now).2 = (if s.isUp then [.down] else []) ++ [.attempt] := by
      simp [handleReconnect, handleStop, stopThread, reportDown_spec]
    rw [this]
    exact hno _ _ (by intro g m h; cases h)
  cases a with
  | dispatch timer =>
    simp only [step] at h hmem
    cases hq : s.queue with
    | nil => rw [hq] at hmem; cases hmem
    | cons x q =>
      rw [hq] at h hmem
      simp only [] at h hmem
      cases x with
      | received g' m' =>
        simp only [handle] at h hmem
        by_cases hs : s.st = .running
        · rw [if_pos hs] at h
          refine ⟨hs, ?_⟩
          cases pre with
          | nil => rfl
          | cons p pre => cases pre <;> simp at h
        · rw [if_neg hs] at hmem; cases hmem
      | start =>
        simp only [handle] at hmem
        split at hmem
        · simp at hmem
        · cases hmem
      | stop =>
        exfalso
        have : (handle { s with queue := q } timer .stop).2 =
            (if s.isUp then [.down] else []) ++ [.cmdStop] := by
          simp [handle, handleStop, stopThread, reportDown_spec]
        rw [this] at hmem
        exact hno _ _ (by intro g m h; cases h) hmem
      | restart => exact absurd hmem (hrec _ _)
      | reconnect now => exact absurd hmem (hrec _ _)
      | connected g' =>
        exfalso
        simp only [handle, reportUp] at hmem
        split at hmem
        · split at hmem <;> simp at hmem
        · cases hmem
      | threadExit g' =>
        exfalso
        simp only [handle, reportDown_spec] at hmem
        split at hmem
        · simp only [] at hmem
          revert hmem
          cases s.isUp <;> simp
        · exact hno _ _ (by intro g m h; cases h) hmem
      | timeout r =>
        exfalso
        simp only [handle] at hmem
        split at hmem
        · split at hmem <;> cases hmem
        · cases hmem
  | recv m' =>
    exfalso
    simp only [step] at hmem
    split at hmem
    · split at hmem
      · simp at hmem
      · cases hmem
    · cases hmem
  | «open» => cases hmem
  | close => cases hmem
  | restart => cases hmem
  | sendError => exfalso; simp only [step] at hmem; split at hmem <;> cases hmem
  | expire => exfalso; simp only [step] at hmem; split at hmem <;> cases hmem
  | connOk =>
    exfalso; simp only [step] at hmem
    split at hmem
    · split at hmem <;> cases hmem
    · cases hmem
  | connFail =>
    exfalso; simp only [step] at hmem
    split at hmem
    · split at hmem <;> cases hmem
    · cases hmem
  | exit =>
    exfalso; simp only [step] at hmem
    split at hmem
    · split at hmem <;> cases hmem
    · cases hmem

/-- **C65, only while UP.**  A message is passed to the owner only between an UP report and the next
DOWN report. -/
theorem passed_only_while_up (as : List (Act M)) (pre post : List (Ev M)) (g : Nat) (m : M)
    (h : (run as).2 = pre ++ .pass g m :: post) : status pre = true := by
  have key : ∀ n (as : List (Act M)), as.length = n → ∀ pre post : List (Ev M),
      (run as).2 = pre ++ .pass g m :: post → status pre = true := by
    intro n
    induction n with
    | zero =>
      intro as hl pre post h
      rw [List.length_eq_zero_iff] at hl
      subst hl
      have h' : ([] : List (Ev M)) = pre ++ .pass g m :: post := h
      cases pre <;> cases h'
    | succ n ih =>
      intro as hl pre post h
      rcases List.eq_nil_or_concat as with rfl | ⟨bs, b, rfl⟩
      · cases hl
      · rw [List.concat_eq_append] at h hl
        rw [run_snoc] at h
        have h' : (run bs).2 ++ (step (run bs).1 b).2 = pre ++ .pass g m :: post := h
        rw [List.append_eq_append_iff] at h'
        rcases h' with ⟨c, hc1, hc2⟩ | ⟨c, hc1, hc2⟩
        · -- the message is in the last step
          obtain ⟨h1, h2⟩ := step_pass _ _ c post g m hc2
          have i := inv_run bs
          unfold status
          rw [hc1, reports_append, h2, List.append_nil]
          have := i.stat
          unfold status at this
          rw [this]
          exact i.up.mpr h1
        · cases c with
          | nil =>
            have hc2' : Ev.pass g m :: post = (step (run bs).1 b).2 := by simpa using hc2
            obtain ⟨h1, h2⟩ := step_pass _ _ [] post g m hc2'.symm
            have i := inv_run bs
            have := i.stat
            rw [List.append_nil] at hc1
            rw [← hc1, this]
            exact i.up.mpr h1
          | cons e c =>
            simp only [List.cons_append, List.cons.injEq] at hc2
            obtain ⟨rfl, _⟩ := hc2
            exact ih bs (by simpa using hl) pre c hc1
  exact key _ as rfl pre post h

/-! ## Findings -/

/-- **Finding: a start command can be lost.**  Told to stop and then to start again while the receive
thread is still ending, the datalink ignores the start and stays halted, with nothing under way. -/
theorem start_lost : ∃ as : List (Act Nat),
    as.getLast? ≠ some .close ∧
    (run as).1 = ⟨.halted, none, false, false, false, 0, 1, []⟩ ∧
    (run as).2 = [.attempt, .up, .down, .cmdStop] ∧ ¬ Pending (run as).1 := by
  refine ⟨[.open, .dispatch false, .connOk, .dispatch false, .close, .open, .dispatch false,
    .dispatch false, .exit, .dispatch false], by decide, by decide, by decide, ?_⟩
  have e : (run [.open, .dispatch false, .connOk, .dispatch false, .close, .open, .dispatch false,
      .dispatch false, .exit, .dispatch false] : State Nat × List (Ev Nat)).1 =
      ⟨.halted, none, false, false, false, 0, 1, []⟩ := by decide
  rw [e]
  rintro (⟨t, h, _⟩ | ⟨g, h⟩ | ⟨_, h⟩ | ⟨h, _⟩) <;> cases h

/-- **Finding: a stopped datalink can start itself.**  If sending fails while a stop command is
waiting, the reconnect request is obeyed after the stop: the datalink comes UP again although it
was told to stop and never told to start. -/
theorem stopped_starts_itself : ∃ (as : List (Act Nat)),
    as.count .open = 1 ∧ as.count .restart = 0 ∧ (run as).2 = [.attempt, .up, .down, .cmdStop, .attempt, .attempt,
      .attempt, .up] ∧ status (run as).2 = true := by
  exact ⟨[.open, .dispatch false, .connOk, .dispatch false, .close, .sendError, .dispatch false,
    .dispatch false, .exit, .dispatch false, .expire, .dispatch false, .dispatch false, .connOk,
    .dispatch false], by decide, by decide, by decide, by decide⟩

/-- A connection that carries two messages, is lost, and comes back with a third.  Of the message 9
received after the stop flag was set nothing is passed on. -/
example : (run [.open, .dispatch true, .connOk, .dispatch true, .recv 7, .recv 8, .dispatch true,
    .dispatch true, .restart, .dispatch true, .recv 9, .exit, .dispatch true, .dispatch true,
    .dispatch true, .connOk, .recv 10, .dispatch true, .dispatch true] : State Nat × List (Ev Nat)).2 =
    [.attempt, .up, .got 0 7, .got 0 8, .pass 0 7, .pass 0 8, .down, .attempt, .got 0 9, .attempt,
     .attempt, .got 1 10, .up, .pass 1 10] := by decide

end Verif.Dlink
