import Verif.Dlink.Lemmas

/-! # Every action preserves the invariant -/

namespace Verif.Dlink

variable {M : Type}

/-- Log entries that say nothing about received messages. -/
def Quiet (e : List (Ev M)) : Prop := ∀ g, got g e = []

theorem Quiet.got {e : List (Ev M)} (h : Quiet e) (g : Nat) (log : List (Ev M)) :
    Dlink.got g (log ++ e) = Dlink.got g log := by rw [got_append, h g, List.append_nil]

/-- Going to (or staying in) a state other than running. -/
theorem TInv.leave {st st' : St} {log e : List (Ev M)} {th th' : Option Thr} {l : List (Item M)}
    (h : TInv st log th l) (hq : Quiet e) (hst : st' ≠ .running)
    (hn : th = none → st' ≠ .connecting ∧ st' ≠ .shutdown)
    (hth : th' = th ∨ th' = th.map fun t => { t with stop := true }) :
    TInv st' (log ++ e) th' l := by
  cases h with
  | absent h1 h2 h3 =>
    have : th' = none := by rcases hth with h | h <;> simpa using h
    subst this
    exact .absent (hn rfl).1 hst (hn rfl).2
  | waiting h hg =>
    rename_i g b
    have : ∃ b', th' = some ⟨g, .waiting, b'⟩ := by
      rcases hth with h | h
      · exact ⟨_, h⟩
      · exact ⟨_, by simpa using h⟩
    obtain ⟨b', rfl⟩ := this
    exact .waiting hst (by rw [hq.got]; exact hg)
  | failed h hg =>
    rename_i g b
    have : ∃ b', th' = some ⟨g, .done, b'⟩ := by
      rcases hth with h | h
      · exact ⟨_, h⟩
      · exact ⟨_, by simpa using h⟩
    obtain ⟨b', rfl⟩ := this
    exact .failed hst (by rw [hq.got]; exact hg)
  | fresh h he hg =>
    rename_i g p b rs tail
    have : ∃ b', th' = some ⟨g, p, b'⟩ := by
      rcases hth with h | h
      · exact ⟨_, h⟩
      · exact ⟨_, by simpa using h⟩
    obtain ⟨b', rfl⟩ := this
    exact .fresh hst he (by rw [hq.got]; exact hg)
  | run h he hg hs =>
    rename_i g p b rs tail
    have : ∃ b', th' = some ⟨g, p, b'⟩ := by
      rcases hth with h | h
      · exact ⟨_, h⟩
      · exact ⟨_, by simpa using h⟩
    obtain ⟨b', rfl⟩ := this
    exact .idle hst he
  | idle h he =>
    rename_i g p b rs tail
    have : ∃ b', th' = some ⟨g, p, b'⟩ := by
      rcases hth with h | h
      · exact ⟨_, h⟩
      · exact ⟨_, by simpa using h⟩
    obtain ⟨b', rfl⟩ := this
    exact .idle hst he

/-- Nothing but the queue changes, by items that are not the thread's. -/
theorem Inv.pushOther {s : State M} {log : List (Ev M)} (i : Inv s log) {x : Item M}
    (hx : isThr x = false) : Inv (push s x) log :=
  { thr := by
      show TInv s.st log s.th ((s.queue ++ [x]).filter isThr)
      rw [List.filter_append]; simp only [List.filter_cons, hx, List.filter_nil]
      simpa using i.thr
    up := i.up
    alt := i.alt
    stat := i.stat
    gen := i.gen
    old := i.old
    recon := fun h => by
      rcases i.recon h with h1 | h1 | h1
      · exact .inl h1
      · exact .inr (.inl h1)
      · exact .inr (.inr (List.mem_append_left _ h1))
    halt := fun h => by
      rcases i.halt h with h1 | h1
      · exact .inl (List.mem_append_left _ h1)
      · exact .inr h1
    shut := i.shut }

theorem Inv.expire {s : State M} {log : List (Ev M)} (i : Inv s log) :
    Inv { push s (.timeout s.rev) with armed := false } log :=
  have j := i.pushOther (x := .timeout s.rev) rfl
  { j with
    recon := fun _ => .inr (.inr (by simp [push])) }

/-- The receive thread moves on and queues something. -/
theorem Inv.thread {s : State M} {log e : List (Ev M)} (i : Inv s log) {x : Item M} {t t' : Thr}
    (hth : s.th = some t) (hg : t'.gen = t.gen) (hx : isThr x = true)
    (ht : TInv s.st (log ++ e) (some t') (s.queue.filter isThr ++ [x]))
    (he : reports e = [] ∧ (∀ b, wantedFrom b e = b) ∧ ∀ g, g ≠ t.gen → got g e = []) :
    Inv { push s x with th := some t' } (log ++ e) :=
  { thr := by
      show TInv s.st _ (some t') ((s.queue ++ [x]).filter isThr)
      rw [List.filter_append]; simp only [List.filter_cons, hx, List.filter_nil]
      exact ht
    up := i.up
    alt := by rw [reports_append, he.1, List.append_nil]; exact i.alt
    stat := by unfold status; rw [reports_append, he.1, List.append_nil]; exact i.stat
    gen := fun u hu => by cases hu; rw [hg]; exact i.gen t hth
    old := fun g hgt => by
      have h1 := i.gen t hth
      rw [got_append, i.old g hgt, he.2.2 g (by intro h; have hgt' : s.threads ≤ g := hgt; omega)]; rfl
    recon := fun _ => .inl (by simp)
    halt := fun h => by
      rw [wanted_append, he.2.1]
      rcases i.halt h with h1 | h1
      · exact .inl (List.mem_append_left _ h1)
      · exact .inr h1
    shut := fun h => by rw [wanted_append, he.2.1]; exact i.shut h }

theorem tinv_snoc_exit {st : St} {log : List (Ev M)} {t : Thr} {l : List (Item M)}
    (h : TInv st log (some t) l) (hp : t.phase = .looping) :
    TInv st log (some { t with phase := .done }) (l ++ [.threadExit t.gen]) := by
  cases h with
  | waiting h hg => cases hp
  | failed h hg => cases hp
  | fresh h he hg =>
    rename_i g p b rs tail
    rcases he with ⟨rfl, rfl⟩ | ⟨rfl, rfl⟩
    · have := TInv.fresh (b := b) h (Or.inr ⟨rfl, rfl⟩) hg
      simpa using this
    · cases hp
  | run h he hg hs =>
    rename_i g p b rs tail
    rcases he with ⟨rfl, rfl⟩ | ⟨rfl, rfl⟩
    · have := TInv.run (b := b) h (Or.inr ⟨rfl, rfl⟩) hg hs
      simpa using this
    · cases hp
  | idle h he =>
    rename_i g p b rs tail
    rcases he with ⟨rfl, rfl⟩ | ⟨rfl, rfl⟩
    · have := TInv.idle (log := log) (g := g) (b := b) (rs := rs) h (Or.inr ⟨rfl, rfl⟩)
      simpa using this
    · cases hp

theorem tinv_snoc_recv {st : St} {log : List (Ev M)} {t : Thr} {l : List (Item M)} {m : M}
    (h : TInv st log (some t) l) (hp : t.phase = .looping) :
    TInv st (log ++ [.got t.gen m]) (some t) (l ++ [.received t.gen m]) := by
  have hsu : sinceUp (log ++ [.got t.gen m]) = sinceUp log := by rw [sinceUp_append]; rfl
  have hgo : ∀ g, g = t.gen → got g (log ++ [.got t.gen m]) = got g log ++ [m] := by
    intro g hg; rw [got_append]; simp [got, hg]
  cases h with
  | waiting h hg => cases hp
  | failed h hg => cases hp
  | fresh h he hg =>
    rename_i g p b rs tail
    rcases he with ⟨rfl, rfl⟩ | ⟨rfl, rfl⟩
    · have := TInv.fresh (st := st) (log := log ++ [.got g m]) (g := g) (p := .looping) (b := b)
        (rs := rs ++ [m]) h (Or.inl ⟨rfl, rfl⟩) (by rw [hgo g rfl, hg])
      simpa using this
    · cases hp
  | run h he hg hs =>
    rename_i g p b rs tail
    rcases he with ⟨rfl, rfl⟩ | ⟨rfl, rfl⟩
    · have := TInv.run (st := st) (log := log ++ [.got g m]) (g := g) (p := .looping) (b := b)
        (rs := rs ++ [m]) h (Or.inl ⟨rfl, rfl⟩) (by rw [hgo g rfl, hg, hsu]; simp) (by rw [hsu]; exact hs)
      simpa using this
    · cases hp
  | idle h he =>
    rename_i g p b rs tail
    rcases he with ⟨rfl, rfl⟩ | ⟨rfl, rfl⟩
    · have := TInv.idle (st := st) (log := log ++ [.got g m]) (g := g) (p := .looping) (b := b)
        (rs := rs ++ [m]) h (Or.inl ⟨rfl, rfl⟩)
      simpa using this
    · cases hp

/-! ## Dispatching an item -/

/-- What `report_down` writes. -/
theorem reportDown_spec (s : State M) :
    reportDown s = ({ s with isUp := false }, if s.isUp then [.down] else []) := by
  unfold reportDown
  cases h : s.isUp with
  | true => rfl
  | false => cases s; simp only at h; subst h; rfl

/-- Reports after going down (if up). -/
theorem alt_down {log : List (Ev M)} {b : Bool} (ha : Alternates false (reports log))
    (hs : status log = b) {e : List (Ev M)} (he : reports e = if b then [false] else []) :
    Alternates false (reports (log ++ e)) ∧ status (log ++ e) = false := by
  unfold status at hs ⊢
  rw [reports_append, he]
  cases b with
  | true =>
    simp only [if_true]
    rw [alternates_snoc]
    exact ⟨⟨ha, by rw [hs]; rfl⟩, by simp⟩
  | false =>
    simp only [Bool.false_eq_true, if_false, List.append_nil]
    exact ⟨ha, hs⟩

/-- The thread's part of the queue when the first item is not the thread's. -/
theorem filter_other {x : Item M} {q : List (Item M)} (hx : isThr x = false) :
    (x :: q).filter isThr = q.filter isThr := by simp [hx]

/-- The first of the thread's items is a message. -/
theorem TInv.popReceived {st : St} {log : List (Ev M)} {th : Option Thr} {l : List (Item M)} {g : Nat}
    {m : M} (h : TInv st log th (.received g m :: l)) :
    (st = .running → TInv st (log ++ [.pass g m]) th l) ∧ (st ≠ .running → TInv st log th l) := by
  generalize hL : Item.received g m :: l = L at h
  cases h with
  | absent => cases hL
  | waiting => cases hL
  | failed => cases hL
  | fresh => cases hL
  | run h he hg hs =>
    rename_i g' p b rs tail
    cases rs with
    | nil =>
      rcases he with ⟨_, rfl⟩ | ⟨_, rfl⟩ <;> cases hL
    | cons m' rs =>
      simp only [List.map_cons, List.cons_append, List.cons.injEq, Item.received.injEq] at hL
      obtain ⟨⟨rfl, rfl⟩, rfl⟩ := hL
      have hsu : sinceUp (log ++ [.pass g m]) = sinceUp log ++ [(g, m)] := by rw [sinceUp_append]; rfl
      refine ⟨fun _ => .run h he ?_ ?_, fun hn => absurd h hn⟩
      · rw [got_append, hg, hsu]; simp [got]
      · rw [hsu]
        intro x hx
        rcases List.mem_append.mp hx with h1 | h1
        · exact hs x h1
        · simp at h1; rw [h1]
  | idle h he =>
    rename_i g' p b rs tail
    cases rs with
    | nil =>
      rcases he with ⟨_, rfl⟩ | ⟨_, rfl⟩ <;> cases hL
    | cons m' rs =>
      simp only [List.map_cons, List.cons_append, List.cons.injEq, Item.received.injEq] at hL
      obtain ⟨⟨rfl, rfl⟩, rfl⟩ := hL
      exact ⟨fun hr => absurd hr h, fun _ => .idle h he⟩

/-- The first of the thread's items is `Connected`. -/
theorem TInv.popConnected {st : St} {log : List (Ev M)} {th : Option Thr} {l : List (Item M)} {g : Nat}
    (h : TInv st log th (.connected g :: l)) :
    st ≠ .running ∧ TInv .running (log ++ [.up]) th l ∧ TInv st log th l := by
  generalize hL : Item.connected g :: l = L at h
  cases h with
  | absent => cases hL
  | waiting => cases hL
  | failed => cases hL
  | fresh h he hg =>
    simp only [List.cons_append, List.cons.injEq, Item.connected.injEq] at hL
    obtain ⟨rfl, rfl⟩ := hL
    have hsu : sinceUp (log ++ [.up]) = [] := by rw [sinceUp_append]; rfl
    refine ⟨h, .run rfl he ?_ ?_, .idle h he⟩
    · rw [got_append, hg, hsu]; simp [got]
    · rw [hsu]; intro x hx; cases hx
  | run h he hg hs =>
    rename_i g' p b rs tail
    cases rs with
    | nil => rcases he with ⟨_, rfl⟩ | ⟨_, rfl⟩ <;> cases hL
    | cons m' rs => cases hL
  | idle h he =>
    rename_i g' p b rs tail
    cases rs with
    | nil => rcases he with ⟨_, rfl⟩ | ⟨_, rfl⟩ <;> cases hL
    | cons m' rs => cases hL

/-- The first of the thread's items is its exit: there is nothing after it. -/
theorem TInv.popExit {st : St} {log : List (Ev M)} {th : Option Thr} {l : List (Item M)} {g : Nat}
    (h : TInv st log th (.threadExit g :: l)) : l = [] := by
  generalize hL : Item.threadExit g :: l = L at h
  cases h with
  | absent => cases hL
  | waiting => cases hL
  | failed => simp only [List.cons.injEq] at hL; exact hL.2
  | fresh => cases hL
  | run h he hg hs =>
    rename_i g' p b rs tail
    cases rs with
    | nil =>
      rcases he with ⟨_, rfl⟩ | ⟨_, rfl⟩
      · cases hL
      · simp only [List.map_nil, List.nil_append, List.cons.injEq] at hL; exact hL.2
    | cons m' rs => cases hL
  | idle h he =>
    rename_i g' p b rs tail
    cases rs with
    | nil =>
      rcases he with ⟨_, rfl⟩ | ⟨_, rfl⟩
      · cases hL
      · simp only [List.map_nil, List.nil_append, List.cons.injEq] at hL; exact hL.2
    | cons m' rs => cases hL

/-- To a state other than running, reporting DOWN if UP. -/
theorem Inv.leave {s s2 : State M} {log e : List (Ev M)} (i : Inv s log)
    (hthr : TInv s2.st (log ++ e) s2.th (s2.queue.filter isThr)) (hst : s2.st ≠ .running)
    (hup : s2.isUp = false) (hrep : reports e = if s.isUp then [false] else []) (hq : Quiet e)
    (hgen : ∀ t, s2.th = some t → t.gen < s2.threads) (hle : s.threads ≤ s2.threads)
    (recon : s2.st = .reconnecting → s2.th ≠ none ∨ s2.armed = true ∨ .timeout s2.rev ∈ s2.queue)
    (halt : s2.st = .halted → .start ∈ s2.queue ∨ wanted (log ++ e) = false)
    (shut : s2.st = .shutdown → wanted (log ++ e) = false) : Inv s2 (log ++ e) :=
  have ha := alt_down i.alt i.stat hrep
  { thr := hthr
    up := by rw [hup]; exact ⟨fun h => (by cases h), fun h => absurd h hst⟩
    alt := ha.1
    stat := by rw [hup]; exact ha.2
    gen := hgen
    old := fun g hg => by rw [hq.got]; exact i.old g (Nat.le_trans hle hg)
    recon := recon
    halt := halt
    shut := shut }

theorem stopThread_gen {s : State M} {log : List (Ev M)} (i : Inv s log) :
    ∀ t, (s.th.map fun t => { t with stop := true }) = some t → t.gen < s.threads := by
  intro t ht
  cases h : s.th with
  | none => rw [h] at ht; cases ht
  | some u =>
    rw [h] at ht
    simp only [Option.map_some, Option.some.injEq] at ht
    rw [← ht]
    exact i.gen u h

theorem quiet_status (b : Bool) (c : Ev M) (hc : ∀ g, got g [c] = []) :
    Quiet ((if b then [.down] else []) ++ [c]) := by
  intro g
  rw [got_append, hc g]
  cases b <;> rfl

theorem reports_status (b : Bool) (c : Ev M) (hc : reports [c] = []) :
    reports ((if b then [.down] else []) ++ [c]) = if b then [false] else [] := by
  rw [reports_append, hc]
  cases b <;> rfl

theorem wanted_snoc (log : List (Ev M)) (b : Bool) (c : Ev M) :
    wanted (log ++ ((if b then [.down] else []) ++ [c])) = wantedFrom (wanted log) [c] := by
  rw [wanted_append, wantedFrom_append]
  cases b <;> rfl

/-- `Stop`. -/
theorem Inv.stop {s : State M} {log : List (Ev M)} (i : Inv s log) {q : List (Item M)}
    (hq : s.queue = .stop :: q) (timer : Bool) :
    Inv (handle { s with queue := q } timer .stop).1
      (log ++ (handle { s with queue := q } timer .stop).2) := by
  have hh : handle { s with queue := q } timer .stop =
      (State.mk (if s.th.isSome then .shutdown else .halted) (s.th.map fun t => { t with stop := true })
          false s.now s.armed s.rev s.threads q,
        (if s.isUp then [.down] else []) ++ [.cmdStop]) := by
    simp [handle, handleStop, stopThread, reportDown_spec]
  rw [hh]
  refine i.leave ?_ ?_ rfl (reports_status _ _ rfl) (quiet_status _ _ fun _ => rfl) (stopThread_gen i)
    (Nat.le_refl _) ?_ ?_ ?_
  · have := i.thr
    rw [hq, filter_other rfl] at this
    refine this.leave (quiet_status _ _ fun _ => rfl) ?_ ?_ (.inr rfl)
    · split <;> simp
    · intro h; rw [h]; simp
  · show (if s.th.isSome then St.shutdown else St.halted) ≠ _
    split <;> simp
  · intro h
    have h' : (if s.th.isSome then St.shutdown else St.halted) = .reconnecting := h
    split at h' <;> cases h'
  · intro _; right; rw [wanted_snoc]; rfl
  · intro _; rw [wanted_snoc]; rfl

/-- `hold`, entered with no thread and no items of one. -/
theorem Inv.hold {s : State M} {log : List (Ev M)} (i : Inv s log) (now : Bool) (q : List (Item M))
    (hq : q.filter isThr = []) {e : List (Ev M)} (he : e = (if s.isUp then [.down] else []) ++ [.attempt]) :
    Inv (Dlink.hold { s with queue := q, th := none, isUp := false, now := now, st := .reconnecting })
      (log ++ e) := by
  subst he
  unfold Dlink.hold
  cases now with
  | true =>
    refine i.leave ?_ (by simp [push]) rfl (reports_status _ _ rfl) (quiet_status _ _ fun _ => rfl)
      (by intro t ht; cases ht) (Nat.le_refl _) (by intro h; cases h) ?_ (by intro h; cases h)
    · show TInv .halted _ none ((q ++ [Item.start]).filter isThr)
      rw [List.filter_append, hq]
      exact .absent (by simp) (by simp) (by simp)
    · intro _; left; simp [push]
  | false =>
    refine i.leave ?_ (by simp) rfl (reports_status _ _ rfl) (quiet_status _ _ fun _ => rfl)
      (by intro t ht; cases ht) (Nat.le_refl _) (fun _ => .inr (.inl rfl)) (by intro h; cases h)
      (by intro h; cases h)
    show TInv .reconnecting _ none (q.filter isThr)
    rw [hq]
    exact .absent (by simp) (by simp) (by simp)

/-- `Reconnect` and `Restart`. -/
theorem Inv.reconnect {s : State M} {log : List (Ev M)} (i : Inv s log) {x : Item M}
    {q : List (Item M)} (hq : s.queue = x :: q) (hx : isThr x = false) (now : Bool) :
    Inv (handleReconnect { s with queue := q } now).1
      (log ++ (handleReconnect { s with queue := q } now).2) := by
  have hthr := i.thr
  rw [hq, filter_other hx] at hthr
  have hh : handleReconnect { s with queue := q } now =
      ((if s.th.isSome then
          State.mk .reconnecting (s.th.map fun t => { t with stop := true }) false now s.armed s.rev
            s.threads q
        else Dlink.hold (State.mk .reconnecting (s.th.map fun t => { t with stop := true }) false now
            s.armed s.rev s.threads q)),
        (if s.isUp then [.down] else []) ++ [.attempt]) := by
    simp [handleReconnect, handleStop, stopThread, reportDown_spec]
  rw [hh]
  cases hth : s.th with
  | none =>
    simp only [Option.isSome_none, Bool.false_eq_true, if_false, Option.map_none]
    refine i.hold now q ?_ rfl
    rw [hth] at hthr
    generalize q.filter isThr = l at hthr
    cases hthr
    rfl
  | some t =>
    simp only [Option.isSome_some, if_true]
    rw [← hth]
    refine i.leave ?_ (by simp) rfl (reports_status _ _ rfl) (quiet_status _ _ fun _ => rfl)
      (stopThread_gen i) (Nat.le_refl _) (fun _ => .inl (by simp [hth])) (by intro h; cases h)
      (by intro h; cases h)
    exact hthr.leave (quiet_status _ _ fun _ => rfl) (by simp) (by rw [hth]; intro h; cases h) (.inr rfl)

/-- `ThreadExit`. -/
theorem Inv.threadExit {s : State M} {log : List (Ev M)} (i : Inv s log) {g : Nat}
    {q : List (Item M)} (hq : s.queue = .threadExit g :: q) (timer : Bool) :
    Inv (handle { s with queue := q } timer (.threadExit g)).1
      (log ++ (handle { s with queue := q } timer (.threadExit g)).2) := by
  have hthr := i.thr
  have hf : s.queue.filter isThr = .threadExit g :: q.filter isThr := by rw [hq]; rfl
  rw [hf] at hthr
  have hl := hthr.popExit
  by_cases hs : s.st = .shutdown
  · have hh : handle { s with queue := q } timer (.threadExit g) =
        ({ s with queue := q, th := none, isUp := false, st := .halted },
          if s.isUp then [.down] else []) := by
      simp [handle, reportDown_spec, hs]
    rw [hh]
    have hq' : Quiet (if s.isUp then [Ev.down (M := M)] else []) := by intro g; cases s.isUp <;> rfl
    refine i.leave ?_ (by simp) rfl (by cases s.isUp <;> rfl) hq' (by intro t ht; cases ht)
      (Nat.le_refl _) (by intro h; cases h) ?_ (by intro h; cases h)
    · show TInv .halted _ none (q.filter isThr)
      rw [hl]
      exact .absent (by simp) (by simp) (by simp)
    · intro _; right
      rw [wanted_append, i.shut hs]
      cases s.isUp <;> rfl
  · have hh : handle { s with queue := q } timer (.threadExit g) =
        (Dlink.hold { s with queue := q, th := none, isUp := false, now := s.now, st := .reconnecting },
          (if s.isUp then [.down] else []) ++ [.attempt]) := by
      simp [handle, reportDown_spec, hs]
    rw [hh]
    exact i.hold s.now q hl rfl

/-- `Received`. -/
theorem Inv.received {s : State M} {log : List (Ev M)} (i : Inv s log) {g : Nat} {m : M}
    {q : List (Item M)} (hq : s.queue = .received g m :: q) (timer : Bool) :
    Inv (handle { s with queue := q } timer (.received g m)).1
      (log ++ (handle { s with queue := q } timer (.received g m)).2) := by
  have hthr := i.thr
  have hf : s.queue.filter isThr = .received g m :: q.filter isThr := by rw [hq]; rfl
  rw [hf] at hthr
  obtain ⟨p1, p2⟩ := hthr.popReceived
  have hrec : s.st = .reconnecting → s.th ≠ none ∨ s.armed = true ∨ .timeout s.rev ∈ q := by
    intro h
    have := i.recon h
    rw [hq] at this
    simpa using this
  have hhalt : s.st = .halted → .start ∈ q ∨ wanted log = false := by
    intro h
    have := i.halt h
    rw [hq] at this
    simpa using this
  by_cases hs : s.st = .running
  · have hh : handle { s with queue := q } timer (.received g m) = ({ s with queue := q }, [.pass g m]) := by
      simp [handle, hs]
    rw [hh]
    exact {
      thr := p1 hs
      up := i.up
      alt := by rw [reports_append]; simpa [reports] using i.alt
      stat := by unfold status; rw [reports_append]; simpa [reports, status] using i.stat
      gen := i.gen
      old := fun g' hg => by rw [got_append, i.old g' hg]; rfl
      recon := hrec
      halt := fun h => by have h' : s.st = .halted := h; rw [hs] at h'; cases h'
      shut := fun h => by have h' : s.st = .shutdown := h; rw [hs] at h'; cases h' }
  · have hh : handle { s with queue := q } timer (.received g m) = ({ s with queue := q }, []) := by
      simp [handle, hs]
    rw [hh, List.append_nil]
    exact {
      thr := p2 hs
      up := i.up
      alt := i.alt
      stat := i.stat
      gen := i.gen
      old := i.old
      recon := hrec
      halt := hhalt
      shut := i.shut }

/-- `Connected`. -/
theorem Inv.connected {s : State M} {log : List (Ev M)} (i : Inv s log) {g : Nat}
    {q : List (Item M)} (hq : s.queue = .connected g :: q) (timer : Bool) :
    Inv (handle { s with queue := q } timer (.connected g)).1
      (log ++ (handle { s with queue := q } timer (.connected g)).2) := by
  have hthr := i.thr
  have hf : s.queue.filter isThr = .connected g :: q.filter isThr := by rw [hq]; rfl
  rw [hf] at hthr
  obtain ⟨p0, p1, p2⟩ := hthr.popConnected
  by_cases hs : s.st = .connecting
  · have hup : s.isUp = false := by
      cases h : s.isUp with
      | false => rfl
      | true => exact absurd (i.up.mp h) p0
    have hh : handle { s with queue := q } timer (.connected g) =
        ({ s with queue := q, isUp := true, st := .running }, [.up]) := by
      simp [handle, hs, reportUp, hup]
    rw [hh]
    have hst := i.stat
    rw [hup] at hst
    exact {
      thr := p1
      up := by simp
      alt := by
        rw [reports_append]
        simp only [reports]
        rw [alternates_snoc]
        refine ⟨i.alt, ?_⟩
        unfold status at hst
        rw [hst]; rfl
      stat := by unfold status; rw [reports_append]; simp [reports]
      gen := i.gen
      old := fun g' hg => by rw [got_append, i.old g' hg]; rfl
      recon := fun h => by cases h
      halt := fun h => by cases h
      shut := fun h => by cases h }
  · have hh : handle { s with queue := q } timer (.connected g) = ({ s with queue := q }, []) := by
      simp [handle, hs]
    rw [hh, List.append_nil]
    exact {
      thr := p2
      up := i.up
      alt := i.alt
      stat := i.stat
      gen := i.gen
      old := i.old
      recon := fun h => by have := i.recon h; rw [hq] at this; simpa using this
      halt := fun h => by have := i.halt h; rw [hq] at this; simpa using this
      shut := i.shut }

/-- An item that is ignored. -/
theorem Inv.ignore {s : State M} {log : List (Ev M)} (i : Inv s log) {x : Item M}
    {q : List (Item M)} (hq : s.queue = x :: q) (hx : isThr x = false)
    (h1 : s.st = .reconnecting → x ≠ .timeout s.rev) (h2 : s.st = .halted → x ≠ .start) :
    Inv { s with queue := q } log :=
  { i with
    thr := by have := i.thr; rw [hq, filter_other hx] at this; exact this
    recon := fun h => by
      rcases i.recon h with g | g | g
      · exact .inl g
      · exact .inr (.inl g)
      · rw [hq] at g
        rcases List.mem_cons.mp g with g | g
        · exact absurd g.symm (h1 h)
        · exact .inr (.inr g)
    halt := fun h => by
      rcases i.halt h with g | g
      · rw [hq] at g
        rcases List.mem_cons.mp g with g | g
        · exact absurd g.symm (h2 h)
        · exact .inl g
      · exact .inr g }

/-- `Start`. -/
theorem Inv.start {s : State M} {log : List (Ev M)} (i : Inv s log)
    {q : List (Item M)} (hq : s.queue = .start :: q) (timer : Bool) :
    Inv (handle { s with queue := q } timer .start).1
      (log ++ (handle { s with queue := q } timer .start).2) := by
  have hthr := i.thr
  rw [hq, filter_other rfl] at hthr
  by_cases hs : s.st = .halted
  · have hh : handle { s with queue := q } timer .start = (begin { s with queue := q } timer, [.attempt]) := by
      simp [handle, hs]
    rw [hh]
    have hup : s.isUp = false := by
      cases h : s.isUp with
      | false => rfl
      | true => have := i.up.mp h; rw [hs] at this; cases this
    have hat : Quiet [Ev.attempt (M := M)] := fun _ => rfl
    have hcase : s.th = none ∨ ∃ t, s.th = some t := by
      cases s.th with
      | none => exact .inl rfl
      | some t => exact .inr ⟨t, rfl⟩
    rcases hcase with hth | ⟨t, hth⟩
    rotate_left
    · have hb : ∃ a r, begin { s with queue := q } timer =
          { s with queue := q, st := .connecting, armed := a, rev := r } := by
        cases timer
        · exact ⟨s.armed, s.rev, by simp [begin, hth]⟩
        · exact ⟨true, s.rev + 1, by simp [begin, hth]⟩
      obtain ⟨a, r, hb⟩ := hb
      rw [hb]
      refine i.leave ?_ (by simp) hup (by rw [hup]; rfl) hat i.gen (Nat.le_refl _)
        (by intro h; cases h) (by intro h; cases h) (by intro h; cases h)
      exact hthr.leave hat (by simp) (by rw [hth]; intro h; cases h) (.inl rfl)
    · have hb : ∃ a r, begin { s with queue := q } timer =
          { s with queue := q, st := .connecting, armed := a, rev := r,
                   th := some ⟨s.threads, .waiting, false⟩, threads := s.threads + 1 } := by
        cases timer
        · exact ⟨s.armed, s.rev, by simp [begin, hth]⟩
        · exact ⟨true, s.rev + 1, by simp [begin, hth]⟩
      obtain ⟨a, r, hb⟩ := hb
      rw [hb]
      refine i.leave ?_ (by simp) hup (by rw [hup]; rfl) hat ?_ (Nat.le_succ _)
        (by intro h; cases h) (by intro h; cases h) (by intro h; cases h)
      · rw [hth] at hthr
        show TInv .connecting _ _ (q.filter isThr)
        have hnil : q.filter isThr = [] := by
          generalize q.filter isThr = l at hthr
          cases hthr; rfl
        rw [hnil]
        exact .waiting (by simp) (by rw [hat.got]; exact i.old _ (Nat.le_refl _))
      · intro t ht; cases ht; exact Nat.lt_succ_self _
  · have hh : handle { s with queue := q } timer .start = ({ s with queue := q }, []) := by
      simp [handle, hs]
    rw [hh, List.append_nil]
    exact i.ignore hq rfl (fun _ => by simp) (fun h => absurd h hs)

/-- `Timeout`. -/
theorem Inv.timeout {s : State M} {log : List (Ev M)} (i : Inv s log) {r : Nat}
    {q : List (Item M)} (hq : s.queue = .timeout r :: q) (timer : Bool) :
    Inv (handle { s with queue := q } timer (.timeout r)).1
      (log ++ (handle { s with queue := q } timer (.timeout r)).2) := by
  have hthr := i.thr
  rw [hq, filter_other rfl] at hthr
  by_cases hr : r = s.rev
  · by_cases hs : s.st = .reconnecting
    · have hh : handle { s with queue := q } timer (.timeout r) =
          ({ s with queue := q ++ [.start], st := .halted }, []) := by
        simp [handle, hs, hr, push]
      have hup : s.isUp = false := by
        cases h : s.isUp with
        | false => rfl
        | true => have := i.up.mp h; rw [hs] at this; cases this
      rw [hh]
      refine i.leave ?_ (by simp) hup (by rw [hup]; rfl) (fun _ => rfl) i.gen (Nat.le_refl _)
        (by intro h; cases h) (fun _ => .inl (by simp)) (by intro h; cases h)
      show TInv .halted _ s.th ((q ++ [Item.start]).filter isThr)
      rw [List.filter_append]
      simp only [isThr, List.filter_cons, List.filter_nil, Bool.false_eq_true, if_false, List.append_nil]
      have := hthr.leave (e := []) (fun _ => rfl) (st' := .halted) (by simp) (fun _ => by simp) (.inl rfl)
      rw [List.append_nil] at this
      exact this
    · have hig := i.ignore hq rfl (fun h => absurd h hs) (fun _ => by simp)
      by_cases hc : s.st = .connecting
      · have hh : handle { s with queue := q } timer (.timeout r) =
            (push { s with queue := q } (.reconnect true), []) := by
          simp [handle, hc, hr, push]
        rw [hh, List.append_nil]
        exact hig.pushOther rfl
      · have hh : handle { s with queue := q } timer (.timeout r) = ({ s with queue := q }, []) := by
          simp only [handle, hr, if_true]
        rw [hh, List.append_nil]
        exact hig
  · have hh : handle { s with queue := q } timer (.timeout r) = ({ s with queue := q }, []) := by
      simp [handle, hr]
    rw [hh, List.append_nil]
    exact i.ignore hq rfl (fun _ h => by injection h with h; exact hr h) (fun _ => by simp)

theorem Inv.step {s : State M} {log : List (Ev M)} (i : Inv s log) (a : Act M) :
    Inv (step s a).1 (log ++ (step s a).2) := by
  cases a with
  | «open» => simp only [Dlink.step, List.append_nil]; exact i.pushOther rfl
  | close => simp only [Dlink.step, List.append_nil]; exact i.pushOther rfl
  | restart => simp only [Dlink.step, List.append_nil]; exact i.pushOther rfl
  | sendError =>
    simp only [Dlink.step]
    split
    · rw [List.append_nil]; exact i.pushOther rfl
    · rw [List.append_nil]; exact i
  | expire =>
    simp only [Dlink.step]
    split
    · rw [List.append_nil]; exact i.expire
    · rw [List.append_nil]; exact i
  | connOk =>
    simp only [Dlink.step]
    cases hth : s.th with
    | none => simp only [List.append_nil]; exact i
    | some t =>
      simp only []
      by_cases hp : t.phase = .waiting
      · rw [if_pos hp]
        refine i.thread hth rfl rfl ?_ ⟨rfl, fun _ => rfl, fun _ _ => rfl⟩
        have := i.thr
        rw [hth] at this
        rw [List.append_nil]
        generalize s.queue.filter isThr = l at this
        cases this with
        | waiting h hg => exact TInv.fresh (rs := []) h (.inl ⟨rfl, rfl⟩) hg
        | failed => cases hp
        | fresh h he hg => rcases he with ⟨rfl, _⟩ | ⟨rfl, _⟩ <;> cases hp
        | run h he hg hs => rcases he with ⟨rfl, _⟩ | ⟨rfl, _⟩ <;> cases hp
        | idle h he => rcases he with ⟨rfl, _⟩ | ⟨rfl, _⟩ <;> cases hp
      · rw [if_neg hp, List.append_nil]; exact i
  | connFail =>
    simp only [Dlink.step]
    cases hth : s.th with
    | none => simp only [List.append_nil]; exact i
    | some t =>
      simp only []
      by_cases hp : t.phase = .waiting
      · rw [if_pos hp]
        refine i.thread hth rfl rfl ?_ ⟨rfl, fun _ => rfl, fun _ _ => rfl⟩
        have := i.thr
        rw [hth] at this
        rw [List.append_nil]
        generalize s.queue.filter isThr = l at this
        cases this with
        | waiting h hg => exact TInv.failed h hg
        | failed => cases hp
        | fresh h he hg => rcases he with ⟨rfl, _⟩ | ⟨rfl, _⟩ <;> cases hp
        | run h he hg hs => rcases he with ⟨rfl, _⟩ | ⟨rfl, _⟩ <;> cases hp
        | idle h he => rcases he with ⟨rfl, _⟩ | ⟨rfl, _⟩ <;> cases hp
      · rw [if_neg hp, List.append_nil]; exact i
  | recv m =>
    simp only [Dlink.step]
    cases hth : s.th with
    | none => simp only [List.append_nil]; exact i
    | some t =>
      simp only []
      by_cases hp : t.phase = .looping
      · rw [if_pos hp]
        have ht := i.thr
        rw [hth] at ht
        have := i.thread (x := .received t.gen m) (e := [.got t.gen m]) hth (t' := t) rfl rfl
          (tinv_snoc_recv ht hp)
          ⟨rfl, fun _ => rfl, fun g hg => by simp [got, Ne.symm hg]⟩
        have he : push s (.received t.gen m) = { push s (.received t.gen m) with th := some t } := by
          simp [push, ← hth]
        rw [he]
        exact this
      · rw [if_neg hp, List.append_nil]; exact i
  | exit =>
    simp only [Dlink.step]
    cases hth : s.th with
    | none => simp only [List.append_nil]; exact i
    | some t =>
      simp only []
      by_cases hp : t.phase = .looping
      · rw [if_pos hp]
        have ht := i.thr
        rw [hth] at ht
        refine i.thread hth rfl rfl ?_ ⟨rfl, fun _ => rfl, fun _ _ => rfl⟩
        rw [List.append_nil]
        exact tinv_snoc_exit ht hp
      · rw [if_neg hp, List.append_nil]; exact i
  | dispatch timer =>
    simp only [Dlink.step]
    cases hq : s.queue with
    | nil => simp only [List.append_nil]; exact i
    | cons x q =>
      simp only []
      cases x with
      | start => exact i.start hq timer
      | stop => exact i.stop hq timer
      | restart => exact i.reconnect hq rfl true
      | reconnect now => exact i.reconnect hq rfl now
      | connected g => exact i.connected hq timer
      | received g m => exact i.received hq timer
      | threadExit g => exact i.threadExit hq timer
      | timeout r => exact i.timeout hq timer

theorem inv_init : Inv (init (M := M)) [] :=
  { thr := .absent (by simp [init]) (by simp [init]) (by simp [init])
    up := by simp [init]
    alt := trivial
    stat := rfl
    gen := fun t ht => by cases ht
    old := fun _ _ => rfl
    recon := fun h => by cases h
    halt := fun _ => .inr rfl
    shut := fun h => by cases h }

theorem run_snoc (as : List (Act M)) (a : Act M) :
    run (as ++ [a]) = ((step (run as).1 a).1, (run as).2 ++ (step (run as).1 a).2) := by
  simp [run, List.foldl_append]

theorem inv_run (as : List (Act M)) : Inv (run as).1 (run as).2 := by
  have key : ∀ n (as : List (Act M)), as.length = n → Inv (run as).1 (run as).2 := by
    intro n
    induction n with
    | zero => intro as h; rw [List.length_eq_zero_iff] at h; subst h; exact inv_init
    | succ n ih =>
      intro as h
      rcases List.eq_nil_or_concat as with rfl | ⟨bs, b, rfl⟩
      · cases h
      · rw [List.concat_eq_append] at h ⊢
        rw [run_snoc]
        exact (ih bs (by simpa using h)).step b
  exact key _ as rfl

end Verif.Dlink
