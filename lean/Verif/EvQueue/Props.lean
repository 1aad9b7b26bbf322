import Verif.EvQueue.Model

/-!
# C50: the queue of remote events is bounded and honest

Specification: what went out followed by what is still queued *accounts for* the logged events:
read from left to right, every event of the output is the next logged event, and every marker
stands for one or more logged events that were discarded at that place.
-/

namespace Verif.EvQueue

variable {E : Type}

/-- `Accounts out logged`: `out` is `logged` with some non-empty stretches replaced by a marker. -/
inductive Accounts : List (Item E) → List E → Prop
  | nil : Accounts [] []
  | event (e : E) {out : List (Item E)} {logged : List E} (h : Accounts out logged) :
      Accounts (.event e :: out) (e :: logged)
  | lost (d : E) (ds : List E) {out : List (Item E)} {logged : List E} (h : Accounts out logged) :
      Accounts (.lost :: out) (d :: ds ++ logged)

/-- The events logged in a history. -/
def logged : List (Op E) → List E
  | [] => []
  | .log e :: os => e :: logged os
  | _ :: os => logged os

private theorem logged_append (a b : List (Op E)) : logged (a ++ b) = logged a ++ logged b := by
  induction a with
  | nil => rfl
  | cons o os ih => cases o <;> simp [logged, ih]

private theorem Accounts.snoc_event {out : List (Item E)} {l : List E} (h : Accounts out l) (e : E) :
    Accounts (out ++ [.event e]) (l ++ [e]) := by
  induction h with
  | nil => exact .event e .nil
  | event e' _ ih => exact .event e' ih
  | lost d ds _ ih =>
    have := Accounts.lost d ds ih
    rw [← List.append_assoc] at this
    exact this

private theorem Accounts.snoc_lost {out : List (Item E)} {l : List E} (h : Accounts out l) (e : E) :
    Accounts (out ++ [.lost]) (l ++ [e]) := by
  induction h with
  | nil => exact .lost e [] .nil
  | event e' _ ih => exact .event e' ih
  | lost d ds _ ih =>
    have := Accounts.lost d ds ih
    rw [← List.append_assoc] at this
    exact this

private theorem Accounts.grow {out : List (Item E)} {l : List E} (h : Accounts out l) (e : E) :
    ∀ i, out.getLast? = some i → i = .lost → Accounts out (l ++ [e]) := by
  induction h with
  | nil => intro i hi; simp at hi
  | @event e' out l h ih =>
    intro i hi hl
    cases out with
    | nil => simp at hi; subst hi; cases hl
    | cons a as =>
      rw [List.getLast?_cons_cons] at hi
      exact .event e' (ih i hi hl)
  | @lost d ds out l h ih =>
    intro i hi hl
    cases out with
    | nil =>
      cases h
      have := Accounts.lost d (ds ++ [e]) (Accounts.nil (E := E))
      simpa using this
    | cons a as =>
      rw [List.getLast?_cons_cons] at hi
      have := Accounts.lost d ds (ih i hi hl)
      rw [← List.append_assoc] at this
      exact this

private theorem append_spec {limit : Nat} {q q' : List (Item E)} {e : E}
    (h : append limit q e = some q') :
    (limit ≤ q.length ∧ q.getLast? = some .lost ∧ q' = q) ∨
    (limit ≤ q.length ∧ (∃ x, q.getLast? = some (.event x)) ∧ q' = q ++ [.lost]) ∨
    (q.length < limit ∧ q' = q ++ [.event e]) := by
  unfold append at h
  split at h
  · rename_i hl
    split at h
    · cases h
    · rename_i hq; cases h; exact .inl ⟨hl, hq, rfl⟩
    · rename_i x hq; cases h; exact .inr (.inl ⟨hl, ⟨x, hq⟩, rfl⟩)
  · cases h; exact .inr (.inr ⟨by omega, rfl⟩)

/-- The invariant of the queue: bounded, above the limit only by a marker at the end, and
accounting for everything logged. -/
private def Inv (limit : Nat) (s : State E) (l : List E) : Prop :=
  s.queue.length ≤ limit + 1 ∧
  (s.queue.length = limit + 1 → s.queue.getLast? = some .lost) ∧
  Accounts (s.sent ++ s.queue) l

private theorem Inv.step {limit : Nat} (hl : 0 < limit) {s : State E} {l : List E}
    (h : Inv limit s l) (o : Op E) :
    ∃ s', step limit s o = some s' ∧ Inv limit s' (l ++ logged [o]) := by
  obtain ⟨h1, h2, h3⟩ := h
  cases o with
  | log e =>
    have hsome : ∃ q', append limit s.queue e = some q' := by
      unfold append
      split
      · rename_i hq
        cases hg : s.queue.getLast? with
        | none =>
          rw [List.getLast?_eq_none_iff] at hg
          rw [hg] at hq; simp at hq; omega
        | some i => cases i <;> simp
      · exact ⟨_, rfl⟩
    obtain ⟨q', hq⟩ := hsome
    refine ⟨{ s with queue := q' }, by simp [Verif.EvQueue.step, hq], ?_⟩
    rcases append_spec hq with ⟨g1, g2, rfl⟩ | ⟨g1, ⟨x, g2⟩, rfl⟩ | ⟨g1, rfl⟩
    · refine ⟨h1, h2, ?_⟩
      exact h3.grow e .lost (by rw [List.getLast?_append, g2]; rfl) rfl
    · have h4 : s.queue.length ≤ limit := by
        rcases Nat.lt_or_ge limit s.queue.length with g | g
        · have := h2 (by omega); rw [this] at g2; cases g2
        · exact g
      refine ⟨by simp; omega, fun _ => by simp, ?_⟩
      show Accounts (s.sent ++ (s.queue ++ [.lost])) _
      rw [← List.append_assoc]
      exact h3.snoc_lost e
    · refine ⟨by simp; omega, ?_, ?_⟩
      · intro hc; simp at hc; omega
      · show Accounts (s.sent ++ (s.queue ++ [.event e])) _
        rw [← List.append_assoc]
        exact h3.snoc_event e
  | sendOk =>
    cases hq : s.queue with
    | nil =>
      refine ⟨s, by simp [Verif.EvQueue.step, hq], h1, h2, ?_⟩
      simpa [logged] using h3
    | cons i q =>
      refine ⟨⟨q, s.sent ++ [i]⟩, by simp [Verif.EvQueue.step, hq], ?_, ?_, ?_⟩
      · rw [hq] at h1; simp at h1; show q.length ≤ _; omega
      · rw [hq] at h1; simp at h1
        intro hc
        have hc' : q.length = limit + 1 := hc
        omega
      · rw [hq] at h3; simpa [logged] using h3
  | sendFail =>
    cases hq : s.queue with
    | nil =>
      refine ⟨s, by simp [Verif.EvQueue.step, hq], h1, h2, ?_⟩
      simpa [logged] using h3
    | cons i q =>
      refine ⟨⟨i :: q, s.sent⟩, by simp [Verif.EvQueue.step, hq], ?_⟩
      rw [hq] at h1 h2 h3
      exact ⟨h1, h2, by simpa [logged] using h3⟩

private theorem run_inv {limit : Nat} (hl : 0 < limit) (ops : List (Op E)) :
    ∀ {s : State E} {l : List E}, Inv limit s l →
      ∃ s', run limit s ops = some s' ∧ Inv limit s' (l ++ logged ops) := by
  induction ops with
  | nil => intro s l h; exact ⟨s, rfl, by simpa [logged] using h⟩
  | cons o os ih =>
    intro s l h
    obtain ⟨s', h1, h2⟩ := h.step hl o
    obtain ⟨s'', h3, h4⟩ := ih h2
    refine ⟨s'', by simp [run, h1, h3], ?_⟩
    rw [List.append_assoc, ← logged_append] at h4
    exact h4

/-- **C50.**  For every limit of at least 1 and every history of logged events and successful or
failed sends: no exception is raised, the queue never holds more than the limit plus one, the one
extra item is a lost-events marker at the end, and what was sent followed by what is queued
accounts for all logged events in their order, each discarded stretch being marked where it was
lost. -/
theorem queue_bounded_honest {limit : Nat} (hl : 0 < limit) (ops : List (Op E)) :
    ∃ s, run limit ⟨[], []⟩ ops = some s ∧
      s.queue.length ≤ limit + 1 ∧
      (s.queue.length = limit + 1 → s.queue.getLast? = some .lost) ∧
      Accounts (s.sent ++ s.queue) (logged ops) := by
  obtain ⟨s, h1, h2, h3, h4⟩ := run_inv hl ops (s := ⟨[], []⟩) (l := [])
    ⟨Nat.zero_le _, fun h => by simp at h, .nil⟩
  exact ⟨s, h1, h2, h3, by simpa using h4⟩

/-- **C50, nothing is lost without need.**  An event logged while the queue is below its limit is
queued at the end. -/
theorem queued_if_room {limit : Nat} {s : State E} (h : s.queue.length < limit) (e : E) :
    step limit s (.log e) = some { s with queue := s.queue ++ [.event e] } := by
  simp [step, append, Nat.not_le.mpr h]

/-- **C50, when the sink keeps up.**  A history in which every event is logged with fewer than
`limit` items queued loses nothing: without a marker the output is exactly what was logged. -/
theorem no_marker_no_loss {out : List (Item E)} {l : List E} (h : Accounts out l)
    (hm : Item.lost ∉ out) : out = l.map Item.event := by
  induction h with
  | nil => rfl
  | event e h ih =>
    simp at hm
    rw [List.map_cons, ih hm]
  | lost d ds h ih => simp at hm

/-- Finding: a queue created with limit 0 raises `IndexError` at the first event.  (The limit used
in the code is the constant 50, event_logger.py 36.) -/
theorem limit_zero_raises (e : E) (os : List (Op E)) : run 0 ⟨[], []⟩ (.log e :: os) = none := rfl

/-- Limit 2, five events with one failed and two successful sends in between: event 4 and 5 were
discarded. -/
example : run 2 ⟨[], []⟩
    [.log 1, .log 2, .log 3, .log 4, .sendFail, .sendOk, .sendOk, .log 5, .log 6] =
    some (⟨[.lost, .event 5, .lost], [.event 1, .event 2]⟩ : State Nat) := by decide

example : Accounts [.event 1, .event 2, .lost, .event 5, .lost] [1, 2, 3, 4, 5, 6] :=
  .event 1 (.event 2 (.lost 3 [4] (.event 5 (.lost 6 [] .nil))))

end Verif.EvQueue
