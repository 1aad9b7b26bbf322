import Verif.WorkQ.Model

/-!
# C54: work items are dispatched in the order queued, until shutdown
-/

namespace Verif.WorkQ

variable {S W : Type}

/-- The ordinary items before the first `Shutdown`. -/
def before : List (Entry W) → List W
  | [] => []
  | .work w :: es => w :: before es
  | .shutdown :: _ => []

private theorem before_work_append (ws : List W) (es : List (Entry W)) :
    before (ws.map .work ++ es) = ws ++ before es := by
  induction ws with
  | nil => rfl
  | cons w ws ih => simp [before, ih]

private structure Inv (h : Handler S W) (s : State S W) (put : List (Entry W)) : Prop where
  /-- while running, what was put is exactly what was dispatched, then what is queued -/
  live : s.running = true → put = s.done.map .work ++ s.queue
  /-- always: the dispatched items are the first ones put -/
  dead : ∃ rest, put = s.done.map .work ++ rest

private theorem Inv.step {h : Handler S W} {s : State S W} {put : List (Entry W)}
    (i : Inv h s put) (a : Act W) : Inv h (step h s a) (put ++ added h s a) := by
  obtain ⟨l, r, hr⟩ := i
  cases a with
  | add e =>
    refine ⟨fun hrun => ?_, ⟨r ++ [e], ?_⟩⟩
    · have := l hrun
      simp only [Verif.WorkQ.step, added]
      rw [this, List.append_assoc]
    · simp only [Verif.WorkQ.step, added]
      rw [hr, List.append_assoc]
  | interrupt =>
    refine ⟨fun hrun => by simp [Verif.WorkQ.step] at hrun, ⟨r, ?_⟩⟩
    simp only [Verif.WorkQ.step, added, List.append_nil]
    exact hr
  | round =>
    simp only [Verif.WorkQ.step, added]
    by_cases hrun : s.running = true
    · have hl := l hrun
      rw [if_pos hrun, if_pos hrun]
      cases hq : s.queue with
      | nil => exact ⟨fun _ => by simp [hl, hq], ⟨[], by simp [hl, hq]⟩⟩
      | cons e q =>
        cases e with
        | shutdown =>
          refine ⟨fun hc => by simp at hc, ⟨.shutdown :: q, ?_⟩⟩
          simp [hl, hq]
        | work w =>
          cases hh : h s.prog w with
          | none =>
            refine ⟨fun hc => by simp [hh] at hc, ⟨q, ?_⟩⟩
            simp [hl, hq, hh]
          | some pw =>
            obtain ⟨p, ws⟩ := pw
            refine ⟨fun _ => ?_, ⟨q ++ ws.map .work, ?_⟩⟩ <;> simp [hl, hq, hh]
    · rw [if_neg hrun, if_neg hrun]
      exact ⟨fun hc => absurd hc hrun, ⟨r, by simp [hr]⟩⟩

private theorem run_inv {h : Handler S W} (as : List (Act W)) :
    ∀ {s : State S W} {put : List (Entry W)}, Inv h s put →
      Inv h (run h s as).1 (put ++ (run h s as).2) := by
  induction as with
  | nil => intro s put i; simpa [run] using i
  | cons a as ih =>
    intro s put i
    have := ih (i.step a)
    rw [List.append_assoc] at this
    exact this

/-- **C54.**  For every program (handler), and every interleaving of items queued by other threads,
items queued by handlers and rounds of the loop: the items dispatched are the first items queued,
in the order queued, each once, with no `Shutdown` among or before them; and as long as the loop
runs, an item queued is either dispatched or still on the queue. -/
theorem in_order (h : Handler S W) (p : S) (as : List (Act W)) :
    let r := run h ⟨p, [], [], true⟩ as
    (∃ rest, r.2 = r.1.done.map .work ++ rest) ∧
    r.1.done <+: before r.2 ∧
    (r.1.running = true → r.2 = r.1.done.map .work ++ r.1.queue) := by
  have i : Inv h ⟨p, [], [], true⟩ [] := ⟨fun _ => rfl, ⟨[], rfl⟩⟩
  have := run_inv as i
  simp only [List.nil_append] at this
  refine ⟨this.dead, ?_, this.live⟩
  obtain ⟨rest, hr⟩ := this.dead
  rw [hr, before_work_append]
  exact List.prefix_append _ _

private theorem run_append (h : Handler S W) (as bs : List (Act W)) :
    ∀ s, (run h s (as ++ bs)).1 = (run h (run h s as).1 bs).1 := by
  induction as with
  | nil => intro s; rfl
  | cons a as ih => intro s; simp only [List.cons_append, run]; exact ih _

private theorem stopped_step (h : Handler S W) {s : State S W} (hs : s.running = false) (a : Act W) :
    (step h s a).running = false ∧ (step h s a).done = s.done ∧ (step h s a).prog = s.prog := by
  cases a <;> simp [step, hs]

/-- **C54, shutdown.**  Once the loop has taken the `Shutdown` item (or a handler raised), nothing
more is dispatched whatever is queued later. -/
theorem stops_for_good (h : Handler S W) (s : State S W) (hs : s.running = false)
    (as : List (Act W)) :
    (run h s as).1.running = false ∧ (run h s as).1.done = s.done ∧ (run h s as).1.prog = s.prog := by
  induction as generalizing s with
  | nil => exact ⟨hs, rfl, rfl⟩
  | cons a as ih =>
    obtain ⟨h1, h2, h3⟩ := stopped_step h hs a
    obtain ⟨g1, g2, g3⟩ := ih _ h1
    exact ⟨g1, g2.trans h2, g3.trans h3⟩

/-- **C54, progress.**  With `n` items ahead of a `Shutdown` and no handler raising, that item is
reached after `n + 1` rounds, the `n` items having been dispatched in order. -/
theorem shutdown_reached (h : Handler S W) (hh : ∀ p w, (h p w).isSome) (ws : List W) :
    ∀ (p : S) (d : List W) (q : List (Entry W)),
      let r := (run h ⟨p, ws.map .work ++ .shutdown :: q, d, true⟩
        (List.replicate (ws.length + 1) .round)).1
      r.running = false ∧ r.done = d ++ ws := by
  induction ws with
  | nil => intro p d q; simp [run, step]
  | cons w ws ih =>
    intro p d q
    simp only [List.length_cons, List.replicate_succ (n := ws.length + 1), run, step, List.map_cons,
      List.cons_append, if_true]
    obtain ⟨⟨p', ws'⟩, he⟩ := Option.isSome_iff_exists.mp (hh p w)
    rw [he]
    have := ih p' (d ++ [w]) (q ++ ws'.map .work)
    simp only [List.append_assoc, List.cons_append, List.nil_append] at this ⊢
    exact this

/-- Finding: any exception that escapes a handler ends the loop and stops the node (node.py
326-329), however many items are queued. -/
theorem exception_stops_node (h : Handler S W) (p : S) (w : W) (hw : h p w = none)
    (q : List (Entry W)) (d : List W) (as : List (Act W)) :
    (run h ⟨p, .work w :: q, d, true⟩ (.round :: as)).1.running = false ∧
    (run h ⟨p, .work w :: q, d, true⟩ (.round :: as)).1.done = d ++ [w] := by
  have hs : step h ⟨p, .work w :: q, d, true⟩ .round = ⟨p, q, d ++ [w], false⟩ := by
    simp [step, hw]
  simp only [run]
  rw [hs]
  exact ⟨(stops_for_good h _ rfl as).1, (stops_for_good h _ rfl as).2.1⟩

/-- A counter whose handler queues a follow-up item for even numbers.  Other threads queue 2, a
shutdown and 5.  Only 2 is dispatched: its follow-up 3 and the 5 are queued
behind the shutdown. -/
example : (run (fun (s : Nat) (w : Nat) => some (s + w, if w % 2 = 0 then [w + 1] else []))
    ⟨0, [], [], true⟩ [.add (.work 2), .add .shutdown, .round, .add (.work 5), .round, .round]).1.done
    = [2] := by decide

example : (run (fun (s : Nat) (w : Nat) => some (s + w, if w % 2 = 0 then [w + 1] else []))
    ⟨0, [], [], true⟩ [.add (.work 2), .round, .add (.work 5), .round, .round]).1.done
    = [2, 3, 5] := by decide

end Verif.WorkQ
