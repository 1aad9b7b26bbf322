import Verif.Conn.Inv
import Mathlib.Data.List.Induction

/-!
# Answers and messages reach the right place (C95, C96)

A history is a list of events from the start of the connector; `logOf` is what was seen during it and `outOf` what is
seen at one more event.
-/

namespace Verif.Conn

def logOf (late pipe : Bool) (es : List Ev) : Log := (run late pipe State.init es).2

def outOf (late pipe : Bool) (es : List Ev) (e : Ev) : List Out :=
  (step late pipe (run late pipe State.init es).1 e).2

theorem run_append (late pipe : Bool) (s : State) (es : List Ev) (e : Ev) :
    run late pipe s (es ++ [e]) = ((step late pipe (run late pipe s es).1 e).1,
      (run late pipe s es).2 ++ [(e, (step late pipe (run late pipe s es).1 e).2)]) := by
  induction es generalizing s with
  | nil => rfl
  | cons a es ih =>
    simp only [List.cons_append, run, ih]

theorem logOf_snoc (late pipe : Bool) (es : List Ev) (e : Ev) :
    logOf late pipe (es ++ [e]) = logOf late pipe es ++ [(e, outOf late pipe es e)] := by
  unfold logOf outOf
  rw [run_append]

theorem inv (late pipe : Bool) (es : List Ev) :
    Inv late (run late pipe State.init es).1 (logOf late pipe es) := by
  induction es using List.reverseRecOn with
  | nil => exact Inv.init late
  | append_singleton es e ih =>
    unfold logOf at ih ⊢
    rw [run_append]
    exact inv_step e ih

/-! ## Lemmas on one event -/

theorem close_out (s : State) (c : Nat) : (close s c).2 = [] ∨ (close s c).2 = [.closed c] := by
  unfold close; split <;> simp

theorem parse_out {pipe s m r} (h : parse pipe s m = some r) :
    r.1.exch = s.exch ∧ ∀ o ∈ r.2.2, (∃ c h, o = .opened c h) ∨ (∃ h b, o = .sent h b) ∨ ∃ c, o = .closed c := by
  unfold parse at h
  split at h
  · cases h; simp
  · split at h
    · cases h; simp
    · split at h
      · cases h
        unfold makeconn place
        dsimp only
        split
        · split
          · refine ⟨by cases pipe <;> rfl, by simp⟩
          · split
            · exact ⟨rfl, by simp⟩
            · refine ⟨(close_fields _ _).2.1, ?_⟩
              rcases close_out (fresh s m.handle) s.next with h | h <;> simp [h]
        · exact ⟨rfl, by simp⟩
      · cases h

/-- How a line is dealt with. -/
theorem line_out {late pipe s m} (hu : s.up = true) :
    (parse pipe s m = none ∧ (step late pipe s (.line m)).2 = [.down]) ∨
    ∃ s1 rc o1, parse pipe s m = some (s1, rc, o1) ∧ (step late pipe s (.line m)).2 = o1 ++
      match m.tag with
      | none => []
      | some t => match get s.exch t with
        | none => []
        | some true => [.down]
        | some false => [.done t rc m] := by
  have : step late pipe s (.line m) = dispatch pipe s m := by simp [step, hu]
  rw [this]
  unfold dispatch
  cases h : parse pipe s m with
  | none => left; simp [die]
  | some r =>
    obtain ⟨s1, rc, o1⟩ := r
    right
    refine ⟨s1, rc, o1, rfl, ?_⟩
    have he := (parse_out h).1
    simp only at he
    simp only [deliver, he]
    cases m.tag with
    | none => cases rc <;> simp
    | some t =>
      cases hg : get s.exch t with
      | none => simp [hg]
      | some b => cases b <;> simp [die, hg]

theorem recv_out (s : State) (c : Nat) : ∀ o ∈ (recv s c).2,
    o = .isClosed c ∨ o = .closed c ∨ ∃ m, o = .got c m := by
  unfold recv
  split
  · simp
  · split
    · simp
    · dsimp only
      split
      · simp
      · split
        · rename_i m q _ _ _
          rcases close_out (s.set c { s.obj c with recvq := q }) c with h | h <;> simp [h]
        · simp

theorem call_out (s : State) (c : Nat) (b : Bool) : ∀ o ∈ (call s c b).2,
    o = .isClosed c ∨ o = .closed c ∨ ∃ h b, o = .sent h b := by
  unfold call
  split
  · simp
  · split
    · rcases close_out s c with h | h <;> simp [h]
    · simp

theorem listen_out (s : State) (c : Nat) : ∀ o ∈ (listen s c).2, ∃ n, o = .accepted c n := by
  unfold listen
  split <;> simp

/-- Only lines give answers and end the receiver; only calls of `exch` ask. -/
theorem app_out {late pipe s e} (he : ∀ m, e ≠ .line m) :
    (∀ t rc m, Out.done t rc m ∉ (step late pipe s e).2) ∧ Out.down ∉ (step late pipe s e).2 := by
  cases e with
  | exch => simp [step]
  | cancel t => obtain ⟨ex, h, _⟩ := step_cancel late pipe s t; rw [h]; simp
  | line m => exact absurd rfl (he m)
  | recv c =>
    simp only [step]
    split
    · constructor
      · intro t rc m h
        rcases recv_out s c _ h with h | h | ⟨_, h⟩ <;> cases h
      · intro h
        rcases recv_out s c _ h with h | h | ⟨_, h⟩ <;> cases h
    · simp
  | listen c =>
    simp only [step]
    split
    · constructor
      · intro t rc m h
        obtain ⟨_, h⟩ := listen_out s c _ h; cases h
      · intro h
        obtain ⟨_, h⟩ := listen_out s c _ h; cases h
    · simp
  | call c b =>
    simp only [step]
    split
    · constructor
      · intro t rc m h
        rcases call_out s c b _ h with h | h | ⟨_, _, h⟩ <;> cases h
      · intro h
        rcases call_out s c b _ h with h | h | ⟨_, _, h⟩ <;> cases h
    · simp

theorem asked_out {late pipe s e t} (h : Out.asked t ∈ (step late pipe s e).2) :
    e = .exch ∧ t = s.tag + 1 := by
  cases e with
  | exch => simpa [step] using h
  | cancel t => obtain ⟨ex, h', _⟩ := step_cancel late pipe s t; rw [h'] at h; simp at h
  | line m =>
    by_cases hu : s.up = true
    · rcases line_out (late := late) (pipe := pipe) (m := m) hu with ⟨_, h1⟩ | ⟨s1, rc, o1, hp, h1⟩
      · rw [h1] at h; simp at h
      · rw [h1, List.mem_append] at h
        rcases h with h | h
        · rcases (parse_out hp).2 _ h with ⟨_, _, h⟩ | ⟨_, _, h⟩ | ⟨_, h⟩ <;> cases h
        · split at h
          · simp at h
          · split at h <;> simp at h
    · simp [step, hu] at h
  | recv c =>
    simp only [step] at h
    split at h
    · rcases recv_out s c _ h with h | h | ⟨_, h⟩ <;> cases h
    · simp at h
  | listen c =>
    simp only [step] at h
    split at h
    · obtain ⟨_, h⟩ := listen_out s c _ h; cases h
    · simp at h
  | call c b =>
    simp only [step] at h
    split at h
    · rcases call_out s c b _ h with h | h | ⟨_, _, h⟩ <;> cases h
    · simp at h

theorem step_tag {late pipe} (s : State) (e : Ev) :
    (step late pipe s e).1.tag = if e = .exch then s.tag + 1 else s.tag := by
  cases e with
  | exch => simp [step]
  | cancel t => obtain ⟨ex, h', _⟩ := step_cancel late pipe s t; rw [h']; simp
  | line m =>
    simp only [step, reduceCtorEq, if_false]
    split
    · unfold dispatch
      split
      · rfl
      · rename_i s1 rc o1 hp
        have ht : s1.tag = s.tag := by
          unfold parse at hp
          split at hp
          · cases hp; rfl
          · split at hp
            · cases hp; rfl
            · split at hp
              · simp only [Option.some.injEq, Prod.ext_iff] at hp
                rw [← hp.1]
                unfold makeconn place
                dsimp only
                split
                · split
                  · cases pipe <;> rfl
                  · split
                    · rfl
                    · exact (close_fields _ _).2.2.1
                · rfl
              · cases hp
        unfold deliver
        split
        · split <;> simp [die, ht]
        · split <;> simp [ht]
    · rfl
  | recv c =>
    simp only [step, reduceCtorEq, if_false]
    split
    · unfold recv
      split
      · rfl
      · split
        · rfl
        · dsimp only
          split
          · rfl
          · split
            · exact (close_fields _ _).2.2.1
            · rfl
    · rfl
  | listen c =>
    simp only [step, reduceCtorEq, if_false]
    split
    · unfold listen
      split <;> rfl
    · rfl
  | call c b =>
    simp only [step, reduceCtorEq, if_false]
    split
    · unfold call
      split
      · rfl
      · split
        · exact (close_fields _ _).2.2.1
        · rfl
    · rfl

theorem asked_le (late pipe : Bool) (es : List Ev) :
    ∀ x ∈ logOf late pipe es, ∀ t, Out.asked t ∈ x.2 → t ≤ (run late pipe State.init es).1.tag := by
  induction es using List.reverseRecOn with
  | nil => simp [logOf, run]
  | append_singleton es e ih =>
    intro x hx t ht
    rw [logOf_snoc] at hx
    rw [run_append]
    have h1 := step_tag (late := late) (pipe := pipe) (run late pipe State.init es).1 e
    rcases List.mem_append.mp hx with hx | hx
    · have := ih x hx t ht
      simp only [h1]
      split <;> omega
    · rw [List.mem_singleton] at hx
      subst hx
      obtain ⟨rfl, h2⟩ := asked_out ht
      simp [h1, h2]

/-! ## Exchanges -/

/-- Tags are never used twice: each new one is above all before it. -/
theorem tags_fresh (late pipe : Bool) (es : List Ev) (e : Ev) (t : Nat)
    (h : .asked t ∈ outOf late pipe es e) :
    ∀ x ∈ logOf late pipe es, ∀ t', .asked t' ∈ x.2 → t' < t := by
  intro x hx t' ht
  have h1 := asked_le late pipe es x hx t' ht
  have h2 := (asked_out h).2
  omega

/-- An exchange is given an answer only by a message that carries its tag, while it waits and its task has
not given up; and with the open connection which the message names. -/
theorem own_answer (late pipe : Bool) (es : List Ev) (e : Ev) (t : Nat) (rc : Option Nat) (m : Msg)
    (h : .done t rc m ∈ outOf late pipe es e) :
    e = .line m ∧ m.tag = some t ∧ waiting t (logOf late pipe es) = some false ∧
    ∀ c, rc = some c ↔ hand c (logOf late pipe (es ++ [e])) = some m.handle := by
  have hi := inv late pipe es
  rw [logOf_snoc]
  unfold outOf at h ⊢
  by_cases he : ∀ m, e ≠ .line m
  · exact absurd h ((app_out he).1 t rc m)
  · obtain ⟨m', rfl⟩ : ∃ m', e = .line m' := Classical.byContradiction fun hn => he fun m' hm => hn ⟨m', hm⟩
    by_cases hu : (run late pipe State.init es).1.up = true
    · rcases line_out (late := late) (pipe := pipe) (m := m') hu with ⟨_, h1⟩ | ⟨s1, rc', o1, hp, h1⟩
      · rw [h1] at h; simp at h
      · have hp' : Parsed _ _ _ s1 rc' o1 := parsed hi hp
        rw [h1] at h ⊢
        rw [List.mem_append] at h
        rcases h with h | h
        · rcases (parse_out hp).2 _ h with ⟨_, _, h⟩ | ⟨_, _, h⟩ | ⟨_, h⟩ <;> cases h
        · cases ht : m'.tag with
          | none => simp [ht] at h
          | some t' =>
            cases hg : get (run late pipe State.init es).1.exch t' with
            | none => simp [ht, hg] at h
            | some b =>
              cases b with
              | true => simp [ht, hg] at h
              | false =>
                simp only [ht, hg, List.mem_singleton, Out.done.injEq] at h
                obtain ⟨rfl, rfl, rfl⟩ := h
                refine ⟨rfl, ht, ?_, ?_⟩
                · have := hi.exch hu t
                  rw [hg] at this
                  cases late
                  · rcases hw : waiting t (logOf false pipe es) with _ | _ | _ <;> simp [hw] at this ⊢
                  · simpa using this.symm
                · intro c
                  rw [hp'.rc c, hand_snoc, handStep_eq, List.foldl_append]
                  simp only [hg, List.foldl_cons, List.foldl_nil]
                  rw [show handOut c (List.foldl (handOut c) (hand c (logOf late pipe es)) o1)
                    (Out.done t rc m) = List.foldl (handOut c) (hand c (logOf late pipe es)) o1 from by
                      simp [handOut]]
    · simp [step, hu] at h

/-- No exchange is answered twice. -/
theorem answered_once (late pipe : Bool) (es : List Ev) (e : Ev) (t : Nat) (rc : Option Nat) (m : Msg)
    (h : .done t rc m ∈ outOf late pipe es e) :
    ∀ x ∈ logOf late pipe es, ∀ rc' m', .done t rc' m' ∉ x.2 := by
  have key : ∀ es : List Ev, ∀ x ∈ logOf late pipe es, ∀ rc' m', .done t rc' m' ∈ x.2 →
      waiting t (logOf late pipe es) = none ∧ t ≤ (run late pipe State.init es).1.tag := by
    intro es
    induction es using List.reverseRecOn with
    | nil => simp [logOf, run]
    | append_singleton es e ih =>
      intro x hx rc' m' hd
      rw [logOf_snoc] at hx ⊢
      rw [run_append, step_tag]
      rcases List.mem_append.mp hx with hx | hx
      · obtain ⟨h1, h2⟩ := ih x hx rc' m' hd
        refine ⟨?_, by split <;> omega⟩
        rw [waiting_snoc, h1]
        unfold waitStep
        split
        · rename_i ha
          have := (asked_out ha).2
          omega
        · split
          · rfl
          · cases e with
            | line m => simp
            | _ => rfl
      · rw [List.mem_singleton] at hx
        subst hx
        have ho := own_answer late pipe es e t rc' m' hd
        obtain ⟨rfl, ht, hw, _⟩ := ho
        have hle := (inv late pipe es).wait t (by rw [hw]; simp)
        refine ⟨?_, by simpa using hle⟩
        rw [waiting_line ?_, if_pos ht]
        intro t' ha
        exact absurd (asked_out ha).1 (by simp)
  intro x hx rc' m' hd
  have h1 := (key es x hx rc' m' hd).1
  have h2 := (own_answer late pipe es e t rc m h).2.2.1
  rw [h1] at h2; cases h2

/-- A message for an exchange that waits is given to it, as long as the receiver runs and the message
does not name a connection that is not open.  What is missing from the property: see `crossing_kills` and
`cancelled_kills`, after which answers are not given to anyone. -/
theorem answer_given_partial (late pipe : Bool) (es : List Ev) (t : Nat) (m : Msg)
    (hd : ¬ Down (logOf late pipe es)) (hs : ¬ Stray (logOf late pipe es) m)
    (ht : m.tag = some t) (hw : waiting t (logOf late pipe es) = some false) :
    ∃ rc, .done t rc m ∈ outOf late pipe es (.line m) := by
  have hi := inv late pipe es
  have hu := hi.up.mpr hd
  unfold outOf
  rcases line_out (late := late) (pipe := pipe) (m := m) hu with ⟨h0, _⟩ | ⟨s1, rc, o1, hp, h1⟩
  · exact absurd ((parse_none hi).mp h0) hs
  · refine ⟨rc, ?_⟩
    have hg : get (run late pipe State.init es).1.exch t = some false := by
      rw [hi.exch hu t, hw]; cases late <;> rfl
    rw [h1]
    simp [ht, hg]

/-- An exchange which has asked waits until a message with its tag comes or its task gives up. -/
theorem waits (late pipe : Bool) (es : List Ev) (t : Nat) :
    (.asked t ∈ outOf late pipe es .exch → waiting t (logOf late pipe (es ++ [.exch])) = some false) ∧
    ∀ e, waiting t (logOf late pipe es) = some false →
      waiting t (logOf late pipe (es ++ [e])) = some false ∨ e = .cancel t ∨ ∃ m, e = .line m ∧ m.tag = some t := by
  constructor
  · intro h
    rw [logOf_snoc, waiting_snoc]
    simp [waitStep, h]
  · intro e h
    rw [logOf_snoc, waiting_snoc, h]
    unfold waitStep
    split
    · simp
    · split
      · rename_i he; right; left; exact he
      · cases e with
        | line m =>
          by_cases ht : m.tag = some t
          · right; right; exact ⟨m, rfl, ht⟩
          · simp [ht]
        | _ => simp

/-! ## The receiver -/

/-- Exactly these messages end the receiver: those that name a connection that is not open (and do not
open one), and, from Python 3.8, answers to an exchange whose task was cancelled. -/
theorem down_iff (late pipe : Bool) (es : List Ev) (e : Ev) (hd : ¬ Down (logOf late pipe es)) :
    .down ∈ outOf late pipe es e ↔ ∃ m, e = .line m ∧ (Stray (logOf late pipe es) m ∨
      (late = true ∧ ∃ t, m.tag = some t ∧ waiting t (logOf late pipe es) = some true)) := by
  have hi := inv late pipe es
  have hu := hi.up.mpr hd
  by_cases he : ∀ m, e ≠ .line m
  · constructor
    · intro h; exact absurd h (app_out he).2
    · rintro ⟨m, rfl, _⟩; exact absurd rfl (he m)
  · obtain ⟨m, rfl⟩ : ∃ m', e = .line m' := Classical.byContradiction fun hn => he fun m' hm => hn ⟨m', hm⟩
    have hlhs : (∃ m', Ev.line m = .line m' ∧ (Stray (logOf late pipe es) m' ∨
        (late = true ∧ ∃ t, m'.tag = some t ∧ waiting t (logOf late pipe es) = some true))) ↔
        (Stray (logOf late pipe es) m ∨
        (late = true ∧ ∃ t, m.tag = some t ∧ waiting t (logOf late pipe es) = some true)) := by
      constructor
      · rintro ⟨m', h, h'⟩; cases h; exact h'
      · intro h; exact ⟨m, rfl, h⟩
    rw [hlhs]
    unfold outOf
    rcases line_out (late := late) (pipe := pipe) (m := m) hu with ⟨h0, h1⟩ | ⟨s1, rc, o1, hp, h1⟩
    · rw [h1]; simp [(parse_none hi).mp h0]
    · have hns : ¬ Stray (logOf late pipe es) m := fun h => by
        rw [(parse_none hi).mpr h] at hp; cases hp
      have hnd : Out.down ∉ o1 := by
        intro hx
        rcases (parse_out hp).2 _ hx with ⟨_, _, h⟩ | ⟨_, _, h⟩ | ⟨_, h⟩ <;> cases h
      rw [h1]
      simp only [List.mem_append, hnd, hns, false_or]
      cases ht : m.tag with
      | none => simp
      | some t =>
        have hx := hi.exch hu t
        simp only [hx]
        cases late
        · rcases hw : waiting t (logOf false pipe es) with _ | _ | _ <;> simp
        · rcases hw : waiting t (logOf true pipe es) with _ | _ | _ <;> simp [hw]

/-- Once it has ended, no message reaches anyone. -/
theorem down_final (late pipe : Bool) (es : List Ev) (m : Msg) (hd : Down (logOf late pipe es)) :
    outOf late pipe es (.line m) = [] := by
  have hu : ¬ (run late pipe State.init es).1.up = true := fun h => (inv late pipe es).up.mp h hd
  simp [outOf, step, hu]

end Verif.Conn
