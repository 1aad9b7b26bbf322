import Verif.AppApi.Owner

/-!
# Applications do not disturb each other's connections; and what goes wrong
-/

namespace Verif.AppApi

/-- Holds in every history: a connection in an application's dictionary is not registered for another
application. -/
structure Own (s : State) : Prop where
  nodup : (s.sess.map (·.1)).Nodup
  own : ∀ k c j, (k, c, .conn) ∈ s.owned → (c, j) ∈ s.sess → j = k

theorem release_keeps {s s' : State} {n : Int} {m : Str} (h : release s n m = some s') :
    s'.sess = s.sess ∧ s'.owned = s.owned ∧ s'.up = s.up := by
  unfold release at h
  split at h
  · cases h
  · split at h
    · cases h
    · cases h; exact ⟨rfl, rfl, rfl⟩

theorem cleanup_keeps : ∀ (es : List (Nat × Entry)) (s s' : State), cleanup s es = some s' →
    s'.owned = s.owned ∧ s'.sess.Sublist s.sess ∧ s'.up = s.up ∧
      ∀ x ∈ s.sess, (x.1, .conn) ∉ es → x ∈ s'.sess := by
  intro es
  induction es with
  | nil => intro s s' h; cases h; exact ⟨rfl, List.Sublist.refl _, rfl, fun _ h _ => h⟩
  | cons e es ih =>
    intro s s' h
    obtain ⟨c, e⟩ := e
    cases e with
    | conn =>
      simp only [cleanup] at h
      cases hd : del s.sess c with
      | none => rw [hd] at h; cases h
      | some d =>
        rw [hd] at h
        obtain ⟨-, rfl⟩ := del_some.1 hd
        obtain ⟨h1, h2, h3, h4⟩ := ih _ _ h
        refine ⟨h1, h2.trans List.filter_sublist, h3, ?_⟩
        intro x hx hn
        simp only [List.mem_cons, not_or] at hn
        refine h4 x (List.mem_filter.2 ⟨hx, ?_⟩) hn.2
        simp only [ne_eq, decide_not, Bool.not_eq_true', decide_eq_false_iff_not]
        intro e
        exact hn.1 (by rw [e])
    | listener n m =>
      simp only [cleanup] at h
      cases hr : release s n m with
      | none => rw [hr] at h; cases h
      | some t =>
        rw [hr] at h
        obtain ⟨r1, r2, r3⟩ := release_keeps hr
        obtain ⟨h1, h2, h3, h4⟩ := ih _ _ h
        refine ⟨h1.trans r2, r1 ▸ h2, h3.trans r3, ?_⟩
        intro x hx hn
        exact h4 x (r1 ▸ hx) fun y => hn (List.mem_cons_of_mem _ y)

theorem fail_keeps (s : State) (k : Nat) : (fail s k).1.owned = s.owned ∧ (fail s k).1.sess.Sublist s.sess ∧
    ∀ x ∈ s.sess, (k, x.1, .conn) ∉ s.owned → x ∈ (fail s k).1.sess := by
  unfold fail
  cases h : cleanup s (entries s k) with
  | none => exact ⟨rfl, List.Sublist.refl _, fun _ h _ => h⟩
  | some s' =>
    obtain ⟨h1, h2, -, h4⟩ := cleanup_keeps _ _ _ h
    exact ⟨h1, h2, fun x hx hn => h4 x hx fun y => hn (mem_entries.1 y)⟩

theorem fail_own {s : State} (ho : Own s) (k : Nat) : Own (fail s k).1 := by
  obtain ⟨h1, h2, -⟩ := fail_keeps s k
  exact ⟨ho.nodup.sublist (h2.map _), fun k' c j hm hs => ho.own k' c j (h1 ▸ hm) (h2.subset hs)⟩

theorem add_own {s : State} (ho : Own s) {k c : Nat} (hl : c ∉ live s) :
    Own { s with sess := s.sess ++ [(c, k)], owned := s.owned ++ [(k, c, .conn)] } := by
  obtain ⟨l1, l2⟩ := not_live hl
  constructor
  · simp only [List.map_append, List.map_cons, List.map_nil]
    exact List.nodup_append.2 ⟨ho.nodup, by simp, by
      rintro a ha b hb rfl; rw [List.mem_singleton.1 hb] at ha; exact l2 ha⟩
  · intro k' c' j hm hs
    simp only [List.mem_append, List.mem_singleton, Prod.mk.injEq, and_true] at hm hs
    rcases hm with hm | ⟨rfl, rfl⟩
    · rcases hs with hs | ⟨rfl, rfl⟩
      · exact ho.own k' c' j hm hs
      · exact absurd (List.mem_map.2 ⟨_, hm, rfl⟩) l1
    · rcases hs with hs | ⟨-, rfl⟩
      · exact absurd (List.mem_map.2 ⟨_, hs, rfl⟩) l2
      · rfl

theorem drop_own {s : State} (ho : Own s) (p : Nat × Nat → Bool) (q : Nat × Nat × Entry → Bool) :
    Own { s with sess := s.sess.filter p, owned := s.owned.filter q } :=
  ⟨ho.nodup.sublist (List.filter_sublist.map _), fun k c j hm hs =>
    ho.own k c j (List.mem_filter.1 hm).1 (List.mem_filter.1 hs).1⟩

theorem step_own {s : State} (ho : Own s) (a : Act) : Own (step s a).1 := by
  cases a with
  | req k tag r =>
    simp only [step]
    split
    · cases r with
      | bind num name h =>
        simp only [request]
        split
        · exact ho
        · split
          · refine ⟨ho.nodup, fun k' c j hm hs => ?_⟩
            simp only [bound, List.mem_append, List.mem_singleton, Prod.mk.injEq, reduceCtorEq, and_false,
              or_false] at hm
            exact ho.own k' c j hm hs
          · exact ho
      | connect r =>
        cases r with
        | ok h =>
          simp only [request]
          split
          · exact ho
          · rename_i hl; exact add_own ho hl
        | unknownNode => exact ho
        | dna => exact ho
        | other => exact fail_own ho k
      | call what h r =>
        simp only [request]
        cases get (entries s k) h with
        | none => exact fail_own ho k
        | some e =>
          cases e with
          | listener n m => exact fail_own ho k
          | conn =>
            cases r with
            | dna => exact ho
            | other => exact fail_own ho k
            | ok =>
              simp only
              split
              · cases hd : del s.sess h with
                | none => exact fail_own ho k
                | some d =>
                  obtain ⟨-, rfl⟩ := del_some.1 hd
                  exact drop_own ho _ _
              · exact ho
      | unknown => exact ho
      | malformed => exact fail_own ho k
    · exact ho
  | exit k =>
    simp only [step]
    split
    · exact fail_own ho k
    · exact ho
  | incoming c key =>
    simp only [step]
    split
    · exact ho
    · rename_i hl
      have hl : c ∉ live s := fun x => hl (.inr x)
      cases lookup s key with
      | none => exact ho
      | some y =>
        cases y with
        | config i => exact ho
        | app k h => exact add_own ho hl
  | packet c closes =>
    simp only [step]
    split
    · exact ho
    · cases hg : get s.sess c with
      | none => exact ho
      | some k =>
        cases closes with
        | true =>
          simp only [↓reduceIte]
          cases get (entries s k) c with
          | none => exact ⟨ho.nodup, ho.own⟩
          | some e => exact drop_own ho _ _
        | false =>
          simp only [Bool.false_eq_true, ↓reduceIte]
          split
          · exact ho
          · refine ⟨ho.nodup, fun k' c' j hm hs => ?_⟩
            simp only [List.mem_append, List.mem_singleton, Prod.mk.injEq, and_true] at hm
            rcases hm with hm | ⟨rfl, rfl⟩
            · exact ho.own k' c' j hm hs
            · have := get_of_nodup ho.nodup hs
              rw [hg] at this
              cases this
              rfl

theorem run_own : ∀ (as : List Act) (s : State), Own s → Own (run s as).1 := by
  intro as
  induction as with
  | nil => intro s h; exact h
  | cons a as ih => intro s h; rw [run_cons]; exact ih _ (step_own h a)

/-- C89, whatever the history (names in any case, requests after a failure): what an application asks for,
and its going, leaves the connections and the dictionary of every other application as they are, and only
that application is answered, with the tag of its request. -/
theorem others_kept (nums : List (Int × Nat)) (nms : List (Str × Nat)) (as : List Act) (a : Act) (k j : Nat)
    (ha : a.client = some k) (hj : j ≠ k) :
    let s := (run (start nums nms) as).1
    let s' := (step s a).1
    (∀ c, (c, j) ∈ s'.sess ↔ (c, j) ∈ s.sess) ∧ (∀ h e, (j, h, e) ∈ s'.owned ↔ (j, h, e) ∈ s.owned) ∧
      ∀ o ∈ (step s a).2, (∃ tag r x, a = .req k tag r ∧ o = .reply k tag x) ∨ ∃ cs, o = .aborted k cs := by
  intro s s'
  have ho : Own s := run_own as _ ⟨by simp [start], by simp [start]⟩
  have hfail : (∀ c, (c, j) ∈ (fail s k).1.sess ↔ (c, j) ∈ s.sess) ∧
      (∀ h e, (j, h, e) ∈ (fail s k).1.owned ↔ (j, h, e) ∈ s.owned) ∧
      ∀ o ∈ (fail s k).2, (∃ tag r x, a = .req k tag r ∧ o = .reply k tag x) ∨ ∃ cs, o = .aborted k cs := by
    obtain ⟨h1, h2, h3⟩ := fail_keeps s k
    refine ⟨fun c => ⟨fun x => h2.subset x, fun x => h3 _ x ?_⟩, fun h e => by rw [h1], ?_⟩
    · intro y
      exact hj (ho.own k c j y x)
    · intro o h
      right
      unfold fail at h
      split at h <;> exact ⟨_, List.mem_singleton.1 h⟩
  show (∀ c, (c, j) ∈ (step s a).1.sess ↔ (c, j) ∈ s.sess) ∧
    (∀ h e, (j, h, e) ∈ (step s a).1.owned ↔ (j, h, e) ∈ s.owned) ∧ _
  have hsame : ∀ t : State, ∀ os : List Out, t.sess = s.sess → t.owned = s.owned →
      (∀ o ∈ os, (∃ tag r x, a = .req k tag r ∧ o = .reply k tag x) ∨ ∃ cs, o = .aborted k cs) →
      (∀ c, (c, j) ∈ t.sess ↔ (c, j) ∈ s.sess) ∧ (∀ h e, (j, h, e) ∈ t.owned ↔ (j, h, e) ∈ s.owned) ∧
      ∀ o ∈ os, (∃ tag r x, a = .req k tag r ∧ o = .reply k tag x) ∨ ∃ cs, o = .aborted k cs := by
    intro t os h1 h2 h3
    exact ⟨fun c => by rw [h1], fun h e => by rw [h2], h3⟩
  cases a with
  | req k' tag r =>
    cases ha
    have hr : ∀ x, ∀ o ∈ [Out.reply k tag x], (∃ tag' r' x, Act.req k tag r = .req k tag' r' ∧
        o = .reply k tag' x) ∨ ∃ cs, o = .aborted k cs := by
      intro x o ho
      exact .inl ⟨tag, r, x, rfl, List.mem_singleton.1 ho⟩
    simp only [step]
    split
    · cases r with
      | bind num name h =>
        simp only [request]
        split
        · exact hsame _ _ rfl rfl (by simp)
        · split
          · refine ⟨fun c => Iff.rfl, fun h' e => ?_, hr _⟩
            simp only [bound, List.mem_append, List.mem_singleton, Prod.mk.injEq]
            exact ⟨fun x => x.resolve_right fun y => hj y.1, .inl⟩
          · exact hsame _ _ rfl rfl (hr _)
      | connect r =>
        cases r with
        | ok h =>
          simp only [request]
          split
          · exact hsame _ _ rfl rfl (by simp)
          · refine ⟨fun c => ?_, fun h' e => ?_, hr _⟩
            · simp only [List.mem_append, List.mem_singleton, Prod.mk.injEq]
              exact ⟨fun x => x.resolve_right fun y => hj y.2, .inl⟩
            · simp only [List.mem_append, List.mem_singleton, Prod.mk.injEq]
              exact ⟨fun x => x.resolve_right fun y => hj y.1, .inl⟩
        | unknownNode => exact hsame _ _ rfl rfl (hr _)
        | dna => exact hsame _ _ rfl rfl (hr _)
        | other => exact hfail
      | call what h r =>
        simp only [request]
        cases hg : get (entries s k) h with
        | none => exact hfail
        | some e =>
          cases e with
          | listener n m => exact hfail
          | conn =>
            cases r with
            | dna => exact hsame _ _ rfl rfl (hr _)
            | other => exact hfail
            | ok =>
              simp only
              split
              · cases hd : del s.sess h with
                | none => exact hfail
                | some d =>
                  obtain ⟨-, rfl⟩ := del_some.1 hd
                  refine ⟨fun c => ?_, fun h' e => ?_, by simp⟩
                  · simp only [List.mem_filter, ne_eq, decide_not, Bool.not_eq_true', decide_eq_false_iff_not]
                    refine ⟨fun x => x.1, fun x => ⟨x, ?_⟩⟩
                    rintro rfl
                    exact hj (ho.own k c j (mem_entries.1 (get_mem hg)) x)
                  · simp only [List.mem_filter]
                    refine ⟨fun x => x.1, fun x => ⟨x, ?_⟩⟩
                    simp [hj]
              · exact hsame _ _ rfl rfl (by simp)
      | unknown => exact hsame _ _ rfl rfl (hr _)
      | malformed => exact hfail
    · exact hsame _ _ rfl rfl (by simp)
  | exit k' =>
    cases ha
    simp only [step]
    split
    · exact hfail
    · exact hsame _ _ rfl rfl (by simp)
  | incoming c key => cases ha
  | packet c b => cases ha

/-- C89: a request is answered with its tag; or is a call that succeeded, of which nothing is told; or the
application fails.  (A handle in use is not given to a new object: `Model`.) -/
theorem answered (s : State) (hs : s.up = true) (k : Nat) (tag : Option Nat) (r : Req)
    (hl : ∀ num name h, r = .bind num name h ∨ r = .connect (.ok h) → h ∉ live s) :
    (∃ x, (step s (.req k tag r)).2 = [.reply k tag x]) ∨
    ((step s (.req k tag r)).2 = [] ∧ ∃ what h, r = .call what h .ok) ∨
    ∃ cs, (step s (.req k tag r)).2 = [.aborted k cs] := by
  have hfail : ∃ cs, (fail s k).2 = [.aborted k cs] := by
    unfold fail
    split <;> exact ⟨_, rfl⟩
  simp only [step, hs, ↓reduceIte]
  cases r with
  | bind num name h =>
    simp only [request]
    rw [if_neg (hl num name h (.inl rfl))]
    left
    split <;> exact ⟨_, rfl⟩
  | connect r =>
    cases r with
    | ok h =>
      simp only [request]
      rw [if_neg (hl 0 [] h (.inr rfl))]
      exact .inl ⟨_, rfl⟩
    | unknownNode => exact .inl ⟨_, rfl⟩
    | dna => exact .inl ⟨_, rfl⟩
    | other => exact .inr (.inr hfail)
  | call what h r =>
    simp only [request]
    cases get (entries s k) h with
    | none => exact .inr (.inr hfail)
    | some e =>
      cases e with
      | listener n m => exact .inr (.inr hfail)
      | conn =>
        cases r with
        | dna => exact .inl ⟨_, rfl⟩
        | other => exact .inr (.inr hfail)
        | ok =>
          simp only
          split
          · cases del s.sess h with
            | none => exact .inr (.inr hfail)
            | some d => exact .inr (.inl ⟨rfl, what, h, rfl⟩)
          · exact .inr (.inl ⟨rfl, what, h, rfl⟩)
  | unknown => exact .inl ⟨_, rfl⟩
  | malformed => exact .inr (.inr hfail)

/-! ### What goes wrong -/

theorem cleanup_none : ∀ (es : List (Nat × Entry)) (s : State) (c : Nat), (c, .conn) ∈ es →
    get s.sess c = none → cleanup s es = none := by
  intro es
  induction es with
  | nil => intro s c h; cases h
  | cons e es ih =>
    intro s c hm hg
    obtain ⟨d, e⟩ := e
    cases e with
    | conn =>
      simp only [cleanup]
      by_cases hd : d = c
      · subst hd
        have : del s.sess d = none := by simp [del, hg]
        rw [this]
      · cases hx : del s.sess d with
        | none => rfl
        | some t =>
          obtain ⟨-, rfl⟩ := del_some.1 hx
          refine ih _ c ?_ (by rw [get_filter]; simp [hg])
          simp only [List.mem_cons, Prod.mk.injEq, and_true] at hm
          exact hm.resolve_left fun y => hd y.symm
    | listener n m =>
      simp only [cleanup]
      cases hx : release s n m with
      | none => rfl
      | some t =>
        refine ih t c ?_ (by rw [(release_keeps hx).1]; exact hg)
        simpa using hm

/-- C90 fails: an application with an open connection that makes one bad request (here: arguments which do
not fit) and then goes stops the node, in every history. -/
theorem bad_request_then_exit_stops {nums : List (Int × Nat)} {nms : List (Str × Nat)}
    (hc : Configured nums nms) (as : List Act) (hu : Upper as) (hs : Silent (trace (start nums nms) as))
    (k c : Nat) (tag : Option Nat) (ho : owner (trace (start nums nms) as) c = some k) :
    (step (step (run (start nums nms) as).1 (.req k tag .malformed)).1 (.exit k)).1.up = false := by
  obtain ⟨⟨bad, hi, -⟩, he⟩ := from_start hc as hu hs
  rw [← he] at ho
  generalize (run (start nums nms) as).1 = s at hi ho
  obtain ⟨hm, hk⟩ := hi.sess c k (get_mem ho)
  obtain ⟨s', h1, h2, -⟩ := fail_inv hi hk
  have hst : (step s (.req k tag .malformed)).1 = (fail s k).1 := by simp [step, hi.up, request]
  rw [hst]
  have hup : (fail s k).1.up = true := by rw [h1]; exact h2.up
  have hg : get (fail s k).1.sess c = none := by rw [fail_sess hi hk, if_pos ho]
  have hm' : (c, .conn) ∈ entries (fail s k).1 k := by
    rw [mem_entries, (fail_keeps s k).1]; exact hm
  simp only [step, hup, ↓reduceIte]
  rw [fail, cleanup_none _ _ c hm' hg]

/-- `N`, `M`, `L` and `n`, `m`, `l`. -/
def nml : Str := [78, 77, 76]
def nmlLower : Str := [110, 109, 108]

/-- C88 fails for names in lower case: a binding of `nml` is granted although the configuration has an
object `NML`, and then a connect to `NML` goes to the application. -/
theorem lower_case_steals :
    let s := start [] [(nml, 0)]
    lookup s (.name nmlLower) = some (.config 0) ∧
    (step s (.req 1 none (.bind 0 nmlLower 7))).2 = [.reply 1 none (.bound 7)] ∧
    (step (step s (.req 1 none (.bind 0 nmlLower 7))).1 (.incoming 8 (.name nml))).2 = [.connect 1 8 7] := by
  decide

/-- C90 fails for names in lower case: two applications bind the same name, both are told that they have
it, and when both have gone the node has stopped. -/
theorem lower_case_stops :
    let r := run (start [] []) [.req 1 none (.bind 0 nmlLower 7), .req 2 none (.bind 0 nmlLower 8), .exit 1,
      .exit 2]
    r.2.take 2 = [.reply 1 none (.bound 7), .reply 2 none (.bound 8)] ∧ r.1.up = false := by
  decide

/-- C90 fails: an application cannot give up a binding; to disconnect its handle, as documented, is an
error after which its connections are aborted, and when it has gone the node has stopped. -/
theorem unbind_stops :
    let r := run (start [] []) [.req 1 none (.bind 5 [] 7), .req 1 none (.connect (.ok 8)),
      .req 1 none (.call .disconnect 7 .ok), .exit 1]
    r.2 = [.reply 1 none (.bound 7), .reply 1 none (.connecting 8), .aborted 1 [8], .aborted 1 [8]] ∧
      r.1.up = false := by
  decide

/-- C88 fails after a failed request: application 1 fails, application 2 binds the same number, application
1 goes, and application 2 no longer gets the connects. -/
theorem freed_by_another :
    let r := run (start [] []) [.req 1 none (.bind 5 [] 7), .req 1 none .malformed,
      .req 2 none (.bind 5 [] 8), .exit 1, .incoming 9 (.num 5)]
    r.2 = [.reply 1 none (.bound 7), .aborted 1 [], .reply 2 none (.bound 8), .aborted 1 [], .refused 9] ∧
      r.1.up = true := by
  decide

/-! ### Cases which meet the hypotheses -/

def sampleRun : List Act :=
  [.req 1 (some 3) (.bind 5 nml 7), .req 2 none (.bind 5 [] 8), .incoming 9 (.num 5), .packet 9 false,
    .req 1 (some 4) (.call .accept 9 .ok), .req 2 none (.connect (.ok 10)), .req 1 none (.call .data 10 .ok)]

example : Configured [(19, 0)] [(nml.reverse, 0)] := by
  constructor <;> decide

example : Upper sampleRun := by
  intro k tag num name h hm
  simp only [sampleRun, List.mem_cons, Act.req.injEq, Req.bind.injEq, reduceCtorEq, and_false,
    List.not_mem_nil, or_false] at hm
  rcases hm with ⟨_, _, _, rfl, _⟩ | ⟨_, _, _, rfl, _⟩ <;> decide

example : Silent (trace (start [(19, 0)] [(nml.reverse, 0)]) sampleRun) := by
  have h : trace (start [(19, 0)] [(nml.reverse, 0)]) sampleRun =
      sampleRun.zip [[.reply 1 (some 3) (.bound 7)], [.reply 2 none .error], [.connect 1 9 7], [.message 1 9],
        [], [.reply 2 none (.connecting 10)], [.aborted 1 [9]]] := by decide
  rw [h]
  simp [sampleRun, Silent, failed]

example : (run (start [(19, 0)] [(nml.reverse, 0)]) sampleRun).2 =
    [.reply 1 (some 3) (.bound 7), .reply 2 none .error, .connect 1 9 7, .message 1 9,
      .reply 2 none (.connecting 10), .aborted 1 [9]] := by decide

example : owner (trace (start [(19, 0)] [(nml.reverse, 0)]) (sampleRun.take 6)) 9 = some 1 := by decide

example : owner (trace (start [(19, 0)] [(nml.reverse, 0)]) sampleRun) 10 = some 2 := by decide

end Verif.AppApi
