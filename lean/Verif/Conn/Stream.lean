import Verif.Conn.Props

/-!
# The messages of connections (C96)
-/

namespace Verif.Conn

theorem heard_inv {c L q} (h : Heard c L q) : ∀ l x, L = l ++ [x] → ∃ q', Heard c l q' ∧ q = q' ++ brings c l x := by
  intro l x hL
  cases h with
  | nil => simp at hL
  | @hear l' q' m o h1 hd ht hh =>
    obtain ⟨rfl, hx⟩ := List.append_inj' hL rfl
    cases hx
    exact ⟨q', h1, by simp [brings, hd, ht, hh]⟩
  | @skip l' q' x' h1 hn =>
    obtain ⟨rfl, hx⟩ := List.append_inj' hL rfl
    cases hx
    refine ⟨q, h1, ?_⟩
    unfold brings
    split
    · rename_i m hm
      rw [if_neg, List.append_nil]
      rintro ⟨h2, h3, h4⟩
      exact hn m hm h2 h3 h4
    · rw [List.append_nil]

theorem heard_unique {c l} : ∀ {q q'}, Heard c l q → Heard c l q' → q = q' := by
  induction l using List.reverseRecOn with
  | nil =>
    intro q q' h h'
    have hn : ∀ {L r}, Heard c L r → L = [] → r = [] := by
      intro L r h hL
      cases h with
      | nil => rfl
      | hear => simp at hL
      | skip => simp at hL
    rw [hn h rfl, hn h' rfl]
  | append_singleton l x ih =>
    intro q q' h h'
    obtain ⟨r, h1, rfl⟩ := heard_inv h l x rfl
    obtain ⟨r', h1', rfl⟩ := heard_inv h' l x rfl
    rw [ih h1 h1']

/-- What is told to a connection object is told by `recv` in the order in which it came, nothing left out,
nothing else. -/
theorem messages_in_order (late pipe : Bool) (es : List Ev) (c : Nat) :
    ∃ q, Heard c (logOf late pipe es) q ∧ gotten c (logOf late pipe es) <+: q :=
  ⟨_, (inv late pipe es).heard c, List.prefix_append _ _⟩

/-- `recv` on an open connection gives the first message not yet given. -/
theorem recv_next (late pipe : Bool) (es : List Ev) (c : Nat) (m : Msg) (q : List Msg)
    (ho : hand c (logOf late pipe es) ≠ none)
    (hq : Heard c (logOf late pipe es) (gotten c (logOf late pipe es) ++ m :: q)) :
    .got c m ∈ outOf late pipe es (.recv c) := by
  have hi := inv late pipe es
  have h1 := heard_unique (hi.heard c) hq
  have h2 := List.append_cancel_left h1
  rw [hi.tab.hand c] at ho
  split at ho
  · rename_i hh
    unfold outOf
    simp only [step, hh.1, if_true, recv, hh.2, Bool.false_eq_true, if_false, h2]
    split
    · simp
    · split <;> simp
  · exact absurd rfl ho

/-- A connection is closed by `recv` exactly when it gives a reject, disconnect, abort or close that is not
an error message. -/
theorem recv_closes (late pipe : Bool) (es : List Ev) (c : Nat) :
    .closed c ∈ outOf late pipe es (.recv c) ↔ ∃ m, .got c m ∈ outOf late pipe es (.recv c) ∧ m.err = false ∧
      (m.type = .reject ∨ m.type = .disconnect ∨ m.type = .abort ∨ m.type = .close) := by
  have hty : ∀ t : Ty, t.ends = true ↔ t = .reject ∨ t = .disconnect ∨ t = .abort ∨ t = .close := by
    intro t; cases t <;> simp [Ty.ends]
  unfold outOf
  simp only [step]
  split
  · unfold recv
    split
    · simp
    · rename_i hc
      split
      · simp
      · rename_i m q hq
        dsimp only
        split
        · rename_i he; simp [he]
        · rename_i he
          split
          · rename_i ht
            have hcl : (close ((run late pipe State.init es).1.set c
                { (run late pipe State.init es).1.obj c with recvq := q }) c).2 = [.closed c] := by
              simp [close, hc]
            rw [hcl]
            simp only [List.mem_cons, List.not_mem_nil, or_false, reduceCtorEq, or_true, true_iff,
              Out.got.injEq, true_and]
            exact ⟨m, rfl, by simpa using he, (hty _).mp ht⟩
          · rename_i ht
            simp only [List.mem_cons, List.not_mem_nil, or_false, reduceCtorEq, false_iff,
              Out.got.injEq, true_and]
            rintro ⟨m', rfl, _, h⟩
            exact ht ((hty _).mpr h)
  · simp

/-- No two open connection objects have the same handle. -/
theorem handles_apart (late pipe : Bool) (es : List Ev) (c c' h : Nat)
    (h1 : hand c (logOf late pipe es) = some h) (h2 : hand c' (logOf late pipe es) = some h) : c = c' := by
  have hi := inv late pipe es
  have key : ∀ i, hand i (logOf late pipe es) = some h → get (run late pipe State.init es).1.conns h = some i := by
    intro i hh
    rw [hi.tab.hand i] at hh
    split at hh
    · rename_i hx
      exact (hi.tab.conns h i).mpr ⟨hx.1, hx.2, Option.some.inj hh⟩
    · cases hh
  have a := key c h1
  rw [key c' h2] at a
  exact (Option.some.inj a).symm

/-- Every message for an open connection that is not an answer to an exchange is heard by it. -/
theorem heard_grows (late pipe : Bool) (es : List Ev) (c : Nat) (m : Msg) (q : List Msg)
    (hd : ¬ Down (logOf late pipe es)) (ht : m.tag = none)
    (ho : hand c (logOf late pipe es) = some m.handle)
    (hq : Heard c (logOf late pipe es) q) : Heard c (logOf late pipe (es ++ [.line m])) (q ++ [m]) := by
  have hi := inv late pipe es
  have hu := hi.up.mpr hd
  rw [logOf_snoc]
  refine .hear hq hd ht ?_
  have hg : ∃ s1 rc, parse pipe (run late pipe State.init es).1 m = some (s1, rc, []) := by
    have hh := ho
    rw [hi.tab.hand c] at hh
    split at hh
    · rename_i hx
      have h1 := (hi.tab.conns m.handle c).mpr ⟨hx.1, hx.2, Option.some.inj hh⟩
      have hz : m.handle ≠ 0 := by
        rw [← Option.some.inj hh]; exact hi.tab.nz c hx.1
      exact ⟨_, _, by unfold parse; rw [if_neg hz, h1]⟩
    · cases hh
  obtain ⟨s1, rc, hp⟩ := hg
  unfold outOf
  rcases line_out (late := late) (pipe := pipe) (m := m) hu with ⟨h0, _⟩ | ⟨s1', rc', o1, hp', h1⟩
  · rw [h0] at hp; cases hp
  · rw [hp] at hp'
    simp only [Option.some.injEq, Prod.mk.injEq] at hp'
    rw [h1, ← hp'.2.2, hand_snoc, handStep_eq, ht]
    simpa using ho

/-! ## New connections -/

/-- A connection which comes in on a new handle for a bound connection that is open is put in the queue of
that one; `listen` gives them in order, nothing left out, nothing else, and the next call of `listen` gives
the first one not yet given. -/
theorem calls_in_order (late pipe : Bool) (es : List Ev) (b : Nat) :
    ∃ q, Called b (logOf late pipe es) (answered b (logOf late pipe es) ++ q) ∧
      ∀ c r, q = c :: r → outOf late pipe es (.listen b) = [.accepted b c] := by
  have hi := inv late pipe es
  refine ⟨_, hi.called b, ?_⟩
  intro c r hq
  have hlt : b < (run late pipe State.init es).1.next := by
    refine Classical.byContradiction fun h => ?_
    have := (hi.new b (by omega)).2
    rw [hq] at this; cases this
  simp [outOf, step, hlt, listen, hq]

/-- One that comes for a bound connection that is no longer open is rejected, and the receiver goes on. -/
theorem crossed_call_rejected (late pipe : Bool) (es : List Ev) (m : Msg) (b : Nat)
    (hd : ¬ Down (logOf late pipe es)) (hz : m.handle ≠ 0) (ht : m.type = .connect) (hl : m.listen = some b)
    (hb : b ≠ m.handle) (hn : ∀ c, hand c (logOf late pipe es) ≠ some m.handle)
    (hc : ∀ c, hand c (logOf late pipe es) ≠ some b) (htag : m.tag = none) :
    ∃ c, outOf late pipe es (.line m) = [.opened c m.handle, .sent m.handle true, .closed c] := by
  have hi := inv late pipe es
  have hu := hi.up.mpr hd
  have get_none : ∀ h, (∀ c, hand c (logOf late pipe es) ≠ some h) →
      get (run late pipe State.init es).1.conns h = none := by
    intro h hh
    cases hg : get (run late pipe State.init es).1.conns h with
    | none => rfl
    | some c =>
      have h1 := (hi.tab.conns _ _).mp hg
      refine absurd ?_ (hh c)
      rw [hi.tab.hand c, if_pos ⟨h1.1, h1.2.1⟩, h1.2.2]
  refine ⟨(run late pipe State.init es).1.next, ?_⟩
  unfold outOf
  have hgb : get (fresh (run late pipe State.init es).1 m.handle).conns b = none := by
    simp [fresh, get_put, hb, get_none b hc]
  have hst : step late pipe (run late pipe State.init es).1 (.line m)
      = dispatch pipe (run late pipe State.init es).1 m := by simp [step, hu]
  rw [hst]
  have hcl : (close (fresh (run late pipe State.init es).1 m.handle) (run late pipe State.init es).1.next).2
      = [.closed (run late pipe State.init es).1.next] := by simp [close, fresh]
  simp [dispatch, parse, hz, get_none _ hn, ht, Ty.opens, makeconn, place, hl, hgb, deliver, htag, hcl]

/-! ## Requests -/

/-- A request on an open connection goes out with its handle; after reject, disconnect and abort the object
is closed. -/
theorem request_sent (late pipe : Bool) (es : List Ev) (c h : Nat) (b : Bool)
    (ho : hand c (logOf late pipe es) = some h) :
    outOf late pipe es (.call c b) = if b then [.sent h true, .closed c] else [.sent h false] := by
  have hi := inv late pipe es
  rw [hi.tab.hand c] at ho
  split at ho
  · rename_i hh
    have e := Option.some.inj ho
    unfold outOf
    cases b <;> simp [step, hh.1, call, hh.2, e, close]
  · cases ho

/-- Nothing goes out for an object that is closed or does not exist. -/
theorem request_refused (late pipe : Bool) (es : List Ev) (c : Nat) (b : Bool)
    (ho : hand c (logOf late pipe es) = none) : ∀ h b', .sent h b' ∉ outOf late pipe es (.call c b) := by
  have hi := inv late pipe es
  rw [hi.tab.hand c] at ho
  unfold outOf
  simp only [step]
  split
  · rename_i hlt
    have : ((run late pipe State.init es).1.obj c).closed = true := by
      by_cases hx : ((run late pipe State.init es).1.obj c).closed = false
      · simp [hlt, hx] at ho
      · simpa using hx
    simp [call, this]
  · simp

/-! ## What goes wrong -/

def answer (t h : Nat) : Msg := ⟨h, .connecting, some t, false, none, 0⟩
def dataOn (h : Nat) : Msg := ⟨h, .other 0, none, false, none, 1⟩

/-- An application that disconnects while data is on its way to it: the data ends the receiver, and
the exchange that waits (tag 3) is not given its answer. -/
theorem crossing_kills (late pipe : Bool) :
    let es := [.exch, .line (answer 2 5), .exch, .call 0 true, .line (dataOn 5)]
    waiting 3 (logOf late pipe es) = some false ∧ Down (logOf late pipe es) ∧
    outOf late pipe es (.line (answer 3 6)) = [] := by
  cases late <;> cases pipe <;> decide

/-- From Python 3.8: an exchange that is cancelled (for example by a time limit), and answered after that:
the answer ends the receiver. -/
theorem cancelled_kills (pipe : Bool) :
    let es := [.exch, .exch, .cancel 2, .line (answer 2 5)]
    waiting 3 (logOf true pipe es) = some false ∧ Down (logOf true pipe es) ∧
    outOf true pipe es (.line (answer 3 6)) = [] := by
  cases pipe <;> decide

/-- Before: the connection that it has made stays open and is known to nobody. -/
theorem cancelled_leaks (pipe : Bool) :
    let es := [.exch, .cancel 2, .line (answer 2 5)]
    hand 0 (logOf false pipe es) = some 5 ∧
    logOf false pipe es = [(.exch, [.asked 2]), (.cancel 2, []), (.line (answer 2 5), [.opened 0 5])] := by
  cases pipe <;> decide

/-! ## A run -/

/-- Two exchanges answered in the other order, data on both connections. -/
example : (logOf true false [.exch, .exch, .line (answer 3 6), .line (answer 2 5), .line (dataOn 6),
      .line (dataOn 5), .recv 1, .recv 0, .call 1 true]).map (·.2)
    = [[.asked 2], [.asked 3], [.opened 0 6, .done 3 (some 0) (answer 3 6)],
       [.opened 1 5, .done 2 (some 1) (answer 2 5)], [], [], [.got 1 (dataOn 5)], [.got 0 (dataOn 6)],
       [.sent 5 true, .closed 1]] := by decide

/-- A bound connection, a call to it, its first message. -/
example : (logOf true false [.exch, .line ⟨7, .bind, some 2, false, none, 0⟩,
      .line ⟨8, .connect, none, false, some 7, 0⟩, .listen 0, .recv 1]).map (·.2)
    = [[.asked 2], [.opened 0 7, .done 2 (some 0) ⟨7, .bind, some 2, false, none, 0⟩], [.opened 1 8],
       [.accepted 0 1], [.got 1 ⟨8, .connect, none, false, some 7, 0⟩]] := by decide

/-- The hypotheses of `answer_given_partial`. -/
example : ¬ Down (logOf true false [.exch]) ∧ waiting 2 (logOf true false [.exch]) = some false := by decide

/-- Those of `crossed_call_rejected`. -/
example : outOf true false [] (.line ⟨8, .connect, none, false, some 7, 0⟩)
    = [.opened 0 8, .sent 8 true, .closed 0] := by decide

end Verif.Conn
