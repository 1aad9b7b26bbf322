import Verif.Nml.Circuit
import Verif.Nml.Grammar

/-!
# Set-up of a management connection, parameters and codes
-/

namespace Verif.Nml

/-- C83: the connect data decides: with a version the answer is version 4.0.0 and the client is taken for
Phase III or IV; without it is taken for Phase II.  From then on replies are sent to it. -/
theorem setup (env : Env) (st : St) (c : Conn) (b : Bytes) :
    let r := niceWork env st c (.connectInit b)
    r.2 = [.accept (if b = [] then [] else [4, 0, 0])] ∧ r.1.nice = true ∧
      (r.1.phase2 = true ↔ b = []) ∧ r.1.loopConn = st.loopConn := by
  simp only [niceWork]
  cases b with
  | nil => simp
  | cons x b => simp

/-- C83: permanent data is not there: error -1 (function not supported), whatever the entity. -/
theorem permanent_refused (env : Env) (st : St) (msg : Bytes) {t i : Nat} {e : Ent} (hn : st.nice = true)
    (hp : parse msg = .ok (.read t i true e)) :
    (act env st (.item .nice (.data msg))).1 = st ∧
      (act env st (.item .nice (.data msg))).2 = [.reply (.status (-1) 0xffff)] := by
  simp only [act, niceWork, request, hp]
  cases h2 : st.phase2 <;> simp [replies, hn, codeReply]

/-- A parameter given more than once: the last value counts. -/
theorem last_given {ps qs : List (Nat × PVal)} {p : Nat} {x : PVal} (h : ∀ y ∈ qs, y.1 ≠ p) :
    ((ps ++ (p, x) :: qs).filter (·.1 = p)).getLast? = some (p, x) := by
  have : qs.filter (·.1 = p) = [] := by
    rw [List.filter_eq_nil_iff]
    intro y hy
    simpa using h y hy
  rw [List.filter_append, List.filter_cons]
  simp [this]

/-- C85: the number, length, address or name that a loop test uses is the one given last; if it is not given
there is none. -/
theorem parameters {ps qs : List (Nat × PVal)} {p : Nat} (h : ∀ y ∈ qs, y.1 ≠ p) :
    (∀ f n v, number (ps ++ (p, .simple (.num f n v)) :: qs) p = some v.toNat) ∧
    (∀ b, address (ps ++ (p, .simple (.hi b)) :: qs) p = if b = [] then none else some b) ∧
    (∀ s, name (ps ++ (p, .simple (.ai s)) :: qs) p = if s = [] then none else some s) ∧
    number qs p = none ∧ address qs p = none ∧ name qs p = none := by
  have hq : qs.filter (·.1 = p) = [] := by
    rw [List.filter_eq_nil_iff]
    intro y hy
    simpa using h y hy
  refine ⟨fun f n v => ?_, fun b => ?_, fun s => ?_, ?_, ?_, ?_⟩
  · unfold number; rw [last_given h]
  · unfold address; rw [last_given h]
  · unfold name; rw [last_given h]
  · unfold number; rw [hq]; rfl
  · unfold address; rw [hq]; rfl
  · unfold name; rw [hq]; rfl

/-- C87: the station of a circuit loop test: the address if one is given, which must have six bytes; otherwise
the LAN address of the node named, if one is. -/
theorem station (env : Env) (ps : List (Nat × PVal)) (pa node : Nat) (m : Bytes) :
    (target env ps pa node = some (some m) ↔
      (address ps pa = some m ∧ m.length = 6) ∨
      (address ps pa = none ∧ ∃ n, name ps node = some n ∧ env.nodeMac n = some m)) ∧
    (target env ps pa node = some none ↔ address ps pa = none ∧ name ps node = none) := by
  unfold target
  cases address ps pa with
  | some b =>
    simp only [mac, Option.some.injEq, reduceCtorEq, false_and, or_false]
    by_cases h : b.length = 6
    · simp only [h, ↓reduceIte, Option.map_some, Option.some.injEq, reduceCtorEq]
      refine ⟨⟨?_, fun x => x.1⟩, trivial⟩
      rintro rfl
      exact ⟨rfl, h⟩
    · simp only [h, ↓reduceIte, Option.map_none, reduceCtorEq, false_iff, not_and]
      refine ⟨?_, trivial⟩
      rintro rfl
      exact h
  | none =>
    simp only [reduceCtorEq, false_and, true_and, false_or]
    cases name ps node with
    | none => simp
    | some n =>
      cases env.nodeMac n <;> simp

/-- The table of the management specification: reasons of a rejected connect (session control) and the detail
codes of "mirror connect failed". -/
def mirrorDetail : List (Nat × Nat) :=
  [(0, 5), (4, 7), (5, 6), (34, 8), (36, 8), (38, 12), (39, 3), (43, 8)]

/-- C85: a rejected connect is reported with the detail code of the table, none for other reasons. -/
theorem reject_reported (st : St) (c r : Nat) (hn : st.nice = true) :
    (loopWork st c (.reject r)).2 = [.reply (.loopErr (-21) ((mirrorDetail.lookup r).getD 0) st.count)] := by
  have hr : reason r = (mirrorDetail.lookup r).getD 0 := by
    unfold reason mirrorDetail
    simp only [List.lookup]
    by_cases h0 : r = 0
    · subst h0; rfl
    by_cases h1 : r = 4
    · subst h1; rfl
    by_cases h2 : r = 5
    · subst h2; rfl
    by_cases h3 : r = 34
    · subst h3; rfl
    by_cases h4 : r = 36
    · subst h4; rfl
    by_cases h5 : r = 38
    · subst h5; rfl
    by_cases h6 : r = 39
    · subst h6; rfl
    by_cases h7 : r = 43
    · subst h7; rfl
    have e : ∀ n, r ≠ n → (r == n) = false := fun n h => by simpa using h
    simp only [e _ h0, e _ h1, e _ h2, e _ h3, e _ h4, e _ h5, e _ h6, e _ h7]
    simp [h0, h1, h2, h3, h4, h5, h6, h7]
  simp [loopWork, replies, hn, hr]

example : (niceWork ⟨.raises, .raises, fun _ => false, fun _ => none, .started⟩ init .nice
    (.connectInit [4, 0, 0])).2 = [.accept [4, 0, 0]] := by decide

/-- Two lengths are given. -/
example : number [(151, .simple (.num .du 2 7)), (150, .simple (.num .du 2 1)), (151, .simple (.num .du 2 9))] 151 =
    some 9 := by decide

end Verif.Nml
