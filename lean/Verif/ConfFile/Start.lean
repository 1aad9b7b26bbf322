import Verif.ConfFile.Props

/-!
# Files that include each other; when the program starts

C126.
-/

namespace Verif.ConfFile

variable {V C : Type}

/-! ## Files in a circle -/

theorem lines_never (env : Env V C) (rec : Str → Option Str → St V C → List Str → Out (St V C)) (p : Str)
    (pre : Option Str) (raw name : Str) (pre' : Option Str) (ls : List Str) (hm : raw ∈ ls)
    (hk : classify env.ws pre raw = .incl name pre')
    (hr : ∀ s bad s' bad', rec (join (dirname p) name) pre' s bad ≠ .done s' bad') (s s' : St V C)
    (bad bad' : List Str) : lines env rec p pre ls s bad ≠ .done s' bad' := by
  induction ls generalizing s bad with
  | nil => simp at hm
  | cons x t ih =>
    rw [lines]
    by_cases hx : x = raw
    · subst hx
      rw [hk]
      dsimp only
      cases hh : rec (join (dirname p) name) pre' s bad with
      | deep => intro h; cases h
      | raise => intro h; cases h
      | done s1 b1 => exact absurd hh (hr _ _ _ _)
    · have hm' : raw ∈ t := by
        rcases List.mem_cons.mp hm with h | h
        · exact absurd h.symm hx
        · exact h
      cases classify env.ws pre x with
      | skip => exact ih hm' _ _
      | incl nm pr =>
        dsimp only
        cases rec (join (dirname p) nm) pr s bad with
        | deep => intro h; cases h
        | raise => intro h; cases h
        | done s1 b1 => exact ih hm' _ _
      | entry l =>
        dsimp only
        cases entry env l s bad with
        | deep => intro h; cases h
        | raise => intro h; cases h
        | done s1 b1 => exact ih hm' _ _

/-- **Circles (C126).**  If every file of some set has a line that includes a
file of that set, none of them is ever read to its end, however deep the
stack: the program ends by an exception and not by a report. -/
theorem circle_crashes (env : Env V C) (Q : Str → Option Str → Prop)
    (hQ : ∀ p pre ls, Q p pre → env.files p = some ls →
      ∃ raw ∈ ls, ∃ name pre', classify env.ws pre raw = .incl name pre' ∧ Q (join (dirname p) name) pre')
    (p : Str) (hp : Q p none) (c : C) (n : Nat) : top env c n p = .crash := by
  have key : ∀ n p pre s bad s' bad', Q p pre → scan env n p pre s bad ≠ .done s' bad' := by
    intro n
    induction n with
    | zero => intro p pre s bad s' bad' _ h; cases h
    | succ n ih =>
      intro p pre s bad s' bad' h
      rw [scan]
      cases hf : env.files p with
      | none => intro h; cases h
      | some ls =>
        obtain ⟨raw, hm, name, pre', hk, hq⟩ := hQ p pre ls h hf
        exact lines_never env _ p pre raw name pre' ls hm hk (fun s bad s' bad' => ih _ _ _ _ _ _ hq) s s' bad bad'
  unfold top
  cases hh : scan env n p none (init env c) [] with
  | deep => rfl
  | raise => rfl
  | done s1 b1 => exact absurd hh (key n p none _ _ _ _ hp)

/-! ## When the program starts -/

/-- The entries of a collection in order, without conflict. -/
def addAll (add : C → Ent V → C × Bool) : C → List (Ent V) → Option C
  | c, [] => some c
  | c, e :: r => if (add c e).2 then addAll add (add c e).1 r else none

/-- The last entry for a component, if there is one. -/
def lastOf (a : String) : List (Ent V) → Option V
  | [] => none
  | e :: r =>
    match lastOf a r with
    | some v => some v
    | none => if e.attr = a then some e.val else none

theorem lastOf_iff (a : String) (l : List (Ent V)) : (lastOf a l).isSome ↔ ∃ e ∈ l, e.attr = a := by
  induction l with
  | nil => simp [lastOf]
  | cons e r ih =>
    rw [lastOf]
    cases h : lastOf a r with
    | some v => rw [h] at ih; simp at ih; obtain ⟨x, hx⟩ := ih; simp; exact .inr ⟨x, hx⟩
    | none =>
      rw [h] at ih; simp at ih
      by_cases he : e.attr = a
      · simp [he]
      · simp [he]; exact ih

theorem follow_bad (env : Env V C) (es : List Str) (s s' : St V C) (bad : List Str)
    (h : follow env es s bad = some (s', [])) : bad = [] := by
  induction es generalizing s bad with
  | nil => simp [follow] at h; exact h.2
  | cons l es ih =>
    rw [follow] at h
    cases hp : env.parse l with
    | raise => rw [hp] at h; cases h
    | error => rw [hp] at h; have := ih _ _ h; simp at this
    | entry e =>
      rw [hp] at h; dsimp only at h
      split at h
      · exact ih _ _ h
      · have := ih _ _ h; simp at this

/-- Nothing is reported exactly if every line is an entry and the collections
take all of theirs. -/
theorem follow_good (env : Env V C) (es : List Str) (s s' : St V C) :
    follow env es s [] = some (s', []) ↔ ∃ ents : List (Ent V), es.map env.parse = ents.map .entry ∧
      addAll env.add s.colls (ents.filter (·.coll)) = some s'.colls ∧
      ∀ a, s'.single a = match lastOf a (ents.filter (!·.coll)) with
        | some v => some v
        | none => s.single a := by
  induction es generalizing s with
  | nil =>
    constructor
    · intro h
      simp [follow] at h; subst h
      exact ⟨[], rfl, rfl, fun _ => rfl⟩
    · rintro ⟨ents, h1, h2, h3⟩
      have : ents = [] := by cases ents with | nil => rfl | cons a b => simp at h1
      subst this
      simp only [List.filter_nil, addAll, Option.some.injEq, lastOf] at h2 h3
      simp only [follow, Option.some.injEq, Prod.mk.injEq, and_true]
      cases s; cases s'
      simp at h2 h3 ⊢
      exact ⟨h2, (funext h3).symm⟩
  | cons l es ih =>
    rw [follow]
    cases hp : env.parse l with
    | raise =>
      simp only [reduceCtorEq, List.map_cons, false_iff, not_exists, not_and, hp]
      intro ents h; cases ents <;> simp at h
    | error =>
      dsimp only
      constructor
      · intro h; have := follow_bad env _ _ _ _ h; simp at this
      · rintro ⟨ents, h, _⟩; cases ents <;> simp [hp] at h
    | entry e =>
      dsimp only
      constructor
      · intro h
        split at h
        · rename_i hok
          obtain ⟨ents, h1, h2, h3⟩ := (ih _).mp h
          refine ⟨e :: ents, by simp [hp, h1], ?_, ?_⟩
          · unfold put at h2 hok
            cases hc : e.coll with
            | false => simp [hc] at h2 ⊢; exact h2
            | true =>
              simp [hc] at h2 hok ⊢
              rw [addAll, if_pos hok]; exact h2
          · intro a
            rw [h3]
            unfold put
            cases hc : e.coll with
            | true => simp [hc]
            | false =>
              simp only [hc, Bool.not_false, List.filter_cons_of_pos, lastOf, Bool.false_eq_true, if_false]
              cases lastOf a (ents.filter (!·.coll)) with
              | some v => rfl
              | none =>
                dsimp only
                by_cases ha : e.attr = a
                · subst ha; simp
                · simp [ha, Ne.symm ha]
        · have := follow_bad env _ _ _ _ h; simp at this
      · rintro ⟨ents, h1, h2, h3⟩
        cases ents with
        | nil => simp at h1
        | cons e' ents =>
          simp only [List.map_cons, List.cons.injEq, hp, Parsed.entry.injEq] at h1
          obtain ⟨rfl, h1⟩ := h1
          have hok : (put env s e).2 = true := by
            unfold put
            cases hc : e.coll with
            | false => rfl
            | true =>
              simp [hc, addAll] at h2
              simp; exact h2.1
          rw [if_pos hok]
          refine (ih _).mpr ⟨ents, h1, ?_, ?_⟩
          · unfold put
            cases hc : e.coll with
            | false => simp [hc] at h2 ⊢; exact h2
            | true =>
              simp [hc, addAll] at h2 ⊢
              exact h2.2
          · intro a
            rw [h3]
            unfold put
            cases hc : e.coll with
            | true => simp [hc]
            | false =>
              simp only [hc, Bool.not_false, List.filter_cons_of_pos, lastOf, Bool.false_eq_true, if_false]
              cases lastOf a (ents.filter (!·.coll)) with
              | some v => rfl
              | none =>
                dsimp only
                by_cases ha : e.attr = a
                · subst ha; simp
                · simp [ha, Ne.symm ha]

/-- Exactly one of three. -/
def One (a b c : Prop) : Prop := (a ∧ ¬ b ∧ ¬ c) ∨ (¬ a ∧ b ∧ ¬ c) ∨ (¬ a ∧ ¬ b ∧ c)

/-- **When the program starts (C126).**  It starts exactly if the files put
together are entries throughout, no entry of a collection is in conflict with
an earlier one, and exactly one of a bridge, a node or the access (`http` or
`api` or both) is described; the collections then have all entries in order,
and of every other component the last entry counts. -/
theorem starts_iff_partial (env : Env V C) (hs : Sane env.ws) (ht : Tame env) (c : C) (p : Str)
    (s : St V C) :
    (∃ n, top env c n p = .start s) ↔
      ∃ (es : List Str) (ents : List (Ent V)), Reads env p none es ∧ es.map env.parse = ents.map .entry ∧
        addAll env.add c (ents.filter (·.coll)) = some s.colls ∧
        (∀ a, s.single a = match lastOf a (ents.filter (!·.coll)) with
          | some v => some v
          | none => if a ∈ ["nsp", "session", "system"] then some (env.dflt a) else none) ∧
        One (∃ e ∈ ents, e.coll = false ∧ e.attr = "bridge") (∃ e ∈ ents, e.coll = false ∧ e.attr = "routing")
          (∃ e ∈ ents, e.coll = false ∧ (e.attr = "http" ∨ e.attr = "api")) := by
  have cnt : ∀ (ents : List (Ent V)) (s' : St V C),
      (∀ a, s'.single a = match lastOf a (ents.filter (!·.coll)) with
        | some v => some v
        | none => (init env c).single a) →
      ((s'.single "bridge").isSome.toNat + (s'.single "routing").isSome.toNat +
        ((s'.single "http").isSome || (s'.single "api").isSome).toNat = 1 ↔
        One (∃ e ∈ ents, e.coll = false ∧ e.attr = "bridge") (∃ e ∈ ents, e.coll = false ∧ e.attr = "routing")
          (∃ e ∈ ents, e.coll = false ∧ (e.attr = "http" ∨ e.attr = "api"))) := by
    intro ents s' h
    have hh : ∀ a, (a ≠ "nsp" ∧ a ≠ "session" ∧ a ≠ "system") →
        ((s'.single a).isSome = true ↔ ∃ e ∈ ents, e.coll = false ∧ e.attr = a) := by
      intro a ha
      have e1 : (s'.single a).isSome = (lastOf a (ents.filter (!·.coll))).isSome := by
        rw [h a]
        cases lastOf a (ents.filter (!·.coll)) with
        | some v => rfl
        | none => simp [init, ha.1, ha.2.1, ha.2.2]
      rw [e1, lastOf_iff]
      constructor
      · rintro ⟨e, he, rfl⟩
        rw [List.mem_filter] at he
        exact ⟨e, he.1, by simpa using he.2, rfl⟩
      · rintro ⟨e, he, hc, rfl⟩
        exact ⟨e, List.mem_filter.mpr ⟨he, by simp [hc]⟩, rfl⟩
    have h1 := hh "bridge" (by decide)
    have h2 := hh "routing" (by decide)
    have h3 : ((s'.single "http").isSome || (s'.single "api").isSome) = true ↔
        ∃ e ∈ ents, e.coll = false ∧ (e.attr = "http" ∨ e.attr = "api") := by
      rw [Bool.or_eq_true, hh "http" (by decide), hh "api" (by decide)]
      constructor
      · rintro (⟨e, a, b, d⟩ | ⟨e, a, b, d⟩)
        · exact ⟨e, a, b, .inl d⟩
        · exact ⟨e, a, b, .inr d⟩
      · rintro ⟨e, a, b, d | d⟩
        · exact .inl ⟨e, a, b, d⟩
        · exact .inr ⟨e, a, b, d⟩
    rw [← h1, ← h2, ← h3]
    unfold One
    cases (s'.single "bridge").isSome <;> cases (s'.single "routing").isSome <;>
      cases ((s'.single "http").isSome || (s'.single "api").isSome) <;> simp
  have req : ∀ (ents : List (Ent V)) (s' : St V C),
      (∀ a, s'.single a = match lastOf a (ents.filter (!·.coll)) with
        | some v => some v
        | none => (init env c).single a) →
      (["nsp", "session", "system"].any fun a => (s'.single a).isNone) = false := by
    intro ents s' h
    have : ∀ a, (a = "nsp" ∨ a = "session" ∨ a = "system") → (s'.single a).isNone = false := by
      intro a ha
      rw [h a]
      cases lastOf a (ents.filter (!·.coll)) with
      | some v => rfl
      | none => simp [init, ha]
    simp [this "nsp" (.inl rfl), this "session" (.inr (.inl rfl)), this "system" (.inr (.inr rfl))]
  have ini : ∀ a, (init env c).single a =
      if a ∈ ["nsp", "session", "system"] then some (env.dflt a) else none := by
    intro a; simp [init]
  constructor
  · rintro ⟨n, h⟩
    unfold top at h
    cases hsc : scan env n p none (init env c) [] with
    | deep => rw [hsc] at h; cases h
    | raise => rw [hsc] at h; cases h
    | done s1 bad =>
      rw [hsc] at h
      dsimp only at h
      split at h
      · cases h
      · rename_i hb
        have hb : bad = [] := Classical.not_not.mp hb
        subst hb
        split at h
        · cases h
        · split at h
          · cases h
          · rename_i hn
            have hn := Classical.not_not.mp hn
            obtain ⟨es, hr, hf⟩ := (scan_iff_partial env hs ht p (init env c) s1 []).mp ⟨n, hsc⟩
            obtain ⟨ents, h1, h2, h3⟩ := (follow_good env es _ _).mp hf
            cases h
            exact ⟨es, ents, hr, h1, h2, fun a => by rw [h3 a, ini], (cnt ents s h3).mp hn⟩
  · rintro ⟨es, ents, hr, h1, h2, h3, h4⟩
    have h3' : ∀ a, s.single a = match lastOf a (ents.filter (!·.coll)) with
        | some v => some v
        | none => (init env c).single a := fun a => by rw [h3 a, ini]
    have hf := (follow_good env es (init env c) s).mpr ⟨ents, h1, h2, h3'⟩
    obtain ⟨n, hn⟩ := (scan_iff_partial env hs ht p (init env c) s []).mpr ⟨es, hr, hf⟩
    refine ⟨n, ?_⟩
    unfold top
    rw [hn]
    dsimp only
    rw [if_neg (by simp), if_neg (by rw [req ents s h3']; simp), if_neg]
    exact fun hne => hne ((cnt ents s h3').mpr h4)

end Verif.ConfFile
