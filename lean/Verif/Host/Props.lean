import Verif.Host.Model

/-!
# C57 and C63: which peer addresses are accepted, and which are used

Specification: the *usable* addresses of an answer are those of an allowed family, link-local IPv6
addresses excepted.
-/

namespace Verif.Host

/-- The answers of the lookups in a history, oldest first. -/
def answers : List Op → List (List AI)
  | [] => []
  | .lookup f _ :: os => f :: answers os
  | .next :: os => answers os

/-- An address that the configuration allows to be used. -/
def Usable (allow4 allow6 : Nat) (a : AI) : Prop :=
  (a.fam = .v4 → allow4 ≠ 0 ∨ allow6 = 0) ∧
  (a.fam = .v6 → allow6 ≠ 0 ∧ ¬ "fe80".toList <+: a.addr)

/-- The usable answers of the latest lookup that found anything usable. -/
def latest (allow4 allow6 : Nat) : List (List AI) → AI → Prop
  | [], _ => False
  | f :: fs, a =>
    -- `fs` come later
    (∃ f' ∈ fs, ∃ b ∈ f', Usable allow4 allow6 b) ∧ latest allow4 allow6 fs a ∨
    (¬ ∃ f' ∈ fs, ∃ b ∈ f', Usable allow4 allow6 b) ∧ a ∈ f ∧ Usable allow4 allow6 a

private theorem usable_iff (s : State) (a : AI) : usable s a = true ↔ Usable s.allow4 s.allow6 a := by
  unfold usable Usable
  cases hf : a.fam with
  | v4 => simp
  | v6 =>
    simp only [decide_true, Bool.true_and, Bool.and_eq_true, decide_eq_true_eq, Bool.not_eq_true',
      reduceCtorEq, false_implies, true_and, true_implies]
    rw [← Bool.not_eq_true, List.isPrefixOf_iff_prefix]

private theorem answers_snoc (os : List Op) (o : Op) : answers (os ++ [o]) = answers os ++ answers [o] := by
  induction os with
  | nil => rfl
  | cons p ps ih => cases p <;> simp [answers, ih]

open Classical in
private theorem latest_snoc {a4 a6 : Nat} (fs : List (List AI)) (f : List AI) (a : AI) :
    latest a4 a6 (fs ++ [f]) a ↔
      if ∃ b ∈ f, Usable a4 a6 b then a ∈ f ∧ Usable a4 a6 a else latest a4 a6 fs a := by
  induction fs with
  | nil =>
    simp only [List.nil_append, latest]
    by_cases h : ∃ b ∈ f, Usable a4 a6 b
    · rw [if_pos h]; simp
    · rw [if_neg h]
      constructor
      · rintro (⟨_, h1⟩ | ⟨_, h1, h2⟩)
        · exact h1
        · exact h ⟨a, h1, h2⟩
      · exact False.elim
  | cons g gs ih =>
    simp only [List.cons_append, latest, ih]
    by_cases h : ∃ b ∈ f, Usable a4 a6 b
    · rw [if_pos h, if_pos h]
      have : ∃ f' ∈ gs ++ [f], ∃ b ∈ f', Usable a4 a6 b := ⟨f, by simp, h⟩
      constructor
      · rintro (⟨_, h1⟩ | ⟨h1, _⟩)
        · exact h1
        · exact absurd this h1
      · exact fun h1 => .inl ⟨this, h1⟩
    · rw [if_neg h, if_neg h]
      have : (∃ f' ∈ gs ++ [f], ∃ b ∈ f', Usable a4 a6 b) ↔ ∃ f' ∈ gs, ∃ b ∈ f', Usable a4 a6 b := by
        constructor
        · rintro ⟨f', hf, hb⟩
          rcases List.mem_append.mp hf with h1 | h1
          · exact ⟨f', h1, hb⟩
          · simp at h1; subst h1; exact absurd hb h
        · rintro ⟨f', hf, hb⟩; exact ⟨f', by simp [hf], hb⟩
      rw [this]

private theorem mem_arrange (s : State) (o : List AI) (a : AI) : a ∈ arrange s o ↔ a ∈ o := by
  unfold arrange
  split
  · rfl
  · split <;>
    · simp only [List.mem_append, List.mem_filter, decide_eq_true_eq]
      cases hf : a.fam <;> simp

private theorem arrange_ne_nil {s : State} {o : List AI} (h : o ≠ []) : arrange s o ≠ [] := by
  cases o with
  | nil => exact absurd rfl h
  | cons a r =>
    intro hc
    have := (mem_arrange s (a :: r) a).mpr (by simp)
    rw [hc] at this
    cases this

private structure Inv (a4 a6 : Nat) (s : State) (fs : List (List AI)) : Prop where
  any : s.any = false
  e4 : s.allow4 = a4
  e6 : s.allow6 = a6
  ips : ∀ t, t ∈ s.ipaddrs ↔ ∃ f ∈ fs, ∃ a ∈ f, Usable a4 a6 a ∧ a.addr = t
  lst : ∀ a, a ∈ s.ailist ↔ latest a4 a6 fs a
  itr : ∃ pre, s.ailist = pre ++ s.iter
  cur : ∀ a, s.current = some a → a ∈ s.ailist
  has : s.ailist ≠ [] → s.current ≠ none

private theorem Inv.next {a4 a6 : Nat} {s : State} {fs : List (List AI)} (i : Inv a4 a6 s fs) :
    Inv a4 a6 (next s) fs := by
  obtain ⟨pre, hp⟩ := i.itr
  unfold Host.next
  cases hi : s.iter with
  | cons a r =>
    exact { i with
      itr := ⟨pre ++ [a], by simp [hp, hi]⟩
      cur := fun b hb => by cases hb; simp [hp, hi]
      has := fun _ => by simp }
  | nil =>
    cases hl : s.ailist with
    | nil =>
      exact { i with
        lst := by have := i.lst; rw [hl] at this; exact this
        itr := ⟨[], by simp⟩
        cur := fun b hb => by cases hb
        has := fun h => absurd rfl h }
    | cons a r =>
      exact { i with
        lst := by have := i.lst; rw [hl] at this; exact this
        itr := ⟨[a], by simp⟩
        cur := fun b hb => by cases hb; simp
        has := fun _ => by simp }

private theorem Inv.lookup {a4 a6 : Nat} {s : State} {fs : List (List AI)} (i : Inv a4 a6 s fs)
    {found o : List AI} (h : Enumerates s found o) :
    Inv a4 a6 (lookupDone s o) (fs ++ [found]) := by
  have hu : ∀ a, a ∈ o ↔ a ∈ found ∧ Usable a4 a6 a := by
    intro a; rw [h.2, usable_iff, i.e4, i.e6]
  have hips : ∀ t, t ∈ s.ipaddrs ++ o.map AI.addr ↔
      ∃ f ∈ fs ++ [found], ∃ a ∈ f, Usable a4 a6 a ∧ a.addr = t := by
    intro t
    rw [List.mem_append, i.ips, List.mem_map]
    constructor
    · rintro (⟨f, hf, r⟩ | ⟨a, ha, rfl⟩)
      · exact ⟨f, by simp [hf], r⟩
      · exact ⟨found, by simp, a, ((hu a).mp ha).1, ((hu a).mp ha).2, rfl⟩
    · rintro ⟨f, hf, a, ha, h1, h2⟩
      rcases List.mem_append.mp hf with g | g
      · exact .inl ⟨f, g, a, ha, h1, h2⟩
      · simp at g; subst g
        exact .inr ⟨a, (hu a).mpr ⟨ha, h1⟩, h2⟩
  have hex : (∃ b ∈ found, Usable a4 a6 b) ↔ o ≠ [] := by
    constructor
    · rintro ⟨b, hb, h1⟩ hc
      have := (hu b).mpr ⟨hb, h1⟩
      rw [hc] at this; cases this
    · intro hne
      cases o with
      | nil => exact absurd rfl hne
      | cons a r => exact ⟨a, (hu a).mp (by simp)⟩
  unfold lookupDone
  by_cases ho : o = []
  · simp only [if_pos ho]
    exact { i with
      ips := hips
      lst := fun a => by
        rw [latest_snoc, if_neg (by rw [hex]; exact fun hc => hc ho)]
        exact i.lst a }
  · simp only [if_neg ho]
    have base : ∀ c, (∀ a, c = some a → a ∈ arrange s o) → (c ≠ none) →
        Inv a4 a6 { s with
          ipaddrs := s.ipaddrs ++ o.map AI.addr, ailist := arrange s o, iter := arrange s o,
          current := c } (fs ++ [found]) := by
      intro c hc1 hc2
      exact { any := i.any, e4 := i.e4, e6 := i.e6, ips := hips,
              lst := fun a => by
                rw [latest_snoc, if_pos (hex.mpr ho), mem_arrange]
                exact hu a
              itr := ⟨[], rfl⟩
              cur := hc1
              has := fun _ => hc2 }
    split
    · rename_i hc
      have hk : ∃ a, s.current = some a ∧ a ∈ arrange s o := by
        unfold keepsCurrent at hc
        cases hcur : s.current with
        | none => rw [hcur] at hc; cases hc
        | some a => rw [hcur] at hc; exact ⟨a, rfl, by simpa using hc⟩
      obtain ⟨a, hcur, hm⟩ := hk
      have := base (some a) (fun b hb => by cases hb; exact hm) (by simp)
      rw [← hcur] at this
      exact this
    · unfold Host.next
      cases hl : arrange s o with
      | nil => exact absurd hl (arrange_ne_nil ho)
      | cons a r =>
        have := base (some a) (fun b hb => by cases hb; simp [hl]) (by simp)
        exact { this with
          lst := by rw [hl] at this; exact this.lst
          itr := ⟨[a], by simp⟩
          cur := fun b hb => by cases hb; simp
          has := fun _ => by simp }

private theorem inv_steps {a4 a6 : Nat} {os : List Op} {s : State}
    (h : Steps (fresh a4 a6) os s) : Inv a4 a6 s (answers os) := by
  induction h with
  | nil =>
    exact {
      any := rfl
      e4 := rfl
      e6 := rfl
      ips := fun t => by simp [fresh, answers]
      lst := fun a => by simp [fresh, answers, latest]
      itr := ⟨[], rfl⟩
      cur := fun a ha => by cases ha
      has := fun hc => absurd rfl hc }
  | snoc _ g ih =>
    have i := ih
    rw [answers_snoc]
    cases g with
    | lookup hg => exact i.lookup hg
    | next => simpa [answers] using i.next

/-- The full claim C57: an address is accepted only if it was found at the latest lookup (of those
that found anything). -/
def AcceptsLatestOnly (a4 a6 : Nat) : Prop :=
  ∀ os s t, Steps (fresh a4 a6) os s → valid s t = true →
    ∃ a, latest a4 a6 (answers os) a ∧ a.addr = strip t

/-- **C57, partial.**  After any history of lookups, an address is accepted exactly if, with the
prefix of a mapped IPv4 address removed, it is a usable address of the answer to *some* lookup so
far.  Missing: the claim asks for the *latest* lookup; the set of accepted addresses is never
reduced, see `old_address_still_valid`. -/
theorem accepted_iff_partial {a4 a6 : Nat} {os : List Op} {s : State}
    (h : Steps (fresh a4 a6) os s) (t : Text) :
    valid s t = true ↔ ∃ f ∈ answers os, ∃ a ∈ f, Usable a4 a6 a ∧ a.addr = strip t := by
  have i := inv_steps h
  unfold valid
  rw [i.any, Bool.or_false, decide_eq_true_eq, i.ips]

/-- **C57, with one answer.**  If every lookup gives the same usable answer (a peer that does not
move, or a numeric address), exactly the addresses of the latest lookup are accepted. -/
theorem accepted_iff_unchanged {a4 a6 : Nat} {os : List Op} {s : State}
    (h : Steps (fresh a4 a6) os s)
    (hs : ∀ f ∈ answers os, ∀ g ∈ answers os, ∀ a, a ∈ f ↔ a ∈ g) (t : Text) :
    valid s t = true ↔ ∃ a, latest a4 a6 (answers os) a ∧ a.addr = strip t := by
  rw [accepted_iff_partial h]
  have hl : ∀ fs : List (List AI), (∀ f ∈ fs, ∀ g ∈ fs, ∀ a, a ∈ f ↔ a ∈ g) →
      ∀ a, latest a4 a6 fs a ↔ ∃ f ∈ fs, a ∈ f ∧ Usable a4 a6 a := by
    intro fs
    induction fs with
    | nil => intro _ a; simp [latest]
    | cons g gs ih =>
      intro hs a
      have ih' := ih (fun f hf g hg => hs f (by simp [hf]) g (by simp [hg])) a
      simp only [latest]
      constructor
      · rintro (⟨_, h1⟩ | ⟨_, h1, h2⟩)
        · obtain ⟨f, hf, h3⟩ := ih'.mp h1
          exact ⟨f, by simp [hf], h3⟩
        · exact ⟨g, by simp, h1, h2⟩
      · rintro ⟨f, hf, h1, h2⟩
        by_cases hc : ∃ f' ∈ gs, ∃ b ∈ f', Usable a4 a6 b
        · refine .inl ⟨hc, ih'.mpr ?_⟩
          obtain ⟨f', hf', _⟩ := hc
          exact ⟨f', hf', (hs f hf f' (by simp [hf']) a).mp h1, h2⟩
        · exact .inr ⟨hc, (hs f hf g (by simp) a).mp h1, h2⟩
  constructor
  · rintro ⟨f, hf, a, ha, h1, h2⟩
    exact ⟨a, (hl _ hs a).mpr ⟨f, hf, ha, h1⟩, h2⟩
  · rintro ⟨a, ha, h2⟩
    obtain ⟨f, hf, h3, h4⟩ := (hl _ hs a).mp ha
    exact ⟨f, hf, a, h3, h4, h2⟩

/-- **Finding: C57 is false as stated.**  A peer found at 1.2.3.4 and, at the next lookup, at
1.2.3.5 only, is still accepted from 1.2.3.4. -/
theorem old_address_still_valid : ¬ AcceptsLatestOnly 1 1 := by
  intro hc
  have h1 : Steps (fresh 1 1)
      [.lookup [⟨.v4, "1.2.3.4".toList, 700⟩] [⟨.v4, "1.2.3.4".toList, 700⟩],
       .lookup [⟨.v4, "1.2.3.5".toList, 700⟩] [⟨.v4, "1.2.3.5".toList, 700⟩]] _ :=
    .snoc (.snoc (os := []) .nil (.lookup ⟨by decide, fun a => by
        simp only [List.mem_singleton, iff_self_and]; rintro rfl; decide⟩))
      (.lookup ⟨by decide, fun a => by
        simp only [List.mem_singleton, iff_self_and]; rintro rfl; decide⟩)
  obtain ⟨a, h2, h3⟩ := hc _ _ "1.2.3.4".toList h1 (by decide)
  simp only [answers, latest, List.mem_singleton] at h2
  rcases h2 with ⟨_, h4⟩ | ⟨h4, _⟩
  · rcases h4 with ⟨⟨_, h5, _⟩, _⟩ | ⟨_, h5, _⟩
    · cases h5
    · subst h5; revert h3; decide
  · exact h4 ⟨_, rfl, ⟨.v4, "1.2.3.5".toList, 700⟩, by simp, by simp, by intro h; cases h⟩

/-- **Finding.**  An address that a lookup returns in mapped form (`::ffff:1.2.3.4`) is not accepted
from that very text, because `valid` removes the prefix and the table keeps it. -/
theorem mapped_answer_refused :
    ∃ (s : State) (a : AI), Steps (fresh 0 1) [.lookup [a] [a]] s ∧
      latest 0 1 [[a]] a ∧ valid s a.addr = false := by
  refine ⟨_, ⟨.v6, "::ffff:1.2.3.4".toList, 700⟩, .snoc (os := []) .nil (.lookup ⟨by decide, fun a => by
        simp only [List.mem_singleton, iff_self_and]; rintro rfl; decide⟩), ?_, by decide⟩
  refine .inr ⟨by simp, by simp, ?_, ?_⟩ <;> intro h
  · cases h
  · decide

/-! ## C63: the addresses used for outgoing connections -/

/-- **C63.**  Once a lookup found anything usable there is a chosen address, and the chosen address
is always one found by the latest lookup that found anything. -/
theorem chosen_from_latest {a4 a6 : Nat} {os : List Op} {s : State}
    (h : Steps (fresh a4 a6) os s) :
    (∀ a, s.current = some a → latest a4 a6 (answers os) a) ∧
    ((∃ f ∈ answers os, ∃ b ∈ f, Usable a4 a6 b) → s.current ≠ none) := by
  have i := inv_steps h
  refine ⟨fun a ha => (i.lst a).mp (i.cur a ha), ?_⟩
  intro hex
  apply i.has
  have : ∀ fs : List (List AI), (∃ f ∈ fs, ∃ b ∈ f, Usable a4 a6 b) → ∃ a, latest a4 a6 fs a := by
    intro fs
    induction fs with
    | nil => rintro ⟨f, hf, _⟩; cases hf
    | cons g gs ih =>
      rintro ⟨f, hf, b, hb, hu⟩
      by_cases hc : ∃ f' ∈ gs, ∃ b ∈ f', Usable a4 a6 b
      · obtain ⟨a, ha⟩ := ih hc
        exact ⟨a, .inl ⟨hc, ha⟩⟩
      · rcases List.mem_cons.mp hf with rfl | hf
        · exact ⟨b, .inr ⟨hc, hb, hu⟩⟩
        · exact absurd ⟨f, hf, b, hb, hu⟩ hc
  obtain ⟨a, ha⟩ := this _ hex
  intro hn
  have := (i.lst a).mpr ha
  rw [hn] at this
  cases this

/-- The addresses returned by `n` successive calls of `next`. -/
def tries (s : State) : Nat → List (Option AI)
  | 0 => []
  | n + 1 => (next s).current :: tries (next s) n

private theorem tries_iter (l : List AI) : ∀ (s : State), s.iter = l →
    tries s l.length = l.map some ∧
    ∀ n, tries s (l.length + n) = l.map some ++ tries { s with iter := [], current :=
      if l = [] then s.current else l.getLast? } n := by
  induction l with
  | nil =>
    intro s h
    refine ⟨rfl, fun n => ?_⟩
    have : s = { s with iter := [], current := s.current } := by cases s; simp only at h; subst h; rfl
    simp only [List.length_nil, Nat.zero_add, List.map_nil, List.nil_append, if_true]
    rw [← this]
  | cons a r ih =>
    intro s h
    have hn : next s = { s with current := some a, iter := r } := by simp [next, h]
    obtain ⟨h1, h2⟩ := ih (next s) (by rw [hn])
    refine ⟨?_, fun n => ?_⟩
    · simp only [List.length_cons, tries, List.map_cons, h1]
      rw [hn]
    · have : (a :: r).length + n = (r.length + n) + 1 := by simp; omega
      rw [this]
      simp only [tries, List.map_cons, List.cons_append, h2]
      rw [hn]
      simp only [List.cons.injEq, true_and, reduceCtorEq, if_false]
      congr 2
      cases r with
      | nil => simp
      | cons b r' => simp [List.getLast?_cons_cons]

/-- **C63, every address gets its turn.**  As long as no new lookup comes in, successive attempts go
round all addresses of the latest lookup: any `n` successive attempts, `n` the number of addresses,
try each of them exactly once. -/
theorem tries_all {a4 a6 : Nat} {os : List Op} {s : State} (h : Steps (fresh a4 a6) os s) :
    (tries s s.ailist.length).Perm (s.ailist.map some) ∧
    ∀ a, a ∈ s.ailist ↔ latest a4 a6 (answers os) a := by
  have i := inv_steps h
  refine ⟨?_, i.lst⟩
  obtain ⟨pre, hp⟩ := i.itr
  have h1 := (tries_iter s.iter s rfl).2 pre.length
  have hlen : s.ailist.length = s.iter.length + pre.length := by rw [hp]; simp; omega
  rw [hlen, h1]
  generalize hc : (if s.iter = [] then s.current else s.iter.getLast?) = c
  -- after the iterator is used up it starts over with the list
  have h2 : tries { s with iter := [], current := c } pre.length = pre.map some := by
    cases hpre : pre with
    | nil => rfl
    | cons a r =>
      have hl : s.ailist = a :: (r ++ s.iter) := by rw [hp, hpre]; rfl
      have hn : next { s with iter := [], current := c } =
          { s with iter := r ++ s.iter, current := some a } := by
        simp [next, hl]
      simp only [List.length_cons, tries, hn, List.map_cons]
      congr 1
      have key : ∀ (l l2 : List AI) (u : State), u.iter = l ++ l2 →
          tries u l.length = l.map some := by
        intro l
        induction l with
        | nil => intro l2 u _; rfl
        | cons b l ih =>
          intro l2 u hu
          have hn : next u = { u with current := some b, iter := l ++ l2 } := by
            simp [next, hu]
          simp only [List.length_cons, tries, List.map_cons, hn]
          rw [ih l2 _ rfl]
      exact key r s.iter _ rfl
  rw [h2, hp, List.map_append]
  exact List.perm_append_comm

/-- **C63, preference.**  If the two families are given different preference, the preferred family
comes first among the addresses tried after a lookup. -/
theorem preferred_first (s : State) (o : List AI) (hne : s.allow4 ≠ s.allow6) :
    ∃ p q, arrange s o = p ++ q ∧
      (∀ a ∈ p, a.fam = if s.allow4 < s.allow6 then .v6 else .v4) ∧
      (∀ a ∈ q, a.fam = if s.allow4 < s.allow6 then .v4 else .v6) := by
  unfold arrange
  rw [if_neg hne]
  by_cases h : s.allow4 < s.allow6
  · simp only [if_pos h]
    exact ⟨_, _, rfl, by simp, by simp⟩
  · simp only [if_neg h]
    exact ⟨_, _, rfl, by simp, by simp⟩

/-- A peer with two addresses, then one of them and a new one: the chosen one stays if it can. -/
example :
    let a : AI := ⟨.v4, "1.2.3.4".toList, 700⟩
    let b : AI := ⟨.v4, "1.2.3.5".toList, 700⟩
    let c : AI := ⟨.v6, "2001::1".toList, 700⟩
    let s := lookupDone (lookupDone (fresh 1 1) [a, b]) [c, a]
    s.current = some a ∧ tries s 4 = [some c, some a, some c, some a] ∧
    valid s "::ffff:1.2.3.5".toList = true ∧ valid s "1.2.3.6".toList = false := by decide

example : Enumerates (fresh 1 1) [⟨.v4, "1.2.3.4".toList, 700⟩, ⟨.v6, "fe80::1".toList, 700⟩]
    [⟨.v4, "1.2.3.4".toList, 700⟩] := by
  refine ⟨by decide, fun a => ?_⟩
  simp only [List.mem_cons, List.not_mem_nil, or_false]
  constructor
  · rintro rfl; decide
  · rintro ⟨rfl | rfl, h⟩
    · rfl
    · revert h; decide

end Verif.Host
