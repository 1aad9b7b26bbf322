import Verif.Pmr.Props

/-!
# Whatever the destination: where a connect goes (C97)

The expression, read as a grammar, against the matcher.
-/

namespace Verif.Pmr

/-- What an expression stands for. -/
inductive Mt : Re → St → St → Prop
  | chr {p c r cs} : p c = true → Mt (.chr p) (c :: r, cs) (r, cs)
  | eps {st} : Mt .eps st st
  | seq {a b st st' st''} : Mt a st st' → Mt b st' st'' → Mt (.seq a b) st st''
  | altL {a b st st'} : Mt a st st' → Mt (.alt a b) st st'
  | altR {a b st st'} : Mt b st st' → Mt (.alt a b) st st'
  | none {g a st} : Mt (.star g a) st st
  | more {g a st st' st''} : Mt a st st' → Mt (.star g a) st' st'' → Mt (.star g a) st st''
  | grp {n a st st'} : Mt a st st' → Mt (.grp n a) st (st'.1, (n, st.1.take (st.1.length - st'.1.length)) :: st'.2)
  | eos {st} : st.1 = [] ∨ st.1 = [10] → Mt .eos st st

theorem loop_sound {g : Bool} {a : Re}
    (ha : ∀ k st x, a.run k st = some x → ∃ st', Mt a st st' ∧ k st' = some x) :
    ∀ n k st x, loop g a.run k n st = some x → ∃ st', Mt (.star g a) st st' ∧ k st' = some x := by
  intro n
  induction n with
  | zero => intro k st x h; exact ⟨st, .none, h⟩
  | succ n ih =>
    intro k st x h
    have hf : ∀ x, a.run (fun st' => if st'.1.length < st.1.length then loop g a.run k n st' else none) st = some x →
        ∃ st', Mt (.star g a) st st' ∧ k st' = some x := by
      intro x h
      obtain ⟨st1, h1, h2⟩ := ha _ _ _ h
      split at h2
      · obtain ⟨st2, h3, h4⟩ := ih k st1 x h2
        exact ⟨st2, .more h1 h3, h4⟩
      · cases h2
    simp only [loop] at h
    split at h
    · rcases Option.or_eq_some_iff.mp h with h | ⟨_, h⟩
      · exact hf x h
      · exact ⟨st, .none, h⟩
    · rcases Option.or_eq_some_iff.mp h with h | ⟨_, h⟩
      · exact ⟨st, .none, h⟩
      · exact hf x h

theorem run_sound (r : Re) : ∀ k st x, r.run k st = some x → ∃ st', Mt r st st' ∧ k st' = some x := by
  induction r with
  | chr p =>
    intro k st x h
    obtain ⟨s, cs⟩ := st
    cases s with
    | nil => cases h
    | cons c s =>
      rw [run_chr_cons] at h
      split at h
      · rename_i hp; exact ⟨_, .chr hp, h⟩
      · cases h
  | eps => intro k st x h; exact ⟨st, .eps, h⟩
  | seq a b iha ihb =>
    intro k st x h
    obtain ⟨st1, h1, h2⟩ := iha _ _ _ h
    obtain ⟨st2, h3, h4⟩ := ihb _ _ _ h2
    exact ⟨st2, .seq h1 h3, h4⟩
  | alt a b iha ihb =>
    intro k st x h
    rcases Option.or_eq_some_iff.mp h with h | ⟨_, h⟩
    · obtain ⟨st1, h1, h2⟩ := iha _ _ _ h
      exact ⟨st1, .altL h1, h2⟩
    · obtain ⟨st1, h1, h2⟩ := ihb _ _ _ h
      exact ⟨st1, .altR h1, h2⟩
  | star g a iha => intro k st x h; exact loop_sound iha _ k st x h
  | grp n a iha =>
    intro k st x h
    obtain ⟨st1, h1, h2⟩ := iha _ _ _ h
    exact ⟨_, .grp h1, h2⟩
  | eos =>
    intro k st x h
    rw [run_eos] at h
    split at h
    · rename_i hh; exact ⟨st, .eos hh, h⟩
    · cases h

theorem chr_inv {p st st'} (h : Mt (.chr p) st st') : ∃ c, p c = true ∧ st.1 = c :: st'.1 ∧ st'.2 = st.2 := by
  cases h with
  | @chr _ c r cs hp => exact ⟨c, hp, rfl, rfl⟩

theorem starChr_inv {g p st st'} (h : Mt (.star g (.chr p)) st st') :
    ∃ w : Str, (∀ c ∈ w, p c = true) ∧ st.1 = w ++ st'.1 ∧ st'.2 = st.2 := by
  generalize hr : Re.star g (.chr p) = r at h
  induction h with
  | none => exact ⟨[], by simp, rfl, rfl⟩
  | @more g' a s1 s2 s3 h1 _ _ ih =>
    cases hr
    obtain ⟨c, h2, h3, h4⟩ := chr_inv h1
    obtain ⟨w, h5, h6, h7⟩ := ih rfl
    refine ⟨c :: w, ?_, ?_, h7.trans h4⟩
    · intro d hd
      rcases List.mem_cons.mp hd with rfl | hd
      · exact h2
      · exact h5 d hd
    · rw [h3, h6]; rfl
  | _ => cases hr

/-- A name as the expression takes it: letters, digits and periods, and four letters that Python counts as upper or
lower case forms of I, S and K. -/
def Name (n : Str) : Prop := n ≠ [] ∧ ∀ c ∈ n, (97 ≤ c ∧ c ≤ 122) ∨ (65 ≤ c ∧ c ≤ 90) ∨ (48 ≤ c ∧ c ≤ 57) ∨
  c = 46 ∨ c = 0x130 ∨ c = 0x131 ∨ c = 0x17F ∨ c = 0x212A

theorem name_of {n : Str} (h1 : n ≠ []) (h2 : ∀ c ∈ n, nodeChar c = true) : Name n := by
  refine ⟨h1, fun c hc => ?_⟩
  have := h2 c hc
  simp only [nodeChar, Bool.or_eq_true, Bool.and_eq_true, decide_eq_true_eq, beq_iff_eq] at this
  omega

theorem plusChr_inv {p st st'} (h : Mt (.plus (.chr p)) st st') :
    ∃ w : Str, w ≠ [] ∧ (∀ c ∈ w, p c = true) ∧ st.1 = w ++ st'.1 ∧ st'.2 = st.2 := by
  cases h with
  | seq h1 h2 =>
    obtain ⟨c, a1, a2, a3⟩ := chr_inv h1
    obtain ⟨w, b1, b2, b3⟩ := starChr_inv h2
    refine ⟨c :: w, by simp, ?_, ?_, b3.trans a3⟩
    · intro d hd
      rcases List.mem_cons.mp hd with rfl | hd
      · exact a1
      · exact b1 d hd
    · rw [a2, b2]; rfl

theorem colons_inv {st st'} (h : Mt colons st st') : st.1 = 58 :: 58 :: st'.1 ∧ st'.2 = st.2 := by
  cases h with
  | seq h1 h2 =>
    obtain ⟨c, a1, a2, a3⟩ := chr_inv h1
    obtain ⟨d, b1, b2, b3⟩ := chr_inv h2
    simp at a1 b1
    exact ⟨by rw [a2, b2, a1, b1], b3.trans a3⟩

theorem segs_inv {st st'} (h : Mt (.star false (.seq colons nameRe)) st st') :
    ∃ ns : List Str, (∀ n ∈ ns, Name n) ∧ st.1 = segs ns ++ st'.1 ∧ st'.2 = st.2 := by
  generalize hr : Re.star false (.seq colons nameRe) = r at h
  induction h with
  | none => exact ⟨[], by simp, rfl, rfl⟩
  | @more g' a s1 s2 s3 h1 _ _ ih =>
    cases hr
    obtain ⟨ns, h5, h6, h7⟩ := ih rfl
    cases h1 with
    | seq h8 h9 =>
      obtain ⟨a1, a2⟩ := colons_inv h8
      obtain ⟨w, b1, b2, b3, b4⟩ := plusChr_inv h9
      refine ⟨w :: ns, ?_, ?_, ?_⟩
      · intro n hn
        rcases List.mem_cons.mp hn with rfl | hn
        · exact name_of b1 b2
        · exact h5 n hn
      · rw [a1, b3, h6]; simp [segs]
      · rw [h7, b4, a2]
  | _ => cases hr

theorem quote_inv {st st'} (h : Mt quote st st') :
    ∃ q : Str, (∀ c ∈ q, isQuote c = true) ∧ q.length ≤ 1 ∧ st.1 = q ++ st'.1 ∧ st'.2 = st.2 := by
  cases h with
  | altL h =>
    obtain ⟨c, a1, a2, a3⟩ := chr_inv h
    exact ⟨[c], by simpa using a1, by simp, a2, a3⟩
  | altR h => cases h; exact ⟨[], by simp, by simp, rfl, rfl⟩

/-- What the user part may be, and the groups it leaves. -/
inductive UserIs (u : Uni) : Str → Caps → Prop
  | none : UserIs u [] []
  | num {ds} : ds ≠ [] → (∀ c ∈ ds, u.digit c = true) → UserIs u (ds ++ [61]) [(3, ds)]
  | task {w t} : w.length = 5 → t ≠ [] → (∀ c ∈ t, u.space c = false) → UserIs u (w ++ t) [(4, t)]

theorem take_sub (a b : Str) : (a ++ b).take ((a ++ b).length - b.length) = a := by simp

theorem user_inv {u st st'} (h : Mt (userRe u) st st') :
    ∃ s g, UserIs u s g ∧ st.1 = s ++ st'.1 ∧ st'.2 = g ++ st.2 := by
  cases h with
  | altL h =>
    cases h with
    | altL h =>
      cases h with
      | seq h1 h2 =>
        cases h1 with
        | @grp _ _ _ s1 h1 =>
          obtain ⟨w, a1, a2, a3, a4⟩ := plusChr_inv h1
          obtain ⟨c, b1, b2, b3⟩ := chr_inv h2
          simp at b1 b2 b3
          refine ⟨w ++ [61], [(3, w)], .num a1 a2, ?_, ?_⟩
          · rw [a3, b2, b1]; simp
          · rw [b3, a4, a3]
            simp
    | altR h =>
      cases h with
      | @seq _ _ _ s1 _ h1 h2 =>
        cases h2 with
        | @grp _ _ _ s2 h2 =>
          obtain ⟨t, a1, a2, a3, a4⟩ := plusChr_inv h2
          have hw : ∃ w : Str, w.length = 5 ∧ st.1 = w ++ s1.1 ∧ s1.2 = st.2 := by
            cases h1 with
            | seq k1 h1 =>
              cases h1 with
              | seq k2 h1 =>
                cases h1 with
                | seq k3 h1 =>
                  cases h1 with
                  | seq k4 k5 =>
                    obtain ⟨c1, _, p1, q1⟩ := chr_inv k1
                    obtain ⟨c2, _, p2, q2⟩ := chr_inv k2
                    obtain ⟨c3, _, p3, q3⟩ := chr_inv k3
                    obtain ⟨c4, _, p4, q4⟩ := chr_inv k4
                    obtain ⟨c5, _, p5, q5⟩ := chr_inv k5
                    refine ⟨[c1, c2, c3, c4, c5], rfl, ?_, ?_⟩
                    · rw [p1, p2, p3, p4, p5]; rfl
                    · rw [q5, q4, q3, q2, q1]
          obtain ⟨w, b1, b2, b3⟩ := hw
          refine ⟨w ++ t, [(4, t)], .task b1 a1 ?_, ?_, ?_⟩
          · intro c hc; simpa using a2 c hc
          · rw [b2, a3]; simp
          · show (4, s1.1.take (s1.1.length - s2.1.length)) :: s2.2 = _
            rw [a4, b3, a3, take_sub]; rfl
  | altR h => cases h; exact ⟨[], [], .none, rfl, rfl⟩

/-- What the end of a route may be, and the groups it leaves. -/
inductive TailMay (u : Uni) : Str → Caps → Prop
  | none : TailMay u [] []
  | some {q s q' g} : (∀ c ∈ q ++ q', isQuote c = true) → UserIs u s g → TailMay u (58 :: 58 :: (q ++ (s ++ q'))) g

theorem tail_inv {u st st'} (h : Mt (tailRe u) st st') :
    ∃ s g, TailMay u s g ∧ st.1 = s ++ st'.1 ∧ st'.2 = g ++ st.2 := by
  cases h with
  | altL h =>
    cases h with
    | seq h1 h =>
      cases h with
      | seq h2 h =>
        cases h with
        | seq h3 h4 =>
          obtain ⟨a1, a2⟩ := colons_inv h1
          obtain ⟨q, b1, _, b3, b4⟩ := quote_inv h2
          obtain ⟨s, g, c1, c2, c3⟩ := user_inv h3
          obtain ⟨q', d1, _, d3, d4⟩ := quote_inv h4
          refine ⟨_, g, .some (q := q) (q' := q') ?_ c1, ?_, ?_⟩
          · intro c hc
            rcases List.mem_append.mp hc with hc | hc
            · exact b1 c hc
            · exact d1 c hc
          · rw [a1, b3, c2, d3]; simp
          · rw [d4, c3, b4, a2]
  | altR h => cases h; exact ⟨[], [], .none, rfl, rfl⟩

/-- Whatever matches is a route: a name, more names each after two colons, an end, perhaps a newline. -/
theorem matched (u : Uni) (s : Str) (c : Caps) (h : (pmrRe u).match s = some c) :
    ∃ n ns t g e, s = n ++ (segs ns ++ (t ++ e)) ∧ Name n ∧ (∀ m ∈ ns, Name m) ∧ TailMay u t g ∧
      (e = [] ∨ e = [10]) ∧ c = g ++ [(2, segs ns), (1, n)] := by
  obtain ⟨st, h1, h2⟩ := run_sound _ _ _ _ h
  simp only [Option.some.injEq] at h2
  unfold pmrRe at h1
  cases h1 with
  | seq k1 h1 =>
    cases h1 with
    | seq k2 h1 =>
      cases h1 with
      | seq k3 k4 =>
        cases k1 with
        | @grp _ _ _ s1 k1 =>
          cases k2 with
          | @grp _ _ _ s2 k2 =>
            obtain ⟨n, a1, a2, a3, a4⟩ := plusChr_inv k1
            obtain ⟨ns, b1, b2, b3⟩ := segs_inv k2
            obtain ⟨t, g, c1, c2, c3⟩ := tail_inv k3
            cases k4 with
            | eos he =>
              simp only at a3 a4 b2 b3 c2 c3
              refine ⟨n, ns, t, g, st.1, ?_, name_of a1 a2, b1, c1, he, ?_⟩
              · rw [a3, b2, c2]
              · rw [← h2, c3, b3, a4, a3, b2]
                simp

/-- The destination of any connect: either it is not a route and is used as it stands, or its first name is
connected to; and if there are more names, the request to the relay has exactly these in order, and the
user. -/
theorem plan_sound (u : Uni) (dest : Str) (rem : Option User) (hop : Nat) :
    checkpmr u dest rem hop = ⟨dest, rem, none⟩ ∨
    ∃ n ns t g e x, dest = n ++ (segs ns ++ (t ++ e)) ∧ Name n ∧ (∀ m ∈ ns, Name m) ∧ TailMay u t g ∧
      (e = [] ∨ e = [10]) ∧ (g = [] → x = rem) ∧
      checkpmr u dest rem hop =
        if ns = [] then ⟨n, x, none⟩ else ⟨n, some (.num 123), some (hop :: joined ns ++ [58, 58] ++ userPart x)⟩ := by
  cases hm : (pmrRe u).match dest with
  | none => left; simp [checkpmr, hm]
  | some c =>
    right
    obtain ⟨n, ns, t, g, e, h1, h2, h3, h4, h5, h6⟩ := matched u dest c hm
    refine ⟨n, ns, t, g, e, given u c rem, h1, h2, h3, h4, h5, ?_, ?_⟩
    · intro hg; rw [h6, hg]; simp [given, Caps.get]
    · have hg34 : ∀ p ∈ g, p.1 = 3 ∨ p.1 = 4 := by
        cases h4 with
        | none => simp
        | some _ hu => cases hu <;> simp
      have hfind : ∀ i, i = 1 ∨ i = 2 → List.find? (fun x => decide (x.1 = i)) g = none := by
        intro i hi
        rw [List.find?_eq_none]
        intro p hp
        have := hg34 p hp
        simp; omega
      have e1 : c.get 1 = some n := by
        rw [h6]; unfold Caps.get; rw [List.find?_append, hfind 1 (by omega)]; simp
      have e2 : c.get 2 = some (segs ns) := by
        rw [h6]; unfold Caps.get; rw [List.find?_append, hfind 2 (by omega)]; simp
      unfold checkpmr
      rw [hm]
      simp only [e1, e2, Option.getD_some]
      cases ns with
      | nil => simp [segs]
      | cons m ns => simp [segs, joined]

end Verif.Pmr
