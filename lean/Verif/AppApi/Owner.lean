import Verif.AppApi.Props

/-!
# Connections belong to one application
-/

namespace Verif.AppApi

/-- Whose connection it is after one more event, from what can be seen: given by the answer to a connect
request or by the message about an incoming connect, taken back by a call that closes it, by a message
about a packet that closes it, and when the application fails or goes. -/
def given (f : Nat → Option Nat) (a : Act) (os : List Out) : Nat → Option Nat := fun x =>
  match a, os with
  | .req _ _ (.connect _), [.reply k _ (.connecting h)] => if x = h then some k else f x
  | .incoming _ _, [.connect k c _] => if x = c then some k else f x
  | .packet c true, [.message _ _] => if x = c then none else f x
  | .req _ _ (.call what h _), [] =>
    if (what = .reject ∨ what = .disconnect ∨ what = .abort) ∧ x = h then none else f x
  | _, [.aborted k _] => if f x = some k then none else f x
  | _, _ => f x

/-- Whose connection it is in the end; none at the start. -/
def owner (tr : List (Act × List Out)) : Nat → Option Nat :=
  tr.foldl (fun f x => given f x.1 x.2) fun _ => none

theorem fail_sess {s : State} {bad : List Nat} (hi : Inv s bad) {k : Nat} (hk : k ∉ bad) (x : Nat) :
    get (fail s k).1.sess x = if get s.sess x = some k then none else get s.sess x := by
  obtain ⟨s', h1, h2, h3, h4, h5, h6, h7⟩ := cleanup_spec k (entries s k) s (entries_nodup hi.nodup k)
    hi.sessNodup (fun c hc => hi.conn k c (mem_entries.1 hc) hk)
    (fun h n m he => hi.num k h n m (mem_entries.1 he) hk)
    (fun h n m he => hi.name k h n m (mem_entries.1 he) hk)
  have hf : (fail s k).1 = s' := by unfold fail; rw [h1]
  rw [hf]
  have hn : (s'.sess.map (·.1)).Nodup := hi.sessNodup.sublist (h5.map _)
  split
  · rename_i hg
    rw [get_none]
    intro v hv
    obtain ⟨y, z⟩ := (h4 _).1 hv
    have := get_of_nodup hi.sessNodup y
    rw [hg] at this
    cases this
    exact z (mem_entries.2 (hi.sess _ _ y).1)
  · rename_i hg
    cases hj : get s.sess x with
    | none =>
      rw [get_none] at hj ⊢
      intro v hv
      exact hj v ((h4 _).1 hv).1
    | some j =>
      refine get_of_nodup hn ((h4 _).2 ⟨get_mem hj, ?_⟩)
      intro he
      have := get_of_nodup hi.sessNodup (hi.conn k x (mem_entries.1 he) hk)
      exact hg this

theorem fail_outs {s : State} {bad : List Nat} (hi : Inv s bad) {k : Nat} (hk : k ∉ bad) :
    (fail s k).2 = [.aborted k (connsOf s k)] := by
  obtain ⟨s', h1, -⟩ := fail_inv hi hk
  rw [h1]

theorem given_aborted (f : Nat → Option Nat) (a : Act) (k : Nat) (cs : List Nat) (x : Nat) :
    given f a [.aborted k cs] x = if f x = some k then none else f x := by
  unfold given
  cases a with
  | req k t r => cases r <;> rfl
  | exit k => rfl
  | incoming c k => rfl
  | packet c b => cases b <;> rfl

theorem get_new {s : State} {c k x : Nat} (hl : c ∉ live s) :
    get (s.sess ++ [(c, k)]) x = if x = c then some k else get s.sess x := by
  rw [get_append]
  by_cases hx : x = c
  · subst hx
    have : get s.sess x = none := by
      rw [get_none]
      intro v hv
      exact (not_live hl).2 (List.mem_map.2 ⟨_, hv, rfl⟩)
    simp [this]
  · cases get s.sess x <;> simp [hx]

/-- One event. -/
theorem step_given {s : State} {bad : List Nat} (hi : Inv s bad) (a : Act)
    (hc : ∀ k, a.client = some k → k ∉ bad) (x : Nat) :
    get (step s a).1.sess x = given (get s.sess) a (step s a).2 x := by
  have hfail : ∀ k, k ∉ bad → ∀ b : Act,
      get (fail s k).1.sess x = given (get s.sess) b (fail s k).2 x := by
    intro k hk b
    rw [fail_sess hi hk, fail_outs hi hk, given_aborted]
  cases a with
  | req k tag r =>
    have hk : k ∉ bad := hc k rfl
    simp only [step, hi.up, ↓reduceIte]
    cases r with
    | bind num name h =>
      simp only [request]
      by_cases hl : h ∈ live s
      · rw [if_pos hl]; rfl
      · rw [if_neg hl]
        by_cases hok : bindOk s num name = true
        · rw [if_pos hok]; rfl
        · rw [if_neg hok]; rfl
    | connect r =>
      cases r with
      | ok h =>
        simp only [request]
        by_cases hl : h ∈ live s
        · rw [if_pos hl]; rfl
        · rw [if_neg hl]
          exact get_new hl
      | unknownNode => rfl
      | dna => rfl
      | other => exact hfail k hk _
    | call what h r =>
      simp only [request]
      cases hg : get (entries s k) h with
      | none => exact hfail k hk _
      | some e =>
        cases e with
        | listener n m => exact hfail k hk _
        | conn =>
          simp only
          cases r with
          | dna => rfl
          | other => exact hfail k hk _
          | ok =>
            simp only
            have ho := (get_entries hi.nodup).1 hg
            have hd : del s.sess h = some (s.sess.filter (·.1 ≠ h)) :=
              del_some.2 ⟨⟨_, get_of_nodup hi.sessNodup (hi.conn k h ho hk)⟩, rfl⟩
            have hcl : what.closes = true ↔ (what = .reject ∨ what = .disconnect ∨ what = .abort) := by
              cases what <;> simp [Call.closes]
            cases hw : what.closes with
            | true =>
              simp only [hd, ↓reduceIte]
              rw [get_filter]
              simp [given, hcl.1 hw]
            | false =>
              have : ¬ (what = .reject ∨ what = .disconnect ∨ what = .abort) := fun e => by
                rw [hcl.2 e] at hw; cases hw
              simp [given, this]
    | unknown => rfl
    | malformed => exact hfail k hk _
  | exit k =>
    simp only [step, hi.up, ↓reduceIte]
    exact hfail k (hc k rfl) _
  | incoming c key =>
    unfold step
    by_cases hl : c ∈ live s
    · simp only [hl, or_true, ↓reduceIte]
      rfl
    · simp only [hi.up, not_true_eq_false, hl, or_self, ↓reduceIte]
      cases hg : lookup s key with
      | none => rfl
      | some y =>
        cases y with
        | config i => rfl
        | app k h => exact get_new hl
  | packet c closes =>
    simp only [step, hi.up, not_true_eq_false, ↓reduceIte]
    cases hg : get s.sess c with
    | none => cases closes <;> rfl
    | some k =>
      have ho := (hi.sess c k (get_mem hg)).1
      have he := (get_entries hi.nodup).2 ho
      cases closes with
      | true =>
        simp only [↓reduceIte, he]
        rw [get_filter]
        rfl
      | false =>
        simp only [Bool.false_eq_true, ↓reduceIte, he, Option.isSome_some]
        rfl

theorem run_owner : ∀ (as : List Act) (s : State) (bad : List Nat), Inv s bad →
    (∀ x ∈ trace s as, ∀ k, x.1.client = some k → k ∉ bad) → Silent (trace s as) → Upper as →
    (∃ bad', Inv (run s as).1 bad' ∧ (∀ k ∈ bad, k ∈ bad') ∧
      ∀ x ∈ trace s as, ∀ k, failed x.2 = some k → k ∈ bad') ∧
      get (run s as).1.sess = (trace s as).foldl (fun f x => given f x.1 x.2) (get s.sess) := by
  intro as
  induction as with
  | nil => intro s bad hi _ _ _; exact ⟨⟨bad, hi, fun _ h => h, by simp [trace]⟩, rfl⟩
  | cons a as ih =>
    intro s bad hi hb hs hu
    have hcl : ∀ k, a.client = some k → k ∉ bad := fun k hk => hb _ (List.mem_cons_self ..) k hk
    obtain ⟨h1, h2⟩ := step_inv hi a hcl
      (fun k tag num name h he => hu k tag num name h (by rw [he]; simp))
    rw [run_cons]
    have ht : trace s (a :: as) = (a, (step s a).2) :: trace (step s a).1 as := rfl
    rw [ht] at hs hb ⊢
    obtain ⟨⟨bad', h3, h4, h6⟩, h5⟩ := ih (step s a).1 _ h1 (by
      intro x hx k hk
      have hk' := hb x (List.mem_cons_of_mem _ hx) k hk
      unfold fallen
      cases hf : failed (step s a).2 with
      | none => exact hk'
      | some j =>
        simp only [List.mem_cons, not_or]
        refine ⟨?_, hk'⟩
        rintro rfl
        exact hs.1 k hf x hx hk) hs.2 (fun k tag num name h he => hu k tag num name h (by simp [he]))
    refine ⟨⟨bad', h3, ?_, ?_⟩, ?_⟩
    · intro k hk
      refine h4 k ?_
      unfold fallen
      split
      · exact List.mem_cons_of_mem _ hk
      · exact hk
    · intro x hx k hf
      rcases List.mem_cons.1 hx with rfl | hx
      · refine h4 k ?_
        unfold fallen
        simp only at hf
        rw [hf]
        exact List.mem_cons_self ..
      · exact h6 x hx k hf
    · rw [h5]
      have : get (step s a).1.sess = given (get s.sess) a (step s a).2 := funext (step_given hi a hcl)
      rw [this]
      rfl

/-- What is known of a history from the start. -/
theorem from_start {nums : List (Int × Nat)} {nms : List (Str × Nat)}
    (hc : Configured nums nms) (as : List Act) (hu : Upper as) (hs : Silent (trace (start nums nms) as)) :
    (∃ bad, Inv (run (start nums nms) as).1 bad ∧
      ∀ x ∈ trace (start nums nms) as, ∀ k, failed x.2 = some k → k ∈ bad) ∧
    get (run (start nums nms) as).1.sess = owner (trace (start nums nms) as) := by
  obtain ⟨⟨bad, h1, -, h3⟩, h2⟩ := run_owner as _ [] (start_inv hc) (by simp) hs hu
  exact ⟨⟨bad, h1, h3⟩, h2⟩

/-- C89: a packet on a connection is told to the application the connection belongs to, and to nobody
else; nobody is told about a connection that belongs to nobody. -/
theorem packet_to_owner_partial {nums : List (Int × Nat)} {nms : List (Str × Nat)}
    (hc : Configured nums nms) (as : List Act) (hu : Upper as) (hs : Silent (trace (start nums nms) as))
    (c : Nat) (closes : Bool) :
    (step (run (start nums nms) as).1 (.packet c closes)).2 =
      match owner (trace (start nums nms) as) c with
      | some k => [.message k c]
      | none => [] := by
  obtain ⟨⟨bad, hi, -⟩, ho⟩ := from_start hc as hu hs
  rw [← ho]
  simp only [step, hi.up, not_true_eq_false, ↓reduceIte]
  cases hg : get (run (start nums nms) as).1.sess c with
  | none => rfl
  | some k =>
    have he := (get_entries hi.nodup).2 (hi.sess c k (get_mem hg)).1
    cases closes <;> simp [he]

/-- C89: an application that has not failed fails exactly by arguments that cannot be used, by an internal
error, or by a call on a handle that is not an open connection of its own. -/
theorem fails_iff_partial {nums : List (Int × Nat)} {nms : List (Str × Nat)}
    (hc : Configured nums nms) (as : List Act) (hu : Upper as) (hs : Silent (trace (start nums nms) as))
    (k : Nat) (tag : Option Nat) (r : Req)
    (hk : ∀ x ∈ trace (start nums nms) as, failed x.2 ≠ some k) :
    (∃ cs, (step (run (start nums nms) as).1 (.req k tag r)).2 = [.aborted k cs]) ↔
      r = .malformed ∨ r = .connect .other ∨
      ∃ what h x, r = .call what h x ∧ (x = .other ∨ owner (trace (start nums nms) as) h ≠ some k) := by
  obtain ⟨⟨bad0, hi0, -⟩, ho⟩ := from_start hc as hu hs
  -- an application that has not failed is not among those
  obtain ⟨bad, hi, hbad⟩ : ∃ bad, Inv (run (start nums nms) as).1 bad ∧ k ∉ bad := by
    have aux : ∀ (as : List Act) (s : State) (bad : List Nat), Inv s bad →
        (∀ x ∈ trace s as, ∀ j, x.1.client = some j → j ∉ bad) → Silent (trace s as) → Upper as →
        k ∉ bad → (∀ x ∈ trace s as, failed x.2 ≠ some k) → ∃ bad', Inv (run s as).1 bad' ∧ k ∉ bad' := by
      intro as
      induction as with
      | nil => intro s bad hi _ _ _ hk _; exact ⟨bad, hi, hk⟩
      | cons a as ih =>
        intro s bad hi hb hs hu hk hf
        obtain ⟨h1, h2⟩ := step_inv hi a (fun j hj => hb _ (List.mem_cons_self ..) j hj)
          (fun k tag num name h he => hu k tag num name h (by rw [he]; simp))
        rw [run_cons]
        have ht : trace s (a :: as) = (a, (step s a).2) :: trace (step s a).1 as := rfl
        rw [ht] at hs hb hf
        refine ih (step s a).1 _ h1 ?_ hs.2 (fun k tag num name h he => hu k tag num name h (by simp [he])) ?_
          (fun x hx => hf x (List.mem_cons_of_mem _ hx))
        · intro x hx j hj
          have hj' := hb x (List.mem_cons_of_mem _ hx) j hj
          unfold fallen
          cases hfd : failed (step s a).2 with
          | none => exact hj'
          | some j2 =>
            simp only [List.mem_cons, not_or]
            refine ⟨?_, hj'⟩
            rintro rfl
            exact hs.1 j hfd x hx hj
        · unfold fallen
          cases hfd : failed (step s a).2 with
          | none => exact hk
          | some j2 =>
            simp only [List.mem_cons, not_or]
            refine ⟨?_, hk⟩
            rintro rfl
            exact hf _ (List.mem_cons_self ..) hfd
    exact aux as _ [] (start_inv hc) (by simp) hs hu (by simp) hk
  rw [← ho]
  generalize (run (start nums nms) as).1 = s at hi ho
  simp only [step, hi.up, ↓reduceIte]
  have hconn : ∀ h, get (entries s k) h = some .conn ↔ get s.sess h = some k := by
    intro h
    rw [get_entries hi.nodup]
    exact ⟨fun x => get_of_nodup hi.sessNodup (hi.conn k h x hbad), fun x => (hi.sess h k (get_mem x)).1⟩
  have hfail : ∃ cs, (fail s k).2 = [.aborted k cs] := ⟨_, fail_outs hi hbad⟩
  cases r with
  | bind num name h =>
    simp only [request]
    split
    · simp
    · split <;> simp
  | connect r =>
    cases r with
    | ok h =>
      simp only [request]
      split <;> simp
    | unknownNode => simp [request]
    | dna => simp [request]
    | other => simpa [request] using hfail
  | call what h r =>
    simp only [request]
    simp only [reduceCtorEq, false_or, Req.call.injEq]
    by_cases hown : get s.sess h = some k
    · rw [(hconn h).2 hown]
      simp only
      have hd : del s.sess h = some (s.sess.filter (·.1 ≠ h)) := del_some.2 ⟨⟨_, hown⟩, rfl⟩
      cases r with
      | dna =>
        simp only [List.cons.injEq, reduceCtorEq, and_true, exists_false, false_iff]
        rintro ⟨w, h', x, ⟨rfl, rfl, rfl⟩, hx | hx⟩
        · cases hx
        · exact hx hown
      | other => exact ⟨fun _ => ⟨what, h, _, ⟨rfl, rfl, rfl⟩, .inl rfl⟩, fun _ => hfail⟩
      | ok =>
        constructor
        · intro hx
          exfalso
          obtain ⟨cs, hx⟩ := hx
          cases hw : what.closes <;> simp [hw, hd] at hx
        · rintro ⟨w, h', x, ⟨rfl, rfl, rfl⟩, hx | hx⟩
          · cases hx
          · exact absurd hown hx
    · constructor
      · exact fun _ => ⟨what, h, r, ⟨rfl, rfl, rfl⟩, .inr hown⟩
      · intro _
        cases hg : get (entries s k) h with
        | none => exact hfail
        | some e =>
          cases e with
          | listener n m => exact hfail
          | conn => exact absurd ((hconn h).1 hg) hown
  | unknown => simp [request]
  | malformed => simpa [request] using hfail

/-- C90: what has failed or gone is not given any connection any more, nor told anything, whatever the
others do. -/
theorem gone_is_gone_partial {nums : List (Int × Nat)} {nms : List (Str × Nat)}
    (hc : Configured nums nms) (as : List Act) (hu : Upper as) (hs : Silent (trace (start nums nms) as))
    (k : Nat) (hk : ∃ x ∈ trace (start nums nms) as, failed x.2 = some k)
    (a : Act) (ha : a.client ≠ some k) :
    ∀ o ∈ (step (run (start nums nms) as).1 a).2,
      (∀ c h, o ≠ .connect k c h) ∧ (∀ c, o ≠ .message k c) ∧ (∀ t r, o ≠ .reply k t r) ∧
        ∀ cs, o ≠ .aborted k cs := by
  obtain ⟨⟨bad, hi, hf⟩, -⟩ := from_start hc as hu hs
  obtain ⟨x, hx, hxk⟩ := hk
  have hb : k ∈ bad := hf x hx k hxk
  generalize (run (start nums nms) as).1 = s at hi
  have hfo : ∀ j, ∀ o ∈ (fail s j).2, ∃ cs, o = .aborted j cs := by
    intro j o ho
    unfold fail at ho
    split at ho <;> exact ⟨_, List.mem_singleton.1 ho⟩
  intro o ho
  cases a with
  | req j tag r =>
    have hj : j ≠ k := fun e => ha (by rw [e]; rfl)
    have : (∃ x, o = .reply j tag x) ∨ ∃ cs, o = .aborted j cs := by
      simp only [step, hi.up, ↓reduceIte] at ho
      cases r with
      | bind num name h =>
        simp only [request] at ho
        split at ho
        · simp at ho
        · split at ho <;> exact .inl ⟨_, List.mem_singleton.1 ho⟩
      | connect r =>
        cases r with
        | ok h =>
          simp only [request] at ho
          split at ho
          · simp at ho
          · exact .inl ⟨_, List.mem_singleton.1 ho⟩
        | unknownNode => exact .inl ⟨_, List.mem_singleton.1 ho⟩
        | dna => exact .inl ⟨_, List.mem_singleton.1 ho⟩
        | other => exact .inr (hfo j o ho)
      | call what h r =>
        simp only [request] at ho
        cases hg : get (entries s j) h with
        | none => rw [hg] at ho; exact .inr (hfo j o ho)
        | some e =>
          rw [hg] at ho
          cases e with
          | listener n m => exact .inr (hfo j o ho)
          | conn =>
            cases r with
            | dna => exact .inl ⟨_, List.mem_singleton.1 ho⟩
            | other => exact .inr (hfo j o ho)
            | ok =>
              simp only at ho
              split at ho
              · cases hd : del s.sess h with
                | none => rw [hd] at ho; exact .inr (hfo j o ho)
                | some e => rw [hd] at ho; simp at ho
              · simp at ho
      | unknown => exact .inl ⟨_, List.mem_singleton.1 ho⟩
      | malformed => exact .inr (hfo j o ho)
    rcases this with ⟨x, rfl⟩ | ⟨cs, rfl⟩ <;> simp [hj]
  | exit j =>
    have hj : j ≠ k := fun e => ha (by rw [e]; rfl)
    simp only [step, hi.up, ↓reduceIte] at ho
    obtain ⟨cs, rfl⟩ := hfo j o ho
    simp [hj]
  | incoming c key =>
    unfold step at ho
    by_cases hl : c ∈ live s
    · simp [hl] at ho
    · simp only [hi.up, not_true_eq_false, hl, or_self, ↓reduceIte] at ho
      cases hg : lookup s key with
      | none => rw [hg] at ho; simp at ho; subst ho; simp
      | some y =>
        rw [hg] at ho
        cases y with
        | config i => simp at ho; subst ho; simp
        | app j h =>
          have hj : j ∉ bad := by
            cases key with
            | num n => exact (hi.numOf n j h hg).1
            | name m => exact (hi.nameOf _ j h hg).1
          have hjk : j ≠ k := fun e => hj (e ▸ hb)
          simp at ho; subst ho; simp [hjk]
  | packet c closes =>
    simp only [step, hi.up, not_true_eq_false, ↓reduceIte] at ho
    cases hg : get s.sess c with
    | none => rw [hg] at ho; simp at ho
    | some j =>
      rw [hg] at ho
      have hj := (hi.sess c j (get_mem hg)).2
      have hjk : j ≠ k := fun e => hj (e ▸ hb)
      have he := (get_entries hi.nodup).2 (hi.sess c j (get_mem hg)).1
      cases closes <;> simp [he] at ho <;> subst ho <;> simp [hjk]

end Verif.AppApi
