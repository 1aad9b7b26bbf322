import Verif.Pmr.Spec

/-!
# The matcher on routes
-/

namespace Verif.Pmr

theorem run_chr_nil (p : Nat → Bool) (k) (cs : Caps) : (Re.chr p).run k ([], cs) = none := rfl

theorem run_chr_cons (p : Nat → Bool) (k) (c : Nat) (r : Str) (cs : Caps) :
    (Re.chr p).run k (c :: r, cs) = if p c then k (r, cs) else none := rfl

theorem run_seq (a b : Re) (k st) : (Re.seq a b).run k st = a.run (b.run k) st := rfl
theorem run_alt (a b : Re) (k st) : (Re.alt a b).run k st = (a.run k st).or (b.run k st) := rfl
theorem run_eps (k st) : Re.eps.run k st = k st := rfl
theorem run_opt (a : Re) (k st) : a.opt.run k st = (a.run k st).or (k st) := rfl
theorem run_grp (n : Nat) (a : Re) (k st) : (Re.grp n a).run k st =
    a.run (fun st' => k (st'.1, (n, st.1.take (st.1.length - st'.1.length)) :: st'.2)) st := rfl
theorem run_eos (k) (st : St) : Re.eos.run k st = if st.1 = [] ∨ st.1 = [10] then k st else none := rfl

/-- A greedy loop over characters: if the longest works, that is taken. -/
theorem loop_full (p : Nat → Bool) (k : St → Option Caps) (w r : Str) (cs : Caps) (x : Caps) (hw : ∀ c ∈ w, p c = true)
    (hr : ∀ c s, r = c :: s → p c = false) (hk : k (r, cs) = some x) :
    ∀ n, w.length ≤ n → loop true (Re.chr p).run k n (w ++ r, cs) = some x := by
  induction w with
  | nil =>
    intro n _
    cases n with
    | zero => exact hk
    | succ n =>
      simp only [loop, if_true, List.nil_append]
      cases r with
      | nil => simp [run_chr_nil, hk]
      | cons c s => simp [run_chr_cons, hr c s rfl, hk]
  | cons c w ih =>
    intro n hn
    cases n with
    | zero => simp at hn
    | succ n =>
      simp only [loop, if_true, List.cons_append, run_chr_cons, hw c (by simp)]
      rw [if_pos (by simp), ih (fun d hd => hw d (by simp [hd])) n (by simpa using hn)]
      rfl

theorem plus_full (p : Nat → Bool) (k : St → Option Caps) (w r : Str) (cs : Caps) (x : Caps) (hn : w ≠ [])
    (hw : ∀ c ∈ w, p c = true) (hr : ∀ c s, r = c :: s → p c = false) (hk : k (r, cs) = some x) :
    (Re.plus (.chr p)).run k (w ++ r, cs) = some x := by
  cases w with
  | nil => exact absurd rfl hn
  | cons c w =>
    simp only [Re.plus, run_seq, List.cons_append, run_chr_cons, hw c (by simp), if_true]
    exact loop_full p k w r cs x (fun d hd => hw d (by simp [hd])) hr hk _ (by simp)

/-- If no stretch of characters of the set works, the loop fails. -/
theorem loop_none (p : Nat → Bool) (k : St → Option Caps) (cs : Caps) : ∀ n s,
    (∀ a b, s = a ++ b → (∀ c ∈ a, p c = true) → k (b, cs) = none) →
    loop true (Re.chr p).run k n (s, cs) = none := by
  intro n
  induction n with
  | zero => intro s h; exact h [] s rfl (by simp)
  | succ n ih =>
    intro s h
    simp only [loop, if_true]
    have h0 := h [] s rfl (by simp)
    rw [h0, Option.or_none]
    cases s with
    | nil => rfl
    | cons c s =>
      rw [run_chr_cons]
      split
      · rename_i hc
        simp only [List.length_cons, Nat.lt_add_one, if_true]
        refine ih s fun a b hab ha => h (c :: a) b (by simp [hab]) ?_
        intro d hd
        rcases List.mem_cons.mp hd with rfl | hd
        · exact hc
        · exact ha d hd
      · rfl

theorem plus_none (p : Nat → Bool) (k : St → Option Caps) (cs : Caps) (s : Str)
    (h : ∀ a b, s = a ++ b → a ≠ [] → (∀ c ∈ a, p c = true) → k (b, cs) = none) :
    (Re.plus (.chr p)).run k (s, cs) = none := by
  cases s with
  | nil => rfl
  | cons c s =>
    simp only [Re.plus, run_seq, run_chr_cons]
    split
    · rename_i hc
      refine loop_none p k cs _ s fun a b hab ha => h (c :: a) b (by simp [hab]) (by simp) ?_
      intro d hd
      rcases List.mem_cons.mp hd with rfl | hd
      · exact hc
      · exact ha d hd
    · rfl

theorem nodeName_char {n : Str} (h : NodeName n) : ∀ c ∈ n, nodeChar c = true := by
  intro c hc
  have := h.2 c hc
  simp only [nodeChar, Bool.or_eq_true, Bool.and_eq_true, decide_eq_true_eq, beq_iff_eq]
  omega

/-- What follows a name: nothing, or a colon. -/
def Ends (r : Str) : Prop := r = [] ∨ ∃ s, r = 58 :: s

theorem Ends.not {r : Str} (h : Ends r) (p : Nat → Bool) (hp : p 58 = false) : ∀ c s, r = c :: s → p c = false := by
  intro c s e
  rcases h with rfl | ⟨s', rfl⟩
  · cases e
  · cases e; exact hp

theorem digit58 (u : Uni) : u.digit 58 = false := by
  have := u.ascii_digit 58 (by omega)
  cases h : u.digit 58
  · rfl
  · have := this.mp h; omega

theorem digit61 (u : Uni) : u.digit 61 = false := by
  have := u.ascii_digit 61 (by omega)
  cases h : u.digit 61
  · rfl
  · have := this.mp h; omega

/-- A name where the user part may be: no user. -/
theorem user_fails (u : Uni) (k : St → Option Caps) (n r : Str) (cs : Caps) (hn : NodeName n) (hr : Ends r) :
    (Re.alt (.seq (.grp 3 (.plus (.chr u.digit))) (.chr (· == 61)))
      (.seq taskEq (.grp 4 (.plus (.chr fun c => !u.space c))))).run k (n ++ r, cs) = none := by
  have hA : (Re.seq (.grp 3 (.plus (.chr u.digit))) (.chr (· == 61))).run k (n ++ r, cs) = none := by
    rw [run_seq, run_grp]
    refine plus_none _ _ _ _ fun a b hab ha hd => ?_
    have hlen : a.length ≤ n.length := by
      refine Classical.byContradiction fun hl => ?_
      rcases hr with rfl | ⟨s, rfl⟩
      · have := congrArg List.length hab; simp at this; omega
      · have hm : a = n ++ a.drop n.length := by
          have h1 := congrArg (List.take a.length) hab
          rw [List.take_append_of_le_length (Nat.le_refl _), List.take_length] at h1
          have h2 : (List.take a.length (n ++ 58 :: s)).take n.length = n := by
            rw [List.take_take, Nat.min_eq_left (by omega), List.take_append_of_le_length (Nat.le_refl _), List.take_length]
          rw [h1] at h2
          conv => lhs; rw [← List.take_append_drop n.length a]
          rw [h2]
        have h58 : (58 : Nat) ∈ a := by
          rw [hm] at hab
          rw [List.append_assoc] at hab
          have h3 := List.append_cancel_left hab
          cases hd' : a.drop n.length with
          | nil => have := congrArg List.length hd'; simp at this; omega
          | cons x y =>
            rw [hd'] at h3
            simp at h3
            rw [hm, hd']
            simp [h3.1]
        have := hd 58 h58
        rw [digit58] at this; cases this
    have hb : b = n.drop a.length ++ r := by
      have := congrArg (List.drop a.length) hab
      rw [List.drop_append_of_le_length hlen] at this
      simpa using this.symm
    have hb61 : ∀ c s, b = c :: s → c ≠ 61 := by
      intro c s e
      rw [hb] at e
      cases hd' : n.drop a.length with
      | nil =>
        rw [hd'] at e
        rcases hr with rfl | ⟨s', rfl⟩
        · cases e
        · simp at e; omega
      | cons x y =>
        rw [hd'] at e
        simp at e
        have hx : x ∈ n := List.mem_of_mem_drop (by rw [hd']; simp)
        have := hn.2 x hx
        omega
    cases b with
    | nil => rfl
    | cons c s =>
      simp only [run_chr_cons]
      rw [if_neg (by simpa using hb61 c s rfl)]
  have hB : (Re.seq taskEq (.grp 4 (.plus (.chr fun c => !u.space c)))).run k (n ++ r, cs) = none := by
    have h61 : ∀ c ∈ n, c ≠ 61 ∧ c ≠ 58 := by
      intro c hc; have := hn.2 c hc; omega
    generalize (Re.grp 4 (.plus (.chr fun c => !u.space c))) = g
    have hr' : ∀ c s, r = c :: s → c = 58 := by
      intro c s e; rcases hr with rfl | ⟨s', rfl⟩
      · cases e
      · cases e; rfl
    simp only [taskEq, letter, run_seq]
    match n, r with
    | [], [] => rfl
    | [], c :: s => rw [hr' c s rfl]; rfl
    | [a], [] => simp [run_seq, run_chr_cons, run_chr_nil]
    | [a], c :: s => rw [hr' c s rfl]; simp [run_seq, run_chr_cons]
    | [a, b], [] => simp [run_seq, run_chr_cons, run_chr_nil]
    | [a, b], c :: s => rw [hr' c s rfl]; simp [run_seq, run_chr_cons]
    | [a, b, d], [] => simp [run_seq, run_chr_cons, run_chr_nil]
    | [a, b, d], c :: s => rw [hr' c s rfl]; simp [run_seq, run_chr_cons]
    | [a, b, d, e], [] => simp [run_seq, run_chr_cons, run_chr_nil]
    | [a, b, d, e], c :: s => rw [hr' c s rfl]; simp [run_seq, run_chr_cons]
    | a :: b :: d :: e :: f :: n, r =>
      have := (h61 f (by simp)).1
      simp [run_seq, run_chr_cons, this]
  rw [run_alt, hA, hB]; rfl

theorem quote_name (k : St → Option Caps) (n r : Str) (cs : Caps) (hn : NodeName n) :
    quote.run k (n ++ r, cs) = k (n ++ r, cs) := by
  obtain ⟨h0, h1⟩ := hn
  cases n with
  | nil => exact absurd rfl h0
  | cons c n =>
    have := h1 c (by simp)
    have hq : isQuote c = false := by
      simp only [isQuote, Bool.or_eq_false_iff, beq_eq_false_iff_ne]; omega
    simp [quote, run_opt, run_chr_cons, hq]

/-- Two colons and a name are not the end of a route. -/
theorem tail_fails (u : Uni) (k : St → Option Caps) (n r : Str) (cs : Caps) (hn : NodeName n) (hr : Ends r) :
    (tailRe u).run (Re.eos.run k) (58 :: 58 :: (n ++ r), cs) = none := by
  have hne : ∀ s : Str, ¬ (n ++ s = [] ∨ n ++ s = [10]) := by
    intro s h
    obtain ⟨h0, h1⟩ := hn
    cases n with
    | nil => exact absurd rfl h0
    | cons c n =>
      have := h1 c (by simp)
      simp at h
      omega
  unfold tailRe
  rw [run_opt, run_eos, if_neg (by simp), Option.or_none]
  simp only [run_seq, colons, run_chr_cons, beq_self_eq_true, if_true]
  rw [quote_name _ _ _ _ hn]
  unfold userRe
  rw [run_seq, run_opt, user_fails u _ n r cs hn hr, Option.none_or, quote_name _ _ _ _ hn, run_eos, if_neg (hne r)]

/-- How a tail is matched: the whole of it, with these groups. -/
def TailIs (u : Uni) (t : Str) (g : Caps) : Prop :=
  Ends t ∧ ∀ k cs, (k ([], g ++ cs)).isSome → (tailRe u).run (Re.eos.run k) (t, cs) = k ([], g ++ cs)

theorem colons_run (k : St → Option Caps) (s : Str) (cs : Caps) :
    colons.run k (58 :: 58 :: s, cs) = k (s, cs) := by
  simp [colons, run_seq, run_chr_cons]

theorem quote_nil (k : St → Option Caps) (cs : Caps) : quote.run k ([], cs) = k ([], cs) := by
  simp [quote, run_opt, run_chr_nil]

theorem quote_not (k : St → Option Caps) (c : Nat) (s : Str) (cs : Caps) (h : isQuote c = false) :
    quote.run k (c :: s, cs) = k (c :: s, cs) := by
  simp [quote, run_opt, run_chr_cons, h]

theorem quote_first (k : St → Option Caps) (c : Nat) (s : Str) (cs : Caps) (h : isQuote c = true)
    (x : Caps) (hk : k (s, cs) = some x) : quote.run k (c :: s, cs) = some x := by
  simp [quote, run_opt, run_chr_cons, h, hk]

theorem tail_nil (u : Uni) : TailIs u [] [] := by
  refine ⟨.inl rfl, fun k cs _ => ?_⟩
  unfold tailRe
  rw [run_opt]
  simp [run_seq, colons, run_chr_nil, run_eos]

theorem user_nil (u : Uni) (k : St → Option Caps) (cs : Caps) : (userRe u).run k ([], cs) = k ([], cs) := by
  simp [userRe, run_opt, run_alt, run_seq, run_grp, Re.plus, taskEq, letter, run_chr_nil]

theorem tail_bare (u : Uni) : TailIs u [58, 58] [] := by
  refine ⟨.inr ⟨_, rfl⟩, fun k cs hk => ?_⟩
  obtain ⟨x, hx⟩ := Option.isSome_iff_exists.mp hk
  unfold tailRe
  rw [run_opt]
  simp only [run_seq, colons_run, quote_nil, user_nil, run_eos, true_or, if_true]
  simp only [List.nil_append] at hx ⊢
  rw [hx]; rfl

/-- The tail with something in it, in terms of the user part. -/
theorem tail_some (u : Uni) (q s : Str) (g : Caps) (hq : ∀ c ∈ q, isQuote c = true) (hl : q.length ≤ 1)
    (hs : ∀ c r, s = c :: r → isQuote c = false)
    (h : ∀ k cs x, k ([], g ++ cs) = some x → (userRe u).run (quote.run (Re.eos.run k)) (s, cs) = some x) :
    TailIs u (58 :: 58 :: (q ++ s)) g := by
  refine ⟨.inr ⟨_, rfl⟩, fun k cs hk => ?_⟩
  obtain ⟨x, hx⟩ := Option.isSome_iff_exists.mp hk
  have hu := h k cs x hx
  unfold tailRe
  rw [run_opt]
  simp only [run_seq, colons_run]
  have : quote.run ((userRe u).run (quote.run (Re.eos.run k))) (q ++ s, cs) = some x := by
    match q, hl with
    | [], _ =>
      cases s with
      | nil => rw [List.nil_append, quote_nil]; exact hu
      | cons c r => rw [List.nil_append, quote_not _ _ _ _ (hs c r rfl)]; exact hu
    | [c], _ => exact quote_first _ _ _ _ (hq c (by simp)) x hu
    | _ :: _ :: _, h => simp at h
  have hf : (Re.seq (userRe u) quote).run (Re.eos.run k) = (userRe u).run (quote.run (Re.eos.run k)) := rfl
  rw [hf, this, hx]; rfl

theorem eos_nil (k : St → Option Caps) (cs : Caps) : Re.eos.run k ([], cs) = k ([], cs) := by
  simp [run_eos]

theorem quote_end (k : St → Option Caps) (q : Str) (cs : Caps) (x : Caps) (hq : ∀ c ∈ q, isQuote c = true)
    (hl : q.length ≤ 1) (hx : k ([], cs) = some x) : quote.run (Re.eos.run k) (q, cs) = some x := by
  match q, hl with
  | [], _ => rw [quote_nil, eos_nil]; exact hx
  | [c], _ => exact quote_first _ _ _ _ (hq c (by simp)) x (by rw [eos_nil]; exact hx)
  | _ :: _ :: _, h => simp at h

theorem digits_digit (u : Uni) {ds : Str} (h : Digits ds) : ∀ c ∈ ds, u.digit c = true := by
  intro c hc
  have := h.2 c hc
  exact (u.ascii_digit c (by omega)).mpr (by omega)

/-- A number, which may have quotes around it. -/
theorem tail_num (u : Uni) (q ds q' : Str) (hq : ∀ c ∈ q, isQuote c = true) (hl : q.length ≤ 1)
    (hq' : ∀ c ∈ q', isQuote c = true) (hl' : q'.length ≤ 1) (hd : Digits ds) :
    TailIs u (58 :: 58 :: (q ++ (ds ++ 61 :: q'))) [(3, ds)] := by
  refine tail_some u q _ _ hq hl ?_ ?_
  · intro c r e
    cases ds with
    | nil => exact absurd rfl hd.1
    | cons d ds =>
      have := hd.2 d (by simp)
      simp at e
      rw [← e.1]
      simp only [isQuote, Bool.or_eq_false_iff, beq_eq_false_iff_ne]
      omega
  · intro k cs x hx
    unfold userRe
    rw [run_opt, run_alt, run_seq, run_grp]
    have : (Re.plus (.chr u.digit)).run (fun st' => (Re.chr (· == 61)).run (quote.run (Re.eos.run k))
        (st'.1, (3, (ds ++ 61 :: q').take ((ds ++ 61 :: q').length - st'.1.length)) :: st'.2))
        (ds ++ 61 :: q', cs) = some x := by
      refine plus_full _ _ _ _ _ _ hd.1 (digits_digit u hd) ?_ ?_
      · intro c s e; cases e; exact digit61 u
      · simp only [run_chr_cons, beq_self_eq_true, if_true]
        refine quote_end _ _ _ _ hq' hl' ?_
        have : (ds ++ 61 :: q').take ((ds ++ 61 :: q').length - (61 :: q').length) = ds := by
          simp
        rw [this]; exact hx
    rw [this]; rfl

/-- A task; a quote before it is left out, one after it is not. -/
theorem tail_task (u : Uni) (q w t : Str) (hq : ∀ c ∈ q, isQuote c = true) (hl : q.length ≤ 1)
    (hw : TaskWord w) (ht : TaskName u t) :
    TailIs u (58 :: 58 :: (q ++ (w ++ t))) [(4, t)] := by
  obtain ⟨w1, w2, w3, w4, rfl, h1, h2, h3, h4⟩ := hw
  refine tail_some u q _ _ hq hl ?_ ?_
  · intro c r e
    simp at e
    rw [← e.1]
    simp only [isQuote, Bool.or_eq_false_iff, beq_eq_false_iff_ne]
    omega
  · intro k cs x hx
    unfold userRe
    rw [run_opt, run_alt]
    have hA : (Re.seq (.grp 3 (.plus (.chr u.digit))) (.chr (· == 61))).run (quote.run (Re.eos.run k))
        ([w1, w2, w3, w4, 61] ++ t, cs) = none := by
      have : u.digit w1 = false := by
        cases h : u.digit w1
        · rfl
        · have := (u.ascii_digit w1 (by omega)).mp h; omega
      simp [run_seq, run_grp, Re.plus, run_chr_cons, this]
    have hB : (Re.seq taskEq (.grp 4 (.plus (.chr fun c => !u.space c)))).run (quote.run (Re.eos.run k))
        ([w1, w2, w3, w4, 61] ++ t, cs) = some x := by
      have e1 : (w1 == 116 || w1 == 116 - 32 || ([] : List Nat).contains w1) = true := by
        rcases h1 with rfl | rfl <;> rfl
      have e2 : (w2 == 97 || w2 == 97 - 32 || ([] : List Nat).contains w2) = true := by
        rcases h2 with rfl | rfl <;> rfl
      have e3 : (w3 == 115 || w3 == 115 - 32 || [0x17F].contains w3) = true := by
        rcases h3 with rfl | rfl <;> rfl
      have e4 : (w4 == 107 || w4 == 107 - 32 || [0x212A].contains w4) = true := by
        rcases h4 with rfl | rfl <;> rfl
      simp only [run_seq, taskEq, letter, List.cons_append, List.nil_append, run_chr_cons, e1, e2, e3, e4, if_true,
        beq_self_eq_true]
      rw [run_grp]
      have : (Re.plus (.chr fun c => !u.space c)).run (fun st' => quote.run (Re.eos.run k)
          (st'.1, (4, t.take (t.length - st'.1.length)) :: st'.2)) (t ++ [], cs) = some x := by
        refine plus_full _ _ _ _ _ _ ht.1 ?_ ?_ ?_
        · intro c hc; simp [ht.2 c hc]
        · intro c s e; cases e
        · simp only [quote_nil, eos_nil, List.length_nil, Nat.sub_zero, List.take_length]
          exact hx
      rwa [List.append_nil] at this
    rw [hA, hB]; rfl

theorem ends_segs {ns : List Str} {t : Str} (ht : Ends t) : Ends (segs ns ++ t) := by
  cases ns with
  | nil => exact ht
  | cons n ns => exact .inr ⟨_, rfl⟩

theorem nameRe_full (k : St → Option Caps) (n r : Str) (cs x : Caps) (hn : NodeName n) (hr : Ends r)
    (hk : k (r, cs) = some x) : nameRe.run k (n ++ r, cs) = some x :=
  plus_full _ _ _ _ _ _ hn.1 (nodeName_char hn) (hr.not _ (by decide)) hk

/-- The loop over the nodes takes all of them. -/
theorem segs_loop (k : St → Option Caps) (t : Str) (ht : Ends t) (cs x : Caps) (hk : k (t, cs) = some x) :
    ∀ ns : List Str, (∀ n ∈ ns, NodeName n) →
    (∀ n ns', (∀ m ∈ n :: ns', NodeName m) → k (segs (n :: ns') ++ t, cs) = none) →
    ∀ m, (segs ns).length ≤ m →
    loop false (Re.seq colons nameRe).run k m (segs ns ++ t, cs) = some x := by
  intro ns
  induction ns with
  | nil =>
    intro _ _ m _
    cases m with
    | zero => exact hk
    | succ m => simp [loop, segs, hk]
  | cons n ns ih =>
    intro hns hfail m hm
    cases m with
    | zero => simp [segs] at hm
    | succ m =>
      simp only [loop, Bool.false_eq_true, if_false]
      rw [hfail n ns hns, Option.none_or, run_seq]
      have e : segs (n :: ns) ++ t = 58 :: 58 :: (n ++ (segs ns ++ t)) := by simp [segs]
      rw [e, colons_run]
      refine nameRe_full _ _ _ _ _ (hns n (by simp)) (ends_segs ht) ?_
      have hlt : (segs ns ++ t).length < (58 :: 58 :: (n ++ (segs ns ++ t))).length := by
        simp only [List.length_cons, List.length_append]; omega
      simp only [hlt, if_true]
      refine ih (fun a ha => hns a (by simp [ha])) hfail m ?_
      simp only [segs, List.length_cons, List.length_append] at hm
      omega

/-- The whole expression on a route. -/
theorem match_route (u : Uni) (n : Str) (ns : List Str) (t : Str) (g : Caps) (hn : NodeName n)
    (hns : ∀ m ∈ ns, NodeName m) (ht : TailIs u t g) :
    (pmrRe u).match (n ++ (segs ns ++ t)) = some (g ++ [(2, segs ns), (1, n)]) := by
  unfold Re.match pmrRe
  rw [run_seq, run_grp]
  refine nameRe_full _ _ _ _ _ hn (ends_segs ht.1) ?_
  have e1 : (n ++ (segs ns ++ t)).take ((n ++ (segs ns ++ t)).length - (segs ns ++ t).length) = n := by simp
  simp only [e1, run_seq]
  rw [run_grp]
  refine segs_loop _ t ht.1 _ _ ?_ ns hns ?_ _ (by simp)
  · have e2 : (segs ns ++ t).take ((segs ns ++ t).length - t.length) = segs ns := by simp
    simp only [e2]
    rw [run_seq, ht.2 _ _ (by rfl)]
  · intro m ns' hm
    have e3 : segs (m :: ns') ++ t = 58 :: 58 :: (m ++ (segs ns' ++ t)) := by simp [segs]
    simp only [e3]
    exact tail_fails u _ m _ _ (hm m (by simp)) (ends_segs ht.1)

end Verif.Pmr
