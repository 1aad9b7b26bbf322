import Verif.ConfFile.Lemmas

/-!
# Reading the configuration is reading the files put together

C126.
-/

namespace Verif.ConfFile

variable {V C : Type}

theorem bare_ne (ws : Char → Bool) (raw l : Str) (h : Contains ws raw l) : l ≠ [] := by
  rintro rfl; obtain ⟨⟨⟨c, hc, _⟩, _⟩, _⟩ := h; simp at hc

theorem classify_blank (ws : Char → Bool) (pre : Option Str) (raw : Str) (h : ∀ c ∈ raw, ws c = true) :
    classify ws pre raw = .skip := by
  simp [classify, strip_blank ws raw h]

theorem classify_comment (ws : Char → Bool) (pre : Option Str) (raw t : Str)
    (h : Contains ws raw ('#' :: t)) : classify ws pre raw = .skip := by
  simp [classify, strip_contains ws raw _ h]

theorem classify_other (ws : Char → Bool) (pre : Option Str) (raw l : Str)
    (h : Contains ws raw l) (h1 : l.head? ≠ some '#') :
    classify ws pre raw = kindOf ws (prefixed pre l) := by
  have := bare_ne ws raw l h
  simp [classify, strip_contains ws raw _ h, this, h1]

theorem classify_incl (ws : Char → Bool) (hs : Sane ws) (raw name : Str)
    (h : Contains ws raw ('@' :: name)) (hn : Word ws name) :
    classify ws none raw = .incl name none := by
  rw [classify_other ws none raw _ h (by simp), prefixed]
  refine kind_single_at ws name (fun c hc => ?_) hn.1
  rcases List.mem_cons.mp hc with rfl | hc
  · exact hs.at_
  · exact hn.2 c hc

theorem classify_inclIn (ws : Char → Bool) (hs : Sane ws) (comp raw name : Str) (hc : Word ws comp)
    (h : Contains ws raw ('@' :: name)) (hn : name ≠ []) :
    classify ws (some comp) raw = .incl name (some comp) := by
  rw [classify_other ws _ raw _ h (by simp), prefixed]
  have e : comp ++ ' ' :: '@' :: name = comp ++ [' '] ++ '@' :: name := by simp
  rw [e, kind_word ws comp [' '] _ hc.2 ⟨by simp, by simp [hs.blank]⟩ ⟨'@', rfl, hs.at_⟩]
  simp [restKind, hn]

theorem classify_comp (ws : Char → Bool) (hs : Sane ws) (raw comp gap name : Str)
    (h : Contains ws raw (comp ++ gap ++ '@' :: name)) (hc : Word ws comp) (h1 : comp.head? ≠ some '#')
    (hg : gap ≠ [] ∧ ∀ c ∈ gap, ws c = true) (hn : name ≠ []) :
    classify ws none raw = .incl name (some comp) := by
  obtain ⟨x, t, rfl⟩ := List.exists_cons_of_ne_nil hc.1
  rw [classify_other ws _ raw _ h (by simpa using h1), prefixed,
    kind_word ws _ gap _ hc.2 hg ⟨'@', rfl, hs.at_⟩]
  simp [restKind, hn]

theorem classify_entry (ws : Char → Bool) (raw l : Str)
    (h : Contains ws raw l) (h1 : l.head? ≠ some '#') (h2 : l.head? ≠ some '@' ∨ l = ['@'])
    (h3 : ∀ w gap r, l = w ++ gap ++ '@' :: r → Word ws w → gap ≠ [] → r ≠ [] →
      ¬ ∀ c ∈ gap, ws c = true) :
    classify ws none raw = .entry l := by
  rw [classify_other ws _ raw _ h h1, prefixed]
  rcases word_cases ws l h.1 with hw | ⟨w, gap, r, rfl, hw, hg, c, hc, wc⟩
  · exact kind_single ws l hw.2 h2
  · rw [kind_word ws w gap r hw.2 hg ⟨c, hc, wc⟩]
    unfold restKind
    split
    · rename_i ifn
      by_cases hi : ifn = []
      · simp [hi]
      · exact absurd hg.2 (h3 w gap ifn rfl hw hg.1 hi)
    · rfl

theorem classify_entryIn (ws : Char → Bool) (hs : Sane ws) (comp raw l : Str) (hcw : Word ws comp)
    (h : Contains ws raw l) (h1 : l.head? ≠ some '#') (h2 : l.head? ≠ some '@' ∨ l = ['@']) :
    classify ws (some comp) raw = .entry (comp ++ ' ' :: l) := by
  rw [classify_other ws _ raw _ h h1, prefixed]
  have e : comp ++ ' ' :: l = comp ++ [' '] ++ l := by simp
  rw [e, kind_word ws comp [' '] l hcw.2 ⟨by simp, by simp [hs.blank]⟩ h.1.1]
  rcases h2 with h2 | rfl
  · unfold restKind
    split
    · simp at h2
    · rfl
  · rfl

theorem follow_append (env : Env V C) (a b : List Str) (s : St V C) (bad : List Str) :
    follow env (a ++ b) s bad = (follow env a s bad).bind fun r => follow env b r.1 r.2 := by
  induction a generalizing s bad with
  | nil => rfl
  | cons l a ih =>
    simp only [List.cons_append, follow]
    cases env.parse l with
    | raise => rfl
    | error => exact ih _ _
    | entry e => dsimp only; split <;> exact ih _ _

/-- A result as an outcome. -/
def outOf : Option (St V C × List Str) → Out (St V C)
  | none => .raise
  | some r => .done r.1 r.2

theorem entry_follow (env : Env V C) (l : Str) (s : St V C) (bad : List Str) :
    entry env l s bad = outOf (follow env [l] s bad) := by
  simp only [entry, follow]
  cases env.parse l with
  | raise => rfl
  | error => rfl
  | entry e => dsimp only; split <;> rfl

/-- The prefix is a word. -/
def PreOk (ws : Char → Bool) (pre : Option Str) : Prop := ∀ c, pre = some c → Word ws c

theorem lines_entry (env : Env V C) (rec) (p : Str) (pre : Option Str) (raw l : Str) (ls es : List Str)
    (hk : classify env.ws pre raw = .entry l)
    (ih : ∀ s bad, lines env rec p pre ls s bad = outOf (follow env es s bad)) (s : St V C) (bad : List Str) :
    lines env rec p pre (raw :: ls) s bad = outOf (follow env (l :: es) s bad) := by
  rw [lines, hk]
  dsimp only
  rw [entry_follow, show l :: es = [l] ++ es from rfl, follow_append]
  cases follow env [l] s bad with
  | none => rfl
  | some r => exact ih _ _

theorem lines_incl (env : Env V C) (rec) (p : Str) (pre pre' : Option Str) (raw name : Str)
    (ls es es' : List Str) (hk : classify env.ws pre raw = .incl name pre')
    (h1 : ∀ s bad, rec (join (dirname p) name) pre' s bad = outOf (follow env es s bad))
    (ih : ∀ s bad, lines env rec p pre ls s bad = outOf (follow env es' s bad)) (s : St V C) (bad : List Str) :
    lines env rec p pre (raw :: ls) s bad = outOf (follow env (es ++ es') s bad) := by
  rw [lines, hk]
  dsimp only
  rw [h1, follow_append]
  cases follow env es s bad with
  | none => rfl
  | some r => exact ih _ _

theorem lines_skip (env : Env V C) (rec) (p : Str) (pre : Option Str) (raw : Str)
    (ls es : List Str) (hk : classify env.ws pre raw = .skip)
    (ih : ∀ s bad, lines env rec p pre ls s bad = outOf (follow env es s bad)) (s : St V C) (bad : List Str) :
    lines env rec p pre (raw :: ls) s bad = outOf (follow env es s bad) := by
  rw [lines, hk]; exact ih _ _

mutual
theorem reads_sound (env : Env V C) (hs : Sane env.ws) (p : Str) (pre : Option Str) (es : List Str)
    (h : Reads env p pre es) (hp : PreOk env.ws pre) :
    ∃ n0, ∀ n, n0 ≤ n → ∀ s bad, scan env n p pre s bad = outOf (follow env es s bad) := by
  match h with
  | .file _ _ ls _ hf hl =>
    obtain ⟨n0, h0⟩ := readsL_sound env hs p pre ls es hl hp
    refine ⟨n0 + 1, fun n hn s bad => ?_⟩
    obtain ⟨m, rfl⟩ : ∃ m, n = m + 1 := ⟨n - 1, by omega⟩
    rw [scan, hf]
    exact h0 m (by omega) s bad
theorem readsL_sound (env : Env V C) (hs : Sane env.ws) (p : Str) (pre : Option Str) (ls es : List Str)
    (h : ReadsL env p pre ls es) (hp : PreOk env.ws pre) :
    ∃ n0, ∀ n, n0 ≤ n → ∀ s bad, lines env (scan env n) p pre ls s bad = outOf (follow env es s bad) := by
  match h with
  | .nil _ _ => exact ⟨0, fun _ _ _ _ => rfl⟩
  | .blank _ _ raw ls _ hb hl =>
    obtain ⟨n0, h0⟩ := readsL_sound env hs p pre ls es hl hp
    exact ⟨n0, fun n hn => lines_skip env _ p pre raw ls es (classify_blank _ _ _ hb) (h0 n hn)⟩
  | .comment _ _ raw t ls _ hb hl =>
    obtain ⟨n0, h0⟩ := readsL_sound env hs p pre ls es hl hp
    exact ⟨n0, fun n hn => lines_skip env _ p pre raw ls es (classify_comment _ _ _ _ hb) (h0 n hn)⟩
  | .incl _ raw name ls e1 e2 hc hn hr hl =>
    obtain ⟨n0, h0⟩ := readsL_sound env hs p none ls e2 hl hp
    obtain ⟨n1, h1⟩ := reads_sound env hs _ none e1 hr hp
    exact ⟨max n0 n1, fun n hm => lines_incl env _ p none none raw name ls e1 e2
      (classify_incl _ hs _ _ hc hn) (h1 n (by omega)) (h0 n (by omega))⟩
  | .inclIn _ comp raw name ls e1 e2 hc hn hr hl =>
    obtain ⟨n0, h0⟩ := readsL_sound env hs p (some comp) ls e2 hl hp
    obtain ⟨n1, h1⟩ := reads_sound env hs _ (some comp) e1 hr hp
    exact ⟨max n0 n1, fun n hm => lines_incl env _ p _ _ raw name ls e1 e2
      (classify_inclIn _ hs comp _ _ (hp comp rfl) hc hn) (h1 n (by omega)) (h0 n (by omega))⟩
  | .comp _ raw comp gap name ls e1 e2 hc hw _ hh hg hn hr hl =>
    obtain ⟨n0, h0⟩ := readsL_sound env hs p none ls e2 hl hp
    obtain ⟨n1, h1⟩ := reads_sound env hs _ (some comp) e1 hr (by rintro _ ⟨⟩; exact hw)
    exact ⟨max n0 n1, fun n hm => lines_incl env _ p _ _ raw name ls e1 e2
      (classify_comp _ hs _ comp gap name hc hw hh hg hn) (h1 n (by omega)) (h0 n (by omega))⟩
  | .entry _ raw l ls es hc h1 h2 h3 hl =>
    obtain ⟨n0, h0⟩ := readsL_sound env hs p none ls es hl hp
    exact ⟨n0, fun n hn => lines_entry env _ p none raw l ls es
      (classify_entry _ _ _ hc h1 h2 h3) (h0 n hn)⟩
  | .entryIn _ comp raw l ls es hc h1 h2 hl =>
    obtain ⟨n0, h0⟩ := readsL_sound env hs p (some comp) ls es hl hp
    exact ⟨n0, fun n hn => lines_entry env _ p (some comp) raw _ ls es
      (classify_entryIn _ hs comp _ _ (hp comp rfl) hc h1 h2) (h0 n hn)⟩
end

/-- Every line is one of those of the description. -/
theorem lines_complete (env : Env V C) (hs : Sane env.ws) (n : Nat)
    (ihn : ∀ p pre s bad s' bad', PreOk env.ws pre → scan env n p pre s bad = .done s' bad' →
      ∃ es, Reads env p pre es ∧ follow env es s bad = some (s', bad'))
    (p : Str) (pre : Option Str) (ls : List Str)
    (ht : ∀ raw ∈ ls, ∀ name, Contains env.ws raw ('@' :: name) → ∀ c ∈ name, env.ws c = false)
    (hp : PreOk env.ws pre) (s s' : St V C) (bad bad' : List Str)
    (h : lines env (scan env n) p pre ls s bad = .done s' bad') :
    ∃ es, ReadsL env p pre ls es ∧ follow env es s bad = some (s', bad') := by
  induction ls generalizing s bad with
  | nil =>
    simp only [lines, Out.done.injEq] at h
    exact ⟨[], .nil p pre, by rw [follow, h.1, h.2]⟩
  | cons raw ls ih =>
    have ih' := fun s bad h => ih (fun r hr => ht r (by simp [hr])) s bad h
    -- an entry
    have doEntry : ∀ l, classify env.ws pre raw = .entry l → (∀ es, ReadsL env p pre ls es →
        ReadsL env p pre (raw :: ls) (l :: es)) →
        ∃ es, ReadsL env p pre (raw :: ls) es ∧ follow env es s bad = some (s', bad') := by
      intro l hk hR
      rw [lines, hk] at h
      dsimp only at h
      rw [entry_follow] at h
      cases hf : follow env [l] s bad with
      | none => rw [hf] at h; cases h
      | some r =>
        rw [hf] at h
        obtain ⟨es, h1, h2⟩ := ih' r.1 r.2 h
        exact ⟨l :: es, hR es h1, by rw [show l :: es = [l] ++ es from rfl, follow_append, hf]; exact h2⟩
    have doIncl : ∀ name pre', classify env.ws pre raw = .incl name pre' → PreOk env.ws pre' →
        (∀ es es', Reads env (join (dirname p) name) pre' es → ReadsL env p pre ls es' →
        ReadsL env p pre (raw :: ls) (es ++ es')) →
        ∃ es, ReadsL env p pre (raw :: ls) es ∧ follow env es s bad = some (s', bad') := by
      intro name pre' hk hpre hR
      rw [lines, hk] at h
      dsimp only at h
      cases hf : scan env n (join (dirname p) name) pre' s bad with
      | deep => rw [hf] at h; cases h
      | raise => rw [hf] at h; cases h
      | done s1 bad1 =>
        rw [hf] at h
        obtain ⟨e1, r1, f1⟩ := ihn _ _ _ _ _ _ hpre hf
        obtain ⟨e2, r2, f2⟩ := ih' s1 bad1 h
        exact ⟨e1 ++ e2, hR e1 e2 r1 r2, by rw [follow_append, f1]; exact f2⟩
    rcases strip_cases env.ws raw with hb | ⟨hne, hc⟩
    · rw [lines, classify_blank _ _ _ hb] at h
      obtain ⟨es, h1, h2⟩ := ih' s bad h
      exact ⟨es, .blank p pre raw ls es hb h1, h2⟩
    · generalize strip env.ws raw = l at hne hc
      by_cases hh : l.head? = some '#'
      · obtain ⟨x, t, rfl⟩ := List.exists_cons_of_ne_nil hne
        simp at hh; subst hh
        rw [lines, classify_comment _ _ _ _ hc] at h
        obtain ⟨es, h1, h2⟩ := ih' s bad h
        exact ⟨es, .comment p pre raw t ls es hc h1, h2⟩
      by_cases ha : l.head? = some '@' ∧ l ≠ ['@']
      · obtain ⟨x, name, rfl⟩ := List.exists_cons_of_ne_nil hne
        have := ha.1; simp at this; subst this
        have hn : name ≠ [] := fun e => ha.2 (by rw [e])
        have hw := ht raw (by simp) name hc
        cases pre with
        | none =>
          exact doIncl name none (classify_incl _ hs _ _ hc ⟨hn, hw⟩) hp
            fun es es' h1 h2 => .incl p raw name ls es es' hc ⟨hn, hw⟩ h1 h2
        | some comp =>
          exact doIncl name (some comp) (classify_inclIn _ hs comp _ _ (hp comp rfl) hc hn) hp
            fun es es' h1 h2 => .inclIn p comp raw name ls es es' hc hn h1 h2
      have ha' : l.head? ≠ some '@' ∨ l = ['@'] := by
        by_cases e : l = ['@']
        · exact .inr e
        · exact .inl fun e2 => ha ⟨e2, e⟩
      cases pre with
      | some comp =>
        exact doEntry _ (classify_entryIn _ hs comp _ _ (hp comp rfl) hc hh ha')
          fun es h1 => .entryIn p comp raw l ls es hc hh ha' h1
      | none =>
        by_cases h3 : ∃ w gap r, l = w ++ gap ++ '@' :: r ∧ Word env.ws w ∧ gap ≠ [] ∧ r ≠ [] ∧
          ∀ c ∈ gap, env.ws c = true
        · obtain ⟨w, gap, r, rfl, hw, hg, hr, hgw⟩ := h3
          obtain ⟨x, t, rfl⟩ := List.exists_cons_of_ne_nil hw.1
          have hx : (x :: t).head? ≠ some '@' := by
            rcases ha' with h | h
            · simpa using h
            · exfalso
              have := congrArg List.length h
              simp at this
          exact doIncl r (some (x :: t)) (classify_comp _ hs _ (x :: t) gap r hc hw (by simpa using hh) ⟨hg, hgw⟩ hr)
            (by rintro _ ⟨⟩; exact hw)
            fun es es' h1 h2 => .comp p raw (x :: t) gap r ls es es' hc hw hx (by simpa using hh) ⟨hg, hgw⟩ hr h1 h2
        · have h3' : ∀ w gap r, l = w ++ gap ++ '@' :: r → Word env.ws w → gap ≠ [] → r ≠ [] →
              ¬ ∀ c ∈ gap, env.ws c = true := fun w gap r e hw hg hr hgw =>
            h3 ⟨w, gap, r, e, hw, hg, hr, hgw⟩
          exact doEntry _ (classify_entry _ _ _ hc hh ha' h3')
            fun es h1 => .entry p raw l ls es hc hh ha' h3' h1

theorem reads_complete (env : Env V C) (hs : Sane env.ws) (ht : Tame env) (n : Nat) :
    ∀ p pre s bad s' bad', PreOk env.ws pre → scan env n p pre s bad = .done s' bad' →
      ∃ es, Reads env p pre es ∧ follow env es s bad = some (s', bad') := by
  induction n with
  | zero => intro p pre s bad s' bad' _ h; cases h
  | succ n ih =>
    intro p pre s bad s' bad' hp h
    rw [scan] at h
    cases hf : env.files p with
    | none => rw [hf] at h; cases h
    | some ls =>
      rw [hf] at h
      obtain ⟨es, h1, h2⟩ := lines_complete env hs n ih p pre ls (ht p ls hf) hp s s' bad bad' h
      exact ⟨es, .file p pre ls es hf h1, h2⟩

/-- **Includes (C126).**  The configuration is read to its end exactly if the
files put together as the description says come down to a list of entries
none of which raises, and then the outcome is that of these entries in order:
what is stored and which lines are reported.  Names of included files are
taken without white space. -/
theorem scan_iff_partial (env : Env V C) (hs : Sane env.ws) (ht : Tame env) (p : Str) (s s' : St V C)
    (bad : List Str) :
    (∃ n, scan env n p none s [] = .done s' bad) ↔
      ∃ es, Reads env p none es ∧ follow env es s [] = some (s', bad) := by
  constructor
  · rintro ⟨n, h⟩
    exact reads_complete env hs ht n p none s [] s' bad (by rintro _ ⟨⟩) h
  · rintro ⟨es, h, hf⟩
    obtain ⟨n, h0⟩ := reads_sound env hs p none es h (by rintro _ ⟨⟩)
    exact ⟨n, by rw [h0 n (Nat.le_refl n), hf]; rfl⟩

end Verif.ConfFile
