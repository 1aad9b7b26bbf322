import Verif.Ncp.SessTok

/-!
# Sessions with listeners that keep to the rules
-/

namespace Verif.Ncp

open Verif.Nml (Bytes PVal)

theorem ends_iff {line : Str} (hl : line ≠ []) :
    Ends line ↔ ∀ t r, tokens line = t :: r → i3eq1 t k!"exit" = true ∨ cmd.get t = none := by
  unfold Ends
  constructor
  · rintro ⟨-, h⟩ t r ht
    rcases h t r (toks_iff.2 ht) with h | h
    · exact .inl (by simpa [i3eq1, List.isPrefixOf_iff_prefix] using h)
    · right
      cases hc : cmd.get t with
      | none => rfl
      | some x => exact absurd (known_iff.2 ⟨x, hc⟩) h
  · intro h
    refine ⟨hl, fun t r ht => ?_⟩
    rcases h t r (toks_iff.1 ht) with h | h
    · exact .inl (by simpa [i3eq1, List.isPrefixOf_iff_prefix] using h)
    · refine .inr fun hk => ?_
      obtain ⟨x, hx⟩ := known_iff.1 hk
      rw [h] at hx; cases hx

theorem prompt_idle {s : St} {x : Option Conn} (hi : Idle s x) : beforePrompt s = some s := by
  unfold beforePrompt
  cases x with
  | none => rw [hi.dest]; rfl
  | some c =>
    rw [hi.dest]
    simp only [Option.map_some]
    cases rstrip c.node with
    | nil => rfl
    | cons a b =>
      simp only
      rw [hi.conn]
      simp only
      rw [if_pos (hi.opened c rfl)]

theorem session_run {env : Env} (hg : Good env) : ∀ (lines : List Str) (s : St) (x : Option Conn), Idle s x →
    ∃ o s' y e, session env lines s = (o, s') ∧ Idle s' y ∧ s'.log = s.log ++ e ∧ Runs (nodeOf x) lines e (nodeOf y) o ∧
      o ≠ .hung
  | [], s, x, hi => ⟨.on, s, x, [], rfl, hi, by simp, .nil _, by simp⟩
  | l :: ls, s, x, hi => by
    have hp := prompt_idle hi
    unfold session round
    rw [hp]
    simp only
    by_cases hl : l = []
    · rw [if_pos hl]
      subst hl
      obtain ⟨o, s', y, e, h1, h2, h3, h4, h5⟩ := session_run hg ls s x hi
      exact ⟨o, s', y, e, h1, h2, h3, .empty _ _ _ _ _ h4, h5⟩
    · rw [if_neg hl]
      by_cases he : Ends l
      · refine ⟨.ended, s, x, [], ?_, hi, by simp, .ended _ _ _ he, by simp⟩
        rw [ends_iff hl] at he
        cases ht : tokens l with
        | nil => rfl
        | cons t r =>
          rcases he t r ht with h | h
          · simp [h]
          · simp only
            by_cases h' : i3eq1 t k!"exit" = true
            · simp [h']
            · rw [if_neg h']
              simp [docmd, h]
      · have he' := he
        rw [ends_iff hl] at he'
        simp only [Classical.not_forall] at he'
        obtain ⟨t, r, ht, hn⟩ := he'
        rw [not_or] at hn
        have hk : Known t := by
          rw [known_iff]
          cases hc : cmd.get t with
          | none => exact absurd hc hn.2
          | some v => exact ⟨v, rfl⟩
        rw [ht]
        simp only
        rw [if_neg hn.1]
        obtain ⟨s1, y, e, h1, h2, h3, h4⟩ := docmd_run hg hi (rest := r) hk
        rw [h1]
        simp only
        obtain ⟨o, s', z, e', k1, k2, k3, k4, k5⟩ := session_run hg ls s1 y h2
        refine ⟨o, s', z, e ++ e', k1, k2, by rw [k3, h3, List.append_assoc], ?_, k5⟩
        exact .line _ _ _ _ _ _ _ _ _ hl he (toks_iff.2 ht) h4 k4

theorem idle_start : Idle {} none :=
  ⟨rfl, rfl, rfl, by decide, (fun _ h => by cases h), (by unfold Old; simp)⟩


/-! ## What is displayed -/

/-- Every reply on the screen is part of the answer to the last request before it. -/
def FromLast (e : List Ev) : Prop := ∀ a r b, e = a ++ .shown r :: b →
  ∃ a' n q ans l, a = a' ++ .ask n q ans :: screen l ∧ .data r ∈ ans

theorem fromLast_append {e1 e2 : List Ev} (h1 : FromLast e1) (h2 : FromLast e2) : FromLast (e1 ++ e2) := by
  intro a r b h
  rcases List.append_eq_append_iff.1 h with ⟨c, rfl, hc⟩ | ⟨c, hc, hd⟩
  · obtain ⟨a', n, q, ans, l, rfl, hm⟩ := h2 c r b hc
    exact ⟨e1 ++ a', n, q, ans, l, by simp, hm⟩
  · cases c with
    | nil =>
      rw [List.nil_append] at hd
      rw [List.append_nil] at hc
      subst hc
      obtain ⟨a', n, q, ans, l, h, hm⟩ := h2 [] r b hd.symm
      simp at h
    | cons x c =>
      rw [List.cons_append, List.cons.injEq] at hd
      obtain ⟨rfl, -⟩ := hd
      exact h1 a r c hc

theorem fromLast_quiet {e : List Ev} (h : ∀ r, .shown r ∉ e) : FromLast e := by
  rintro a r b rfl
  exact absurd (by simp) (h r)

theorem body_sub {x : Option Str} {ans : List Reply} {l : List Bytes} (h : Body x ans l) : ∀ r ∈ l, Reply.data r ∈ ans := by
  cases h <;> simp_all

theorem untilError_sub : ∀ {l : List Bytes} {r : Bytes}, r ∈ untilError l → r ∈ l
  | [], _, h => h
  | x :: l, r, h => by
    unfold untilError at h
    split at h
    · simp only [List.mem_cons, List.not_mem_nil, or_false] at h
      simp [h]
    · rcases List.mem_cons.1 h with rfl | h
      · simp
      · simp [untilError_sub h]

theorem asks_sub {toks : List Str} {req : Bytes} {f : List Bytes → List Bytes} (h : Asks toks req f) (l : List Bytes) :
    ∀ r ∈ f l, r ∈ l := by
  cases h
  · exact fun r => untilError_sub
  · exact fun r => untilError_sub
  · exact fun r h => h

theorem fromLast_ask {n : Option Str} {q : Bytes} {ans : List Reply} {l : List Bytes} (h : ∀ r ∈ l, Reply.data r ∈ ans) :
    FromLast (.ask n q ans :: screen l) := by
  intro a r b he
  cases a with
  | nil => simp at he
  | cons x a =>
    rw [List.cons_append, List.cons.injEq] at he
    obtain ⟨rfl, he⟩ := he
    unfold screen at he
    rw [List.map_eq_append_iff] at he
    obtain ⟨l1, l2, rfl, h1, h2⟩ := he
    rw [List.map_eq_cons_iff] at h2
    obtain ⟨r', l3, rfl, h2, -⟩ := h2
    cases h2
    exact ⟨[], n, q, ans, l1, by simp [screen, h1], h r (by simp)⟩

theorem quiet_dropped (x : Option Str) (r : Bytes) : Ev.shown r ∉ dropped x := by cases x <;> simp [dropped]

theorem does_fromLast {x y : Option Str} {toks : List Str} {e : List Ev} (h : Does x toks e y) : FromLast e := by
  cases h with
  | ask req f ans l ha hb => exact fromLast_ask fun r hr => body_sub hb r (asks_sub ha l r hr)
  | set => refine fromLast_quiet fun r => ?_; simp [quiet_dropped]
  | setRefused => refine fromLast_quiet fun r => ?_; simp [quiet_dropped]
  | setWrong => exact fromLast_quiet (quiet_dropped _)
  | clear => exact fromLast_quiet (quiet_dropped _)
  | tell d acc inner b req f ans l ht ha hb =>
    have h1 : FromLast [Ev.conn d (given acc) (.accept b)] := fromLast_quiet (by simp)
    have h2 : FromLast [Ev.disc d] := fromLast_quiet (by simp)
    have h3 : FromLast (.ask (some d) req ans :: screen (f l)) :=
      fromLast_ask fun r hr => body_sub hb r (asks_sub ha l r hr)
    simpa using fromLast_append (fromLast_append h1 h3) h2
  | tellRefused => exact fromLast_quiet (by simp)
  | tellNothing => exact fromLast_quiet (by simp)
  | nothing => exact fromLast_quiet (by simp)

theorem runs_fromLast {x y : Option Str} {lines : List Str} {e : List Ev} {o : Out} (h : Runs x lines e y o) :
    FromLast e := by
  induction h with
  | nil => exact fromLast_quiet (by simp)
  | ended => exact fromLast_quiet (by simp)
  | empty _ _ _ _ _ _ ih => exact ih
  | line x l ts ls e1 y e2 z o _ _ _ hd _ ih => exact fromLast_append (does_fromLast hd) ih

end Verif.Ncp
