import Verif.Nft.Client

/-!
# Runs of the two machines

Either machine is deterministic and they only share two queues, so the order in which they are run does not
matter: if one run comes to an end, all do, and it is the same end.
-/

namespace Verif.Nft

/-- A run of `n` steps. -/
inductive Run (h : Host) : Nat → Sys → Sys → Prop
  | nil (s) : Run h 0 s s
  | cons {n a b c} : Step h a b → Run h n b c → Run h (n + 1) a c

/-- However the two are scheduled, they come to rest, and in this state. -/
def Ends (h : Host) (a t : Sys) : Prop :=
  (∀ b, ¬ Step h t b) ∧ ∃ n, ∀ m b, Run h m a b → m ≤ n ∧ Run h (n - m) b t

variable {h : Host}

theorem Run.trans {m n : Nat} {a b c : Sys} (h1 : Run h m a b) (h2 : Run h n b c) : Run h (m + n) a c := by
  induction h1 with
  | nil _ => simpa using h2
  | @cons k _ _ _ s _ ih =>
    have e : k + 1 + n = (k + n) + 1 := by omega
    rw [e]; exact .cons s (ih h2)

theorem diamond {a b c : Sys} (h1 : Step h a b) (h2 : Step h a c) : b = c ∨ ∃ d, Step h b d ∧ Step h c d := by
  cases h1 with
  | @srv m up e =>
    cases h2 with
    | @srv m' up' e' =>
      rw [e] at e'; cases e'; exact .inl rfl
    | @cli m' down r e' f =>
      refine .inr ⟨Sys.mk r.1 (a.srv.step h m).1 (up ++ r.2.1) (down ++ (a.srv.step h m).2) (a.seen ++ r.2.2), ?_, ?_⟩
      · exact Step.cli (s := { a with srv := _, up := up, down := a.down ++ (a.srv.step h m).2 }) (m := m')
          (down := down ++ (a.srv.step h m).2) (by simp [e']) f
      · exact Step.srv (s := { a with cli := r.1, up := a.up ++ r.2.1, down := down, seen := a.seen ++ r.2.2 }) (m := m)
          (up := up ++ r.2.1) (by simp [e])
  | @cli m down r e f =>
    cases h2 with
    | @srv m' up e' =>
      refine .inr ⟨Sys.mk r.1 (a.srv.step h m').1 (up ++ r.2.1) (down ++ (a.srv.step h m').2) (a.seen ++ r.2.2), ?_, ?_⟩
      · exact Step.srv (s := { a with cli := r.1, up := a.up ++ r.2.1, down := down, seen := a.seen ++ r.2.2 }) (m := m')
          (up := up ++ r.2.1) (by simp [e'])
      · exact Step.cli (s := { a with srv := _, up := up, down := a.down ++ (a.srv.step h m').2 }) (m := m)
          (down := down ++ (a.srv.step h m').2) (by simp [e]) f
    | @cli m' down' r' e' f' =>
      rw [e] at e'; cases e'
      rw [f] at f'; cases f'
      exact .inl rfl

theorem run_all {t : Sys} (ht : ∀ b, ¬ Step h t b) {n : Nat} : ∀ {a : Sys}, Run h n a t →
    ∀ {m : Nat} {b : Sys}, Run h m a b → m ≤ n ∧ Run h (n - m) b t := by
  induction n using Nat.strongRecOn with
  | ind n ih =>
    intro a r m b q
    cases q with
    | nil _ => exact ⟨Nat.zero_le _, r⟩
    | @cons k _ c _ s q =>
      cases r with
      | nil _ => exact absurd s (ht _)
      | @cons n' _ a1 _ s1 r =>
        have hc : Run h n' c t := by
          rcases diamond s1 s with rfl | ⟨d, hd1, hd2⟩
          · exact r
          · have h1 := ih n' (by omega) r (.cons hd1 (.nil d))
            have e : n' = (n' - (0 + 1)) + 1 := by omega
            rw [e]; exact .cons hd2 h1.2
        have h2 := ih n' (by omega) hc q
        refine ⟨by omega, ?_⟩
        have e : n' + 1 - (k + 1) = n' - k := by omega
        rw [e]; exact h2.2

/-- One run to a state of rest is enough. -/
theorem Ends.of_run {a t : Sys} {n : Nat} (r : Run h n a t) (ht : ∀ b, ¬ Step h t b) : Ends h a t :=
  ⟨ht, n, fun _ _ q => run_all ht r q⟩

/-- Some run. -/
def Reach (h : Host) (a b : Sys) : Prop := ∃ n, Run h n a b

theorem Reach.refl (a : Sys) : Reach h a a := ⟨0, .nil a⟩
theorem Reach.trans {a b c : Sys} : Reach h a b → Reach h b c → Reach h a c
  | ⟨_, x⟩, ⟨_, y⟩ => ⟨_, x.trans y⟩
theorem Reach.step {a b : Sys} (s : Step h a b) : Reach h a b := ⟨1, .cons s (.nil _)⟩

/-! ## One machine running -/

/-- The client takes these messages. -/
def Cli.run (c : Cli) : List Msg → Option Out
  | [] => some (c, [], [])
  | m :: ms => do
    let r ← c.step m
    let q ← r.1.run ms
    return (q.1, r.2.1 ++ q.2.1, r.2.2 ++ q.2.2)

theorem Cli.run_append (c : Cli) (a b : List Msg) {r q : Out} (hr : c.run a = some r) (hq : r.1.run b = some q) :
    c.run (a ++ b) = some (q.1, r.2.1 ++ q.2.1, r.2.2 ++ q.2.2) := by
  induction a generalizing c r with
  | nil => cases hr; simpa using hq
  | cons m a ih =>
    simp only [List.cons_append, Cli.run] at hr ⊢
    cases h1 : c.step m with
    | none => rw [h1] at hr; cases hr
    | some x =>
      rw [h1] at hr
      cases h2 : x.1.run a with
      | none => simp [h2] at hr
      | some y =>
        simp only [h2, Option.bind_eq_bind, Option.bind_some, Option.pure_def, Option.some.injEq] at hr
        subst hr
        simp [ih x.1 h2 hq]

theorem reach_cli {c : Cli} {ms : List Msg} {r : Out} (hr : c.run ms = some r) (srv : Srv) (up : List In)
    (down : List Msg) (seen : List Ev) :
    Reach h ⟨c, srv, up, ms ++ down, seen⟩ ⟨r.1, srv, up ++ r.2.1, down, seen ++ r.2.2⟩ := by
  induction ms generalizing c r up seen with
  | nil => cases hr; simpa using Reach.refl _
  | cons m ms ih =>
    simp only [Cli.run] at hr
    cases h1 : c.step m with
    | none => rw [h1] at hr; cases hr
    | some x =>
      rw [h1] at hr
      cases h2 : x.1.run ms with
      | none => simp [h2] at hr
      | some y =>
        simp only [h2, Option.bind_eq_bind, Option.bind_some, Option.pure_def, Option.some.injEq] at hr
        subst hr
        refine Reach.trans (Reach.step (Step.cli (m := m) (down := ms ++ down) (r := x) rfl h1)) ?_
        have := ih h2 (up ++ x.2.1) (seen ++ x.2.2)
        simpa using this

theorem reach_srv (c : Cli) (s : Srv) (m : In) (up : List In) (down : List Msg) (seen : List Ev) :
    Reach h ⟨c, s, m :: up, down, seen⟩ ⟨c, (s.step h m).1, up, down ++ (s.step h m).2, seen⟩ :=
  Reach.step (Step.srv (s := ⟨c, s, m :: up, down, seen⟩) rfl)

/-- The listener takes a message while nothing else is on its way, then the client takes the answer. -/
theorem reach_turn {c : Cli} {s s' : Srv} {m : In} {ms : List Msg} {r : Out} (hs : s.step h m = (s', ms))
    (hr : c.run ms = some r) (seen : List Ev) :
    Reach h ⟨c, s, [m], [], seen⟩ ⟨r.1, s', r.2.1, [], seen ++ r.2.2⟩ := by
  have h1 := reach_srv (h := h) c s m [] [] seen
  rw [hs] at h1
  refine h1.trans ?_
  have := reach_cli (h := h) hr s' [] [] seen
  simpa using this

theorem rest_done {cs : List Cmd} {srv : Srv} {down : List Msg} {seen : List Ev} :
    ∀ b, ¬ Step h ⟨⟨.done, cs⟩, srv, [], down, seen⟩ b := by
  intro b hb
  cases hb with
  | srv e => cases e
  | cli e f => cases f

theorem rest_empty {c : Cli} {srv : Srv} {seen : List Ev} : ∀ b, ¬ Step h ⟨c, srv, [], [], seen⟩ b := by
  intro b hb
  cases hb with
  | srv e => cases e
  | cli e f => cases e

end Verif.Nft
