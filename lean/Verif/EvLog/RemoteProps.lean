import Verif.EvLog.Remote

/-!
# Properties of the connection to a remote sink (C81)

The specification looks at the history only: events and what others saw.
-/

namespace Verif.EvLog.Remote

open Verif.EvQueue (Item append Accounts)
open Verif.EvLog (Event)

/-! ## Views of a history -/

/-- The events given to the sink. -/
def logged (h : List Rec) : List Event :=
  h.filterMap fun r => match r.ev with | .log e => some e | _ => none

def outs (h : List Rec) : List Out := h.flatMap (·.outs)

/-- The items sent, oldest first. -/
def sent (h : List Rec) : List (Item Event) :=
  (outs h).filterMap fun o => match o with | .sent _ i => some i | _ => none

/-- `send_data` raised in this step. -/
def broke (o : List Out) : Bool := o.any fun o => match o with | .failed _ => true | _ => false

/-- The connection in use: accepted, and since then no disconnect (of any connection), no stop, no
failure to send. -/
def live (h : List Rec) : Option Nat :=
  h.foldl (fun a r => if broke r.outs then none else match r.ev with
    | .accept c => some c
    | .closed _ => none
    | .stop => none
    | _ => a) none

/-- Whether a connection was asked for (or accepted) and neither ended, stopped nor failed since. -/
def busy (h : List Rec) : Bool :=
  h.foldl (fun a r => if broke r.outs then false else match r.ev with
    | .accept _ => true
    | .closed _ => false
    | .stop => false
    | _ => a || r.outs.contains .connect) false

/-- The sink was started and not stopped, and an event was logged since. -/
def kicked (h : List Rec) : Bool :=
  (h.foldl (fun (a : Bool × Bool) r => match r.ev with
    | .start => (true, a.2)
    | .stop => (false, false)
    | .log _ => (a.1, a.1)
    | _ => a) (false, false)).2

/-- Whether the sink was started and not stopped. -/
def started (h : List Rec) : Bool :=
  h.foldl (fun a r => match r.ev with | .start => true | .stop => false | _ => a) false

/-! ## Lemmas -/

theorem loop_spec {c : Nat} {q : List (Item Event)} : ∀ {b : Option Nat} {q' o ok},
    sendLoop c b q = some (q', o, ok) →
    ∃ done, q = done ++ q' ∧ (ok = true → q' = [] ∧ o = done.map (.sent c)) ∧
      (ok = false → q' ≠ [] ∧ o = done.map (.sent c) ++ [.failed c]) := by
  induction q with
  | nil =>
    intro b q' o ok h
    simp only [sendLoop, Option.some.injEq, Prod.mk.injEq] at h
    obtain ⟨rfl, rfl, rfl⟩ := h
    exact ⟨[], by simp⟩
  | cons i q ih =>
    intro b q' o ok h
    unfold sendLoop at h
    split at h
    · cases h
    · have fin : ∀ b', (sendLoop c b' q).map (fun r => (r.1, Out.sent c i :: r.2.1, r.2.2)) = some (q', o, ok) →
          ∃ done, i :: q = done ++ q' ∧ (ok = true → q' = [] ∧ o = done.map (.sent c)) ∧
            (ok = false → q' ≠ [] ∧ o = done.map (.sent c) ++ [.failed c]) := by
        intro b' h
        simp only [Option.map_eq_some_iff, Prod.mk.injEq] at h
        obtain ⟨⟨a1, a2, a3⟩, h1, h2, h3, h4⟩ := h
        simp only at h2 h3 h4
        subst h2 h3 h4
        obtain ⟨done, e1, e2, e3⟩ := ih h1
        refine ⟨i :: done, by simp [e1], ?_, ?_⟩
        · intro hk; obtain ⟨f1, f2⟩ := e2 hk; exact ⟨f1, by simp [f2]⟩
        · intro hk; obtain ⟨f1, f2⟩ := e3 hk; exact ⟨f1, by simp [f2]⟩
      split at h
      · simp only [Option.some.injEq, Prod.mk.injEq] at h
        obtain ⟨rfl, rfl, rfl⟩ := h
        exact ⟨[], by simp⟩
      · exact fin _ h
      · exact fin _ h

/-- The ways `send_events` goes. -/
theorem sendEvents_cases {env : Env} {st st' : St} {o : List Out} (h : sendEvents env st = some (st', o)) :
    (st.conn = .pending ∧ st' = st ∧ o = []) ∨
    (∃ c done, st.conn = .opened c ∧ st.queue = done ∧ st' = { st with queue := [] } ∧ o = done.map (.sent c)) ∨
    (∃ c done q, st.conn = .opened c ∧ st.queue = done ++ q ∧ q ≠ [] ∧
      st' = { st with queue := q, conn := .none, timer := true } ∧ o = done.map (.sent c) ++ [.failed c]) ∨
    (st.conn = .none ∧ (st.node = false ∨ st.port = false) ∧ st' = st ∧ o = []) ∨
    (st.conn = .none ∧ st.node = true ∧ st.port = true ∧ st' = { st with conn := .pending } ∧ o = [.connect]) ∨
    (st.conn = .none ∧ st.node = true ∧ st.port = true ∧ st' = { st with node := false } ∧ o = []) := by
  unfold sendEvents at h
  split at h
  · rename_i hc
    simp only [Option.some.injEq, Prod.mk.injEq] at h
    exact .inl ⟨hc, h.1.symm, h.2.symm⟩
  · rename_i c hc
    split at h
    · cases h
    · rename_i q o' hl
      obtain ⟨done, e1, e2, -⟩ := loop_spec hl
      obtain ⟨rfl, rfl⟩ := e2 rfl
      simp only [Option.some.injEq, Prod.mk.injEq] at h
      exact .inr (.inl ⟨c, done, hc, by simpa using e1, h.1.symm, h.2.symm⟩)
    · rename_i q o' hl
      obtain ⟨done, e1, -, e3⟩ := loop_spec hl
      obtain ⟨hq, rfl⟩ := e3 rfl
      simp only [Option.some.injEq, Prod.mk.injEq] at h
      exact .inr (.inr (.inl ⟨c, done, q, hc, e1, hq, h.1.symm, h.2.symm⟩))
  · rename_i hc
    by_cases hn : st.node = false
    · rw [if_pos hn] at h
      simp only [Option.some.injEq, Prod.mk.injEq] at h
      exact .inr (.inr (.inr (.inl ⟨hc, .inl hn, h.1.symm, h.2.symm⟩)))
    · rw [if_neg hn] at h
      by_cases hp : st.port = false
      · rw [if_pos hp] at h
        simp only [Option.some.injEq, Prod.mk.injEq] at h
        exact .inr (.inr (.inr (.inl ⟨hc, .inr hp, h.1.symm, h.2.symm⟩)))
      · rw [if_neg hp] at h
        have hn' : st.node = true := by simpa using hn
        have hp' : st.port = true := by simpa using hp
        split at h
        · simp only [Option.some.injEq, Prod.mk.injEq] at h
          exact .inr (.inr (.inr (.inr (.inl ⟨hc, hn', hp', h.1.symm, h.2.symm⟩))))
        · simp only [Option.some.injEq, Prod.mk.injEq] at h
          exact .inr (.inr (.inr (.inr (.inr ⟨hc, hn', hp', h.1.symm, h.2.symm⟩))))
        · cases h

def sentOf (o : List Out) : List (Item Event) :=
  o.filterMap fun o => match o with | .sent _ i => some i | _ => none

theorem sent_snoc (h : List Rec) (r : Rec) : sent (h ++ [r]) = sent h ++ sentOf r.outs := by
  simp [sent, outs, sentOf, List.filterMap_append, List.flatMap_append]

theorem sentOf_map (c : Nat) (d : List (Item Event)) : sentOf (d.map (.sent c)) = d := by
  induction d with
  | nil => rfl
  | cons i d ih => simp [sentOf] at ih ⊢; exact ih

theorem sentOf_append (a b : List Out) : sentOf (a ++ b) = sentOf a ++ sentOf b := by
  simp [sentOf, List.filterMap_append]

theorem logged_snoc (h : List Rec) (r : Rec) :
    logged (h ++ [r]) = logged h ++ (match r.ev with | .log e => [e] | _ => []) := by
  simp only [logged, List.filterMap_append, List.filterMap_cons, List.filterMap_nil]
  cases r.ev <;> simp

/-- `send_events` moves items from the front of the queue to what was sent. -/
theorem sendEvents_queue {env : Env} {st st' : St} {o : List Out} (h : sendEvents env st = some (st', o)) :
    st.queue = sentOf o ++ st'.queue := by
  rcases sendEvents_cases h with ⟨-, rfl, rfl⟩ | ⟨c, d, -, h2, rfl, rfl⟩ | ⟨c, d, q, -, h2, -, rfl, rfl⟩ |
    ⟨-, -, rfl, rfl⟩ | ⟨-, -, -, rfl, rfl⟩ | ⟨-, -, -, rfl, rfl⟩
  · rfl
  · rw [sentOf_map, h2]; simp
  · rw [sentOf_append, sentOf_map, h2]; simp [sentOf]
  · rfl
  · rfl
  · rfl

section queue
open Verif.EvQueue

theorem run_append {E : Type} {limit : Nat} {a b : List (Op E)} : ∀ {s : State E},
    run limit s (a ++ b) = (run limit s a).bind fun s' => run limit s' b := by
  induction a with
  | nil => intro s; rfl
  | cons o a ih =>
    intro s
    simp only [List.cons_append, run]
    cases EvQueue.step limit s o with
    | none => rfl
    | some s' => exact ih

theorem run_sends {E : Type} {limit : Nat} (d q : List (Item E)) : ∀ (se : List (Item E)),
    run limit ⟨d ++ q, se⟩ (List.replicate d.length .sendOk) = some ⟨q, se ++ d⟩ := by
  induction d with
  | nil => intro se; simp [run]
  | cons i d ih =>
    intro se
    simp only [List.length_cons, List.replicate_succ, List.cons_append, run, EvQueue.step, Option.bind_some]
    rw [ih]
    simp

theorem logged_sends {E : Type} (n : Nat) : EvQueue.logged (List.replicate n (.sendOk : Op E)) = [] := by
  induction n with
  | zero => rfl
  | succ n ih => simpa [List.replicate_succ, EvQueue.logged] using ih

theorem logged_app {E : Type} (a b : List (Op E)) : EvQueue.logged (a ++ b) = EvQueue.logged a ++ EvQueue.logged b := by
  induction a with
  | nil => rfl
  | cons o os ih => cases o <;> simp [EvQueue.logged, ih]

/-- The sink does to its queue only what `Verif.EvQueue` describes. -/
theorem refines {h : List Rec} {st : St} (hr : Run h st) :
    ∃ ops, run Remote.limit ⟨[], []⟩ ops = some ⟨st.queue, sent h⟩ ∧ EvQueue.logged ops = logged h := by
  induction hr with
  | init => exact ⟨[], rfl, rfl⟩
  | @step h st env ev st' o hr hs ih =>
    obtain ⟨ops, h1, h2⟩ := ih
    have move : ∀ (st1 : St) (ops1 : List (Op Event)),
        run Remote.limit ⟨[], []⟩ ops1 = some ⟨st1.queue, sent h⟩ → sendEvents env st1 = some (st', o) →
        run Remote.limit ⟨[], []⟩ (ops1 ++ List.replicate (sentOf o).length .sendOk) =
          some ⟨st'.queue, sent h ++ sentOf o⟩ := by
      intro st1 ops1 hh hse
      rw [run_append, hh, Option.bind_some, sendEvents_queue hse]
      exact run_sends _ _ _
    rw [sent_snoc, logged_snoc]
    cases ev with
    | log e =>
      simp only [Remote.step] at hs
      split at hs
      · cases hs
      · rename_i q hq
        have h3 : run Remote.limit ⟨[], []⟩ (ops ++ [.log e]) = some ⟨q, sent h⟩ := by
          rw [run_append, h1]
          simp [run, EvQueue.step, hq]
        refine ⟨_, move { st with queue := q } _ h3 hs, ?_⟩
        rw [logged_app, logged_app, logged_sends, h2]
        simp [EvQueue.logged]
    | timeout =>
      simp only [Remote.step] at hs
      split at hs
      · exact ⟨_, move { st with timer := false } _ h1 hs, by rw [logged_app, logged_sends, h2]⟩
      · simp only [Option.some.injEq, Prod.mk.injEq] at hs
        obtain ⟨rfl, rfl⟩ := hs
        exact ⟨ops, by simpa [sentOf] using h1, by simpa using h2⟩
    | accept c =>
      simp only [Remote.step] at hs
      exact ⟨_, move { st with conn := .opened c } _ h1 hs, by rw [logged_app, logged_sends, h2]⟩
    | closed c =>
      simp only [Remote.step, Option.some.injEq, Prod.mk.injEq] at hs
      obtain ⟨rfl, rfl⟩ := hs
      exact ⟨ops, by simpa [sentOf] using h1, by simpa using h2⟩
    | start =>
      simp only [Remote.step, Option.some.injEq, Prod.mk.injEq] at hs
      obtain ⟨rfl, rfl⟩ := hs
      exact ⟨ops, by simpa [sentOf] using h1, by simpa using h2⟩
    | stop =>
      simp only [Remote.step, Option.some.injEq, Prod.mk.injEq] at hs
      obtain ⟨rfl, rfl⟩ := hs
      refine ⟨ops, ?_, by simpa using h2⟩
      cases st.conn <;> simpa [sentOf] using h1

end queue

/-- C81: over all connections of the sink together, what was sent and then what is queued is what was
logged, in order, each event once, with a mark wherever events were dropped; and no more than 51 are
queued. -/
theorem sent_in_order {h : List Rec} {st : St} (hr : Run h st) :
    Accounts (sent h ++ st.queue) (logged h) ∧ st.queue.length ≤ 51 := by
  obtain ⟨ops, h1, h2⟩ := refines hr
  obtain ⟨s, e1, e2, -, e4⟩ := Verif.EvQueue.queue_bounded_honest (limit := limit) (by decide) ops
  rw [h1] at e1
  simp only [Option.some.injEq] at e1
  subst e1
  rw [h2] at e4
  exact ⟨e4, e2⟩

/-! ## The connection -/

structure CInv (h : List Rec) (st : St) : Prop where
  port : st.port = started h
  live : ∀ c, live h = some c ↔ st.conn = .opened c
  empty : ∀ c, st.conn = .opened c → st.queue = []
  busy : busy h = true ↔ st.conn ≠ .none
  kick : kicked h = true → st.port = true
  wait : kicked h = true → st.queue ≠ [] → st.conn ≠ .none ∨ st.timer = true ∨ st.node = false

theorem live_snoc (h : List Rec) (r : Rec) : live (h ++ [r]) = if broke r.outs then none else
    match r.ev with | .accept c => some c | .closed _ => none | .stop => none | _ => live h := by
  simp only [live, List.foldl_append, List.foldl_cons, List.foldl_nil]

theorem started_snoc (h : List Rec) (r : Rec) : started (h ++ [r]) =
    match r.ev with | .start => true | .stop => false | _ => started h := by
  simp only [started, List.foldl_append, List.foldl_cons, List.foldl_nil]

theorem busy_snoc (h : List Rec) (r : Rec) : busy (h ++ [r]) = if broke r.outs then false else
    match r.ev with
    | .accept _ => true | .closed _ => false | .stop => false | _ => busy h || r.outs.contains .connect := by
  simp only [busy, List.foldl_append, List.foldl_cons, List.foldl_nil]

def kick2 (h : List Rec) : Bool × Bool :=
  h.foldl (fun (a : Bool × Bool) r => match r.ev with
    | .start => (true, a.2)
    | .stop => (false, false)
    | .log _ => (a.1, a.1)
    | _ => a) (false, false)

theorem kicked_snoc (h : List Rec) (r : Rec) : kicked (h ++ [r]) =
    match r.ev with | .stop => false | .log _ => started h | _ => kicked h := by
  have key : ∀ h : List Rec, (kick2 h).1 = started h := by
    have gen : ∀ (h : List Rec) (a : Bool × Bool) (b : Bool), a.1 = b →
        (h.foldl (fun (a : Bool × Bool) r => match r.ev with
          | .start => (true, a.2)
          | .stop => (false, false)
          | .log _ => (a.1, a.1)
          | _ => a) a).1 = h.foldl (fun a r => match r.ev with | .start => true | .stop => false | _ => a) b := by
      intro h
      induction h with
      | nil => intro a b hab; exact hab
      | cons r h ih =>
        intro a b hab
        simp only [List.foldl_cons]
        apply ih
        cases r.ev <;> simp [hab]
    intro h
    exact gen h _ _ rfl
  have k1 := key h
  simp only [kicked, List.foldl_append, List.foldl_cons, List.foldl_nil]
  change (match r.ev with
    | .start => (true, (kick2 h).2)
    | .stop => (false, false)
    | .log _ => ((kick2 h).1, (kick2 h).1)
    | _ => kick2 h).2 = _
  cases r.ev <;> simp only [k1] <;> rfl

theorem broke_map (c : Nat) (d : List (Item Event)) : broke (d.map (.sent c)) = false := by
  induction d with
  | nil => rfl
  | cons i d ih => simp [broke]

theorem broke_failed (o : List Out) (c : Nat) : broke (o ++ [.failed c]) = true := by
  simp [broke]

/-- What `send_events` makes of the connection. -/
theorem send_inv {env : Env} {st1 st' : St} {o : List Out} (h : sendEvents env st1 = some (st', o)) :
    st'.port = st1.port ∧
    (broke o = true → st'.conn = .none ∧ st'.timer = true ∧ ∃ c, st1.conn = .opened c) ∧
    (broke o = false → (∀ c, st'.conn = .opened c ↔ st1.conn = .opened c) ∧
      (st'.conn ≠ .none ↔ (st1.conn ≠ .none ∨ o.contains .connect = true)) ) ∧
    (∀ c, st'.conn = .opened c → st'.queue = []) ∧
    (st1.port = true → st'.conn ≠ .none ∨ st'.timer = true ∨ st'.node = false) ∧
    (o.contains .connect = true → st1.conn = .none) ∧
    (∀ c i, .sent c i ∈ o → st1.conn = .opened c) := by
  rcases sendEvents_cases h with ⟨h1, rfl, rfl⟩ | ⟨c, d, h1, h2, rfl, rfl⟩ | ⟨c, d, q, h1, h2, h3, rfl, rfl⟩ |
    ⟨h1, h2, rfl, rfl⟩ | ⟨h1, h2, h3, rfl, rfl⟩ | ⟨h1, h2, h3, rfl, rfl⟩
  · simp [h1, broke]
  · simp [h1, broke_map]
  · simp [h1, broke_failed]
  · refine ⟨rfl, by simp [broke], by simp [h1], by simp [h1], ?_, by simp, by simp⟩
    intro hp
    rcases h2 with h2 | h2
    · exact .inr (.inr h2)
    · rw [hp] at h2; cases h2
  · simp [h1, broke]
  · simp [h1, broke]

theorem cinv_run {h : List Rec} {st : St} (hr : Run h st) : CInv h st := by
  induction hr with
  | init =>
    refine ⟨rfl, ?_, ?_, ?_, ?_, ?_⟩ <;> simp [live, init, busy, kicked]
  | @step h st env ev st' o hr hs ih =>
    have viaSend : ∀ (st1 : St), sendEvents env st1 = some (st', o) → st1.port = st.port → st1.conn = st.conn →
        (kicked (h ++ [⟨ev, o⟩]) = true → st.port = true) →
        started (h ++ [⟨ev, o⟩]) = started h →
        live (h ++ [⟨ev, o⟩]) = (if broke o then none else live h) →
        busy (h ++ [⟨ev, o⟩]) = (if broke o then false else busy h || o.contains .connect) →
        CInv (h ++ [⟨ev, o⟩]) st' := by
      intro st1 hse hp hc hk e1 e2 e3
      obtain ⟨s1, s2, s3, s4, s5, s6, s7⟩ := send_inv hse
      refine ⟨by rw [s1, hp, ih.port, e1], ?_, s4, ?_, ?_, ?_⟩
      · intro c
        rw [e2]
        by_cases hb : broke o = true
        · rw [if_pos hb, (s2 hb).1]; simp
        · rw [if_neg hb, (s3 (by simpa using hb)).1, hc, ih.live]
      · rw [e3]
        by_cases hb : broke o = true
        · rw [if_pos hb, (s2 hb).1]; simp
        · rw [if_neg hb, (s3 (by simpa using hb)).2, hc, Bool.or_eq_true, ih.busy]
      · intro hh; rw [s1, hp]; exact hk hh
      · intro hh _; exact s5 (by rw [hp]; exact hk hh)
    cases ev with
    | log e =>
      simp only [step] at hs
      split at hs
      · cases hs
      · rename_i q hq
        refine viaSend _ hs rfl rfl ?_ (started_snoc _ _) (live_snoc _ _) (busy_snoc _ _)
        rw [kicked_snoc]; intro hh; rw [ih.port]; exact hh
    | timeout =>
      simp only [step] at hs
      split at hs
      · refine viaSend _ hs rfl rfl ?_ (started_snoc _ _) (live_snoc _ _) (busy_snoc _ _)
        rw [kicked_snoc]; exact ih.kick
      · simp only [Option.some.injEq, Prod.mk.injEq] at hs
        obtain ⟨rfl, rfl⟩ := hs
        refine ⟨by rw [started_snoc]; exact ih.port, ?_, ih.empty, ?_, ?_, ?_⟩
        · rw [live_snoc]; exact ih.live
        · rw [busy_snoc]; simpa [broke] using ih.busy
        · rw [kicked_snoc]; exact ih.kick
        · rw [kicked_snoc]; exact ih.wait
    | accept c =>
      simp only [step] at hs
      obtain ⟨s1, s2, s3, s4, s5, s6, s7⟩ := send_inv hs
      refine ⟨by rw [s1, started_snoc]; exact ih.port, ?_, s4, ?_, ?_, ?_⟩
      · intro c'
        rw [live_snoc]
        by_cases hb : broke o = true
        · rw [if_pos hb, (s2 hb).1]; simp
        · rw [if_neg hb, (s3 (by simpa using hb)).1]; simp
      · rw [busy_snoc]
        by_cases hb : broke o = true
        · rw [if_pos hb, (s2 hb).1]; simp
        · rw [if_neg hb, (s3 (by simpa using hb)).2]; simp
      · rw [kicked_snoc, s1]; exact ih.kick
      · rw [kicked_snoc]; intro hh _; exact s5 (ih.kick hh)
    | closed c =>
      simp only [step, Option.some.injEq, Prod.mk.injEq] at hs
      obtain ⟨rfl, rfl⟩ := hs
      refine ⟨by rw [started_snoc]; exact ih.port, ?_, by simp, ?_, ?_, ?_⟩
      · rw [live_snoc]; simp [broke]
      · rw [busy_snoc]; simp [broke]
      · rw [kicked_snoc]; exact ih.kick
      · simp
    | start =>
      simp only [step, Option.some.injEq, Prod.mk.injEq] at hs
      obtain ⟨rfl, rfl⟩ := hs
      refine ⟨by rw [started_snoc], ?_, ih.empty, ?_, by simp, ?_⟩
      · rw [live_snoc]; exact ih.live
      · rw [busy_snoc]; simpa [broke] using ih.busy
      · rw [kicked_snoc]; exact ih.wait
    | stop =>
      simp only [step, Option.some.injEq, Prod.mk.injEq] at hs
      obtain ⟨rfl, rfl⟩ := hs
      refine ⟨by rw [started_snoc], ?_, by simp, ?_, ?_, ?_⟩
      · rw [live_snoc]; cases st.conn <;> simp [broke]
      · rw [busy_snoc]; cases st.conn <;> simp [broke]
      · rw [kicked_snoc]; simp
      · rw [kicked_snoc]; simp

/-- C81: an item is sent only on a connection that was accepted and neither ended, replaced nor failed
since. -/
theorem sent_on_live {h : List Rec} {st : St} (hr : Run h st) {env : Env} {ev : Ev} {st' : St} {o : List Out}
    (hs : step env st ev = some (st', o)) {c : Nat} {i : Item Event} (hi : .sent c i ∈ o) :
    ev = .accept c ∨ live h = some c := by
  have hc := cinv_run hr
  cases ev with
  | log e =>
    simp only [step] at hs
    split at hs
    · cases hs
    · exact .inr ((hc.live c).2 ((send_inv hs).2.2.2.2.2.2 c i hi))
  | timeout =>
    simp only [step] at hs
    split at hs
    · exact .inr ((hc.live c).2 ((send_inv hs).2.2.2.2.2.2 c i hi))
    · simp only [Option.some.injEq, Prod.mk.injEq] at hs
      rw [← hs.2] at hi; cases hi
  | accept c' =>
    simp only [step] at hs
    have := (send_inv hs).2.2.2.2.2.2 c i hi
    simp only [Conn.opened.injEq] at this
    exact .inl (by rw [this])
  | closed c' => simp only [step, Option.some.injEq, Prod.mk.injEq] at hs; rw [← hs.2] at hi; cases hi
  | start => simp only [step, Option.some.injEq, Prod.mk.injEq] at hs; rw [← hs.2] at hi; cases hi
  | stop =>
    simp only [step, Option.some.injEq, Prod.mk.injEq] at hs
    rw [← hs.2] at hi
    cases hcn : st.conn <;> simp [hcn] at hi

/-- C81: while a connection is in use nothing waits, and an event that is logged then is sent at once, or
the connection is found not to work. -/
theorem live_sends {h : List Rec} {st : St} (hr : Run h st) {c : Nat} (hl : live h = some c) :
    st.queue = [] ∧ ∀ env e st' o, step env st (.log e) = some (st', o) →
      o = [.sent c (.event e)] ∨ (o = [.failed c] ∧ st'.queue = [.event e]) := by
  have hc := cinv_run hr
  have ho := (hc.live c).1 hl
  have hq := hc.empty c ho
  refine ⟨hq, ?_⟩
  intro env e st' o hs
  have ha : append limit st.queue e = some [.event e] := by rw [hq]; rfl
  simp only [step, ha] at hs
  rcases sendEvents_cases hs with ⟨h1, -, -⟩ | ⟨c', d, h1, h2, rfl, rfl⟩ | ⟨c', d, q, h1, h2, h3, rfl, rfl⟩ |
    ⟨h1, -⟩ | ⟨h1, -⟩ | ⟨h1, -⟩
  · simp only [ho] at h1; cases h1
  · simp only [ho, Conn.opened.injEq] at h1
    simp only at h2
    subst h1 h2
    exact .inl rfl
  · simp only [ho, Conn.opened.injEq] at h1
    simp only at h2
    subst h1
    cases d with
    | nil =>
      simp only [List.nil_append] at h2
      exact .inr ⟨rfl, h2.symm⟩
    | cons x d =>
      simp only [List.cons_append, List.cons.injEq] at h2
      have := (List.append_eq_nil_iff.1 h2.2.symm).2
      exact absurd this h3
  · simp only [ho] at h1; cases h1
  · simp only [ho] at h1; cases h1
  · simp only [ho] at h1; cases h1

/-- C81: a connection is asked for only when none is pending or in use. -/
theorem one_connection {h : List Rec} {st : St} (hr : Run h st) {env : Env} {ev : Ev} {st' : St} {o : List Out}
    (hs : step env st ev = some (st', o)) (hi : .connect ∈ o) : busy h = false ∧ started h = true := by
  have hc := cinv_run hr
  have key : ∀ st1 : St, st1.conn = st.conn → st1.port = st.port → sendEvents env st1 = some (st', o) →
      busy h = false ∧ started h = true := by
    intro st1 e1 e2 hse
    have h1 := (send_inv hse).2.2.2.2.2.1 (by simpa using hi)
    rw [e1] at h1
    refine ⟨?_, ?_⟩
    · have := hc.busy
      rw [h1] at this
      simpa using this
    · rcases sendEvents_cases hse with ⟨-, -, rfl⟩ | ⟨c', d, -, -, -, rfl⟩ | ⟨c', d, q, -, -, -, -, rfl⟩ |
        ⟨-, -, -, rfl⟩ | ⟨-, -, h3, -, -⟩ | ⟨-, -, -, -, rfl⟩
      · cases hi
      · simp at hi
      · simp at hi
      · cases hi
      · rw [← hc.port, ← e2]; exact h3
      · cases hi
  cases ev with
  | log e =>
    simp only [step] at hs
    split at hs
    · cases hs
    · rename_i q _
      exact key { st with queue := q } rfl rfl hs
  | timeout =>
    simp only [step] at hs
    split at hs
    · exact key { st with timer := false } rfl rfl hs
    · simp only [Option.some.injEq, Prod.mk.injEq] at hs
      rw [← hs.2] at hi; cases hi
  | accept c' =>
    simp only [step] at hs
    have := (send_inv hs).2.2.2.2.2.1 (by simpa using hi)
    cases this
  | closed c' => simp only [step, Option.some.injEq, Prod.mk.injEq] at hs; rw [← hs.2] at hi; cases hi
  | start => simp only [step, Option.some.injEq, Prod.mk.injEq] at hs; rw [← hs.2] at hi; cases hi
  | stop =>
    simp only [step, Option.some.injEq, Prod.mk.injEq] at hs
    rw [← hs.2] at hi
    cases hcn : st.conn <;> simp [hcn] at hi

/-- The name of the sink node was found not to be known. -/
def NodeUnknown (st : St) : Prop := st.node = false

/-- C81: once an event was logged after the start, an event that waits is waiting for a connection being
set up or for the retry timer, unless the sink was stopped or its node is unknown.  Missing: events
logged before the start, see `early_event_waits`. -/
theorem never_stuck_partial {h : List Rec} {st : St} (hr : Run h st) (hk : kicked h = true) (hq : st.queue ≠ []) :
    (busy h = true ∧ live h = none) ∨ st.timer = true ∨ NodeUnknown st := by
  have hc := cinv_run hr
  rcases hc.wait hk hq with h1 | h1 | h1
  · refine .inl ⟨hc.busy.2 h1, ?_⟩
    cases hl : live h with
    | none => rfl
    | some c => exact absurd (hc.empty c ((hc.live c).1 hl)) hq
  · exact .inr (.inl h1)
  · exact .inr (.inr h1)

/-- C81: when the timer runs out and no connection is pending or in use, one is asked for. -/
theorem timer_connects {h : List Rec} {st : St} (hr : Run h st) (hb : busy h = false) (hst : started h = true)
    (ht : st.timer = true) (hn : ¬ NodeUnknown st) (g : Option Nat) :
    step ⟨.ok, g⟩ st .timeout = some ({ st with timer := false, conn := .pending }, [.connect]) := by
  have hc := cinv_run hr
  have h1 : st.conn = .none := by
    refine Classical.byContradiction fun hh => ?_
    have := hc.busy.2 hh
    rw [hb] at this; cases this
  have h2 : st.port = true := by rw [hc.port]; exact hst
  have h3 : st.node = true := by
    cases hh : st.node with
    | true => rfl
    | false => exact absurd hh hn
  simp [step, ht, sendEvents, h1, h2, h3]

/-- C81: when the connection is accepted everything that waited is sent on it, if sending works. -/
theorem accept_sends {st st' : St} {o : List Out} {c : Nat} {env : Env} (hs : step env st (.accept c) = some (st', o))
    (hb : broke o = false) : o = st.queue.map (.sent c) ∧ st'.queue = [] := by
  simp only [step] at hs
  rcases sendEvents_cases hs with ⟨h1, -, -⟩ | ⟨c', d, h1, h2, rfl, rfl⟩ | ⟨c', d, q, h1, h2, h3, rfl, rfl⟩ |
    ⟨h1, -⟩ | ⟨h1, -⟩ | ⟨h1, -⟩
  · cases h1
  · simp only [Conn.opened.injEq] at h1
    simp only at h2
    subst h1 h2
    exact ⟨rfl, rfl⟩
  · rw [broke_failed] at hb; cases hb
  · cases h1
  · cases h1
  · cases h1

/-! ## Exceptions -/

theorem sendLoop_some {c : Nat} {q : List (Item Event)} : ∀ {b : Option Nat},
    (∀ i ∈ q, encodes i = true) → ∃ r, sendLoop c b q = some r := by
  induction q with
  | nil => intro b _; exact ⟨_, rfl⟩
  | cons i q ih =>
    intro b h
    unfold sendLoop
    have h1 : ¬ encodes i = false := by rw [h i List.mem_cons_self]; simp
    rw [if_neg h1]
    have h2 := fun b' => ih (b := b') (fun x hx => h x (List.mem_cons_of_mem _ hx))
    match b with
    | some 0 => exact ⟨_, rfl⟩
    | some (k + 1) =>
      obtain ⟨r, hr⟩ := h2 (some k)
      exact ⟨_, by simp [hr]; rfl⟩
    | none =>
      obtain ⟨r, hr⟩ := h2 none
      exact ⟨_, by simp [hr]; rfl⟩

theorem queue_encodes {h : List Rec} {st : St} (hr : Run h st) (hl : ∀ e ∈ logged h, e.enc ≠ none) :
    ∀ i ∈ st.queue, encodes i = true := by
  have hacc := (sent_in_order hr).1
  have gen : ∀ {o : List (Item Event)} {l : List Event}, Accounts o l → (∀ e ∈ l, e.enc ≠ none) →
      ∀ i ∈ o, encodes i = true := by
    intro o l ha
    induction ha with
    | nil => simp
    | event e _ ih =>
      intro hl i hi
      rcases List.mem_cons.1 hi with rfl | hi
      · have := hl e List.mem_cons_self
        cases hh : e.enc with
        | none => exact absurd hh this
        | some b => simp [encodes, hh]
      · exact ih (fun x hx => hl x (List.mem_cons_of_mem _ hx)) i hi
    | lost d ds _ ih =>
      intro hl i hi
      rcases List.mem_cons.1 hi with rfl | hi
      · rfl
      · exact ih (fun x hx => hl x (List.mem_append_right _ hx)) i hi
  intro i hi
  exact gen hacc hl i (List.mem_append_right _ hi)

theorem append_ok {q : List (Item Event)} {e : Event} : ∃ q', append limit q e = some q' := by
  unfold append
  split
  · rename_i hl
    split
    · rename_i hn
      have : q = [] := by simpa using hn
      subst this
      simp [limit] at hl
    · exact ⟨_, rfl⟩
    · exact ⟨_, rfl⟩
  · exact ⟨_, rfl⟩

/-- C81: as long as the events can be encoded and `connect` raises nothing but the unknown node, the sink
raises nothing, whatever fails. -/
theorem no_exception {h : List Rec} {st : St} (hr : Run h st) (env : Env) (ev : Ev) (he : env.res ≠ .raises)
    (hl : ∀ e ∈ logged h, e.enc ≠ none) (hev : ∀ e, ev = .log e → e.enc ≠ none) :
    ∃ st' o, step env st ev = some (st', o) := by
  have hq := queue_encodes hr hl
  have send : ∀ st1 : St, (∀ i ∈ st1.queue, encodes i = true) → ∃ st' o, sendEvents env st1 = some (st', o) := by
    intro st1 h1
    unfold sendEvents
    split
    · exact ⟨_, _, rfl⟩
    · rename_i c _
      obtain ⟨⟨q, o, ok⟩, hr⟩ := sendLoop_some (c := c) (b := env.good) h1
      rw [hr]
      cases ok <;> exact ⟨_, _, rfl⟩
    · split
      · exact ⟨_, _, rfl⟩
      · split
        · exact ⟨_, _, rfl⟩
        · cases hres : env.res with
          | ok => exact ⟨_, _, rfl⟩
          | unknown => exact ⟨_, _, rfl⟩
          | raises => exact absurd hres he
  cases ev with
  | log e =>
    obtain ⟨q, hq'⟩ := append_ok (q := st.queue) (e := e)
    simp only [step, hq']
    apply send
    have hee : encodes (.event e) = true := by
      cases hh : e.enc with
      | none => exact absurd hh (hev e rfl)
      | some b => simp [encodes, hh]
    intro i hi
    simp only at hi
    unfold append at hq'
    split at hq'
    · split at hq'
      · cases hq'
      · simp only [Option.some.injEq] at hq'; subst hq'; exact hq i hi
      · simp only [Option.some.injEq] at hq'; subst hq'
        rcases List.mem_append.1 hi with hi | hi
        · exact hq i hi
        · simp only [List.mem_singleton] at hi; subst hi; rfl
    · simp only [Option.some.injEq] at hq'; subst hq'
      rcases List.mem_append.1 hi with hi | hi
      · exact hq i hi
      · simp only [List.mem_singleton] at hi; subst hi; exact hee
  | timeout =>
    simp only [step]
    split
    · exact send _ hq
    · exact ⟨_, _, rfl⟩
  | accept c => exact send { st with conn := .opened c } hq
  | closed c => exact ⟨_, _, rfl⟩
  | start => exact ⟨_, _, rfl⟩
  | stop => exact ⟨_, _, rfl⟩

/-! ## Cases -/

/-- Run a list of steps. -/
def runAll (st : St) : List (Env × Ev) → Option (St × List Rec)
  | [] => some (st, [])
  | (env, ev) :: l => match step env st ev with
    | none => none
    | some (st', o) => (runAll st' l).map fun r => (r.1, ⟨ev, o⟩ :: r.2)

theorem run_all {l : List (Env × Ev)} : ∀ {st st' : St} {h h' : List Rec}, Run h st →
    runAll st l = some (st', h') → Run (h ++ h') st' := by
  induction l with
  | nil =>
    intro st st' h h' hr hh
    simp only [runAll, Option.some.injEq, Prod.mk.injEq] at hh
    obtain ⟨rfl, rfl⟩ := hh
    simpa using hr
  | cons x l ih =>
    intro st st' h h' hr hh
    obtain ⟨env, ev⟩ := x
    simp only [runAll] at hh
    split at hh
    · cases hh
    · rename_i st1 o hs
      simp only [Option.map_eq_some_iff, Prod.mk.injEq] at hh
      obtain ⟨⟨a, b⟩, h1, h2, h3⟩ := hh
      simp only at h2 h3
      subst h2 h3
      have := ih (.step hr hs) h1
      simpa using this

def good : Env := ⟨.ok, none⟩
def ev1 : Event := ⟨4, 10, some [1]⟩
def ev2 : Event := ⟨4, 11, some [2]⟩

/-- Start, an event, accept, another event: both are sent. -/
example : (runAll init [(good, .start), (good, .log ev1), (good, .accept 1), (good, .log ev2)]).map
    (fun r => (outs r.2, live r.2, kicked r.2, busy r.2)) =
    some ([.connect, .sent 1 (.event ev1), .sent 1 (.event ev2)], some 1, true, true) := by decide

/-- C81: stopping the sink ends the connection in use, if there is one, and does nothing else. -/
theorem stop_aborts {h : List Rec} {st : St} (hr : Run h st) (env : Env) :
    ∃ st', step env st .stop = some (st', match live h with | some c => [.abort c] | none => []) := by
  have hc := cinv_run hr
  refine ⟨{ st with conn := .none, port := false }, ?_⟩
  simp only [step, Option.some.injEq, Prod.mk.injEq, true_and]
  cases hl : live h with
  | some c => rw [(hc.live c).1 hl]
  | none =>
    cases hcn : st.conn with
    | opened c => have := (hc.live c).2 hcn; rw [hl] at this; cases this
    | none => rfl
    | pending => rfl

/-- C81, not as one would wish: an event logged before the start of the sink (while the node starts) waits
until another event is logged; nothing else would send it. -/
theorem early_event_waits : ∃ h st, Run h st ∧ started h = true ∧ st.queue = [.event ev1] ∧ busy h = false ∧
    st.timer = false ∧ ∀ env c, step env st .timeout = some (st, []) ∧ step env st .start = some (st, []) ∧
      live h ≠ some c := by
  refine ⟨[⟨.log ev1, []⟩, ⟨.start, []⟩], ⟨true, true, .none, false, [.event ev1]⟩, ?_, by decide, rfl, by decide, rfl, ?_⟩
  · exact run_all (l := [(good, .log ev1), (good, .start)]) .init (by decide)
  · intro env c
    exact ⟨rfl, rfl, by simp [live, broke]⟩

/-- C81, not as one would wish: an event that cannot be encoded raises an exception out of the sink, and is
lost. -/
theorem bad_event_raises : ∃ h st, Run h st ∧ started h = true ∧ live h = some 1 ∧
    ∀ env, step env st (.log ⟨3, 0, none⟩) = none := by
  refine ⟨[⟨.start, []⟩, ⟨.log ev1, [.connect]⟩, ⟨.accept 1, [.sent 1 (.event ev1)]⟩],
    ⟨true, true, .opened 1, false, []⟩, ?_, by decide, by decide, ?_⟩
  · exact run_all (l := [(good, .start), (good, .log ev1), (good, .accept 1)]) .init (by decide)
  · intro env
    simp [step, append, limit, sendEvents, sendLoop, encodes]

/-- C81, not as one would wish: after a failure to send, the connection is not closed; if its disconnect
comes after its successor was accepted, the successor is dropped (without being closed) and a third
connection is asked for. -/
theorem late_disconnect_drops : ∃ h st, Run h st ∧
    outs h = [.connect, .failed 1, .connect, .sent 2 (.event ev1), .connect] ∧
    h.map (·.ev) = [.start, .log ev1, .accept 1, .timeout, .accept 2, .closed 1, .log ev2] := by
  refine ⟨[⟨.start, []⟩, ⟨.log ev1, [.connect]⟩, ⟨.accept 1, [.failed 1]⟩, ⟨.timeout, [.connect]⟩,
    ⟨.accept 2, [.sent 2 (.event ev1)]⟩, ⟨.closed 1, []⟩, ⟨.log ev2, [.connect]⟩],
    ⟨true, true, .pending, true, [.event ev2]⟩, ?_, by decide, by decide⟩
  exact run_all (l := [(good, .start), (good, .log ev1), (⟨.ok, some 0⟩, .accept 1), (good, .timeout),
    (good, .accept 2), (good, .closed 1), (good, .log ev2)]) .init (by decide)

/-- C81, not as one would wish: the retry time is not kept if an event is logged meanwhile. -/
theorem retry_not_kept : ∃ h st, Run h st ∧ outs h = [.connect, .connect] ∧
    h.map (·.ev) = [.start, .log ev1, .closed 1, .log ev2] := by
  refine ⟨[⟨.start, []⟩, ⟨.log ev1, [.connect]⟩, ⟨.closed 1, []⟩, ⟨.log ev2, [.connect]⟩],
    ⟨true, true, .pending, true, [.event ev1, .event ev2]⟩, ?_, by decide, by decide⟩
  exact run_all (l := [(good, .start), (good, .log ev1), (good, .closed 1), (good, .log ev2)]) .init (by decide)

end Verif.EvLog.Remote
