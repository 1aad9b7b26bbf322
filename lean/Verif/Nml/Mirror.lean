import Verif.Nml.Loop

/-!
# The mirror, and a whole loop test (C85)
-/

namespace Verif.Nml

/-- Answer of the mirror object to a message, modules/mirror.py 61-73; no bytes at all raise `IndexError`. -/
def mirror : Bytes → Option Bytes
  | [] => none
  | f :: b => if f = 0 then some (1 :: b) else some [0xff]

/-- Its accept data, modules/mirror.py 74-90. -/
def mirrorAccept : Bytes := [0xff, 0xff]

/-- The listener, the mirror, and what is under way on the connection in each direction. -/
structure Sys where
  st : St
  up : List Bytes
  down : List Item
  /-- Messages the mirror was given. -/
  seen : List Bytes
  /-- Verdicts. -/
  said : List Reply
  /-- Messages delivered on the connection. -/
  steps : Nat

/-- Messages sent on a connection. -/
def sentOn (n : Nat) : List Out → List Bytes
  | [] => []
  | .send m b :: os => if m = n then b :: sentOn n os else sentOn n os
  | _ :: os => sentOn n os

/-- A delivery at either end, or something else at the listener that leaves the manager's connection open. -/
inductive Sys.Step (n : Nat) : Sys → Sys → Prop
  | mirror {s : Sys} {m r : Bytes} {rest : List Bytes} : s.up = m :: rest → Nml.mirror m = some r →
      Sys.Step n s { s with up := rest, down := s.down ++ [.data r], seen := s.seen ++ [m],
                            steps := s.steps + 1 }
  | listener {s : Sys} {i : Item} {rest : List Item} (env : Env) : s.down = i :: rest →
      Sys.Step n s { s with
        st := (step env s.st (.item (.loop n) i)).1
        up := s.up ++ sentOn n (step env s.st (.item (.loop n) i)).2
        down := rest
        said := s.said ++ sent (step env s.st (.item (.loop n) i)).2
        steps := s.steps + 1 }
  | other {s : Sys} (env : Env) (ev : Ev) : Quiet ev → (∀ i, ev ≠ .item (.loop n) i) →
      Out.crash ∉ (step env s.st ev).2 → (step env s.st ev).1.nice = true →
      Sys.Step n s { s with st := (step env s.st ev).1 }

inductive Sys.Steps (n : Nat) : Sys → Sys → Prop
  | refl {s : Sys} : Sys.Steps n s s
  | tail {s t u : Sys} : Sys.Steps n s t → Sys.Step n t u → Sys.Steps n s u

/-- The mirror has just accepted. -/
def Sys.start (st : St) : Sys := ⟨st, [], [.accept mirrorAccept], [], [], 0⟩

/-- While the test is on, one message is under way. -/
def Sys.Inv (n c : Nat) (d : Bytes) (s : Sys) : Prop :=
  s.st.dead = false ∧ s.st.nice = true ∧ s.seen = List.replicate s.seen.length (0 :: d) ∧
  ((s.st.loopConn = some n ∧ s.st.data = d ∧ s.said = [] ∧ 1 ≤ s.st.count ∧
      ((s.up = [] ∧ s.down = [.accept mirrorAccept] ∧ s.st.count = c ∧ s.seen.length = 0 ∧ s.steps = 0) ∨
       (s.up = [0 :: d] ∧ s.down = [] ∧ s.seen.length + s.st.count = c ∧ s.steps = 2 * s.seen.length + 1) ∨
       (s.up = [] ∧ s.down = [.data (1 :: d)] ∧ s.seen.length + s.st.count = c + 1 ∧
          s.steps = 2 * s.seen.length))) ∨
   (s.st.loopConn = none ∧ s.up = [] ∧ s.down = [] ∧ s.said = [.loopOk none] ∧ s.seen.length = c ∧
      s.steps = 2 * c + 1))

theorem Sys.Inv.step {n c : Nat} {d : Bytes} (hd : d.length ≤ 65534) {s t : Sys} (h : s.Inv n c d)
    (hs : Sys.Step n s t) : t.Inv n c d := by
  obtain ⟨h1, h2, h3, h4⟩ := h
  cases hs with
  | @mirror m r rest hu hm =>
    rcases h4 with ⟨a, b, e, f, ⟨g, _⟩ | ⟨g, g2, g3, g4⟩ | ⟨g, _⟩⟩ | ⟨_, g, _⟩
    · simp [g] at hu
    · rw [g] at hu
      simp only [List.cons.injEq] at hu
      obtain ⟨rfl, rfl⟩ := hu
      simp only [Nml.mirror, if_true, Option.some.injEq] at hm
      subst hm
      refine ⟨h1, h2, ?_, .inl ⟨a, b, e, f, .inr (.inr ⟨rfl, by simp [g2], by simp; omega, by simp; omega⟩)⟩⟩
      simp only [List.length_append, List.length_singleton, List.replicate_succ']
      rw [← h3]
    · simp [g] at hu
    · simp [g] at hu
  | @listener i rest env hdn =>
    have hst : ∀ (hh : s.st.loopConn = some n), act env s.st (.item (.loop n) i) = loopWork s.st n i := by
      intro hh; simp [act, hh]
    rcases h4 with ⟨a, b, e, f, ⟨g, g2, g3, g4, g5⟩ | ⟨g, g2, g3, g4⟩ | ⟨g, g2, g3, g4⟩⟩ | ⟨_, _, g, _⟩
    · rw [g2] at hdn
      simp only [List.cons.injEq] at hdn
      obtain ⟨rfl, rfl⟩ := hdn
      have hw := fine_step (st := s.st) (n := n) (i := .accept mirrorAccept)
        (.inr ⟨_, rfl, by rw [b]; simp [mirrorAccept, Fields.fromLe]; omega⟩) (by simp)
      have hstep : Nml.step env s.st (.item (.loop n) (.accept mirrorAccept)) =
          ({ s.st with dead := false }, [.send n (0 :: s.st.data)]) := by
        simp [Nml.step, h1, hst a, hw]
      rw [hstep]
      refine ⟨rfl, h2, h3, .inl ⟨a, b, by simp [e, sent], f, .inr (.inl ⟨by simp [g, sentOn, b], rfl, ?_, ?_⟩)⟩⟩
      · simp only [g3]; omega
      · simp only [g4, g5]
    · simp [g2] at hdn
    · rw [g2] at hdn
      simp only [List.cons.injEq] at hdn
      obtain ⟨rfl, rfl⟩ := hdn
      by_cases hc : s.st.count = 1
      · have hstep : Nml.step env s.st (.item (.loop n) (.data (1 :: d))) =
            ({ s.st with count := s.st.count - 1, loopConn := none, dead := false },
              [.disconnect n, .reply (.loopOk none)]) := by
          have hl : s.st.count - 1 < 1 := by omega
          simp [Nml.step, h1, hst a, loopWork, b, hl, replies, h2]
        rw [hstep]
        refine ⟨rfl, h2, h3, .inr ⟨rfl, by simp [g, sentOn], rfl, by simp [e, sent], ?_, ?_⟩⟩
        · simp only; omega
        · simp only; omega
      · have hw := fine_step (st := s.st) (n := n) (i := .data (1 :: d)) (.inl (by rw [b]))
          (by intro _; omega)
        have hstep : Nml.step env s.st (.item (.loop n) (.data (1 :: d))) =
            ({ s.st with count := s.st.count - 1, dead := false }, [.send n (0 :: s.st.data)]) := by
          simp [Nml.step, h1, hst a, hw, b]
        rw [hstep]
        refine ⟨rfl, h2, h3, .inl ⟨a, b, by simp [e, sent], ?_, .inr (.inl ⟨by simp [g, sentOn, b], rfl, ?_, ?_⟩)⟩⟩
        · simp only; omega
        · simp only; omega
        · simp only; omega
    · simp [g] at hdn
  | other env ev hq hne hcr hni =>
    have hs := step_nocrash h1 hcr
    have ha := act_quiet (env := env) (st := s.st) hq (by
      intro m i hm hmm
      rcases h4 with ⟨a, _⟩ | ⟨a, _⟩
      · rw [a] at hmm
        simp only [Option.some.injEq] at hmm
        exact hne i (by rw [hm, hmm])
      · rw [a] at hmm; simp at hmm)
    obtain ⟨⟨a1, a2, a3⟩, _⟩ := ha
    have e1 : (Nml.step env s.st ev).1.loopConn = s.st.loopConn := by rw [hs.1]; exact a1
    have e2 : (Nml.step env s.st ev).1.data = s.st.data := by rw [hs.1]; exact a3
    have e3 : (Nml.step env s.st ev).1.count = s.st.count := by rw [hs.1]; exact a2
    refine ⟨by rw [hs.1], hni, h3, ?_⟩
    simp only [e1, e2, e3]
    exact h4

theorem Sys.inv {n : Nat} {st : St} (hc : st.loopConn = some n) (hd : st.dead = false)
    (hn : st.nice = true) (h1 : 1 ≤ st.count) (hl : st.data.length ≤ 65534) {s : Sys}
    (h : Sys.Steps n (Sys.start st) s) : s.Inv n st.count st.data := by
  induction h with
  | refl => exact ⟨hd, hn, by simp [Sys.start], .inl ⟨hc, rfl, rfl, h1, .inl ⟨rfl, rfl, rfl, rfl, rfl⟩⟩⟩
  | tail _ hs ih => exact ih.step hl hs

/-! ## The claims -/

/-- C85: against the mirror of this code, whatever else the manager asks meanwhile, the test says nothing but
"success", and that when the mirror has been given the data exactly as often as asked for. -/
theorem loop_says {n : Nat} {st : St} (hc : st.loopConn = some n) (hd : st.dead = false)
    (hn : st.nice = true) (h1 : 1 ≤ st.count) (hl : st.data.length ≤ 65534) {s : Sys}
    (h : Sys.Steps n (Sys.start st) s) :
    s.said = [] ∨ (s.said = [.loopOk none] ∧ s.seen = List.replicate st.count (0 :: st.data)) := by
  obtain ⟨_, _, h3, ⟨_, _, e, _⟩ | ⟨_, _, _, e, f, _⟩⟩ := Sys.inv hc hd hn h1 hl h
  · exact .inl e
  · exact .inr ⟨e, by rw [h3, f]⟩

/-- C85: it does end: unless the verdict has been given there is a message to deliver, and after
`2 * count + 1` deliveries it has been given. -/
theorem loop_ends {n : Nat} {st : St} (hc : st.loopConn = some n) (hd : st.dead = false)
    (hn : st.nice = true) (h1 : 1 ≤ st.count) (hl : st.data.length ≤ 65534) {s : Sys}
    (h : Sys.Steps n (Sys.start st) s) :
    s.steps ≤ 2 * st.count + 1 ∧
      (s.said = [.loopOk none] ↔ s.steps = 2 * st.count + 1) ∧
      (s.said ≠ [.loopOk none] → ∃ t, Sys.Step n s t ∧ t.steps = s.steps + 1) := by
  obtain ⟨_, _, _, ⟨_, _, e, f, g⟩ | ⟨_, _, _, e, _, f⟩⟩ := Sys.inv hc hd hn h1 hl h
  · have hlt : s.steps < 2 * st.count + 1 := by
      rcases g with ⟨_, _, a, b, c⟩ | ⟨_, _, a, b⟩ | ⟨_, _, a, b⟩ <;> omega
    refine ⟨by omega, ⟨by simp [e], by omega⟩, fun _ => ?_⟩
    rcases g with ⟨_, a, _⟩ | ⟨a, _⟩ | ⟨_, a, _⟩
    · exact ⟨_, .listener ⟨.raises, .raises, fun _ => false, fun _ => none, .failed⟩ a, rfl⟩
    · exact ⟨_, .mirror a rfl, rfl⟩
    · exact ⟨_, .listener ⟨.raises, .raises, fun _ => false, fun _ => none, .failed⟩ a, rfl⟩
  · exact ⟨by omega, ⟨fun _ => f, fun _ => e⟩, fun hh => absurd e hh⟩

/-- Finding: a message of 65535 bytes, which a request may ask for, is refused on the mirror's word that
65535 bytes are its limit, the function code counting as well. -/
theorem longest_refused (env : Env) {n : Nat} {st : St} (hc : st.loopConn = some n) (hd : st.dead = false)
    (hn : st.nice = true) (hl : 65534 < st.data.length) :
    (step env st (.item (.loop n) (.accept mirrorAccept))).2 =
      [.abort n, .reply (.loopErr (-16) 151 st.count)] := by
  have : Fields.fromLe (mirrorAccept.take 2) < st.data.length + 1 := by
    simp [mirrorAccept, Fields.fromLe]; omega
  simp [step, hd, act, hc, loopWork, this, replies, hn]

/-- C85: how a test begins: with arguments in range the other node is asked for a connection, with the access
control of the request, and the count and the data are those asked for. -/
theorem loop_start {env : Env} {st : St} {msg : Bytes} {e : Ent} {u p a : Str} {ps : List (Nat × PVal)} {n : Nat}
    (h2 : st.phase2 = false) (hp : parse msg = .ok (.loopNode e u p a ps)) (hc : env.connect = .ok n)
    (h1 : 1 ≤ (number ps 150).getD 1) (hl : 1 ≤ (number ps 151).getD 128)
    (hl2 : (number ps 151).getD 128 ≤ 65535) (hw : (number ps 152).getD 2 ≤ 2) :
    act env st (.item .nice (.data msg)) =
      ({ st with
          loopConn := some n
          count := (number ps 150).getD 1
          data := List.replicate ((number ps 151).getD 128)
            (if (number ps 152).getD 2 = 0 then 0 else if (number ps 152).getD 2 = 1 then 0xff else 0x55) },
        [.connect e.value u p a]) := by
  have hb : badArg none ((number ps 152).getD 2) ((number ps 151).getD 128) 65535
      ((number ps 150).getD 1) = none := by
    unfold badArg
    rw [if_neg (by omega), if_neg (by omega), if_neg]
    unfold filler
    split
    · simp
    · split
      · simp
      · rw [if_pos (by omega)]; simp
  have hf : (filler ((number ps 152).getD 2)).getD 0 =
      (if (number ps 152).getD 2 = 0 then 0 else if (number ps 152).getD 2 = 1 then 0xff else 0x55) := by
    unfold filler
    split
    · rfl
    · split
      · rfl
      · rw [if_pos (by omega)]; rfl
  simp only [act, niceWork, request, hp, h2, loopNode, hb, hc, hf]
  simp

/-- C85: and with an argument out of range nothing is started, and the reply names one that is. -/
theorem loop_refused {env : Env} {st : St} {msg : Bytes} {e : Ent} {u p a : Str} {ps : List (Nat × PVal)}
    (hn : st.nice = true) (h2 : st.phase2 = false) (hp : parse msg = .ok (.loopNode e u p a ps))
    (hbad : (number ps 150).getD 1 < 1 ∨ (number ps 151).getD 128 < 1 ∨ 65535 < (number ps 151).getD 128 ∨
      2 < (number ps 152).getD 2) :
    ∃ b, (act env st (.item .nice (.data msg))).2 =
        [.reply (.loopErr (-16) b ((number ps 150).getD 1))] ∧
      ((b = 150 ∧ (number ps 150).getD 1 < 1) ∨
        (b = 151 ∧ ((number ps 151).getD 128 < 1 ∨ 65535 < (number ps 151).getD 128)) ∨
        (b = 152 ∧ 2 < (number ps 152).getD 2)) := by
  have hex : ∃ b, badArg none ((number ps 152).getD 2) ((number ps 151).getD 128) 65535
      ((number ps 150).getD 1) = some b ∧ ((b = 150 ∧ (number ps 150).getD 1 < 1) ∨
        (b = 151 ∧ ((number ps 151).getD 128 < 1 ∨ 65535 < (number ps 151).getD 128)) ∨
        (b = 152 ∧ 2 < (number ps 152).getD 2)) := by
    unfold badArg
    split
    · exact ⟨150, rfl, .inl ⟨rfl, by assumption⟩⟩
    · split
      · exact ⟨151, rfl, .inr (.inl ⟨rfl, by assumption⟩)⟩
      · have hw : 2 < (number ps 152).getD 2 := by omega
        have hf : filler ((number ps 152).getD 2) = none := by
          unfold filler
          rw [if_neg (by omega), if_neg (by omega), if_neg (by omega)]
        rw [if_pos hf]
        exact ⟨152, rfl, .inr (.inr ⟨rfl, hw⟩)⟩
  obtain ⟨b, hb, hb2⟩ := hex
  refine ⟨b, ?_, hb2⟩
  simp only [act, niceWork, request, hp, h2, loopNode, hb]
  simp [replies, hn]

/-! ## Cases and findings -/

/-- Environment in which the connection made gets number `k`. -/
def envConn (k : Nat) : Env := ⟨.raises, .ok k, fun _ => false, fun _ => none, .failed⟩

/-- LOOP NODE 1.2 COUNT 2 LENGTH 1, and what follows. -/
example :
    (exec { init with nice := true } [
      (envConn 5, .item .nice (.data [18, 0, 0, 2, 4, 150, 0, 2, 0, 151, 0, 1, 0])),
      (envConn 0, .item (.loop 5) (.accept mirrorAccept)),
      (envConn 0, .item (.loop 5) (.data [1, 0x55])),
      (envConn 0, .item (.loop 5) (.data [1, 0x55]))]).1.map (·.outs) =
    [[.connect (.num 1026) [] [] []], [.send 5 [0, 0x55]], [.send 5 [0, 0x55]],
      [.disconnect 5, .reply (.loopOk none)]] := by decide +kernel

/-- Finding: a second loop request while a test is going on takes its place, and when the first mirror sends
the data back, that is taken as a request and the manager is told of an unrecognised function; the first
test has no verdict. -/
theorem second_loop_request :
    (exec { init with nice := true } [
      (envConn 5, .item .nice (.data [18, 0, 0, 2, 4, 150, 0, 2, 0, 151, 0, 1, 0])),
      (envConn 0, .item (.loop 5) (.accept mirrorAccept)),
      (envConn 6, .item .nice (.data [18, 0, 0, 3, 4, 150, 0, 1, 0, 151, 0, 1, 0])),
      (envConn 0, .item (.loop 5) (.data [1, 0x55])),
      (envConn 0, .item (.loop 6) (.accept mirrorAccept)),
      (envConn 0, .item (.loop 6) (.data [1, 0x55]))]).1.map (·.outs) =
    [[.connect (.num 1026) [] [] []], [.send 5 [0, 0x55]], [.connect (.num 1027) [] [] []],
      [.reply (.status (-1) 0)], [.send 6 [0, 0x55]], [.disconnect 6, .reply (.loopOk none)]] := by
  decide +kernel

/-- Finding: even a request that is refused changes the count of the test going on: the success reported here
came after one of the three messages asked for. -/
theorem refused_request_changes_count :
    (exec { init with nice := true } [
      (envConn 5, .item .nice (.data [18, 0, 0, 2, 4, 150, 0, 3, 0, 151, 0, 1, 0])),
      (envConn 0, .item (.loop 5) (.accept mirrorAccept)),
      (envConn 6, .item .nice (.data [18, 0, 0, 3, 4, 150, 0, 1, 0, 151, 0, 0, 0])),
      (envConn 0, .item (.loop 5) (.data [1, 0x55]))]).1.map (·.outs) =
    [[.connect (.num 1026) [] [] []], [.send 5 [0, 0x55]], [.reply (.loopErr (-16) 151 1)],
      [.disconnect 5, .reply (.loopOk none)]] := by
  decide +kernel

/-- Finding: a message with no bytes from the mirror makes the listener fail. -/
theorem empty_from_mirror (env : Env) {n : Nat} {st : St} (hc : st.loopConn = some n) (hd : st.dead = false) :
    (step env st (.item (.loop n) (.data []))).2 = [.crash] := by
  simp [step, hd, act, hc, loopWork]

end Verif.Nml
