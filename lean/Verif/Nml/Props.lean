import Verif.Nml.Lemmas

/-!
# Answers of the network management listener (C83, C84)
-/

namespace Verif.Nml

/-! ## C83: every request has one complete answer -/

/-- What a read request is answered with: an unknown entity is an error, several that turn out to be none
are not; with a wildcard only the matching ones are shown. -/
def expected (e : Ent) (l : List (Bool × Entry)) : Result :=
  if l = [] ∧ 0 ≤ e.code then .failed (-8)
  else .entities (present ((l.filter fun x => x.1 || decide (-5 ≤ e.code)).map (·.2)))

theorem selected_eq (e : Ent) (l : List (Bool × Entry)) :
    selected e l = (l.filter fun x => x.1 || decide (-5 ≤ e.code)).map (·.2) := by
  unfold selected
  split
  · rename_i h
    have : ¬ -5 ≤ e.code := by omega
    simp [this]
  · rename_i h
    have : -5 ≤ e.code := by omega
    simp only [this, decide_true, Bool.or_true]
    rw [List.filter_eq_self.2 (by simp)]

/-- C83: the client of a read request learns exactly the entities the layers gave, in their order, each with
all its records, and knows when the answer is complete. -/
theorem read_result {env : Env} {st : St} {msg : Bytes} {t i : Nat} {e : Ent} {l : List (Bool × Entry)}
    (hn : st.nice = true) (h2 : st.phase2 = false) (hp : parse msg = .ok (.read t i false e))
    (hr : env.read = .items l) :
    Only (act env st (.item .nice (.data msg))).2 ∧
      client (sent (act env st (.item .nice (.data msg))).2) = some (expected e l) := by
  have : (act env st (.item .nice (.data msg))).2 =
      (if l = [] ∧ 0 ≤ e.code then [codeReply false (-8)] else listReplies false (selected e l)).map
        .reply := by
    simp only [act, niceWork, request, hp, h2, hr, answer, readReplies]
    by_cases h : l = [] ∧ 0 ≤ e.code
    · simp [h, replies, hn]
    · simp [h, replies, hn]
  rw [this]
  refine ⟨by simp [Only, sent_map], ?_⟩
  rw [sent_map]
  unfold expected
  by_cases h : l = [] ∧ 0 ≤ e.code
  · rw [if_pos h, if_pos h]; simp [client, codeReply]
  · rw [if_neg h, if_neg h, client_list, selected_eq]

/-- C83: the same for a Phase II client, whose requests name existing lines or all of them. -/
theorem read_old_result {env : Env} {st : St} {msg : Bytes} {t : Nat} {l : List (Bool × Entry)}
    (hn : st.nice = true) (h2 : st.phase2 = true) (hp : parse msg = .ok (.readOld t))
    (hr : env.read = .items l) (hl : l ≠ []) (h1 : ∀ x ∈ l, ∃ e, x.2 = .one e) :
    Only (act env st (.item .nice (.data msg))).2 ∧
      oldClient (sent (act env st (.item .nice (.data msg))).2) =
        some (.entities (l.map fun x => x.2.records)) := by
  have : (act env st (.item .nice (.data msg))).2 = (listReplies true (l.map (·.2))).map .reply := by
    simp [act, niceWork, request, hp, h2, hr, answer, readOldReplies, hl, replies, hn]
  rw [this]
  refine ⟨by simp [Only, sent_map], ?_⟩
  rw [sent_map, oldClient_list]
  · simp
  · intro x hx
    obtain ⟨y, hy, rfl⟩ := List.mem_map.1 hx
    exact h1 y hy

/-- Finding: a Phase II client that asks for a line there is none of loses its connection. -/
theorem old_unknown_line {env : Env} {st : St} {msg : Bytes} {t : Nat}
    (h2 : st.phase2 = true) (hp : parse msg = .ok (.readOld t)) (hr : env.read = .items []) :
    (act env st (.item .nice (.data msg))).2 = [.crash] := by
  simp [act, niceWork, request, hp, h2, hr, answer, readOldReplies]

/-- The node's error codes are those of an error. -/
def Env.Sane (env : Env) : Prop := ∀ c, env.read = .code c → c < 0 ∧ c ≠ -128

/-- Requests whose answer comes later: a loop test was started. -/
def Deferred (env : Env) (st : St) (os : List Out) : Prop :=
  sent os = [] ∧
    ((∃ n d u p a, env.connect = .ok n ∧ os = [.connect d u p a] ∧ st.loopConn = some n) ∨
      (∃ d k b, env.looper = .started ∧ os = [.looper d k b]))

theorem loopErr_complete {st : St} (hn : st.nice = true) (c : Int) (d n : Nat) (h : c < 0 ∧ c ≠ -128) :
    client (sent (replies st [.loopErr c d n])) = some (.notLooped c n) := by
  rw [replies_open hn, sent_map]; simp [client, h]

/-- C83: whatever the bytes of a message from a Phase III or IV client are, either the listener fails, or a
loop test was started, or the replies are one complete answer. -/
theorem answered {env : Env} {st : St} (hn : st.nice = true) (h2 : st.phase2 = false) (he : env.Sane)
    (msg : Bytes) :
    let r := act env st (.item .nice (.data msg))
    Out.crash ∈ r.2 ∨ Deferred env r.1 r.2 ∨ ∃ x, client (sent r.2) = some x := by
  simp only [act, niceWork, request]
  have hs : ∀ c : Int, c < 0 ∧ c ≠ -128 → ∀ d, ∃ x, client (sent (replies st [.status c d])) = some x := by
    intro c hc d
    exact ⟨.failed c, by rw [replies_open hn, sent_map]; simp [client, hc]⟩
  split
  · simp
  · exact .inr (.inr (hs _ (by decide) _))
  · exact .inr (.inr (hs _ (by decide) _))
  · exact .inr (.inr (hs _ (by decide) _))
  · rw [if_neg (by simp [h2])]
    exact .inr (.inr ⟨.failed (-1), by rw [replies_open hn, sent_map]; simp [client]⟩)
  · rename_i t i permanent e hp
    rw [if_neg (by simp [h2])]
    split
    · simp only [codeReply, h2]
      exact .inr (.inr (hs _ (by decide) _))
    · unfold readReplies
      cases hr : env.read with
      | raises => simp [answer]
      | code c =>
        simp only [answer, codeReply, h2]
        exact .inr (.inr (hs _ (he c hr) _))
      | items l =>
        simp only
        split
        · simp only [answer, codeReply, h2]
          exact .inr (.inr (hs _ (by decide) _))
        · simp only [answer, h2]
          rw [replies_open hn, sent_map, client_list]
          exact .inr (.inr ⟨_, rfl⟩)
  · rename_i e u p a ps hp
    rw [if_neg (by simp [h2])]
    unfold loopNode
    simp only
    split
    · exact .inr (.inr ⟨_, loopErr_complete hn _ _ _ (by decide)⟩)
    · split
      · rename_i n hc
        exact .inr (.inl ⟨rfl, .inl ⟨n, _, _, _, _, hc, rfl, rfl⟩⟩)
      · exact .inr (.inr ⟨_, loopErr_complete hn _ _ _ (by decide)⟩)
      · simp
  · rw [if_neg (by simp [h2])]
    exact .inr (.inr ⟨_, loopErr_complete hn _ _ _ (by decide)⟩)
  · rename_i e ps hp
    rw [if_neg (by simp [h2])]
    unfold loopCircuit
    by_cases hc : hasCircuit env e = false
    · rw [if_pos hc]
      exact .inr (.inr ⟨_, loopErr_complete hn _ _ _ (by decide)⟩)
    · rw [if_neg hc]
      simp only
      cases target env ps 10 155 with
      | none => simp
      | some to =>
        simp only
        generalize (if number ps 154 = none then some none else target env ps 153 156) = hh
        cases hh with
        | none => simp
        | some helper =>
          simp only
          cases badArg (badHelp to helper (address ps 153).isSome (number ps 154))
              ((number ps 152).getD 2) ((number ps 151).getD 128) 1490 ((number ps 150).getD 1) with
          | some b => exact .inr (.inr ⟨_, loopErr_complete hn _ _ _ (by decide)⟩)
          | none =>
            simp only
            cases hl : env.looper with
            | started => exact .inr (.inl ⟨rfl, .inr ⟨_, _, _, hl, rfl⟩⟩)
            | tooLong lim => exact .inr (.inr ⟨_, loopErr_complete hn _ _ _ (by decide)⟩)
            | failed => exact .inr (.inr ⟨_, loopErr_complete hn _ _ _ (by decide)⟩)

/-- C83: and the same for a Phase II client. -/
theorem answered_old {env : Env} {st : St} (hn : st.nice = true) (h2 : st.phase2 = true) (he : env.Sane)
    (h1 : ∀ l, env.read = .items l → ∀ x ∈ l, ∃ e, x.2 = .one e) (msg : Bytes) :
    let r := act env st (.item .nice (.data msg))
    r.1 = st ∧ (r.2 = [.crash] ∨ Only r.2 ∧ ∃ x, oldClient (sent r.2) = some x) := by
  simp only [act, niceWork, request]
  have hs : ∀ c : Int, c < 0 → ∀ d, Only (replies st [.status c d]) ∧
      ∃ x, oldClient (sent (replies st [.status c d])) = some x := by
    intro c hc d
    rw [replies_open hn]
    exact ⟨by rw [Only, sent_map], .failed c, by rw [sent_map]; simp [oldClient, hc]⟩
  split
  · simp
  · exact ⟨rfl, .inr (hs _ (by decide) _)⟩
  · exact ⟨rfl, .inr (hs _ (by decide) _)⟩
  · exact ⟨rfl, .inr (hs _ (by decide) _)⟩
  · rw [if_pos h2]
    refine ⟨rfl, ?_⟩
    unfold readOldReplies
    cases hr : env.read with
    | raises => simp [answer]
    | code c =>
      simp only [answer, codeReply, h2, if_true]
      rw [replies_open hn]
      exact .inr ⟨by rw [Only, sent_map], .failed c, by
        rw [sent_map]; simp [oldClient, (he c hr).1]⟩
    | items l =>
      simp only
      by_cases hl : l = []
      · simp [hl, answer]
      · simp only [hl, if_false, answer, h2]
        rw [replies_open hn]
        refine .inr ⟨by rw [Only, sent_map], .entities ((l.map (·.2)).map Entry.records), ?_⟩
        rw [sent_map]
        refine oldClient_list _ fun x hx => ?_
        obtain ⟨y, hy, rfl⟩ := List.mem_map.1 hx
        exact h1 l hr y hy
  · rw [if_pos h2]; exact ⟨rfl, .inr (hs _ (by decide) _)⟩
  · rw [if_pos h2]; exact ⟨rfl, .inr (hs _ (by decide) _)⟩
  · rw [if_pos h2]; exact ⟨rfl, .inr (hs _ (by decide) _)⟩
  · rw [if_pos h2]; exact ⟨rfl, .inr (hs _ (by decide) _)⟩

/-- What makes the listener fail: a message that is not taken for a malformed one though it is, a layer that
fails, or a loop over a circuit to an address that is none. -/
theorem crash_only {env : Env} {st : St} (hn : st.nice = true) (h2 : st.phase2 = false) (msg : Bytes)
    (h : Out.crash ∈ (act env st (.item .nice (.data msg))).2) :
    parse msg = .error .other ∨ env.read = .raises ∨ env.connect = .raises ∨
      ∃ e ps, parse msg = .ok (.loopCircuit e ps) ∧
        (target env ps 10 155 = none ∨ target env ps 153 156 = none) := by
  simp only [act, niceWork, request] at h
  have hs : ∀ rs, Out.crash ∉ replies st rs := crash_replies hn
  split at h
  · exact .inl (by assumption)
  · exact absurd h (hs _)
  · exact absurd h (hs _)
  · exact absurd h (hs _)
  · rw [if_neg (by simp [h2])] at h; exact absurd h (hs _)
  · rw [if_neg (by simp [h2])] at h
    split at h
    · exact absurd h (hs _)
    · unfold readReplies at h
      cases hr : env.read with
      | raises => exact .inr (.inl rfl)
      | code c => rw [hr] at h; exact absurd h (hs _)
      | items l =>
        rw [hr] at h
        simp only at h
        split at h <;> exact absurd h (hs _)
  · rw [if_neg (by simp [h2])] at h
    unfold loopNode at h
    simp only at h
    split at h
    · exact absurd h (crash_replies hn _)
    · split at h
      · simp at h
      · simp only [List.mem_cons, reduceCtorEq, false_or] at h
        exact absurd h (crash_replies hn _)
      · exact .inr (.inr (.inl (by assumption)))
  · rw [if_neg (by simp [h2])] at h; exact absurd h (hs _)
  · rename_i e ps hp
    rw [if_neg (by simp [h2])] at h
    refine .inr (.inr (.inr ⟨e, ps, hp, ?_⟩))
    unfold loopCircuit at h
    by_cases hc : hasCircuit env e = false
    · rw [if_pos hc] at h; exact absurd h (hs _)
    · rw [if_neg hc] at h
      simp only at h
      cases ht : target env ps 10 155 with
      | none => exact .inl rfl
      | some to =>
        rw [ht] at h
        simp only at h
        cases hh : target env ps 153 156 with
        | none => exact .inr rfl
        | some helper =>
          exfalso
          rw [hh] at h
          have hx : ∃ x, (if number ps 154 = none then some none else some helper) = some x := by
            split <;> exact ⟨_, rfl⟩
          obtain ⟨x, hx⟩ := hx
          rw [hx] at h
          simp only at h
          split at h
          · exact absurd h (crash_replies hn _)
          · split at h
            · simp at h
            · simp only [List.mem_cons, reduceCtorEq, false_or] at h
              exact absurd h (crash_replies hn _)
            · simp only [List.mem_cons, reduceCtorEq, false_or] at h
              exact absurd h (crash_replies hn _)

/-- Finding: one or two bytes too many after the name of a circuit, or of a node, and the listener fails
instead of answering. -/
theorem stray_bytes {t : UInt8} {b r : Bytes} {e : Ent} (hr : r.length = 1 ∨ r.length = 2)
    (h : (t.toNat % 8 = 3 ∧ decEnt b = .ok (e, r)) ∨ (t.toNat % 8 = 0 ∧ decNodeEnt b = .ok (e, r)))
    (env : Env) (st : St) :
    (act env st (.item .nice (.data (20 :: t :: b)))).2 = [.crash] := by
  have hp : ∀ table : Table, params table r = .error .other := by
    intro table
    match r, hr with
    | [x], _ => simp [params, decParams, decParam]
    | [x, y], _ => simp [params, decParams, decParam]
    | [], hr => simp at hr
    | _ :: _ :: _ :: _, hr => simp at hr
  have : parse (20 :: t :: b) = .error .other := by
    rcases h with ⟨ht, hd⟩ | ⟨ht, hd⟩
    · simp [parse, decRead, ht, hd, withParams, hp, Except.map]
    · simp [parse, decRead, ht, hd, withParams, hp, Except.map]
  simp [act, niceWork, request, this]

/-! ## C84: nothing is changed -/

/-- C84: a message with any function but loop and read information is refused, whatever follows: the only
effect is one reply, a privilege violation for a well-formed zero counters request and
"unrecognised function" otherwise, or the failure of the listener. -/
theorem modify_refused {env : Env} {st : St} (hn : st.nice = true) (msg : Bytes)
    (hf : ∀ f b, msg = f :: b → f ≠ 8 ∧ f ≠ 18 ∧ f ≠ 20) :
    let r := act env st (.item .nice (.data msg))
    r.1 = st ∧ (r.2 = [.reply (.status (-1) 0)] ∨
      (r.2 = [.reply (.status (-3) 0)] ∧ msg.head? = some 21) ∨
      (r.2 = [.crash] ∧ msg.head? = some 19)) := by
  have hz : ∀ b, (∃ t e, decZero b = .ok (.zero t e)) ∨ decZero b = .error .decode := by
    have he : ∀ b, (∃ x, decEnt b = .ok x) ∨ decEnt b = .error .decode := by
      intro b
      cases b with
      | nil => exact .inr rfl
      | cons c b =>
        simp only [decEnt]
        split
        · exact .inl ⟨_, rfl⟩
        · split
          · exact .inr rfl
          · split
            · exact .inr rfl
            · exact .inl ⟨_, rfl⟩
    intro b
    cases b with
    | nil => exact .inr rfl
    | cons t b =>
      simp only [decZero]
      split
      · cases b with
        | nil => exact .inr rfl
        | cons c b =>
          simp only [decNodeEnt]
          split
          · split
            · exact .inr rfl
            · exact .inl ⟨_, _, rfl⟩
          · rcases he (c :: b) with ⟨x, hx⟩ | hx
            · rw [hx]; exact .inl ⟨_, _, rfl⟩
            · rw [hx]; exact .inr rfl
      · split
        · rcases he b with ⟨x, hx⟩ | hx
          · rw [hx]; exact .inl ⟨_, _, rfl⟩
          · rw [hx]; exact .inr rfl
        · exact .inr rfl
  have hset : ∀ b, decSet b = .ok .unsupported ∨ ∃ e, decSet b = .error e := by
    intro b
    cases b with
    | nil => exact .inr ⟨_, rfl⟩
    | cons t b =>
      simp only [decSet]
      split
      · unfold withParams
        cases decEnt b with
        | error e => exact .inr ⟨_, rfl⟩
        | ok x =>
          simp only
          cases params circuitParams x.2 with
          | error e => exact .inr ⟨_, rfl⟩
          | ok l => exact .inl rfl
      · exact .inr ⟨_, rfl⟩
  simp only [act, niceWork, request]
  cases msg with
  | nil => simp [parse, replies, hn]
  | cons f b =>
    obtain ⟨h8, h18, h20⟩ := hf f b rfl
    simp only [parse, h18, h20, h8, if_false]
    by_cases h21 : f = 21
    · rw [if_pos h21]
      rcases hz b with ⟨t, e, h⟩ | h
      · rw [h]; simp [replies, hn, h21]
      · rw [h]; simp [replies, hn]
    · rw [if_neg h21]
      by_cases h19 : f = 19
      · rw [if_pos h19]
        rcases hset b with h | ⟨e, h⟩
        · rw [h]; simp [replies, hn]
        · rw [h]
          cases e with
          | decode => simp [replies, hn]
          | other => simp [h19]
      · rw [if_neg h19]
        by_cases h22 : f = 22
        · rw [if_pos h22]; simp [replies, hn]
        · rw [if_neg h22]; simp [replies, hn]

/-- Only messages with function 18 are loop requests. -/
theorem parse_loop {msg : Bytes} (h : ∀ b, msg ≠ 18 :: b) (e : Ent) (u p a : Str) (ps : List (Nat × PVal)) :
    parse msg ≠ .ok (.loopNode e u p a ps) ∧ parse msg ≠ .ok (.loopCircuit e ps) := by
  cases msg with
  | nil => simp [parse]
  | cons f b =>
    have h18 : f ≠ 18 := fun hf => h b (by rw [hf])
    have hw : ∀ (tb : Table) (g : Ent → List (Nat × PVal) → Req) x r, withParams tb g x = .ok r →
        ∃ e l, r = g e l := by
      intro tb g x r hx
      unfold withParams at hx
      cases x with
      | error e => simp at hx
      | ok y =>
        simp only at hx
        cases hq : params tb y.2 with
        | error e => rw [hq] at hx; simp [Except.map] at hx
        | ok l => rw [hq] at hx; simp [Except.map] at hx; exact ⟨_, _, hx.symm⟩
    have hm : ∀ (x : Except Err (Ent × Bytes)) (g : Ent × Bytes → Req) r, x.map g = .ok r →
        ∃ y, r = g y := by
      intro x g r hx
      cases x with
      | error e => simp [Except.map] at hx
      | ok y => simp [Except.map] at hx; exact ⟨_, hx.symm⟩
    have hrd : ∀ b r, decRead b = .ok r → ∃ t i pm e, r = .read t i pm e := by
      intro b r hb
      cases b with
      | nil => simp [decRead] at hb
      | cons t b =>
        simp only [decRead] at hb
        split at hb
        · obtain ⟨e, l, he⟩ := hw _ _ _ _ hb; exact ⟨_, _, _, _, he⟩
        · split at hb
          · obtain ⟨y, he⟩ := hm _ _ _ hb; exact ⟨_, _, _, _, he⟩
          · split at hb
            · obtain ⟨e, l, he⟩ := hw _ _ _ _ hb; exact ⟨_, _, _, _, he⟩
            · split at hb
              · obtain ⟨e, l, he⟩ := hw _ _ _ _ hb; exact ⟨_, _, _, _, he⟩
              · split at hb
                · obtain ⟨y, he⟩ := hm _ _ _ hb; exact ⟨_, _, _, _, he⟩
                · simp at hb
    have hzr : ∀ b r, decZero b = .ok r → ∃ t e, r = .zero t e := by
      intro b r hb
      cases b with
      | nil => simp [decZero] at hb
      | cons t b =>
        simp only [decZero] at hb
        split at hb
        · obtain ⟨y, he⟩ := hm _ _ _ hb; exact ⟨_, _, he⟩
        · split at hb
          · obtain ⟨y, he⟩ := hm _ _ _ hb; exact ⟨_, _, he⟩
          · simp at hb
    have hst : ∀ b r, decSet b = .ok r → r = .unsupported := by
      intro b r hb
      cases b with
      | nil => simp [decSet] at hb
      | cons t b =>
        simp only [decSet] at hb
        split at hb
        · obtain ⟨e, l, he⟩ := hw _ _ _ _ hb; exact he
        · simp at hb
    have hol : ∀ b r, decOld b = .ok r → ∃ t, r = .readOld t := by
      intro b r hb
      cases b with
      | nil => simp [decOld] at hb
      | cons t b =>
        simp only [decOld] at hb
        split at hb
        · split at hb <;> simp at hb
          exact ⟨_, hb.symm⟩
        · split at hb
          · split at hb
            · simp at hb
            · split at hb <;> simp at hb
              exact ⟨_, hb.symm⟩
          · simp at hb
    simp only [parse, h18, if_false]
    constructor <;> intro hx <;> revert hx <;> (repeat' split) <;> intro hx
    · obtain ⟨_, _, _, _, hh⟩ := hrd _ _ hx; simp at hh
    · obtain ⟨_, _, hh⟩ := hzr _ _ hx; simp at hh
    · have hh := hst _ _ hx; simp at hh
    · obtain ⟨_, hh⟩ := hol _ _ hx; simp at hh
    · simp at hx
    · simp at hx
    · obtain ⟨_, _, _, _, hh⟩ := hrd _ _ hx; simp at hh
    · obtain ⟨_, _, hh⟩ := hzr _ _ hx; simp at hh
    · have hh := hst _ _ hx; simp at hh
    · obtain ⟨_, hh⟩ := hol _ _ hx; simp at hh
    · simp at hx
    · simp at hx
/-- C84: and only loop requests change anything in the listener. -/
theorem request_keeps {env : Env} {st : St} (msg : Bytes)
    (h : ∀ b, msg ≠ 18 :: b) : (act env st (.item .nice (.data msg))).1 = st := by
  have hp := fun e u p a ps => parse_loop h e u p a ps
  simp only [act, niceWork, request]
  split
  · rfl
  · rfl
  · rfl
  · rfl
  · split <;> rfl
  · split
    · rfl
    · split <;> rfl
  · rename_i e u p a ps hpp
    exact absurd hpp (hp e u p a ps).1
  · split <;> rfl
  · rename_i e ps hpp
    exact absurd hpp (hp e [] [] [] ps).2

/-! ## Cases -/

/-- SHOW KNOWN NODES with two nodes of which one has two records. -/
example :
    (act ⟨.items [(true, .one 7), (true, .many [8, 9])], .unknown, fun _ => false, fun _ => none, .failed⟩
      { init with nice := true } (.item .nice (.data [20, 0, 255]))).2 =
      [.reply (.status 2 0), .reply (.ent 1 7), .reply (.ent 3 8), .reply (.ent 1 9),
        .reply (.status (-128) 0)] := by decide

/-- SHOW NODE 1.1 that is not there. -/
example :
    (act ⟨.items [], .unknown, fun _ => false, fun _ => none, .failed⟩
      { init with nice := true } (.item .nice (.data [20, 0, 0, 1, 4]))).2 =
      [.reply (.status (-8) 0xffff)] := by decide

/-- ZERO EXECUTOR COUNTERS. -/
example :
    (act ⟨.items [], .unknown, fun _ => false, fun _ => none, .failed⟩
      { init with nice := true } (.item .nice (.data [21, 0, 0, 0, 0]))).2 =
      [.reply (.status (-3) 0)] := by decide

/-- A stray byte after a read request for circuit `A`. -/
example : decEnt [1, 65, 0] = .ok (⟨1, .str [65]⟩, [0]) := by rfl

end Verif.Nml
