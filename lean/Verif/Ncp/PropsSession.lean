import Verif.Ncp.SessBad

/-!
# C106: sessions
-/

namespace Verif.Ncp

open Verif.Nml (Bytes PVal)

/-! ## Lines -/

/-- Every line is cut into tokens in one way, the one the program finds. -/
theorem line_tokens (line : Str) (ts : List Str) : Toks line ts ↔ tokens line = ts := toks_iff

/-- A token is a string with its quotes, or a word of the line in capitals. -/
theorem token_shape {line t : Str} (h : t ∈ tokens line) :
    (∃ q b, (q = '"' ∨ q = '\'') ∧ q ∉ b ∧ t = q :: (b ++ [q])) ∨
      (∃ w, w ≠ [] ∧ (∀ x ∈ w, space x = false) ∧ t = upper w ∧ w <:+: line) :=
  toks_shape (toks_iff.2 rfl) t h

/-- No token is empty. -/
theorem token_not_empty {line : Str} : [] ∉ tokens line := by
  intro h
  rcases token_shape h with ⟨q, b, -, -, h⟩ | ⟨w, h1, -, h, -⟩
  · cases h
  · cases w with
    | nil => exact h1 rfl
    | cons c w => simp [upper] at h

example : tokens k!"show node 'a b' \"C" = [k!"SHOW", k!"NODE", k!"'a b'", k!"\"C"] := by decide

/-! ## With listeners that keep to the rules -/

/-- With listeners that keep to the rules, every session does what its lines say, one after the other: every request
goes to the executor node of its time and what is displayed is its own answer; a TELL leaves the executor node as it was.
Nothing waits for ever, nothing is left unread, and the prompt shows the executor node. -/
theorem session_faithful {env : Env} (hg : Good env) (lines : List Str) :
    ∃ o s' x e, session env lines {} = (o, s') ∧ o ≠ .hung ∧ Runs none lines e x o ∧ s'.log = e ∧ s'.sock = [] ∧
      s'.dest = x.map rstrip := by
  obtain ⟨o, s', y, e, h1, h2, h3, h4, h5⟩ := session_run hg lines {} none idle_start
  refine ⟨o, s', nodeOf y, e, h1, h5, h4, by simpa using h3, h2.sock, ?_⟩
  rw [h2.dest]
  cases y <;> rfl

/-- What is on the screen is part of the answer to the last request before it, whatever is typed. -/
theorem session_own_answers {env : Env} (hg : Good env) (lines : List Str) {a b : List Ev} {r : Bytes}
    (h : (session env lines {}).2.log = a ++ .shown r :: b) :
    ∃ a' n q ans l, a = a' ++ .ask n q ans :: screen l ∧ .data r ∈ ans := by
  obtain ⟨o, s', x, e, h1, -, h2, h3, -⟩ := session_faithful hg lines
  rw [h1] at h
  simp only at h
  rw [h3] at h
  exact runs_fromLast h2 a r b h

/-- A node that answers with lists, one that refuses; the local listener answers with two replies. -/
def goodEnv : Env where
  connect _ d _ := if d = k!"AWAY" then .reject else .accept [4, 0, 0]
  answer t _ _ := [.data [2], .data [1, t.toUInt8], .data [1, 9], .data [128]]
  loc t _ := [[1, t.toUInt8], [1]]
  bad _ := false

theorem goodEnv_good : Good goodEnv where
  connect t d a := by unfold goodEnv; simp only; split <;> simp
  version t d a b h := by
    unfold goodEnv at h; simp only at h
    split at h
    · cases h
    · cases h; exact ⟨4, [0, 0], rfl, by decide⟩
  answer t c b := by
    refine ⟨[[1, t.toUInt8], [1, 9]], Body.list c.node 2 128 [] [] [[1, t.toUInt8], [1, 9]] rfl rfl ?_⟩
    intro r hr
    simp only [List.mem_cons, List.not_mem_nil, or_false] at hr
    rcases hr with rfl | rfl <;> exact ⟨1, _, rfl, by decide, by decide⟩
  loc t b r hr := by
    simp only [goodEnv, List.mem_cons, List.not_mem_nil, or_false] at hr
    rcases hr with rfl | rfl <;> simp
  bad _ := rfl

/-- SET EXECUTOR NODE, requests to it, TELL to others, back to the local node, and EXIT. -/
example : (session goodEnv [k!"show exec", k!"set exec node a user 'x'", k!"show known nodes", k!"tell b:: loop node 1.2",
      k!"tell away show exec", k!"clear exec node", k!"show exec", k!"ex", k!"show exec"] {}).2.log =
    [.ask none [20, 0, 0, 0, 0] [.data [1, 0], .data [1]], .shown [1, 0], .shown [1],
      .conn k!"A" [some (.simple (.ai [39, 120, 39])), none, none] (.accept [4, 0, 0]),
      .ask (some k!"A") [20, 0, 255] [.data [2], .data [1, 2], .data [1, 9], .data [128]], .shown [1, 2], .shown [1, 9],
      .conn k!"B::" [none, none, none] (.accept [4, 0, 0]),
      .ask (some k!"B::") [18, 0, 0, 2, 4] [.data [2], .data [1, 4], .data [1, 9], .data [128]], .shown [1, 4],
      .shown [1, 9], .disc k!"B::",
      .conn k!"AWAY" [none, none, none] .reject,
      .disc k!"A",
      .ask none [20, 0, 0, 0, 0] [.data [1, 6], .data [1]], .shown [1, 6], .shown [1]] := by
  decide +kernel

/-! ## With others -/

/-- A node whose first answer is a list with an error in it, and which then answers with one reply; the local listener
answers with one. -/
def errEnv : Env where
  connect _ _ _ := .accept [4, 0, 0]
  answer t _ _ := if t = 1 then [.data [2], .data [1, 7], .data [244], .data [128]] else [.data [1, t.toUInt8]]
  loc _ _ := [[1]]
  bad _ := false

/-- A node that takes the connection down. -/
def goneEnv : Env where
  connect _ _ _ := .accept [4, 0, 0]
  answer _ _ _ := [.gone]
  loc _ _ := [[1]]
  bad _ := false

/-- From every state with no executor node and a message on the socket that nobody has asked for, nothing is ever
displayed again, whatever is typed and whatever the nodes do: every answer is taken for the one before it. -/
theorem nothing_shown_again (env : Env) (lines : List Str) {s : St} (hc : s.conn = none) (hs : s.sock ≠ [])
    (ht : ∀ m ∈ s.sock, ∀ t, m.2.tag = some t → t ≤ s.tick) :
    ∃ o s' e, session env lines s = (o, s') ∧ s'.log = s.log ++ e ∧ (∀ r, .shown r ∉ e) ∧ s'.conn = none := by
  obtain ⟨o, s', h1, -, h2, e, h3, h4⟩ := session_dead env lines s ⟨hc, hs, ht⟩
  exact ⟨o, s', e, h1, h3, h4, h2.conn⟩

/-- It comes to this: a list with an error in it, then the local listener is asked. -/
example : (session errEnv [k!"set exec node a", k!"show known nodes", k!"clear exec node"] {}).2.conn = none ∧
    (session errEnv [k!"set exec node a", k!"show known nodes", k!"clear exec node"] {}).2.sock =
      [(some 1, .data [128])] ∧
    (session errEnv [k!"set exec node a", k!"show known nodes", k!"clear exec node", k!"show exec", k!"show exec",
      k!"set exec node a", k!"show exec"] {}).2.log.filter (fun e => match e with | .shown _ => true | _ => false) =
      [.shown [1, 7], .shown [244]] := by
  decide +kernel

/-- When the executor node has taken the connection down, no line but a TELL does anything any more: no request, no
connect, nothing displayed, and the executor node cannot be changed. -/
theorem nothing_done_again (env : Env) (lines : List Str) {s : St} {c : Conn} (hc : s.conn = some c) (ho : c.h ∉ s.opened)
    (hl : ∀ l ∈ lines, ∀ t r, Toks l (t :: r) → ¬ Abbr t k!"tell") :
    ∃ o s', session env lines s = (o, s') ∧ s'.log = s.log ∧ s'.conn = some c ∧ c.h ∉ s'.opened := by
  obtain ⟨o, s', h1, -, h2, h3, -⟩ := session_gone env lines s c ⟨hc, ho⟩ hl
  exact ⟨o, s', h1, h3, h2.1, h2.2⟩

/-- It comes to this; nothing is done by the last three lines. -/
example : (session goneEnv [k!"set exec node a", k!"show known nodes"] {}).2.conn = some ⟨1, k!"A"⟩ ∧
    (session goneEnv [k!"set exec node a", k!"show known nodes"] {}).2.opened = [] ∧
    (session goneEnv [k!"set exec node a", k!"show known nodes", k!"show exec", k!"clear exec node",
      k!"set exec node b"] {}).2.log =
      [.conn k!"A" [none, none, none] (.accept [4, 0, 0]), .ask (some k!"A") [20, 0, 255] [.gone]] := by
  decide +kernel

/-- A TELL to a node that takes the connection down leaves that node as the executor node, and not the one there was. -/
theorem tell_not_restored : ∃ env lines, (∀ t d a, env.connect t d a = .accept [4, 0, 0]) ∧
    lines = [k!"set exec node a", k!"tell b show exec"] ∧
    (session env (lines.take 1) {}).2.conn.map (·.node) = some k!"A" ∧
    (session env lines {}).2.conn.map (·.node) = some k!"B" ∧ (session env lines {}).2.dest = some k!"B" :=
  ⟨goneEnv, _, fun _ _ _ => rfl, rfl, by decide +kernel, by decide +kernel, by decide +kernel⟩

/-- With one reply left over, every request is followed on the screen by the answer to the one before it. -/
theorem answers_late {env : Env} {c : Conn} {f : Nat → Bytes} (hb : ∀ r, env.bad r = false)
    (hf : ∀ t q, env.answer t c q = [.data (f t)]) (hfs : ∀ t, Single (f t)) {lines : List Str} {qs : List Bytes}
    (hl : Requests lines qs) {s : St} {p : Bytes} (hs : Behind s c p) (hp : ∃ x b, p = x :: b ∧ x.toNat ≠ 2) :
    ∃ s', session env lines s = (.on, s') ∧ s'.log = s.log ++ late c f s.tick p qs :=
  session_behind hb hf hfs hl hs hp

/-- It comes to this: what is displayed after a list with an error in it. -/
example : (session errEnv [k!"set exec node a", k!"show known nodes", k!"show exec", k!"show node 1.2",
      k!"show node 1.3"] {}).2.log =
    [.conn k!"A" [none, none, none] (.accept [4, 0, 0]),
      .ask (some k!"A") [20, 0, 255] [.data [2], .data [1, 7], .data [244], .data [128]], .shown [1, 7], .shown [244],
      .ask (some k!"A") [20, 0, 0, 0, 0] [.data [1, 2]],
      .ask (some k!"A") [20, 0, 0, 2, 4] [.data [1, 3]], .shown [1, 2],
      .ask (some k!"A") [20, 0, 0, 3, 4] [.data [1, 4]], .shown [1, 3]] := by
  decide +kernel

example : ∃ s', session { errEnv with answer := fun t _ _ => [.data [1, t.toUInt8]] } [k!"show exec", k!"show exec"]
      { dest := some k!"A", conn := some ⟨1, k!"A"⟩, opened := [1], sock := [(some 1, .data [128])], tick := 3 } = (.on, s') ∧
    s'.log = [.ask (some k!"A") [20, 0, 0, 0, 0] [.data [1, 3]], .ask (some k!"A") [20, 0, 0, 0, 0] [.data [1, 4]],
      .shown [1, 3]] := by
  have hne : ¬ Ends k!"show exec" := by
    intro h
    have := (ends_iff (by simp)).1 h k!"SHOW" [k!"EXEC"] (by decide)
    revert this; decide
  have ht : Toks k!"show exec" [k!"SHOW", k!"EXEC"] := toks_iff.2 (by decide)
  have ha : Asks [k!"SHOW", k!"EXEC"] [20, 0, 0, 0, 0] untilError := .look _ _ _ (by decide) (by rfl)
  have hr : Requests [k!"show exec", k!"show exec"] [[20, 0, 0, 0, 0], [20, 0, 0, 0, 0]] :=
    .cons _ _ _ _ _ _ hne ht ha (.cons _ _ _ _ _ _ hne ht ha .nil)
  obtain ⟨s', h1, h2⟩ := answers_late (env := { errEnv with answer := fun t _ _ => [.data [1, t.toUInt8]] }) (c := ⟨1, k!"A"⟩)
    (f := fun t => [1, t.toUInt8]) (p := [128]) (fun _ => rfl) (fun _ _ => rfl)
    (fun t => ⟨1, _, rfl, by decide, by decide⟩) hr
    (s := { dest := some k!"A", conn := some ⟨1, k!"A"⟩, opened := [1], sock := [(some 1, .data [128])], tick := 3 })
    ⟨rfl, by decide, by decide, rfl, rfl⟩ ⟨128, [], rfl, by decide⟩
  exact ⟨s', h1, h2.trans (by decide)⟩

/-! ## The end of the program -/

/-- A line of spaces, EXIT cut short anywhere and an unknown first word end the program, whatever has happened before
and whatever was still to come. -/
theorem line_ends (env : Env) {line : Str} (h : Ends line) (ls : List Str) (s : St) :
    (session env (line :: ls) s).1 = .ended ∧ (session env (line :: ls) s).2.log = s.log := by
  have hb : beforePrompt s = none ∨ ∃ s1, beforePrompt s = some s1 ∧ s1.log = s.log := by
    unfold beforePrompt
    rcases s.dest with _ | _ | _
    · exact .inr ⟨_, rfl, rfl⟩
    · exact .inr ⟨_, rfl, rfl⟩
    · simp only
      rcases s.conn with _ | c
      · exact .inl rfl
      · simp only
        split
        · exact .inr ⟨_, rfl, rfl⟩
        · exact .inr ⟨_, rfl, rfl⟩
  have key : ∃ s1, round env line s = (.ended, s1) ∧ s1.log = s.log := by
    unfold round
    rcases hb with hb | ⟨s1, hb, hl⟩
    · rw [hb]; exact ⟨_, rfl, rfl⟩
    · rw [hb]
      simp only
      rw [if_neg h.1]
      have he := (ends_iff h.1).1 h
      cases ht : tokens line with
      | nil => exact ⟨_, rfl, hl⟩
      | cons t r =>
        simp only
        split
        · exact ⟨_, rfl, hl⟩
        · rename_i hx
          rcases he t r ht with he | he
          · exact absurd he hx
          · simp only [docmd, he]
            exact ⟨_, rfl, hl⟩
  obtain ⟨s1, h1, h2⟩ := key
  unfold session
  rw [h1]
  exact ⟨rfl, h2⟩

example : Ends k!"  " ∧ Ends k!"e now" ∧ Ends k!"copy a b" ∧ ¬ Ends k!"show exec" := by
  refine ⟨(ends_iff (by simp)).2 ?_, (ends_iff (by simp)).2 ?_, (ends_iff (by simp)).2 ?_, fun h => ?_⟩
  · intro t r h
    have : tokens k!"  " = [] := by decide
    rw [this] at h; cases h
  · intro t r h
    have : tokens k!"e now" = [k!"E", k!"NOW"] := by decide
    rw [this] at h; cases h; left; decide
  · intro t r h
    have : tokens k!"copy a b" = [k!"COPY", k!"A", k!"B"] := by decide
    rw [this] at h; cases h; right; decide
  · have := (ends_iff (by simp)).1 h k!"SHOW" [k!"EXEC"] (by decide)
    revert this; decide

end Verif.Ncp
