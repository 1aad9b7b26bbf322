import Verif.Ncp.SessMain

/-!
# What is left over stays
-/

namespace Verif.Ncp

open Verif.Nml (Bytes PVal)

/-! ## The wrong message first -/

/-- No executor node, and messages that nobody has asked for. -/
structure Dead (s : St) : Prop where
  conn : s.conn = none
  sock : s.sock ≠ []
  tags : ∀ m ∈ s.sock, ∀ t, m.2.tag = some t → t ≤ s.tick

/-- Nothing has been displayed. -/
def Quiet (s s' : St) : Prop := ∃ e, s'.log = s.log ++ e ∧ ∀ r, Ev.shown r ∉ e

theorem Quiet.refl (s : St) : Quiet s s := ⟨[], by simp⟩

theorem Quiet.trans {s s' s'' : St} (h : Quiet s s') (h' : Quiet s' s'') : Quiet s s'' := by
  obtain ⟨e, h1, h2⟩ := h
  obtain ⟨e', h3, h4⟩ := h'
  exact ⟨e ++ e', by rw [h3, h1, List.append_assoc], fun r => by simp [h2 r, h4 r]⟩

/-- It goes wrong, and the messages nobody has asked for stay. -/
def Fails {α : Type} (x : M α) (s : St) : Prop :=
  ∃ e s', x s = (.error e, s') ∧ e ≠ .hang ∧ Dead s' ∧ Quiet s s'

/-- Nothing comes of it. -/
def Idles {α : Type} (x : M α) (s : St) : Prop :=
  ∃ r s', x s = (r, s') ∧ r ≠ .error .hang ∧ Dead s' ∧ Quiet s s'

theorem Fails.idles {α : Type} {x : M α} {s : St} (h : Fails x s) : Idles x s := by
  obtain ⟨e, s', h1, h2, h3, h4⟩ := h
  exact ⟨.error e, s', h1, by simpa using h2, h3, h4⟩

theorem exchRecv_old {s : St} {tag : Nat} {m : Option Nat × Msg} {r : List (Option Nat × Msg)} (hs : s.sock = m :: r)
    (ht : ∀ t, m.2.tag = some t → t < tag) :
    ∃ e o, exchRecv tag s = (.error e, { s with sock := r, opened := o }) ∧ e ≠ .hang := by
  have ne : ∀ t, m.2.tag = some t → t ≠ tag := fun t h => by have := ht t h; omega
  have hne : m.2.tag ≠ some tag := fun h => ne tag h rfl
  unfold exchRecv
  obtain ⟨rc, m⟩ := m
  have : (∃ e o, recvSock s = (.error e, { s with sock := r, opened := o }) ∧ e ≠ .hang) ∨
      ∃ o rc' m', recvSock s = (.ok (rc', m'), { s with sock := r, opened := o }) ∧ m' = m := by
    unfold recvSock
    rw [hs]
    cases rc with
    | none =>
      cases m <;> first
        | exact .inl ⟨.api, s.opened, rfl, by simp⟩
        | exact .inr ⟨s.opened, _, _, rfl, rfl⟩
    | some h =>
      simp only
      by_cases ho : h ∈ s.opened
      · rw [if_pos ho]
        exact .inr ⟨s.opened, _, _, rfl, rfl⟩
      · rw [if_neg ho]
        cases m <;> first
          | exact .inr ⟨h :: s.opened, _, _, rfl, rfl⟩
          | exact .inl ⟨.seq, s.opened, rfl, by simp⟩
  rcases this with ⟨e, o, h, he⟩ | ⟨o, rc', m', h, rfl⟩
  · exact ⟨e, o, bind_err h _, he⟩
  · refine ⟨.assert, o, ?_, by simp⟩
    rw [bind_ok h]
    simp only
    rw [if_pos hne, raise_run]

theorem connect_dead (env : Env) (d : Str) (a : Access) {s : St} (hd : Dead s) : Fails (connect env d a) s := by
  obtain ⟨h1, h2, h3⟩ := hd
  obtain ⟨m, r, hs⟩ := List.exists_cons_of_ne_nil h2
  have hm : ∀ m ∈ connMsgs (s.tick + 1) (env.connect s.tick d a), ∀ t, m.2.tag = some t → t ≤ s.tick + 1 := by
    cases env.connect s.tick d a <;> simp [connMsgs, Msg.tag]
  have hne : connMsgs (s.tick + 1) (env.connect s.tick d a) ≠ [] := by
    cases env.connect s.tick d a <;> simp [connMsgs]
  unfold connect
  have hsend : sendConnect env d a s = (.ok (s.tick + 1), { s with tick := s.tick + 1, log := s.log ++ [.conn d a (env.connect s.tick d a)], sock := m :: (r ++ connMsgs (s.tick + 1) (env.connect s.tick d a)) }) := by
    unfold sendConnect; rw [hs]; rfl
  obtain ⟨e, o, he, hh⟩ := exchRecv_old (s := { s with tick := s.tick + 1, log := s.log ++ [.conn d a (env.connect s.tick d a)], sock := m :: (r ++ connMsgs (s.tick + 1) (env.connect s.tick d a)) })
    (tag := s.tick + 1) rfl (fun t ht => by have := h3 m (by simp [hs]) t ht; omega)
  refine ⟨e, { s with tick := s.tick + 1, log := s.log ++ [.conn d a (env.connect s.tick d a)], sock := r ++ connMsgs (s.tick + 1) (env.connect s.tick d a), opened := o }, ?_, hh, ?_, ?_⟩
  · rw [bind_ok hsend, bind_err he]
  · refine ⟨h1, by simp [hne], ?_⟩
    intro m' hm' t ht
    simp only [List.mem_append] at hm'
    rcases hm' with hm' | hm'
    · have := h3 m' (by simp [hs, hm']) t ht
      simp only; omega
    · exact hm m' hm' t ht
  · exact ⟨_, rfl, by simp⟩

theorem leave_dead {s : St} (hd : s.conn = none) : leave s = (.ok (), s) := by
  unfold leave
  rw [bind_ok (state_run s), hd]
  rfl

theorem doconnect_dead (env : Env) (d : Str) (a : Access) {s : St} (hd : Dead s) :
    Fails (doconnect env (some (d, a))) s := by
  obtain ⟨e, s', h1, h2, h3, h4⟩ := connect_dead env d a hd
  refine ⟨e, s', ?_, h2, h3, h4⟩
  unfold doconnect
  rw [bind_ok (leave_dead hd.conn)]
  simp only [enter]
  rw [bind_err h1]

theorem away_dead (env : Env) {s : St} (hd : Dead s) : ∃ s', doconnect env none s = (.ok (), s') ∧ Dead s' ∧ Quiet s s' := by
  refine ⟨{ s with version := 4, conn := none }, ?_, ⟨rfl, hd.sock, hd.tags⟩, [], by simp, by simp⟩
  unfold doconnect
  rw [bind_ok (leave_dead hd.conn)]
  rfl

theorem reqresp_dead (env : Env) (k : Consumer) (req : Bytes) {s : St} (hd : Dead s) : Fails (reqresp env k req) s := by
  obtain ⟨h1, h2, h3⟩ := hd
  obtain ⟨m, r, hs⟩ := List.exists_cons_of_ne_nil h2
  unfold reqresp
  rw [Fails, bind_ok (state_run s), h1]
  simp only
  obtain ⟨e, o, he, hh⟩ := exchRecv_old (s := { s with tick := s.tick + 1, log := s.log ++ [.ask none req ((env.loc s.tick req).map .data)], sock := m :: (r ++ [(none, .reply (s.tick + 1) (env.loc s.tick req))]) })
    (tag := s.tick + 1) rfl (fun t ht => by have := h3 m (by simp [hs]) t ht; omega)
  refine ⟨e, { s with tick := s.tick + 1, log := s.log ++ [.ask none req ((env.loc s.tick req).map .data)], sock := r ++ [(none, .reply (s.tick + 1) (env.loc s.tick req))], opened := o }, ?_, hh, ?_, ?_⟩
  · apply bind_err
    unfold exchLocal
    rw [bind_ok (state_run s), bind_ok (modify_run _ s), hs]
    exact bind_err he _
  · refine ⟨h1, by simp, ?_⟩
    intro m' hm' t ht
    simp only [List.mem_append, List.mem_singleton] at hm'
    rcases hm' with hm' | rfl
    · have := h3 m' (by simp [hs, hm']) t ht
      simp only; omega
    · simp only [Msg.tag, Option.some.injEq] at ht
      simp only; omega
  · exact ⟨_, rfl, by simp⟩

theorem raise_dead {α : Type} {e : SErr} (he : e ≠ .hang) {s : St} (hd : Dead s) : Fails (raise e : M α) s :=
  ⟨e, s, rfl, he, hd, Quiet.refl s⟩

theorem lift_dead {α β : Type} (x : Except Err α) (f : α → M β) {s : St} (hd : Dead s) (hf : ∀ a, Fails (f a) s) :
    Fails (lift x >>= f) s := by
  cases x with
  | error e => exact ⟨.parse e, s, rfl, by simp, hd, Quiet.refl s⟩
  | ok a => exact hf a

theorem attempt_dead {x f : M Unit} {s : St} (hx : Fails x s)
    (hf : ∀ s, Dead s → ∃ s', f s = (.ok (), s') ∧ Dead s' ∧ Quiet s s') :
    ∃ s', attempt x f s = (.ok (), s') ∧ Dead s' ∧ Quiet s s' := by
  obtain ⟨e, s', h1, h2, h3, h4⟩ := hx
  obtain ⟨s'', h5, h6, h7⟩ := hf s' h3
  refine ⟨s'', ?_, h6, h4.trans h7⟩
  unfold attempt
  rw [h1]
  cases e <;> simp_all

theorem act_dead (env : Env) (a : Verb) (perm : Bool) (rest : List Str) {s : St} (hd : Dead s) :
    Idles (act env a perm rest) s := by
  have nyi : ∀ {α : Type} (e : Err), Idles (raise (.parse e) : M α) s := fun e => (raise_dead (by simp) hd).idles
  cases a with
  | tell => exact nyi _
  | zero => exact nyi _
  | set =>
    simp only [act, doset]
    split
    · have hx : Fails (setExec env rest) s := by
        unfold setExec
        split
        · exact lift_dead _ _ hd fun a => doconnect_dead env _ _ hd
        · exact raise_dead (by simp) hd
      obtain ⟨s', h1, h2, h3⟩ := attempt_dead hx (f := doconnect env none) fun s hs => away_dead env hs
      exact ⟨.ok (), s', h1, by simp, h2, h3⟩
    · exact nyi _
  | clear =>
    simp only [act, doclear]
    split
    · obtain ⟨s', h1, h2, h3⟩ := away_dead env hd
      exact ⟨.ok (), s', h1, by simp, h2, h3⟩
    · exact nyi _
  | look =>
    simp only [act, doshow]
    rw [Idles, bind_ok (state_run s)]
    split
    · exact nyi _
    · exact (lift_dead _ _ hd fun a => reqresp_dead env _ _ hd).idles
  | loop => exact (lift_dead _ _ hd fun a => reqresp_dead env _ _ hd).idles

theorem tell_dead (env : Env) (rest : List Str) {s : St} (hd : Dead s) : Idles (dotell env rest) s := by
  have nyi : ∀ {α : Type} (e : Err), Idles (raise (.parse e) : M α) s := fun e => (raise_dead (by simp) hd).idles
  unfold dotell
  rw [Idles, bind_ok (state_run s)]
  match rest with
  | [] => exact nyi _
  | d :: rest =>
    simp only
    cases hp : parseargs true accessparams accessparams true rest [] with
    | error e => exact nyi _
    | ok p =>
      obtain ⟨acc, rest⟩ := p
      have hl : lift (.ok (acc, rest) : Except Err (Sets × List Str)) s = (.ok (acc, rest), s) := rfl
      rw [bind_ok hl]
      simp only
      match rest with
      | [] => exact nyi _
      | tok :: rest =>
        simp only
        cases hc : cmd.get tok with
        | none => exact nyi _
        | some v =>
          obtain ⟨a, perm⟩ := v
          simp only
          split
          · exact nyi _
          · have hb : Fails (do
                modify fun s => { s with conn := none }
                doconnect env (some (d, accessOf acc))
                act env a perm rest) s := by
              have hd' : Dead { s with conn := none } := ⟨rfl, hd.sock, hd.tags⟩
              obtain ⟨e, s', h1, h2, h3, h4⟩ := doconnect_dead env d (accessOf acc) hd'
              refine ⟨e, s', ?_, h2, h3, h4⟩
              rw [bind_ok (modify_run _ s), bind_err h1]
            obtain ⟨s1, h1, h2, h3⟩ := attempt_dead hb (f := pure ()) fun s hs => ⟨s, rfl, hs, Quiet.refl s⟩
            obtain ⟨s2, h4, h5, h6⟩ := away_dead env h2
            refine ⟨.ok (), { s2 with dest := s.dest, conn := s.conn, version := s.version }, ?_, by simp,
              ⟨hd.conn, h5.sock, h5.tags⟩, (h3.trans h6)⟩
            unfold tellBody
            rw [bind_ok h1, bind_ok h4, modify_run]

theorem session_dead (env : Env) : ∀ (lines : List Str) (s : St), Dead s →
    ∃ o s', session env lines s = (o, s') ∧ o ≠ .hung ∧ Dead s' ∧ Quiet s s'
  | [], s, hd => ⟨.on, s, rfl, by simp, hd, Quiet.refl s⟩
  | l :: ls, s, hd => by
    have key : ∃ o s', round env l s = (o, s') ∧ o ≠ .hung ∧ Dead s' ∧ Quiet s s' := by
      have stop : ∀ o, o ≠ .hung → ∃ o' s', (o, s) = (o', s') ∧ o' ≠ Out.hung ∧ Dead s' ∧ Quiet s s' :=
        fun o ho => ⟨o, s, rfl, ho, hd, Quiet.refl s⟩
      unfold round
      have hb : beforePrompt s = none ∨ beforePrompt s = some s := by
        unfold beforePrompt
        rw [hd.conn]
        rcases s.dest with _ | _ | _ <;> simp
      rcases hb with hb | hb
      · rw [hb]; exact stop _ (by simp)
      · rw [hb]
        simp only
        split
        · exact stop _ (by simp)
        · split
          · exact stop _ (by simp)
          · split
            · exact stop _ (by simp)
            · have rep : ∀ {x : M Unit}, Idles x s →
                  ∃ o s', reported x s = (o, s') ∧ o ≠ .hung ∧ Dead s' ∧ Quiet s s' := by
                rintro x ⟨r, s', h1, h2, h3, h4⟩
                refine ⟨.on, s', ?_, by simp, h3, h4⟩
                unfold reported
                rw [h1]
                split
                · rename_i h; cases h; exact absurd rfl h2
                · rename_i h; cases h; rfl
              simp only [docmd]
              split
              · exact stop _ (by simp)
              · exact rep (tell_dead env _ hd)
              · exact rep (act_dead env _ _ _ hd)
    obtain ⟨o, s', h1, h2, h3, h4⟩ := key
    unfold session
    rw [h1]
    cases o with
    | on =>
      obtain ⟨o, s'', h5, h6, h7, h8⟩ := session_dead env ls s' h3
      exact ⟨o, s'', h5, h6, h7, h4.trans h8⟩
    | ended => exact ⟨.ended, s', rfl, by simp, h3, h4⟩
    | hung => exact absurd rfl h2

/-! ## A connection that is gone -/

/-- The executor node has gone away. -/
def Gone (s : St) (c : Conn) : Prop := s.conn = some c ∧ c.h ∉ s.opened

theorem doconnect_gone (env : Env) (new : Option (Str × Access)) {s : St} {c : Conn} (hg : Gone s c) :
    doconnect env new s = (.error .closed, s) := by
  unfold doconnect
  apply bind_err
  unfold leave
  rw [bind_ok (state_run s), hg.1]
  simp only
  apply bind_err
  unfold disconnect
  rw [bind_ok (state_run s), if_pos hg.2, raise_run]

theorem reqresp_gone (env : Env) (k : Consumer) (req : Bytes) {s : St} {c : Conn} (hg : Gone s c) :
    reqresp env k req s = (.error .closed, s) := by
  unfold reqresp
  rw [bind_ok (state_run s), hg.1]
  simp only
  apply bind_err
  unfold sendData
  rw [if_pos hg.2]

theorem act_gone (env : Env) (a : Verb) (perm : Bool) (rest : List Str) {s : St} {c : Conn} (hg : Gone s c) :
    ∃ e, act env a perm rest s = (.error e, s) ∧ e ≠ .hang := by
  have lft : ∀ {α β : Type} (x : Except Err α) (f : α → M β), (∀ a, f a s = (.error .closed, s)) →
      ∃ e, (lift x >>= f) s = (.error e, s) ∧ e ≠ .hang := by
    intro α β x f hf
    cases x with
    | error e => exact ⟨.parse e, rfl, by simp⟩
    | ok a => exact ⟨.closed, hf a, by simp⟩
  cases a with
  | tell => exact ⟨_, rfl, by simp⟩
  | zero => exact ⟨_, rfl, by simp⟩
  | set =>
    simp only [act, doset]
    split
    · refine ⟨.closed, ?_, by simp⟩
      have : ∃ e, setExec env rest s = (.error e, s) ∧ e ≠ .hang := by
        unfold setExec
        split
        · exact lft _ _ fun a => doconnect_gone env _ hg
        · exact ⟨_, rfl, by simp⟩
      obtain ⟨e, h1, h2⟩ := this
      unfold attempt
      rw [h1]
      have := doconnect_gone env none hg
      cases e <;> simp_all
    · exact ⟨_, rfl, by simp⟩
  | clear =>
    simp only [act, doclear]
    split
    · exact ⟨_, doconnect_gone env none hg, by simp⟩
    · exact ⟨_, rfl, by simp⟩
  | look =>
    simp only [act, doshow]
    rw [bind_ok (state_run s)]
    split
    · exact ⟨_, rfl, by simp⟩
    · exact lft _ _ fun a => reqresp_gone env _ _ hg
  | loop => exact lft _ _ fun a => reqresp_gone env _ _ hg

theorem session_gone (env : Env) : ∀ (lines : List Str) (s : St) (c : Conn), Gone s c →
    (∀ l ∈ lines, ∀ t r, Toks l (t :: r) → ¬ Abbr t k!"tell") →
    ∃ o s', session env lines s = (o, s') ∧ o ≠ .hung ∧ Gone s' c ∧ s'.log = s.log ∧ s'.sock = s.sock
  | [], s, c, hg, _ => ⟨.on, s, rfl, by simp, hg, rfl, rfl⟩
  | l :: ls, s, c, hg, hl => by
    have key : ∃ o s', round env l s = (o, s') ∧ o ≠ .hung ∧ Gone s' c ∧ s'.log = s.log ∧ s'.sock = s.sock := by
      unfold round
      have hb : ∃ s1, beforePrompt s = some s1 ∧ Gone s1 c ∧ s1.log = s.log ∧ s1.sock = s.sock := by
        unfold beforePrompt
        rw [hg.1]
        rcases s.dest with _ | _ | _
        · exact ⟨s, rfl, hg, rfl, rfl⟩
        · exact ⟨s, rfl, hg, rfl, rfl⟩
        · simp only
          rw [if_neg hg.2]
          exact ⟨_, rfl, ⟨rfl, hg.2⟩, rfl, rfl⟩
      obtain ⟨s1, h1, h2, h3, h4⟩ := hb
      rw [h1]
      simp only
      split
      · exact ⟨_, _, rfl, by simp, h2, h3, h4⟩
      · split
        · exact ⟨_, _, rfl, by simp, h2, h3, h4⟩
        · rename_i t ts ht
          split
          · exact ⟨_, _, rfl, by simp, h2, h3, h4⟩
          · simp only [docmd]
            split
            · exact ⟨_, _, rfl, by simp, h2, h3, h4⟩
            · rename_i perm hc
              exfalso
              obtain ⟨w, hw, ha⟩ := cmd_get.1 hc
              have : w = k!"tell" := by
                have key : ∀ p ∈ cmdTable, p.2.1 = .tell → p.1 = k!"tell" := by decide
                exact key _ hw rfl
              subst this
              exact hl l (by simp) t ts (toks_iff.2 ht) ha
            · rename_i a perm hc _
              obtain ⟨e, h5, h6⟩ := act_gone env a perm ts h2
              refine ⟨.on, s1, ?_, by simp, h2, h3, h4⟩
              unfold reported
              rw [h5]
              cases e <;> simp_all
    obtain ⟨o, s', h1, h2, h3, h4, h5⟩ := key
    unfold session
    rw [h1]
    cases o with
    | on =>
      obtain ⟨o, s'', k1, k2, k3, k4, k5⟩ := session_gone env ls s' c h3 fun l h => hl l (by simp [h])
      exact ⟨o, s'', k1, k2, k3, k4.trans h4, k5.trans h5⟩
    | ended => exact ⟨.ended, s', rfl, by simp, h3, h4, h5⟩
    | hung => exact absurd rfl h2

/-! ## One reply too many -/

/-- A reply is left over. -/
structure Behind (s : St) (c : Conn) (p : Bytes) : Prop where
  conn : s.conn = some c
  opened : c.h ∈ s.opened
  version : 2 < s.version
  dest : s.dest = some (rstrip c.node)
  sock : s.sock = [(some c.h, .data p)]

/-- The reply before this one is displayed, unless it is the end of a list. -/
def shownOf (p : Bytes) : List Ev := if (p.headD 0).toNat = 128 then [] else [.shown p]

theorem ask_behind {env : Env} {c : Conn} {f : Nat → Bytes} (hb : ∀ r, env.bad r = false)
    (hf : ∀ t q, env.answer t c q = [.data (f t)]) {s : St} {p : Bytes} (hs : Behind s c p) (hp : ∃ x b, p = x :: b ∧ x.toNat ≠ 2)
    (req : Bytes) {k : Consumer} (hk : k = showK env ∨ k = loopK env) :
    ∃ s', reqresp env k req s = (.ok (), s') ∧ Behind s' c (f s.tick) ∧ s'.tick = s.tick + 1 ∧
      s'.log = s.log ++ .ask (some c.node) req [.data (f s.tick)] :: shownOf p := by
  obtain ⟨h1, h2, h3, h4, h5⟩ := hs
  obtain ⟨x, b, rfl, hx⟩ := hp
  have hsend : sendData env c req s = (.ok (), { s with tick := s.tick + 1, log := s.log ++ [.ask (some c.node) req [.data (f s.tick)]], sock := [(some c.h, .data (x :: b)), (some c.h, .data (f s.tick))] }) := by
    unfold sendData
    rw [if_neg (by simpa using h2), hf, h5]
    rfl
  unfold reqresp
  rw [bind_ok (state_run s), h1]
  simp only
  rw [bind_ok hsend, bind_ok (state_run _)]
  simp only [List.length_cons, List.length_nil]
  by_cases hx' : x.toNat = 128
  · refine ⟨{ s with tick := s.tick + 1, log := s.log ++ [.ask (some c.node) req [.data (f s.tick)]], sock := [(some c.h, .data (f s.tick))] },
      ?_, ⟨h1, h2, h3, h4, rfl⟩, rfl, by simp [shownOf, hx']⟩
    exact (replies_end (s := { s with tick := s.tick + 1, log := s.log ++ [.ask (some c.node) req [.data (f s.tick)]], sock := [(some c.h, .data (x :: b)), (some c.h, .data (f s.tick))] }) (by omega) h2 h3 rfl hx')
  · refine ⟨{ s with tick := s.tick + 1, log := s.log ++ [.ask (some c.node) req [.data (f s.tick)]] ++ [.shown (x :: b)], sock := [(some c.h, .data (f s.tick))] },
      ?_, ⟨h1, h2, h3, h4, rfl⟩, rfl, by simp [shownOf, hx']⟩
    have hrun : ∃ g, k (x :: b) { s with tick := s.tick + 1, log := s.log ++ [.ask (some c.node) req [.data (f s.tick)]], sock := [(some c.h, .data (f s.tick))] } =
        (.ok g, { s with tick := s.tick + 1, log := s.log ++ [.ask (some c.node) req [.data (f s.tick)]] ++ [.shown (x :: b)], sock := [(some c.h, .data (f s.tick))] }) := by
      rcases hk with rfl | rfl
      · exact ⟨decide (x.toNat < 128), by simp [showK, hb, bind_run, event, modify_run, pure_run]⟩
      · exact ⟨true, by simp [loopK, hb, bind_run, event, modify_run, pure_run]⟩
    obtain ⟨g, hg⟩ := hrun
    refine (replies_item (s := { s with tick := s.tick + 1, log := s.log ++ [.ask (some c.node) req [.data (f s.tick)]], sock := [(some c.h, .data (x :: b)), (some c.h, .data (f s.tick))] }) (r := [(some c.h, .data (f s.tick))]) (by omega) h2 h3 rfl hx hx' hg h3).trans ?_
    cases g
    · rfl
    · simp only [if_true, Bool.false_eq_true, if_false]
      rw [replies_none]

/-- The requests, each followed by what is displayed after it. -/
def late (c : Conn) (f : Nat → Bytes) : Nat → Bytes → List Bytes → List Ev
  | _, _, [] => []
  | t, p, q :: qs => .ask (some c.node) q [.data (f t)] :: (shownOf p ++ late c f (t + 1) (f t) qs)

/-- Lines that are requests. -/
inductive Requests : List Str → List Bytes → Prop
  | nil : Requests [] []
  | cons (l toks q f ls qs) : ¬ Ends l → Toks l toks → Asks toks q f → Requests ls qs → Requests (l :: ls) (q :: qs)

theorem round_behind {env : Env} {c : Conn} {f : Nat → Bytes} (hb : ∀ r, env.bad r = false)
    (hf : ∀ t q, env.answer t c q = [.data (f t)]) {s : St} {p : Bytes} (hs : Behind s c p) (hp : ∃ x b, p = x :: b ∧ x.toNat ≠ 2)
    {l : Str} {toks : List Str} {q : Bytes} {g : List Bytes → List Bytes} (he : ¬ Ends l) (ht : Toks l toks) (ha : Asks toks q g) :
    ∃ s', round env l s = (.on, s') ∧ Behind s' c (f s.tick) ∧ s'.tick = s.tick + 1 ∧
      s'.log = s.log ++ .ask (some c.node) q [.data (f s.tick)] :: shownOf p := by
  have hbp : beforePrompt s = some s := by
    unfold beforePrompt
    rw [hs.dest]
    cases rstrip c.node with
    | nil => rfl
    | cons a b =>
      simp only
      rw [hs.conn]
      simp only
      rw [if_pos hs.opened]
  have hne : l ≠ [] := by
    rintro rfl
    have := toks_iff.1 ht
    cases ha <;> cases this
  unfold round
  rw [hbp]
  simp only
  rw [if_neg hne, toks_iff.1 ht]
  rw [ends_iff hne] at he
  simp only [Classical.not_forall] at he
  obtain ⟨t, r, ht', hn⟩ := he
  rw [not_or] at hn
  rw [toks_iff.1 ht] at ht'
  subst ht'
  simp only
  rw [if_neg hn.1]
  have hv : ¬ s.version = 2 := by have := hs.version; omega
  have rep : ∀ {x : M Unit} {s'}, x s = (.ok (), s') → reported x s = (.on, s') := by
    intro x s' h; unfold reported; rw [h]
  cases ha with
  | look _ _ _ hw hq =>
    obtain ⟨s', h1, h2⟩ := ask_behind hb hf hs hp q (.inl rfl)
    refine ⟨s', ?_, h2⟩
    simp only [docmd, is_show.1 hw]
    apply rep
    simp only [act, doshow]
    rw [bind_ok (state_run s), if_neg hv, hq]
    exact h1
  | list _ _ _ hw hq =>
    obtain ⟨s', h1, h2⟩ := ask_behind hb hf hs hp q (.inl rfl)
    refine ⟨s', ?_, h2⟩
    simp only [docmd, is_list.1 hw]
    apply rep
    simp only [act, doshow]
    rw [bind_ok (state_run s), if_neg hv, hq]
    exact h1
  | loop _ _ _ hw hq =>
    obtain ⟨s', h1, h2⟩ := ask_behind hb hf hs hp q (.inr rfl)
    refine ⟨s', ?_, h2⟩
    simp only [docmd, is_loop.1 hw]
    apply rep
    simp only [act, doloop]
    rw [hq]
    exact h1

theorem session_behind {env : Env} {c : Conn} {f : Nat → Bytes} (hb : ∀ r, env.bad r = false)
    (hf : ∀ t q, env.answer t c q = [.data (f t)]) (hfs : ∀ t, Single (f t)) {lines : List Str} {qs : List Bytes}
    (hl : Requests lines qs) : ∀ {s : St} {p : Bytes}, Behind s c p → (∃ x b, p = x :: b ∧ x.toNat ≠ 2) →
    ∃ s', session env lines s = (.on, s') ∧ s'.log = s.log ++ late c f s.tick p qs := by
  induction hl with
  | nil => intro s p _ _; exact ⟨s, rfl, by simp [late]⟩
  | cons l toks q g ls qs he ht ha _ ih =>
    intro s p hs hp
    obtain ⟨s1, h1, h2, h3, h4⟩ := round_behind hb hf hs hp he ht ha
    obtain ⟨x, b, hx, hx2, -⟩ := hfs s.tick
    obtain ⟨s', h5, h6⟩ := ih h2 ⟨x, b, hx, hx2⟩
    refine ⟨s', ?_, ?_⟩
    · unfold session
      rw [h1]
      exact h5
    · rw [h6, h4, h3]
      simp [late]

end Verif.Ncp
