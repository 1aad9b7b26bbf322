import Verif.Nml.Props

/-!
# The answers at the local programming interface (C86)

`nice_api` (session.py 483-485) makes a listener of its own for each call; its answer is collected by
`sendreply` (modules/nml.py 66-84).  Nothing is modelled of the transfer of the dictionary to the client.
-/

namespace Verif.Nml

/-- First byte of a reply as a signed number.  Phase II records do not occur here. -/
def Reply.code : Reply → Int
  | .status c _ => c
  | .ent c _ => c
  | .old c => c
  | .loopOk _ => 1
  | .loopErr c _ _ => c
  | .count _ => 0
  | .oldEnt _ => 0

/-- `self.mult` and `self.replies`. -/
structure Api where
  mult : Bool
  held : List Reply
deriving DecidableEq, Repr

/-- `sendreply` with a local client: the contents of the dictionary sent, if any (modules/nml.py 66-82). -/
def Api.send (a : Api) (r : Reply) : Api × List (List Reply) :=
  if r.code = 2 then ({ a with mult := true }, [])
  else
    let a := if r.code = -128 then a else { a with held := a.held ++ [r] }
    if r.code ≠ -128 ∧ a.mult then (a, []) else (a, [a.held])

def Api.sendAll (a : Api) : List Reply → Api × List (List Reply)
  | [] => (a, [])
  | r :: rs =>
    let x := a.send r
    let y := x.1.sendAll rs
    (y.1, x.2 ++ y.2)

/-- The dictionaries the caller gets for the replies to its request. -/
def Api.dicts (rs : List Reply) : List (List Reply) := ((⟨false, []⟩ : Api).sendAll rs).2

/-! ## What the caller makes of it -/

/-- Records in a row: code 3 means that more follow for the entity. -/
def group (cur : List Nat) : List Reply → Option (List (List Nat))
  | [] => if cur = [] then some [] else none
  | .ent c e :: rs =>
    if c = 3 then group (cur ++ [e]) rs
    else if c = 1 then (group [] rs).map ((cur ++ [e]) :: ·)
    else none
  | _ => none

/-- An answer as a list. -/
def caller : List Reply → Option Result
  | [.status c _] => if c < 0 then some (.failed c) else none
  | [.old c] => if c < 0 then some (.failed c) else none
  | [.loopOk _] => some .looped
  | [.loopErr c _ n] => if c < 0 then some (.notLooped c n) else none
  | rs => (group [] rs).map .entities

theorem more_held (rs : List Reply) (cur : List Nat) (held : List Reply) (l : List (List Nat))
    (h : more cur rs = some l) :
    ∃ es, (∀ r ∈ es, ∃ c e, r = .ent c e) ∧ group cur es = some l ∧
      ((⟨true, held⟩ : Api).sendAll rs).2 = [held ++ es] := by
  induction rs generalizing cur held l with
  | nil => simp [more] at h
  | cons r rs ih =>
    cases r with
    | ent c e =>
      simp only [more] at h
      by_cases h3 : c = 3
      · rw [if_pos h3] at h
        obtain ⟨es, he, hg, hs⟩ := ih (cur ++ [e]) (held ++ [.ent c e]) l h
        refine ⟨.ent c e :: es, ?_, by simp [group, h3, hg], ?_⟩
        · intro r hr
          rcases List.mem_cons.1 hr with hr | hr
          · exact ⟨c, e, hr⟩
          · exact he r hr
        · simp [Api.sendAll, Api.send, Reply.code, h3] at hs ⊢
          simp [hs]
      · rw [if_neg h3] at h
        by_cases h1 : c = 1
        · rw [if_pos h1] at h
          obtain ⟨l', hl', rfl⟩ := Option.map_eq_some_iff.1 h
          obtain ⟨es, he, hg, hs⟩ := ih [] (held ++ [.ent c e]) l' hl'
          refine ⟨.ent c e :: es, ?_, by simp [group, h1, hg], ?_⟩
          · intro r hr
            rcases List.mem_cons.1 hr with hr | hr
            · exact ⟨c, e, hr⟩
            · exact he r hr
          · simp [Api.sendAll, Api.send, Reply.code, h1] at hs ⊢
            simp [hs]
        · simp [h1] at h
    | status c d =>
      simp only [more] at h
      by_cases hc : c = -128 ∧ rs = [] ∧ cur = []
      · rw [if_pos hc] at h
        obtain ⟨hc, rfl, rfl⟩ := hc
        refine ⟨[], by simp, ?_, ?_⟩
        · simpa [group] using h
        · simp [Api.sendAll, Api.send, Reply.code, hc]
      · simp [hc] at h
    | _ => simp [more] at h

theorem caller_ents {es : List Reply} (h : ∀ r ∈ es, ∃ c e, r = Reply.ent c e) :
    caller es = (group [] es).map .entities := by
  cases es with
  | nil => rfl
  | cons r es =>
    obtain ⟨c, e, rfl⟩ := h r (by simp)
    cases es <;> rfl

/-- C86: a complete answer is handed to a local caller as one dictionary, and the caller learns from it what a
client on the network would. -/
theorem api_same {rs : List Reply} {x : Result} (h : client rs = some x) :
    ∃ d, Api.dicts rs = [d] ∧ caller d = some x := by
  match rs with
  | [] => simp [client] at h
  | [.ent c e] =>
    simp only [client] at h
    by_cases hc : c = 1
    · refine ⟨[.ent c e], by simp [Api.dicts, Api.sendAll, Api.send, Reply.code, hc], ?_⟩
      simpa [caller, group, hc] using h
    · simp [hc] at h
  | [.status c d] =>
    simp only [client] at h
    by_cases hc : c < 0 ∧ c ≠ -128
    · rw [if_pos hc] at h
      have : c ≠ 2 := by omega
      refine ⟨[.status c d], by simp [Api.dicts, Api.sendAll, Api.send, Reply.code, hc, this], ?_⟩
      simpa [caller, hc.1] using h
    · simp [hc] at h
  | [.old c] =>
    simp only [client] at h
    by_cases hc : c < 0 ∧ c ≠ -128
    · rw [if_pos hc] at h
      have : c ≠ 2 := by omega
      refine ⟨[.old c], by simp [Api.dicts, Api.sendAll, Api.send, Reply.code, hc, this], ?_⟩
      simpa [caller, hc.1] using h
    · simp [hc] at h
  | [.loopOk a] =>
    exact ⟨[.loopOk a], by simp [Api.dicts, Api.sendAll, Api.send, Reply.code], h⟩
  | [.loopErr c d n] =>
    simp only [client] at h
    by_cases hc : c < 0 ∧ c ≠ -128
    · rw [if_pos hc] at h
      have : c ≠ 2 := by omega
      refine ⟨[.loopErr c d n], by simp [Api.dicts, Api.sendAll, Api.send, Reply.code, hc, this], ?_⟩
      simpa [caller, hc.1] using h
    · simp [hc] at h
  | [.count _] => simp [client] at h
  | [.oldEnt _] => simp [client] at h
  | .status c d :: r :: rs =>
    simp only [client] at h
    by_cases hc : c = 2
    · rw [if_pos hc] at h
      obtain ⟨l, hl, rfl⟩ := Option.map_eq_some_iff.1 h
      obtain ⟨es, he, hg, hs⟩ := more_held _ _ [] _ hl
      refine ⟨es, ?_, ?_⟩
      · have : Api.dicts (.status c d :: r :: rs) = ((⟨true, []⟩ : Api).sendAll (r :: rs)).2 := by
          have h0 : (⟨false, []⟩ : Api).send (.status c d) = (⟨true, []⟩, []) := by
            simp [Api.send, Reply.code, hc]
          rw [Api.dicts, Api.sendAll]
          simp only [h0, List.nil_append]
        rw [this, hs]; rfl
      · rw [caller_ents he, hg]; rfl
    · simp [hc] at h
  | .ent _ _ :: _ :: _ => simp [client] at h
  | .old _ :: _ :: _ => simp [client] at h
  | .loopOk _ :: _ :: _ => simp [client] at h
  | .loopErr _ _ _ :: _ :: _ => simp [client] at h
  | .count _ :: _ :: _ => simp [client] at h
  | .oldEnt _ :: _ :: _ => simp [client] at h

/-- `api` with a request (modules/nml.py 48-64): the listener of the call, and its outputs. -/
def apiCall (env : Env) (msg : Bytes) : St × List Out :=
  act env { init with nice := true } (.item .nice (.data msg))

/-- C86: a read request at the local interface gives one dictionary with the entities asked for. -/
theorem api_read {env : Env} {msg : Bytes} {t i : Nat} {e : Ent} {l : List (Bool × Entry)}
    (hp : parse msg = .ok (.read t i false e)) (hr : env.read = .items l) :
    ∃ d, Api.dicts (sent (apiCall env msg).2) = [d] ∧ caller d = some (expected e l) :=
  api_same (read_result rfl rfl hp hr).2

/-- C86: any call fails, or is answered by one dictionary at once, or has started a loop test. -/
theorem api_answered {env : Env} (he : env.Sane) (msg : Bytes) :
    Out.crash ∈ (apiCall env msg).2 ∨ Deferred env (apiCall env msg).1 (apiCall env msg).2 ∨
      ∃ d x, Api.dicts (sent (apiCall env msg).2) = [d] ∧ caller d = some x := by
  rcases answered (st := { init with nice := true }) rfl rfl he msg with h | h | ⟨x, h⟩
  · exact .inl h
  · exact .inr (.inl h)
  · obtain ⟨d, h1, h2⟩ := api_same h
    exact .inr (.inr ⟨d, x, h1, h2⟩)

/-- SHOW KNOWN NODES of the local program. -/
example :
    Api.dicts (sent (apiCall ⟨.items [(true, .one 7), (true, .many [8, 9])], .unknown, fun _ => false,
      fun _ => none, .failed⟩ [20, 0, 255]).2) = [[.ent 1 7, .ent 3 8, .ent 1 9]] := by decide

end Verif.Nml
