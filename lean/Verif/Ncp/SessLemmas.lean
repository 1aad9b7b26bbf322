import Verif.Ncp.SessSpec
import Verif.Ncp.Walk

/-!
# Actions from a state in which nothing is left over
-/

namespace Verif.Ncp

open Verif.Nml (Bytes PVal)

theorem bind_run {α β : Type} (x : M α) (f : α → M β) (s : St) : (x >>= f) s = match x s with
    | (.ok a, s') => f a s'
    | (.error e, s') => (.error e, s') := rfl

theorem bind_ok {α β : Type} {x : M α} {s s' : St} {a : α} (h : x s = (.ok a, s')) (f : α → M β) :
    (x >>= f) s = f a s' := by rw [bind_run, h]

theorem bind_err {α β : Type} {x : M α} {s s' : St} {e : SErr} (h : x s = (.error e, s')) (f : α → M β) :
    (x >>= f) s = (.error e, s') := by rw [bind_run, h]

theorem pure_run {α : Type} (a : α) (s : St) : (pure a : M α) s = (.ok a, s) := rfl

theorem state_run (s : St) : state s = (.ok s, s) := rfl

theorem modify_run (f : St → St) (s : St) : modify f s = (.ok (), f s) := rfl

theorem raise_run {α : Type} (e : SErr) (s : St) : (raise e : M α) s = (.error e, s) := rfl

/-- Handles are older than the clock. -/
def Old (s : St) : Prop := ∀ h ∈ s.opened, h ≤ s.tick

/-- The state after a connect request. -/
def connected (env : Env) (d : Str) (a : Access) (s : St) : St :=
  { s with
    tick := s.tick + 1
    log := s.log ++ [.conn d a (env.connect s.tick d a)]
    opened := match env.connect s.tick d a with | .accept _ => (s.tick + 1) :: s.opened | _ => s.opened }

theorem connRecv_ok {h : Nat} {m : Msg} {r : List (Option Nat × Msg)} {s : St} (ho : h ∈ s.opened)
    (hs : s.sock = (some h, m) :: r) (h1 : m ≠ .gone) (h2 : m ≠ .reject) :
    connRecv h s = (.ok m, { s with sock := r }) := by
  unfold connRecv
  rw [bind_ok (state_run s), if_neg (by simpa using ho)]
  have : recvSock s = (.ok (some h, m), { s with sock := r }) := by
    unfold recvSock; rw [hs]; simp [ho]
  rw [bind_ok this]
  simp only [ne_eq, not_true_eq_false, if_false]
  rw [if_neg (by simp [h1, h2]), pure_run]

theorem connect_run (env : Env) (d : Str) (a : Access) (s : St) (hs : s.sock = []) (ho : Old s)
    (hg : env.connect s.tick d a ≠ .error) :
    connect env d a s = (.ok (match env.connect s.tick d a with
      | .accept b => (some ⟨s.tick + 1, d⟩, b)
      | _ => (none, [])), connected env d a s) := by
  have hn : s.tick + 1 ∉ s.opened := fun h => by have := ho _ h; omega
  have hf : s.opened.filter (· ≠ s.tick + 1) = s.opened := by
    rw [List.filter_eq_self]
    intro h hh
    simp only [decide_eq_true_eq]
    rintro rfl
    exact hn hh
  unfold connect
  have h1 : sendConnect env d a s = (.ok (s.tick + 1), { s with tick := s.tick + 1, log := s.log ++ [.conn d a (env.connect s.tick d a)], sock := connMsgs (s.tick + 1) (env.connect s.tick d a) }) := by
    unfold sendConnect; rw [hs]; rfl
  rw [bind_ok h1]
  unfold connected
  cases hc : env.connect s.tick d a with
  | accept b =>
    simp only [connMsgs]
    have h2 : exchRecv (s.tick + 1) { s with tick := s.tick + 1, log := s.log ++ [.conn d a (.accept b)], sock := [(some (s.tick + 1), .connecting (s.tick + 1)), (some (s.tick + 1), .accept b)] } =
        (.ok (some (s.tick + 1), .connecting (s.tick + 1)), { s with tick := s.tick + 1, log := s.log ++ [.conn d a (.accept b)], sock := [(some (s.tick + 1), .accept b)], opened := (s.tick + 1) :: s.opened }) := by
      simp [exchRecv, bind_run, recvSock, hn, Msg.tag, pure_run]
    rw [bind_ok h2]
    simp only
    rw [bind_ok (connRecv_ok (m := .accept b) (r := []) (by simp) rfl (by simp) (by simp))]
    simp [pure_run, hs]
  | reject =>
    simp [connMsgs, exchRecv, bind_run, recvSock, hn, Msg.tag, pure_run, connRecv, state_run, close, modify_run, hs]
    simpa using hf
  | unknown => simp [connMsgs, exchRecv, bind_run, recvSock, Msg.tag, pure_run, hs]
  | error => exact absurd hc hg

/-- A state in which nothing is left over. -/
structure Idle (s : St) (x : Option Conn) : Prop where
  conn : s.conn = x
  sock : s.sock = []
  dest : s.dest = x.map fun c => rstrip c.node
  version : 2 < s.version
  opened : ∀ c, x = some c → c.h ∈ s.opened
  old : Old s

/-- The node of a connection. -/
def nodeOf (x : Option Conn) : Option Str := x.map (·.node)

theorem leave_run {s : St} {x : Option Conn} (h : Idle s x) :
    ∃ s', leave s = (.ok (), s') ∧ Idle { s' with conn := none } none ∧ s'.log = s.log ++ dropped (nodeOf x) ∧
      s'.tick = s.tick := by
  obtain ⟨h1, h2, h3, h4, h5, h6⟩ := h
  unfold leave
  rw [bind_ok (state_run s), h1]
  cases x with
  | none => exact ⟨s, rfl, ⟨rfl, h2, h3, h4, by simp, h6⟩, by simp [nodeOf, dropped], rfl⟩
  | some c =>
    have hd : disconnect c s = (.ok (), { s with log := s.log ++ [.disc c.node], opened := s.opened.filter (· ≠ c.h) }) := by
      unfold disconnect
      rw [bind_ok (state_run s), if_neg (by simpa using h5 c rfl)]
      rfl
    simp only
    rw [bind_ok hd]
    refine ⟨_, rfl, ⟨rfl, h2, rfl, by simp, by simp, ?_⟩, by simp [nodeOf, dropped], rfl⟩
    intro h hh
    exact h6 h (List.mem_filter.1 hh).1

theorem doconnect_none (env : Env) {s : St} {x : Option Conn} (h : Idle s x) :
    ∃ s', doconnect env none s = (.ok (), s') ∧ Idle s' none ∧ s'.log = s.log ++ dropped (nodeOf x) := by
  obtain ⟨s', h1, ⟨a1, a2, a3, a4, a5, a6⟩, h3, -⟩ := leave_run h
  refine ⟨{ s' with version := 4, conn := none }, ?_, ⟨rfl, a2, a3, by simp, by simp, a6⟩, h3⟩
  unfold doconnect
  rw [bind_ok h1]
  rfl

theorem enter_accept {env : Env} {s : St} (hs : s.sock = []) (ho : Old s) {d : Str} {a : Access} {b : Bytes}
    (hx : env.connect s.tick d a = .accept b) (hv : versionOf b ≠ 2) :
    enter env (some (d, a)) s = (.ok (), { s with tick := s.tick + 1, log := s.log ++ [.conn d a (.accept b)], opened := (s.tick + 1) :: s.opened, conn := some ⟨s.tick + 1, d⟩, dest := some (rstrip d), version := versionOf b }) := by
  have hc := connect_run env d a s hs ho (by rw [hx]; simp)
  rw [hx] at hc
  unfold enter
  simp only
  rw [bind_ok hc]
  simp only
  rw [bind_ok (modify_run _ _), bind_ok (modify_run _ _), if_neg hv, pure_run]
  simp [connected, hx]

theorem enter_refuse {env : Env} {s : St} (hs : s.sock = []) (ho : Old s) {d : Str} {a : Access} {out : ConnOut}
    (hx : env.connect s.tick d a = out) (hr : out = .reject ∨ out = .unknown) :
    enter env (some (d, a)) s = (.error .refused, { s with tick := s.tick + 1, log := s.log ++ [.conn d a out], conn := none }) := by
  have hc := connect_run env d a s hs ho (by rw [hx]; rcases hr with rfl | rfl <;> simp)
  rw [hx] at hc
  unfold enter
  simp only
  rw [bind_ok hc]
  rcases hr with rfl | rfl <;> simp only <;> rw [bind_ok (modify_run _ _)] <;>
    simp [connected, hx, raise_run]

/-- Connecting either succeeds or is refused. -/
theorem good_connect {env : Env} (hg : Good env) (t : Nat) (d : Str) (a : Access) :
    (∃ b, env.connect t d a = .accept b ∧ 2 < versionOf b) ∨
      ∃ out, env.connect t d a = out ∧ (out = .reject ∨ out = .unknown) := by
  cases hx : env.connect t d a with
  | accept b =>
    obtain ⟨v, r, rfl, hv⟩ := hg.version _ _ _ _ hx
    refine .inl ⟨_, rfl, ?_⟩
    unfold versionOf
    simp only
    split <;> omega
  | reject => exact .inr ⟨_, rfl, .inl rfl⟩
  | unknown => exact .inr ⟨_, rfl, .inr rfl⟩
  | error => exact absurd hx (hg.connect _ _ _)

theorem old_more {s : St} (h : Old s) : ∀ h ∈ (s.tick + 1) :: s.opened, h ≤ s.tick + 1 := by
  intro k hk
  rcases List.mem_cons.1 hk with rfl | hk
  · omega
  · have := h k hk; omega

/-- SET EXECUTOR NODE as far as connecting goes. -/
theorem doconnect_some {env : Env} (hg : Good env) {s : St} {x : Option Conn} (h : Idle s x) (d : Str) (a : Access) :
    (∃ s' b c, doconnect env (some (d, a)) s = (.ok (), s') ∧ Idle s' (some c) ∧ c.node = d ∧
      s'.log = s.log ++ (dropped (nodeOf x) ++ [.conn d a (.accept b)])) ∨
    (∃ s' out, doconnect env (some (d, a)) s = (.error .refused, s') ∧ Idle s' none ∧
      (out = .reject ∨ out = .unknown) ∧ s'.log = s.log ++ (dropped (nodeOf x) ++ [.conn d a out])) := by
  obtain ⟨s1, h1, ⟨a1, a2, a3, a4, a5, a6⟩, h3, h4⟩ := leave_run h
  simp only at a2 a3 a4 a6
  have ho : Old s1 := a6
  unfold doconnect
  rcases good_connect hg s1.tick d a with ⟨b, hb, hv⟩ | ⟨out, hx, hr⟩
  · left
    refine ⟨{ s1 with tick := s1.tick + 1, log := s1.log ++ [.conn d a (.accept b)], opened := (s1.tick + 1) :: s1.opened, conn := some ⟨s1.tick + 1, d⟩, dest := some (rstrip d), version := versionOf b }, b, ⟨s1.tick + 1, d⟩, ?_, ?_, rfl, ?_⟩
    · rw [bind_ok h1, enter_accept a2 ho hb (by omega)]
    · exact ⟨rfl, a2, rfl, hv, by rintro c ⟨⟩; simp, old_more ho⟩
    · simp [h3]
  · right
    refine ⟨{ s1 with tick := s1.tick + 1, log := s1.log ++ [.conn d a out], conn := none }, out, ?_, ?_, hr, ?_⟩
    · rw [bind_ok h1, enter_refuse a2 ho hx hr]
    · exact ⟨rfl, a2, a3, a4, by simp, fun k hk => by have := ho k hk; show k ≤ s1.tick + 1; omega⟩
    · simp [h3]

/-! ## Requests -/

/-- What is done with replies puts them on the screen. -/
def Shows (k : Consumer) : Prop :=
  ∀ r s, r ≠ [] → ∃ g, k r s = (.ok g, { s with log := s.log ++ [.shown r] }) ∧ ((r.headD 0).toNat < 128 → g = true)

theorem showK_run {env : Env} (hb : ∀ r, env.bad r = false) (r : Bytes) (hr : r ≠ []) (s : St) :
    showK env r s = (.ok (decide ((r.headD 0).toNat < 128)), { s with log := s.log ++ [.shown r] }) := by
  cases r with
  | nil => exact absurd rfl hr
  | cons x b => simp only [showK, hb]; rfl

theorem loopK_run {env : Env} (hb : ∀ r, env.bad r = false) (r : Bytes) (hr : r ≠ []) (s : St) :
    loopK env r s = (.ok true, { s with log := s.log ++ [.shown r] }) := by
  cases r with
  | nil => exact absurd rfl hr
  | cons x b => simp only [loopK, hb]; rfl

theorem replies_end {k : Consumer} {h : Nat} {old : Bool} {fuel more : Nat} {tru mult : Bool} {s : St} {y : UInt8}
    {e : Bytes} {r : List (Option Nat × Msg)} (hm : more ≠ 0) (ho : h ∈ s.opened) (hv : 2 < s.version)
    (hs : s.sock = (some h, .data (y :: e)) :: r) (hy : y.toNat = 128) :
    replies k h old (fuel + 1) more tru mult s = (.ok (), { s with sock := r }) := by
  rw [replies, if_neg hm, bind_ok (connRecv_ok ho hs (by simp) (by simp))]
  simp only
  rw [bind_ok (state_run _), if_pos ⟨hy, hv⟩, pure_run]

theorem replies_start {k : Consumer} {h : Nat} {old : Bool} {fuel more : Nat} {tru : Bool} {s : St} {y : UInt8}
    {e : Bytes} {r : List (Option Nat × Msg)} (hm : more ≠ 0) (ho : h ∈ s.opened) (hv : 2 < s.version)
    (hs : s.sock = (some h, .data (y :: e)) :: r) (hy : y.toNat = 2) :
    replies k h old (fuel + 1) more tru false s = replies k h old fuel more tru true { s with sock := r } := by
  rw [replies, if_neg hm, bind_ok (connRecv_ok ho hs (by simp) (by simp))]
  simp only
  rw [bind_ok (state_run _), if_neg (by omega), if_neg (by simp only; omega), if_pos hy]
  simp only [Bool.false_eq_true, if_false]

theorem replies_item {k : Consumer} {h : Nat} {old : Bool} {fuel more : Nat} {tru mult : Bool} {s s2 : St} {y : UInt8}
    {e : Bytes} {r : List (Option Nat × Msg)} {g : Bool} (hm : more ≠ 0) (ho : h ∈ s.opened) (hv : 2 < s.version)
    (hs : s.sock = (some h, .data (y :: e)) :: r) (hy : y.toNat ≠ 2) (hy' : y.toNat ≠ 128)
    (hk : k (y :: e) { s with sock := r } = (.ok g, s2)) (hv2 : 2 < s2.version) :
    replies k h old (fuel + 1) more tru mult s =
      if g then replies k h old fuel (if mult then 1 else 0) mult mult s2 else (.ok (), s2) := by
  rw [replies, if_neg hm, bind_ok (connRecv_ok ho hs (by simp) (by simp))]
  simp only
  rw [bind_ok (state_run _), if_neg (by omega), if_neg (by simp only; omega), if_neg hy, bind_ok hk]
  cases g
  · rfl
  · simp only [Bool.not_true, Bool.false_eq_true, if_false, if_true]
    rw [bind_ok (state_run _), if_neg (by omega)]

theorem replies_none {k : Consumer} {h : Nat} {old : Bool} {fuel : Nat} {tru mult : Bool} {s : St} :
    replies k h old (fuel + 1) 0 tru mult s = (.ok (), s) := by
  rw [replies, if_pos rfl, pure_run]

theorem replies_list {k : Consumer} (hk : Shows k) (h : Nat) (old : Bool) (e : Bytes) (y : UInt8) (hy : y.toNat = 128)
    (l : List Bytes) (hl : ∀ r ∈ l, Item r) : ∀ (fuel : Nat) (s : St), l.length < fuel → h ∈ s.opened → 2 < s.version →
      s.sock = l.map (fun r => (some h, .data r)) ++ [(some h, .data (y :: e))] →
      ∀ tru, replies k h old fuel 1 tru true s = (.ok (), { s with sock := [], log := s.log ++ screen l }) := by
  induction l with
  | nil =>
    intro fuel s hf ho hv hs tru
    match fuel with
    | fuel + 1 =>
      rw [replies_end (by omega) ho hv hs hy]
      simp [screen]
  | cons r l ih =>
    intro fuel s hf ho hv hs tru
    match fuel with
    | fuel + 1 =>
      obtain ⟨x, b, rfl, h2, h128⟩ := hl r (by simp)
      obtain ⟨g, hg, hgt⟩ := hk (x :: b) { s with sock := l.map (fun r => (some h, .data r)) ++ [(some h, .data (y :: e))] } (by simp)
      rw [replies_item (by omega) ho hv hs h2 (by omega) hg hv, hgt h128]
      simp only [if_true]
      refine (ih (fun r hr => hl r (List.mem_cons_of_mem _ hr)) fuel
        { s with sock := l.map (fun r => (some h, .data r)) ++ [(some h, .data (y :: e))], log := s.log ++ [.shown (x :: b)] }
        (by simp at hf; omega) ho hv rfl true).trans ?_
      simp [screen]

/-- A request to a node. -/
theorem ask_node {env : Env} {k : Consumer} (hk : Shows k) {s : St} {c : Conn} (hc : s.conn = some c) (hs : s.sock = [])
    (ho : c.h ∈ s.opened) (hv : 2 < s.version) {req : Bytes} {l : List Bytes}
    (hb : Body (some c.node) (env.answer s.tick c req) l) :
    reqresp env k req s = (.ok (), { s with tick := s.tick + 1, log := s.log ++ .ask (some c.node) req (env.answer s.tick c req) :: screen l }) := by
  unfold reqresp
  rw [bind_ok (state_run s), hc]
  simp only
  have h1 : sendData env c req s = (.ok (), { s with tick := s.tick + 1, log := s.log ++ [.ask (some c.node) req (env.answer s.tick c req)], sock := (env.answer s.tick c req).map fun r => (some c.h, match r with | .data b => .data b | .gone => .gone) }) := by
    unfold sendData
    rw [if_neg (by simpa using ho), hs]
    rfl
  rw [bind_ok h1, bind_ok (state_run _)]
  generalize env.answer s.tick c req = ans at hb
  cases hb with
  | single n r hr =>
    obtain ⟨x, b, rfl, h2, h128⟩ := hr
    obtain ⟨g, hg, -⟩ := hk (x :: b) { s with tick := s.tick + 1, log := s.log ++ [.ask (some c.node) req [.data (x :: b)]], sock := [] } (by simp)
    simp only [List.map_cons, List.map_nil, List.length_cons, List.length_nil]
    refine (replies_item (s := { s with tick := s.tick + 1, log := s.log ++ [.ask (some c.node) req [.data (x :: b)]], sock := [(some c.h, .data (x :: b))] })
      (by omega) ho hv rfl h2 h128 hg hv).trans ?_
    cases g
    · simp [screen, hs, hc]
    · simp only [if_true, Bool.false_eq_true, if_false]
      rw [replies_none]
      simp [screen, hs, hc]
  | list n x y d e l hx hy hl =>
    simp only [List.map_cons, List.map_append, List.map_nil, List.length_cons, List.map_map, List.length_append,
      List.length_map, List.length_nil]
    refine (replies_start (s := { s with tick := s.tick + 1, log := s.log ++ [.ask (some c.node) req (.data (x :: d) :: (l.map .data ++ [.data (y :: e)]))], sock := (some c.h, .data (x :: d)) :: (l.map (fun r => (some c.h, .data r)) ++ [(some c.h, .data (y :: e))]) })
      (by omega) ho hv rfl hx).trans ?_
    refine (replies_list hk c.h _ e y hy l hl _ { s with tick := s.tick + 1, log := s.log ++ [.ask (some c.node) req (.data (x :: d) :: (l.map .data ++ [.data (y :: e)]))], sock := l.map (fun r => (some c.h, .data r)) ++ [(some c.h, .data (y :: e))] }
      (by omega) ho hv rfl _).trans ?_
    simp [hs, hc]

theorem each_run {k : Consumer} {f : List Bytes → List Bytes} (hf : f [] = [])
    (hk : ∀ r s, r ≠ [] → ∃ g, k r s = (.ok g, { s with log := s.log ++ [.shown r] }) ∧
      ∀ l, f (r :: l) = if g then r :: f l else [r]) (l : List Bytes) (hl : ∀ r ∈ l, r ≠ []) :
    ∀ s, each k l s = (.ok (), { s with log := s.log ++ screen (f l) }) := by
  induction l with
  | nil => intro s; simp [each, pure_run, hf, screen]
  | cons r l ih =>
    intro s
    obtain ⟨g, hg, hfl⟩ := hk r s (hl r (by simp))
    simp only [each]
    rw [bind_ok hg, hfl]
    cases g
    · simp [pure_run, screen]
    · simp only [Bool.not_true, Bool.false_eq_true, if_false, if_true]
      rw [ih fun r hr => hl r (List.mem_cons_of_mem _ hr)]
      simp [screen]

/-- A request to the local listener. -/
theorem ask_local {env : Env} {k : Consumer} {f : List Bytes → List Bytes} (hf : f [] = [])
    (hk : ∀ r s, r ≠ [] → ∃ g, k r s = (.ok g, { s with log := s.log ++ [.shown r] }) ∧
      ∀ l, f (r :: l) = if g then r :: f l else [r]) {s : St} (hc : s.conn = none) (hs : s.sock = []) {req : Bytes}
    (hl : ∀ r ∈ env.loc s.tick req, r ≠ []) :
    reqresp env k req s = (.ok (), { s with tick := s.tick + 1, log := s.log ++ .ask none req ((env.loc s.tick req).map .data) :: screen (f (env.loc s.tick req)) }) := by
  unfold reqresp
  rw [bind_ok (state_run s), hc]
  simp only
  have h1 : exchLocal env req s = (.ok (env.loc s.tick req), { s with tick := s.tick + 1, log := s.log ++ [.ask none req ((env.loc s.tick req).map .data)] }) := by
    simp [exchLocal, bind_run, state_run, modify_run, exchRecv, recvSock, hs, Msg.tag, pure_run]
  rw [bind_ok h1, each_run hf hk _ hl]
  simp [hc]

theorem untilError_items {l : List Bytes} (hl : ∀ r ∈ l, Item r) : untilError l = l := by
  induction l with
  | nil => rfl
  | cons r l ih =>
    obtain ⟨x, b, rfl, -, h⟩ := hl r (by simp)
    rw [untilError, if_neg (by simp; omega), ih fun r hr => hl r (List.mem_cons_of_mem _ hr)]

theorem untilError_body {n : Str} {ans : List Reply} {l : List Bytes} (h : Body (some n) ans l) : untilError l = l := by
  cases h with
  | single n r h => simp [untilError]
  | list n x y s e l _ _ hl => exact untilError_items hl

end Verif.Ncp
