import Verif.LanEnd.Model

/-!
# What the history of an end node says

Everything here is read off the messages received, the requests made and the
times, not off the state of the model.
-/

namespace Verif.LanEnd

/-- A router hello that counts: time, router, node type, hello timer. -/
structure Hello where
  time : Nat
  id : Nat
  nt : Nat
  timer : Nat
deriving DecidableEq, Repr

/-- Hello messages of routers of our area. -/
def helloOf (c : Cfg) (x : Rec) : Option Hello :=
  match x.ev with
  | .recv hop (.hello id nt timer) =>
    if accepted c hop = true ∧ id / 1024 = c.own / 1024 then some ⟨x.time, id, nt, timer⟩ else none
  | _ => none

def hellos (c : Cfg) (h : List Rec) : List Hello := h.filterMap (helloOf c)

/-- How long (ms) a router is believed after a hello: 3.1 times the announced
hello time, in whole seconds. -/
def listenTime (c : Cfg) (x : Hello) : Nat :=
  1000 * (if x.timer * 31 / 10 = 0 then c.t3 * 31 / 10 / 1000 else x.timer * 31 / 10)

/-- Router `r` has been heard last, and recently enough by each of the hello
times it has announced. -/
def RouterThere (c : Cfg) (h : List Rec) (now r : Nat) : Prop :=
  ∃ l, (hellos c h).getLast? = some l ∧ l.id = r ∧
    ∀ x ∈ hellos c h, x.id = r → x.nt ≠ 0 → now < l.time + listenTime c x

/-- No router was heard, or not for longer than any hello time it announced
(Phase II routers, type 0, are believed for ever). -/
def NoRouter (c : Cfg) (h : List Rec) (now : Nat) : Prop :=
  ∀ l, (hellos c h).getLast? = some l →
    ∀ x ∈ hellos c h, x.id = l.id → x.nt ≠ 0 ∧ l.time + listenTime c x < now

/-- Time and link source of a data packet which comes from node `n`. -/
def heardOf (c : Cfg) (n : Nat) (x : Rec) : Option (Nat × Bytes) :=
  match x.ev with
  | .recv hop (.data src _ _ _) => if accepted c hop = true ∧ src = n then some (x.time, hop) else none
  | _ => none

def heard (c : Cfg) (n : Nat) (h : List Rec) : List (Nat × Bytes) := h.filterMap (heardOf c n)

/-- Requests to send to `n` that ask not to trust what is remembered. -/
def isTryhard (c : Cfg) (n : Nat) (x : Rec) : Bool :=
  match x.ev with
  | .send dest _ _ true => dest ≠ .node c.own && target c dest = n
  | _ => false

/-- Node `n` was heard through `hop` in the last minute, and nothing made us
forget. -/
def HeardThrough (c : Cfg) (h : List Rec) (now n : Nat) (hop : Bytes) : Prop :=
  (∃ t, (heard c n h).getLast? = some (t, hop) ∧ now < t + 60000) ∧ h.any (isTryhard c n) = false

/-- Node `n` was not heard in the last minute. -/
def NotHeard (c : Cfg) (h : List Rec) (now n : Nat) : Prop :=
  ∀ t hop, (heard c n h).getLast? = some (t, hop) → t + 60000 < now

end Verif.LanEnd
