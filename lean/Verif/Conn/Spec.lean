import Verif.Conn.Model

/-!
# What an observer of a run knows

Everything here is read off the log of events and outputs; the tables of the connector do not occur.
-/

namespace Verif.Conn

abbrev Log := List (Ev × List Out)

/-- An exchange: not waiting, waiting (`some false`), or given up by its task (`some true`). -/
def waitStep (t : Nat) (w : Option Bool) (x : Ev × List Out) : Option Bool :=
  if .asked t ∈ x.2 then some false
  else if x.1 = .cancel t then w.map fun _ => true
  else
    match x.1 with
    | .line m => if m.tag = some t then none else w
    | _ => w

def waiting (t : Nat) (l : Log) : Option Bool := l.foldl (waitStep t) none

/-- The handle of an open connection object. -/
def handStep (c : Nat) (h : Option Nat) (x : Ev × List Out) : Option Nat :=
  x.2.foldl (fun h o => if o = .closed c then none else
    match o with
    | .opened c' h' => if c' = c then some h' else h
    | _ => h) h

def hand (c : Nat) (l : Log) : Option Nat := l.foldl (handStep c) none

/-- The receiver has failed. -/
def Down (l : Log) : Prop := ∃ x ∈ l, Out.down ∈ x.2

instance (l : Log) : Decidable (Down l) := by unfold Down; infer_instance

/-- The messages that came for a connection object while it was open: those that are not answers to an
exchange and carry its handle. -/
inductive Heard (c : Nat) : Log → List Msg → Prop
  | nil : Heard c [] []
  | hear {l q m o} : Heard c l q → ¬ Down l → m.tag = none → hand c (l ++ [(.line m, o)]) = some m.handle →
      Heard c (l ++ [(.line m, o)]) (q ++ [m])
  | skip {l q x} : Heard c l q →
      (∀ m, x.1 = .line m → ¬ Down l → m.tag = none → hand c (l ++ [x]) ≠ some m.handle) →
      Heard c (l ++ [x]) q

/-- The new connections that came for a bound connection object while it was open. -/
inductive Called (b : Nat) : Log → List Nat → Prop
  | nil : Called b [] []
  | call {l q m o c bh} : Called b l q → .opened c m.handle ∈ o → m.type = .connect → m.listen = some bh →
      hand b (l ++ [(.line m, o)]) = some bh → Called b (l ++ [(.line m, o)]) (q ++ [c])
  | skip {l q x} : Called b l q →
      (∀ m c bh, x.1 = .line m → .opened c m.handle ∈ x.2 → m.type = .connect → m.listen = some bh →
        hand b (l ++ [x]) ≠ some bh) →
      Called b (l ++ [x]) q

/-- What `recv` has returned on a connection object. -/
def gotten (c : Nat) (l : Log) : List Msg :=
  l.flatMap fun x => x.2.filterMap fun
    | .got c' m => if c' = c then some m else none
    | _ => none

/-- What `listen` has returned on a connection object. -/
def answered (b : Nat) (l : Log) : List Nat :=
  l.flatMap fun x => x.2.filterMap fun
    | .accepted b' c => if b' = b then some c else none
    | _ => none

/-- Messages that concern no open connection and cannot open one. -/
def Stray (l : Log) (m : Msg) : Prop :=
  m.handle ≠ 0 ∧ (∀ c, hand c l ≠ some m.handle) ∧ m.type ≠ .connect ∧ m.type ≠ .connecting ∧ m.type ≠ .bind

end Verif.Conn
