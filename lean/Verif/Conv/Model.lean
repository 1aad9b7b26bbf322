import Verif.Route.Lemmas

/-!
# A network of routers exchanging routing vectors

The decision process treats each destination separately (routing.py 989-1012), so the network is
looked at for one destination.  A router's columns for it are (`Verif.Route.Level.columns`): those of
its own, for an adjacent end node and for itself, and one for each neighbouring router, in the order
of its dictionary.  The neighbours' columns hold what was last received from each (routing.py 937-946);
an update carries the hops and cost now in the sender's table (routing.py 1600-1660), and the
receiver adds one hop and the cost of its circuit (routing_packets.py 429-440).

The topology is fixed.  Messages on a link stay in order and may be lost.
-/
namespace Verif.Conv

open Verif.Route

/-- Routers `V` and links `ℓ`, each link being one direction of an adjacency between routers. -/
structure Net (V ℓ : Type) where
  /-- `maxcost` and `maxhops` of each router -/
  lim : V → Lim
  /-- columns for adjacent end nodes and the router itself -/
  loc : V → List Col
  /-- links into a router in the order of its dictionary -/
  ins : V → List ℓ
  src : ℓ → V
  dst : ℓ → V
  /-- the receiver's circuit cost -/
  w : ℓ → Nat
  /-- the receiver's adjacency -/
  out : ℓ → Adj

variable {V ℓ : Type}

/-- The offers a router has, given the last received values. -/
def Net.cols (N : Net V ℓ) (tbl : ℓ → Nat × Nat) (v : V) : List Col :=
  N.loc v ++ (N.ins v).map (fun l => ⟨(tbl l).1, (tbl l).2, some (N.out l)⟩)

/-- Its decision. -/
def Net.best (N : Net V ℓ) (tbl : ℓ → Nat × Nat) (v : V) : Best := decision (N.lim v) (N.cols tbl v)

/-- What arrives over a link when the sender's table entry is `b`. -/
def Net.adv (N : Net V ℓ) (l : ℓ) (b : Best) : Nat × Nat := (b.hops + 1, b.cost + N.w l)

structure Net.Ok (N : Net V ℓ) : Prop where
  /-- config.py: `maxcost` is at most 1022 -/
  maxcost : ∀ v, (N.lim v).maxcost ≤ 1022
  /-- config.py: costs are at least 1 -/
  w : ∀ l, 1 ≤ N.w l
  /-- `Verif.Route.EndsWf` -/
  loc : ∀ v, WfCols (N.loc v)
  dst : ∀ v, ∀ l ∈ N.ins v, N.dst l = v

/-! ## Operation -/

/-- A message: hops and cost from the sender's table.  `stamp` (one more than the time of sending; zero for
messages which were under way at the start) and `last` below are for stating the theorems only; nothing
depends on them. -/
structure Msg where
  hops : Nat
  cost : Nat
  stamp : Nat

/-- The state: received values, table entries, messages under way; the time, and the stamp of the
last message received. -/
structure St (V ℓ : Type) where
  tbl : ℓ → Nat × Nat
  best : V → Best
  chan : ℓ → List Msg
  now : Nat
  last : ℓ → Nat

inductive Ev (ℓ : Type)
  /-- the source of the link sends an update for the destination -/
  | send (l : ℓ)
  /-- the first message on a link arrives -/
  | recv (l : ℓ)
  /-- a message is lost -/
  | lose (l : ℓ) (i : Nat)

def setf {A B : Type} [DecidableEq A] (f : A → B) (a : A) (b : B) : A → B := fun x => if x = a then b else f x

/-- Receipt as in `routemsg`, routing.py 937-946: an unchanged value causes nothing. -/
def Net.receive (N : Net V ℓ) [DecidableEq V] [DecidableEq ℓ] (s : St V ℓ) (l : ℓ) (m : Msg) : St V ℓ :=
  let v := (m.hops + 1, m.cost + N.w l)
  if s.tbl l ≠ v then
    let tbl := setf s.tbl l v
    { s with tbl := tbl, best := setf s.best (N.dst l) (N.best tbl (N.dst l)) }
  else s

def Net.act (N : Net V ℓ) [DecidableEq V] [DecidableEq ℓ] (s : St V ℓ) : Ev ℓ → St V ℓ
  | .send l =>
    { s with chan := setf s.chan l (s.chan l ++ [⟨(s.best (N.src l)).hops, (s.best (N.src l)).cost, s.now + 1⟩]) }
  | .recv l =>
    match s.chan l with
    | [] => s
    | m :: q => N.receive { s with chan := setf s.chan l q, last := setf s.last l m.stamp } l m
  | .lose l i => { s with chan := setf s.chan l ((s.chan l).eraseIdx i) }

def Net.step (N : Net V ℓ) [DecidableEq V] [DecidableEq ℓ] (s : St V ℓ) (e : Ev ℓ) : St V ℓ :=
  { N.act s e with now := s.now + 1 }

end Verif.Conv
