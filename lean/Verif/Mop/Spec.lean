import Verif.Mop.Model

/-!
# What an observer of the loop client sees

`View` is what can be said about one loop test by looking only at the events and at what was sent:
which request is unanswered, what became of the earlier ones.  It knows nothing of the tables and
timers of the program.
-/

namespace Verif.Mop

/-- One loop test as seen from outside. -/
structure View where
  started : Bool := false
  packets : Nat := 0
  nml : Bool := false
  client : Nat := 0
  /-- the receipt number of the request sent last, if neither answered nor timed out -/
  out : Option Nat := none
  /-- what became of the requests: answered after some time, or not -/
  res : List (Option Nat) := []
  /-- the number of requests sent -/
  sends : Nat := 0
  /-- the client left before the first outcome -/
  gone : Bool := false
  /-- the answers given to the client -/
  final : List Out := []
deriving DecidableEq, Repr

/-- An event, seen for test `id`. -/
def View.input (id : Nat) (v : View) : Ev → View
  | .start i p _ n c =>
    if i = id ∧ v.started = false ∧ p ≠ 0 then
      { v with started := true, packets := p, nml := n, client := c }
    else v
  | .reply r t => if v.out = some r then { v with out := none, res := v.res ++ [some t] } else v
  | .timeout i =>
    if i = id ∧ v.out.isSome = true then { v with out := none, res := v.res ++ [none] } else v
  | .endApi c =>
    if v.started = true ∧ v.client = c ∧ v.res = [] then { v with out := none, gone := true } else v

/-- Something sent, seen for test `id`. -/
def View.output (id : Nat) (v : View) : Out → View
  | .sent i r => if i = id then { v with out := some r, sends := v.sends + 1 } else v
  | .result i ds => if i = id then { v with final := v.final ++ [.result i ds] } else v
  | .failed i n => if i = id then { v with final := v.final ++ [.failed i n] } else v
  | .looped i => if i = id then { v with final := v.final ++ [.looped i] } else v

/-- An event and what it caused. -/
def View.see (id : Nat) (v : View) (x : Ev × List Out) : View :=
  x.2.foldl (View.output id) (v.input id x.1)

/-- A whole history. -/
def view (id : Nat) (tr : List (Ev × List Out)) : View := tr.foldl (View.see id) {}

/-- No receipt number is used again while an earlier request with it is still unanswered.  (The
65535 numbers are used in turn, so this can fail only if 65534 requests are made meanwhile.) -/
def NoReuse (tr : List (Ev × List Out)) : Prop :=
  ∀ pre e outs post, tr = pre ++ (e, outs) :: post → ∀ id r, Out.sent id r ∈ outs →
    ∀ id', id' ≠ id → ((view id' pre).input id' e).out ≠ some r

end Verif.Mop
