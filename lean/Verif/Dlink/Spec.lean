import Verif.Dlink.Model

/-! # What is claimed about a datalink, in terms of its log -/

namespace Verif.Dlink

variable {M : Type}

/-- The status reports in a log, `true` for UP. -/
def reports : List (Ev M) → List Bool
  | [] => []
  | .up :: l => true :: reports l
  | .down :: l => false :: reports l
  | _ :: l => reports l

/-- Alternating, starting with the opposite of `b`. -/
def Alternates (b : Bool) : List Bool → Prop
  | [] => True
  | x :: l => x = !b ∧ Alternates x l

/-- The status last reported; DOWN before any report. -/
def status (l : List (Ev M)) : Bool := (reports l).getLastD false

/-- The messages that came in on the connection of thread `g`. -/
def got (g : Nat) : List (Ev M) → List M
  | [] => []
  | .got g' m :: l => if g' = g then m :: got g l else got g l
  | _ :: l => got g l

/-- The messages passed to the owner since the last UP report, with the thread they came from.
`acc` are those counted so far. -/
def sinceUpFrom (acc : List (Nat × M)) : List (Ev M) → List (Nat × M)
  | [] => acc
  | .up :: l => sinceUpFrom [] l
  | .pass g m :: l => sinceUpFrom (acc ++ [(g, m)]) l
  | _ :: l => sinceUpFrom acc l

def sinceUp (l : List (Ev M)) : List (Nat × M) := sinceUpFrom [] l

/-- Whether the datalink last set out to connect (`true`), or was last told to stop or nothing
happened yet (`false`). -/
def wantedFrom (b : Bool) : List (Ev M) → Bool
  | [] => b
  | .attempt :: l => wantedFrom true l
  | .cmdStop :: l => wantedFrom false l
  | _ :: l => wantedFrom b l

def wanted (l : List (Ev M)) : Bool := wantedFrom false l

/-- Something is under way that will make the datalink act again: a receive thread that has not
ended (it polls its socket and its stop flag), an item on the queue that its state acts on, or a
running timer. -/
def Pending (s : State M) : Prop :=
  (∃ t, s.th = some t ∧ t.phase ≠ .done) ∨
  (∃ g, .threadExit g ∈ s.queue) ∨
  (s.st = .halted ∧ .start ∈ s.queue) ∨
  (s.st = .reconnecting ∧ (s.armed = true ∨ .timeout s.rev ∈ s.queue))

end Verif.Dlink
