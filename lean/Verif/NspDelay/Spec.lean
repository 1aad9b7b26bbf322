import Verif.NspDelay.Model

/-!
# What is measured and what is made of it
-/

namespace Verif.NspDelay

/-- The time a packet was first sent without leave to delay the acknowledgment; the history has the latest first. -/
def firstTimed (p : Nat) : List Ev → Option Rat
  | [] => none
  | .send q now false :: past =>
    match firstTimed p past with
    | some t => some t
    | none => if q = p then some now else none
  | _ :: past => firstTimed p past

/-- The measurements for a node, the latest first: from the first such sending of a packet to its end, one second at
least. -/
def samples (c : Cfg) (n : Nat) : List Ev → List Rat
  | [] => []
  | .done p now :: past =>
    match firstTimed p past with
    | some t => if c.dest p = n then max 1 (now - t) :: samples c n past else samples c n past
    | none => samples c n past
  | _ :: past => samples c n past

/-- The estimate from measurements, the latest first: a weighted average, five seconds at most. -/
def estimate (w : Nat) : List Rat → Rat
  | [] => 0
  | [x] => min 5 x
  | x :: y :: l => min 5 ((w * estimate w (y :: l) + x) / (w + 1))

/-- No time is zero. -/
def Timed (h : List Ev) : Prop := ∀ e ∈ h, match e with | .send _ t _ => t ≠ 0 | .done _ _ => True

end Verif.NspDelay
