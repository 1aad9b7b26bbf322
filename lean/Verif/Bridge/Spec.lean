import Verif.Bridge.Model
/-!
# What a bridge should know, read off the history

Stated on the frames and clock ticks alone, without the table or the timers.
-/
namespace Verif.Bridge

/-- The station a frame shows to be on a circuit: its source, unless the frame is addressed to its
own sender. -/
def shows (pdu : Bytes) (a : Mac) : Prop := source pdu = a ∧ dest pdu ≠ source pdu

instance (pdu a) : Decidable (shows pdu a) := inferInstanceAs (Decidable (_ ∧ _))

/-- Where station `a` was last heard and how many ticks ago, after one more thing happened. -/
def hear (a : Mac) (k : Option (Circ × Nat)) : Act → Option (Circ × Nat)
  | .frame c pdu _ => if shows pdu a then some (c, 0) else k
  | .ticked => k.map (fun x => (x.1, x.2 + 1))
  | .quiet => k

/-- Where station `a` was last heard and how many clock ticks ago. -/
def lastHeard (a : Mac) (log : List Act) : Option (Circ × Nat) := log.foldl (hear a) none

end Verif.Bridge
