import Mathlib.Algebra.Order.Field.Rat
import Mathlib.Data.Rat.Floor

/-!
# Round trip times and retransmission timeouts of NSP

Model of `txqentry` and of `Connection.update_delay`, `acktimeout` in `pydecnet/decnet/nsp.py`.  Times are exact (the code
uses floating point numbers), and the clock is never zero.
-/

namespace Verif.NspDelay

/-- What happens to packets that are to be acknowledged.  `send`: packet `p` is sent, for the first time or again, `dly`
telling that the acknowledgment may be delayed (nsp.py 554-574).  `done`: it is acknowledged (nsp.py 757-760), or its
connection is closed (nsp.py 762-771). -/
inductive Ev
  | send (p : Nat) (now : Rat) (dly : Bool)
  | done (p : Nat) (now : Rat)
  deriving DecidableEq

/-- The configuration: `--nsp-weight` (1 to 255), `--nsp-delay` (any number), config.py 377-381; and the node each packet
is for. -/
structure Cfg where
  weight : Nat
  factor : Rat
  dest : Nat → Nat

/-- `NSPNode.delay` of every node (0 for none, nsp.py 73), `txqentry.txtime` and `tries` of every packet (nsp.py 551). -/
structure St where
  delay : Nat → Rat := fun _ => 0
  txtime : Nat → Rat := fun _ => 0
  tries : Nat → Nat := fun _ => 0

/-- `Connection.update_delay`, nsp.py 1332-1352, with the time of the clock. -/
def updateDelay (w : Nat) (now txtime delay : Rat) : Rat :=
  if txtime = 0 then delay
  else
    let delta := if now - txtime < 1 then 1 else now - txtime
    let d := if delay ≠ 0 then delay + (delta - delay) / (w + 1) else delta
    if d > 5 then 5 else d

/-- `txqentry.send`, nsp.py 554-574, and `txqentry.ack`, nsp.py 576-582. -/
def step (c : Cfg) (s : St) : Ev → St
  | .send p now dly => { s with
      tries := fun q => if q = p then s.tries p + 1 else s.tries q
      txtime := fun q => if q = p ∧ s.txtime p = 0 ∧ dly = false then now else s.txtime q }
  | .done p now => { s with
      delay := fun n => if n = c.dest p then updateDelay c.weight now (s.txtime p) (s.delay n) else s.delay n }

/-- After a history. -/
def run (c : Cfg) (h : List Ev) : St := h.foldl (step c) {}

/-- `Connection.acktimeout`, nsp.py 1354-1357: the timeout of a packet sent to a node. -/
def acktimeout (c : Cfg) (s : St) (n : Nat) : Rat := if s.delay n ≠ 0 then s.delay n * c.factor else 2

/-- The ticks of a tenth of a second for a timeout that is not negative, timers.py 154. -/
def ticks (t : Rat) : Nat := if (⌊t * 10⌋).toNat = 0 then 1 else (⌊t * 10⌋).toNat

/-- `TimerWheel.start` is possible, timers.py 155-156, with the 36010 entries of the wheel of a node (node.py 178). -/
def startable (t : Rat) : Prop := ticks t < 36010

end Verif.NspDelay
