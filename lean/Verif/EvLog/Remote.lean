import Verif.EvLog.Model
import Verif.EvQueue.Props

/-!
# Model of the connection to a remote sink, `RemoteSink`, event_logger.py:266-369

Simplifications: a connection is a number, chosen by the environment; the outcome of `connect` and of
each `send_data` is the environment's choice; what the items of the queue are is in
`Verif.EvQueue`.  A time-out that was delivered to the node but not yet served counts as a running
timer: starting the timer again drops it (timers.py:120-123), so that the test of `islinked`
(event_logger.py:332) makes no difference.  `none` is an exception, which goes on to whoever logged the
event or to the main loop of the node.
-/

namespace Verif.EvLog.Remote

open Verif.EvQueue (Item append)
open Verif.EvLog (Event)

/-- `QLIMIT`, event_logger.py:36. -/
def limit : Nat := 50

/-- `self.sinkconn`: `None`, `True` (pending), or a connection. -/
inductive Conn
  | none
  | pending
  | opened (c : Nat)
deriving DecidableEq, Repr

structure St where
  /-- `self.sinknode` is set. -/
  node : Bool
  /-- `self.scport` is set. -/
  port : Bool
  conn : Conn
  timer : Bool
  queue : List (Item Event)
deriving DecidableEq, Repr

/-- event_logger.py:267-277. -/
def init : St := ⟨true, false, .none, false, []⟩

/-- Outcome of `connect`. -/
inductive Res
  | ok
  /-- `UnknownNode`. -/
  | unknown
  /-- Another exception. -/
  | raises
deriving DecidableEq, Repr

/-- What the environment does in a step: outcome of `connect`, and after how many calls `send_data`
raises. -/
structure Env where
  res : Res
  good : Option Nat
deriving DecidableEq, Repr

/-- What others see. -/
inductive Out
  | connect
  | sent (c : Nat) (i : Item Event)
  /-- `send_data` raised. -/
  | failed (c : Nat)
  | abort (c : Nat)
deriving DecidableEq, Repr

/-- `evt.encode ()` works. -/
def encodes : Item Event → Bool
  | .event e => e.enc.isSome
  | .lost => true

/-- The loop, event_logger.py:315-337: what is left of the queue and what was done. -/
def sendLoop (c : Nat) : Option Nat → List (Item Event) → Option (List (Item Event) × List Out × Bool)
  | _, [] => some ([], [], true)
  | b, i :: q =>
    if encodes i = false then none
    else match b with
      | some 0 => some (i :: q, [.failed c], false)
      | some (k + 1) => (sendLoop c (some k) q).map fun r => (r.1, .sent c i :: r.2.1, r.2.2)
      | none => (sendLoop c none q).map fun r => (r.1, .sent c i :: r.2.1, r.2.2)

/-- `send_events`, event_logger.py:309-357.  The failed connection is not closed: there is no `close`
(session.py:371-404), and the exception is ignored (327-330). -/
def sendEvents (env : Env) (st : St) : Option (St × List Out) :=
  match st.conn with
  | .pending => some (st, [])
  | .opened c =>
    match sendLoop c env.good st.queue with
    | none => none
    | some (q, o, true) => some ({ st with queue := q }, o)
    | some (q, o, false) => some ({ st with queue := q, conn := .none, timer := true }, o)
  | .none =>
    if st.node = false then some (st, [])
    else if st.port = false then some (st, [])
    else match env.res with
      | .ok => some ({ st with conn := .pending }, [.connect])
      | .unknown => some ({ st with node := false }, [])
      | .raises => none

inductive Ev
  /-- `writeevent`. -/
  | log (e : Event)
  | timeout
  /-- `Accept` for the connection. -/
  | accept (c : Nat)
  /-- `Disconnect` or `Reject`. -/
  | closed (c : Nat)
  | start
  | stop
deriving DecidableEq, Repr

/-- One step: `writeevent` 304-307, `dispatch` 364-388 (which does not look at which connection a
message is for), `start` and `stop` 279-287. -/
def step (env : Env) (st : St) : Ev → Option (St × List Out)
  | .log e =>
    match append limit st.queue e with
    | none => none
    | some q => sendEvents env { st with queue := q }
  | .timeout => if st.timer then sendEvents env { st with timer := false } else some (st, [])
  | .accept c => sendEvents env { st with conn := .opened c }
  | .closed _ => some ({ st with conn := .none, timer := true }, [])
  | .start => some ({ st with port := true }, [])
  | .stop => some ({ st with conn := .none, port := false },
      match st.conn with | .opened c => [.abort c] | _ => [])

structure Rec where
  ev : Ev
  outs : List Out
deriving DecidableEq, Repr

/-- The histories of the sink. -/
inductive Run : List Rec → St → Prop
  | init : Run [] init
  | step {h st env ev st' outs} : Run h st → step env st ev = some (st', outs) →
      Run (h ++ [⟨ev, outs⟩]) st'

end Verif.EvLog.Remote
