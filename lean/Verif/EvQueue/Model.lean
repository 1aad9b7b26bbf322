/-!
# Model of the queue of events for a remote sink (`/repo/pydecnet/decnet/event_logger.py`)

`EventQueue` (39-53) is filled by `EventSink.writeevent` (304-307) and emptied by `send_events`
(309-337).  Both run in the node thread.

Simplifications: an event is an opaque value of a type `E`, the `events_lost` event is a separate
constructor (nothing else in the code creates one, so a logged event is never a marker); encoding
an event is left out; `send_data` is an outcome supplied by the environment (works or raises); the
connection attempt (338-357) does not touch the queue and is left out.  A `send_data` that itself
logs an event, and so re-enters `writeevent`, is not modelled.
-/

namespace Verif.EvQueue

/-- A queue element: a logged event or the `events_lost` marker (event_logger.py 50-52). -/
inductive Item (E : Type) where
  | event (e : E)
  | lost
deriving DecidableEq, Repr

/-- `EventQueue.append`: event_logger.py 44-53.  `none` is the `IndexError` of `self[-1]` on an
empty queue, which needs a limit of 0. -/
def append {E : Type} (limit : Nat) (q : List (Item E)) (e : E) : Option (List (Item E)) :=
  if limit ≤ q.length then
    match q.getLast? with
    | none => none
    | some .lost => some q
    | some (.event _) => some (q ++ [.lost])
  else some (q ++ [.event e])

/-- What happens to the queue: an event is logged, or `send_events` takes the first item and
`send_data` works (`sendOk`) or raises (`sendFail`). -/
inductive Op (E : Type) where
  | log (e : E)
  | sendOk
  | sendFail
deriving DecidableEq, Repr

/-- The queue and the messages handed to the connection so far, oldest first. -/
structure State (E : Type) where
  queue : List (Item E)
  sent : List (Item E)
deriving DecidableEq, Repr

/-- One step.  `sendOk`: 317-323, `sendFail`: 317-336 (`popleft`, then `appendleft` of the same
item).  With an empty queue `popleft` raises `IndexError`, which ends the loop (318-320). -/
def step {E : Type} (limit : Nat) (s : State E) : Op E → Option (State E)
  | .log e => (append limit s.queue e).map fun q => { s with queue := q }
  | .sendOk =>
    match s.queue with
    | [] => some s
    | i :: q => some ⟨q, s.sent ++ [i]⟩
  | .sendFail =>
    match s.queue with
    | [] => some s
    | i :: q => some ⟨i :: q, s.sent⟩

/-- A history, from the empty queue. -/
def run {E : Type} (limit : Nat) (s : State E) : List (Op E) → Option (State E)
  | [] => some s
  | o :: os => (step limit s o).bind fun s' => run limit s' os

end Verif.EvQueue
