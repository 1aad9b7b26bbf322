/-!
# Model of the work queue and the main loop of a node (`/repo/pydecnet/decnet/node.py`)

`Node.addwork` (270-279) puts an item on a `queue.Queue`; it may be called from any thread.
`Node.mainloop` (299-329) takes items one at a time and dispatches them.

Simplifications: a work item is a value of a type `W`; what dispatching an item does to the rest of
the program is an arbitrary function of the state `S` of that program, which yields the new state
and the items queued by the handler in order, or an exception; `queue.Queue` is a first-in
first-out list with atomic `put` and `get`; the owner of the item, statistics and logging are left
out.  A `KeyboardInterrupt` in `get` (308) is the action `interrupt`.
-/

namespace Verif.WorkQ

/-- The handler: `Work.dispatch` of the item's owner (`common.py` 234-242) in a given state. -/
abbrev Handler (S W : Type) := S → W → Option (S × List W)

/-- What is on the queue: ordinary items and the `Shutdown` item (`common.py` 249-251, node.py 312). -/
inductive Entry (W : Type) where
  | work (w : W)
  | shutdown
deriving DecidableEq, Repr

/-- The node as the main loop sees it; `done` records the items dispatched, oldest first,
`running` whether the loop is still going (false: `stop` was called, 328-329). -/
structure State (S W : Type) where
  prog : S
  queue : List (Entry W)
  done : List W
  running : Bool

/-- What can happen. -/
inductive Act (W : Type) where
  /-- some other thread calls `addwork`: node.py 270-279 -/
  | add (e : Entry W)
  /-- one round of the loop: node.py 304-320 -/
  | round
  /-- `KeyboardInterrupt` while waiting: node.py 310-311 -/
  | interrupt
deriving DecidableEq, Repr

/-- One action: node.py 299-329.  A round on an empty queue waits (no change). -/
def step {S W : Type} (h : Handler S W) (s : State S W) : Act W → State S W
  | .add e => { s with queue := s.queue ++ [e] }
  | .interrupt => { s with running := false }
  | .round =>
    if s.running then
      match s.queue with
      | [] => s
      | .shutdown :: q => { s with queue := q, running := false }
      | .work w :: q =>
        match h s.prog w with
        | none => { s with queue := q, done := s.done ++ [w], running := false }
        | some (p, ws) => ⟨p, q ++ ws.map .work, s.done ++ [w], true⟩
    else s

/-- The items put on the queue by an action, in order. -/
def added {S W : Type} (h : Handler S W) (s : State S W) : Act W → List (Entry W)
  | .add e => [e]
  | .interrupt => []
  | .round =>
    if s.running then
      match s.queue with
      | .work w :: _ =>
        match h s.prog w with
        | none => []
        | some (_, ws) => ws.map .work
      | _ => []
    else []

/-- A history: the final state and everything put on the queue, in order. -/
def run {S W : Type} (h : Handler S W) (s : State S W) : List (Act W) → State S W × List (Entry W)
  | [] => (s, [])
  | a :: as =>
    let r := run h (step h s a) as
    (r.1, added h s a ++ r.2)

end Verif.WorkQ
