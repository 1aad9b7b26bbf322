/-!
# Model of a point-to-point datalink with a receive thread

`PtpDatalink` (`/repo/pydecnet/decnet/datalink.py` 305-580) with the Multinet subclasses
(`multinet.py` 70-110, 150-345): the state machine run by the node thread, the receive thread, the
node's work queue as far as it holds items of this datalink, and the datalink's timer.

Simplifications.
* The work queue is first in first out (`Verif.WorkQ`); only the items of this datalink are kept.
* The timer is armed or not; starting it again makes an expiry that is still queued stale
  (`Verif.Timers`, C04); how long it runs is not modelled: an armed timer may expire at any time.
* The sockets are not modelled.  The receive thread may find its connection made or failed, receive
  a message, or end, at any moment, also after it was told to stop (it looks at its stop flag only
  now and then), so all timings are covered.
* Whether `connect` starts the timer (it does for connecting sockets, multinet.py 186, and for
  failed listening sockets, 231, but not otherwise) is a choice of the environment.
* The datalink has a port (its owner), so that reports and messages are passed on.
* The `Connected`, `Received` and `ThreadExit` items carry the number of the thread that queued
  them, and the log records what a thread received.  Both are for the statements only: no decision
  looks at them.
-/

namespace Verif.Dlink

/-- The states of the state machine: datalink.py 457-543, multinet.py 91-110. -/
inductive St where
  | halted | shutdown | reconnecting | connecting | running
deriving DecidableEq, Repr

/-- Where the receive thread is in `run` (datalink.py 538-557): waiting in `check_connection`, in the
receive loop, or past the `finally` clause. -/
inductive Phase where
  | waiting | looping | done
deriving DecidableEq, Repr

/-- A receive thread (`self.rthread`); `stop` is its `stopnow` flag. -/
structure Thr where
  gen : Nat
  phase : Phase
  stop : Bool
deriving DecidableEq, Repr

/-- Work items for the datalink. -/
inductive Item (M : Type) where
  /-- `port.open ()`, or the datalink itself (datalink.py 495, 503): `Start` -/
  | start
  /-- `port.close ()`: `Stop` -/
  | stop
  /-- `port.restart ()`: `Restart` -/
  | restart
  /-- `reconnect (now)`: datalink.py 330-334 -/
  | reconnect (now : Bool)
  | connected (g : Nat)
  | received (g : Nat) (m : M)
  | threadExit (g : Nat)
  /-- a timer expiry with the timer's start count -/
  | timeout (rev : Nat)
deriving DecidableEq, Repr

/-- What an observer sees.  `up`, `down` and `pass` go to the owner; `got` is a message coming in on
the connection of thread `g`; `cmdStop` and `attempt` record that a `Stop` was obeyed, or that the
datalink set out to (re)connect. -/
inductive Ev (M : Type) where
  | up
  | down
  | pass (g : Nat) (m : M)
  | got (g : Nat) (m : M)
  | cmdStop
  | attempt
deriving DecidableEq, Repr

/-- The datalink. -/
structure State (M : Type) where
  st : St
  th : Option Thr
  isUp : Bool
  now : Bool
  armed : Bool
  rev : Nat
  /-- number of receive threads started so far -/
  threads : Nat
  queue : List (Item M)
deriving DecidableEq, Repr

variable {M : Type}

/-- `__init__`: datalink.py 312-322. -/
def init : State M := ⟨.halted, none, false, false, false, 0, 0, []⟩

/-- `report_up`: datalink.py 381-388. -/
def reportUp (s : State M) : State M × List (Ev M) :=
  if s.isUp then (s, []) else ({ s with isUp := true }, [.up])

/-- `report_down`: datalink.py 390-397. -/
def reportDown (s : State M) : State M × List (Ev M) :=
  if s.isUp then ({ s with isUp := false }, [.down]) else (s, [])

/-- `addwork`: node.py 270-279. -/
def push (s : State M) (i : Item M) : State M := { s with queue := s.queue ++ [i] }

/-- `rthread.stop (False)`: sets the flag, datalink.py 404-405. -/
def stopThread (s : State M) : State M :=
  { s with th := s.th.map fun t => { t with stop := true } }

/-- `handle_stop` without its return value: datalink.py 399-408. -/
def handleStop (s : State M) : State M × List (Ev M) := reportDown (stopThread s)

/-- `reconnecting` given a `ThreadExit` or `Reconnect` item: datalink.py 506-517.  (The `Start` goes
through the work queue.)  `jstart` makes earlier expiries stale. -/
def hold (s : State M) : State M :=
  if s.now then { push s .start with now := false, st := .halted }
  else { s with armed := true, rev := s.rev + 1 }

/-- `handle_reconnect` followed by `set_state`: datalink.py 414-426, 436-438. -/
def handleReconnect (s : State M) (now : Bool) : State M × List (Ev M) :=
  let (s1, e) := handleStop s
  let s2 := { s1 with now := now, st := .reconnecting }
  (if s2.th.isSome then s2 else hold s2, e ++ [.attempt])

/-- `s0` given `Start`: datalink.py 462-465, with `connect` (the timer is started if `timer`) and
`start_thread` (545-549), which does nothing if a thread object is still there. -/
def begin (s : State M) (timer : Bool) : State M :=
  let s1 := if timer then { s with armed := true, rev := s.rev + 1 } else s
  match s1.th with
  | some _ => { s1 with st := .connecting }
  | none => { s1 with st := .connecting, th := some ⟨s1.threads, .waiting, false⟩, threads := s1.threads + 1 }

/-- `dispatch` (statemachine.py 52-67) of one work item: `validate` (datalink.py 428-454,
multinet.py 76-82) and then the state's function.  `timer` is the environment's choice for
`connect`. -/
def handle (s : State M) (timer : Bool) : Item M → State M × List (Ev M)
  -- multinet.py 92-107; other states ignore it
  | .received g m => (s, if s.st = .running then [.pass g m] else [])
  -- datalink.py 438-440
  | .stop =>
    let (s1, e) := handleStop s
    ({ s1 with st := if s1.th.isSome then .shutdown else .halted }, e ++ [.cmdStop])
  -- datalink.py 441-443
  | .reconnect now => handleReconnect s now
  -- multinet.py 84-88
  | .restart => handleReconnect s true
  -- datalink.py 444-455, then 472-478 or 506-517
  | .threadExit _ =>
    let (s1, e) := reportDown { s with th := none }
    if s.st = .shutdown then ({ s1 with st := .halted }, e)
    else (hold { s1 with st := .reconnecting }, e ++ [.attempt])
  -- datalink.py 457-465
  | .start => if s.st = .halted then (begin s timer, [.attempt]) else (s, [])
  -- datalink.py 521-523, multinet.py 78-81
  | .connected _ =>
    if s.st = .connecting then
      let (s1, e) := reportUp s
      ({ s1 with st := .running }, e)
    else (s, [])
  -- datalink.py 503-505, 524-528; a stale expiry is dropped (timers.py)
  | .timeout r =>
    if r = s.rev then
      match s.st with
      | .reconnecting => ({ push s .start with st := .halted }, [])
      | .connecting => (push s (.reconnect true), [])
      | _ => (s, [])
    else (s, [])

/-- What can happen. -/
inductive Act (M : Type) where
  /-- the owner queues a command -/
  | open | close | restart
  /-- `send` fails: multinet.py 147-150 -/
  | sendError
  /-- the timer expires: timers.py -/
  | expire
  /-- the receive thread finds the connection made: datalink.py 556-565 -/
  | connOk
  /-- the receive thread gives up (connection failed, told to stop, or an exception):
  datalink.py 566-575 -/
  | connFail
  /-- the receive thread queues a message: multinet.py 128-131, 343-346 -/
  | recv (m : M)
  /-- the receive loop ends: datalink.py 574-575 -/
  | exit
  /-- the node thread dispatches the first item; `timer` as for `handle` -/
  | dispatch (timer : Bool)
deriving DecidableEq, Repr

/-- One action; an action that is not possible in the state does nothing. -/
def step (s : State M) : Act M → State M × List (Ev M)
  | .open => (push s .start, [])
  | .close => (push s .stop, [])
  | .restart => (push s .restart, [])
  | .sendError => if s.st = .running then (push s (.reconnect false), []) else (s, [])
  | .expire => if s.armed then ({ push s (.timeout s.rev) with armed := false }, []) else (s, [])
  | .connOk =>
    match s.th with
    | some t =>
      if t.phase = .waiting then
        ({ push s (.connected t.gen) with th := some { t with phase := .looping } }, [])
      else (s, [])
    | none => (s, [])
  | .connFail =>
    match s.th with
    | some t =>
      if t.phase = .waiting then
        ({ push s (.threadExit t.gen) with th := some { t with phase := .done } }, [])
      else (s, [])
    | none => (s, [])
  | .recv m =>
    match s.th with
    | some t => if t.phase = .looping then (push s (.received t.gen m), [.got t.gen m]) else (s, [])
    | none => (s, [])
  | .exit =>
    match s.th with
    | some t =>
      if t.phase = .looping then
        ({ push s (.threadExit t.gen) with th := some { t with phase := .done } }, [])
      else (s, [])
    | none => (s, [])
  | .dispatch timer =>
    match s.queue with
    | [] => (s, [])
    | i :: q => handle { s with queue := q } timer i

/-- The state and log after a history. -/
def run : List (Act M) → State M × List (Ev M)
  | as => as.foldl (fun p a => let r := step p.1 a; (r.1, p.2 ++ r.2)) (init, [])

end Verif.Dlink
