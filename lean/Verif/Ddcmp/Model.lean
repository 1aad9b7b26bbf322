/-!
# Model of the DDCMP protocol engine, `decnet/ddcmp.py` 321-879

One `Stn` is one `_DDCMP` object in the states `Istart`, `Astart` and `running`, together with the
channel it transmits into (`out`, a first-in first-out list of frames: TCP, serial line).  An
`AssertionError` of the code is the value `none`.

Simplifications.  Maintenance mode (821-849) is left out: nothing in the code sends a
maintenance message.  The local `Restart` and `ThreadExit` work items are left out: they end the
session.  Timers are left out: a timeout may happen at any moment, which covers every setting of
the timers.  Statistics counters and trace messages are left out.  A port is open.  The frame
encoding and the CRCs are in `Verif.DdcmpFrame`; here a damaged frame is one that the receive
thread reports as an `Err` work item (505-530).
`accepted`, `sent` and `delivered` are output logs: nothing reads them.
-/
namespace Verif.Ddcmp

abbrev Msg := List Nat

/-- Messages: `DataMsg` 243, `AckMsg` 276, `NakMsg` 281, `RepMsg` 285, `StartMsg` 291,
`StackMsg` 300. -/
inductive Frame where
  | start
  | stack
  | ack (resp : Nat)
  | nak (code : Nat) (resp : Nat)
  | rep (num : Nat)
  | data (num : Nat) (resp : Nat) (payload : Msg)
deriving DecidableEq, Repr

inductive Phase where
  | istart | astart | running
deriving DecidableEq, Repr

/-- Protocol state, ddcmp.py 408-429, with the transmit channel and the logs. -/
structure Stn where
  st : Phase
  r : Nat
  a : Nat
  n : Nat
  ackflag : Bool
  /-- the 256 slots: sequence number and payload of the message object -/
  unack : Nat → Option (Nat × Msg)
  notsent : List Msg
  out : List Frame
  /-- number of times the datalink was reported down (`do_restart`, 445-448) -/
  downs : Nat
  /-- messages taken by `send` while running -/
  accepted : List Msg
  /-- messages that were given a sequence number -/
  sent : List Msg
  /-- messages handed to the client -/
  delivered : List Msg

/-- `Seq` subtraction, modulo.py with modulus 256 (ddcmp.py 66). -/
def sub (x y : Nat) : Nat := (x + 256 - y) % 256
/-- `Seq + 1`. -/
def inc (x : Nat) : Nat := (x + 1) % 256

/-- Hand a frame to the transmit side (the subclasses' `sendmsg`). -/
def emit (f : Frame) (s : Stn) : Stn := { s with out := s.out ++ [f] }

/-- `connected` after `init_state`, ddcmp.py 408-429: fresh state, a Start message sent. -/
def connected (out : List Frame) (downs : Nat) : Stn :=
  emit .start
    { st := .istart, r := 0, a := 0, n := 0, ackflag := false, unack := fun _ => none
      notsent := [], out := out, downs := downs, accepted := [], sent := [], delivered := [] }

/-- `do_restart` from the running state, ddcmp.py 445-459. -/
def doRestart (s : Stn) : Stn := connected s.out (s.downs + 1)

/-- ddcmp.py 431-432 -/
def cansend (qmax : Nat) (s : Stn) : Bool := sub s.n s.a < qmax

/-- ddcmp.py 745-748 with `sendmsg` 551-553 -/
def sendAck (s : Stn) : Stn := emit (.ack s.r) { s with ackflag := false }
/-- ddcmp.py 750-753 with `sendmsg` 551-553 -/
def sendNak (code : Nat) (s : Stn) : Stn := emit (.nak code s.r) { s with ackflag := false }
/-- ddcmp.py 755-757; `RepMsg.setresp` is False -/
def sendRep (s : Stn) : Stn := emit (.rep s.n) s
/-- `sendmsg` of a `DataMsg`, ddcmp.py 551-553 -/
def sendData (num : Nat) (m : Msg) (s : Stn) : Stn :=
  emit (.data num s.r m) { s with ackflag := false }

/-- `send`, ddcmp.py 851-879 -/
def send (qmax : Nat) (m : Msg) (queue : Bool) (s : Stn) : Option Stn :=
  if s.st = .running then
    if !cansend qmax s then some { s with notsent := s.notsent ++ [m] }
    else
      let n' := inc s.n
      if (s.unack n').isSome then none
      else
        let s' := { s with
          n := n'
          unack := fun j => if j = n' then some (n', m) else s.unack j
          sent := s.sent ++ [m] }
        if queue then some s' else some (sendData n' m s')
  else some s

/-- The loop at ddcmp.py 773-779. -/
def release : Nat → Stn → Option Stn
  | 0, s => some s
  | k + 1, s =>
    let a' := inc s.a
    match s.unack a' with
    | none => none
    | some _ => release k { s with
        a := a'
        unack := fun j => if j = a' then none else s.unack j }

/-- The loop at ddcmp.py 800-805; `l` is the content of the `notsent` queue. -/
def flush (qmax : Nat) (queue : Bool) : List Msg → Stn → Option Stn
  | [], s => some s
  | m :: rest, s =>
    if cansend qmax s then
      (send qmax m queue { s with notsent := rest }).bind (flush qmax queue rest)
    else some s

/-- `process_ack`, ddcmp.py 759-807.  The Boolean is the result. -/
def processAck (qmax : Nat) (isNak : Bool) (resp : Nat) (s : Stn) : Option (Stn × Bool) :=
  let count := sub resp s.a
  let pend := sub s.n s.a
  if count > pend then some (s, false)
  else
    (release count s).bind fun s1 =>
    (flush qmax isNak s1.notsent s1).bind fun s2 =>
    some (s2, true)

/-- The loop of `retransmit`, ddcmp.py 815-819. -/
def resend : Nat → Nat → Stn → Option Stn
  | 0, _, s => some s
  | k + 1, t, s =>
    let t' := inc t
    match s.unack t' with
    | none => none
    | some (num, m) => resend k t' (sendData num m s)

/-- `retransmit`, ddcmp.py 809-819 -/
def retransmit (s : Stn) : Option Stn := resend (sub s.n s.a) s.a s

/-- Work items. -/
inductive Input where
  | packet (f : Frame)
  | err (code : Nat) (resp : Option Nat)
  | timeout
deriving DecidableEq, Repr

/-- ddcmp.py 732-733 -/
def ackIfNeeded (s : Stn) : Stn := if s.ackflag then sendAck s else s

/-- `running`, ddcmp.py 646-733 -/
def running (qmax : Nat) (s : Stn) : Input → Option Stn
  | .packet (.data num resp m) =>
    (processAck qmax false resp s).bind fun (s1, _) =>
    if num ≠ inc s1.r then some s1
    else some (ackIfNeeded
      { s1 with r := inc s1.r, ackflag := true, delivered := s1.delivered ++ [m] })
  | .packet (.ack resp) =>
    (processAck qmax false resp s).bind fun (s1, _) => some (ackIfNeeded s1)
  | .packet (.nak _ resp) =>
    (processAck qmax true resp s).bind fun (s1, ok) =>
    if ok then (retransmit s1).bind fun s2 => some (ackIfNeeded s2)
    else some (ackIfNeeded s1)
  | .packet (.rep num) =>
    if num = s.r then some (ackIfNeeded { s with ackflag := true })
    else some (ackIfNeeded (sendNak 3 s))
  | .packet .start => some (doRestart s)
  | .packet .stack => some (ackIfNeeded { s with ackflag := true })
  | .timeout => some (ackIfNeeded (sendRep s))
  | .err code (some resp) =>
    (processAck qmax false resp s).bind fun (s1, _) => some (ackIfNeeded (sendNak code s1))
  | .err code none => some (ackIfNeeded (sendNak code s))

/-- `running_state`, ddcmp.py 633-644, and the state change its callers make. -/
def enterRunning (ack : Bool) (s : Stn) : Stn :=
  let s1 := if ack then sendAck s else s
  { s1 with st := .running }

/-- `Istart`, ddcmp.py 557-590 -/
def istart (s : Stn) : Input → Stn
  | .timeout => emit .start s
  | .packet .start => { emit .stack s with st := .astart }
  | .packet .stack => enterRunning true s
  | _ => s

/-- `Astart`, ddcmp.py 592-631.  (A received Start is ignored: line 599 tests the work item,
not the packet.) -/
def astart (qmax : Nat) (s : Stn) : Input → Option Stn
  | .timeout => some (emit .stack s)
  | .packet .stack => some (enterRunning true s)
  | .packet (.ack resp) =>
    if resp = 0 then running qmax (enterRunning false s) (.packet (.ack resp)) else some s
  | .packet (.data num resp m) =>
    if resp = 0 then running qmax (enterRunning false s) (.packet (.data num resp m)) else some s
  | _ => some s

/-- Dispatch of a work item to the current state. -/
def handle (qmax : Nat) (s : Stn) (i : Input) : Option Stn :=
  match s.st with
  | .istart => some (istart s i)
  | .astart => astart qmax s i
  | .running => running qmax s i

/-! ### Two stations -/

/-- What may happen at one station. -/
inductive Act where
  /-- the client sends a message -/
  | send (m : Msg)
  /-- the timer expires -/
  | timeout
  /-- the first frame on the incoming channel arrives intact -/
  | recv
  /-- the first frame is lost without trace -/
  | lose
  /-- the first frame arrives with a bad header CRC -/
  | badHeader
  /-- the first frame arrives with a good header and a bad data CRC (505-530) -/
  | badData
  /-- line noise is reported as a header error -/
  | noise
deriving DecidableEq, Repr

/-- The client call: `send` with a log entry if the message is taken. -/
def clientSend (qmax : Nat) (m : Msg) (s : Stn) : Option Stn :=
  send qmax m false
    (if s.st = .running then { s with accepted := s.accepted ++ [m] } else s)

/-- The work item that a damaged data part produces, ddcmp.py 518-530. -/
def damaged : Frame → Input
  | .data _ resp _ => .err 2 (some resp)
  | _ => .err 1 none

/-- One action at station `p`, whose incoming channel is `q.out`. -/
def act (qmax : Nat) (p q : Stn) : Act → Option (Stn × Stn)
  | .send m => (clientSend qmax m p).map fun p' => (p', q)
  | .timeout => (handle qmax p .timeout).map fun p' => (p', q)
  | .noise => (handle qmax p (.err 1 none)).map fun p' => (p', q)
  | .lose => some (p, { q with out := q.out.tail })
  | .recv =>
    match q.out with
    | [] => some (p, q)
    | f :: fs => (handle qmax p (.packet f)).map fun p' => (p', { q with out := fs })
  | .badHeader =>
    match q.out with
    | [] => some (p, q)
    | _ :: fs => (handle qmax p (.err 1 none)).map fun p' => (p', { q with out := fs })
  | .badData =>
    match q.out with
    | [] => some (p, q)
    | f :: fs => (handle qmax p (damaged f)).map fun p' => (p', { q with out := fs })

/-- One action of the pair; `true` is the first station. -/
def step (qp qq : Nat) (s : Stn × Stn) : Bool × Act → Option (Stn × Stn)
  | (true, x) => act qp s.1 s.2 x
  | (false, x) => (act qq s.2 s.1 x).map Prod.swap

/-- A schedule. -/
def run (qp qq : Nat) (s : Stn × Stn) : List (Bool × Act) → Option (Stn × Stn)
  | [] => some s
  | x :: xs => (step qp qq s x).bind fun s' => run qp qq s' xs

/-- Both ends just connected. -/
def init : Stn × Stn := (connected [] 0, connected [] 0)

end Verif.Ddcmp
