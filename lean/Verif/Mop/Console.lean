import Verif.Mop.Model

/-!
# Model of the MOP console carrier, `decnet/mop.py`

The server (`CarrierServer`, with the parts of `MopCircuit.dispatch` and `SysIdHandler` that concern
it) and the connected state of the client (`CarrierClientConnection.active`, `sendpoll`).

Simplifications: the pseudo terminal is the environment: how many bytes a write accepts (or that it
fails) and what a read returns (or that it fails) are given with the event.  Whether `forkpty`
succeeds is given with the request.  The reservation timer is a flag; its expiry is an event that has
an effect only while the timer runs.
-/

namespace Verif.Mop

/-- `CarrierServer` attributes, mop.py 1126-1130.  `out = none` is `pendingoutput = None`, which it
is until the terminal was opened; `pty = false` is a zero file descriptor. -/
structure Server where
  remote : Bytes
  seq : Bool
  inp : Bytes
  resp : Option (Bool × Bytes)
  out : Option Bytes
  pty : Bool
  timer : Bool
deriving DecidableEq, Repr

/-- What the console server does that can be seen. -/
inductive COut where
  /-- a ConsoleResponse -/
  | response (dest : Bytes) (seq : Bool) (payload : Bytes)
  /-- bytes written to the terminal -/
  | typed (b : Bytes)
  /-- bytes taken from the terminal -/
  | taken (b : Bytes)
  /-- a SysId with its console fields: the station holding the reservation -/
  | sysid (dest : Bytes) (enabled : Bool) (user : Option Bytes)
  /-- an exception, which ends the node's main loop -/
  | raise
deriving DecidableEq, Repr

/-- `CarrierServer.__init__`, mop.py 1121-1149.  If `forkpty` fails, `release` (1151-1160) is called
and stops the timer. -/
def newServer (src : Bytes) (fork : Bool) : Server :=
  { remote := src, seq := false, inp := [], resp := none, out := if fork then some [] else none,
    pty := fork, timer := fork }

/-- `CarrierServer.msgsize`, mop.py 1119. -/
def MSGSIZE : Nat := 512

/-- `os.write (self.pty, self.pendinginput)` and what is left of the input, mop.py 1187-1192: the
bytes written and the bytes kept.  `none` is an exception: everything is dropped. -/
def ptyWrite (inp : Bytes) (accepted : Option Nat) : Bytes × Bytes :=
  match accepted with
  | some n => (inp.take n, inp.drop n)
  | none => ([], [])

/-- `os.read (self.pty, self.msgsize - lp)`, mop.py 1194-1200. -/
def ptyRead (lp : Nat) (read : Option Bytes) : Bytes :=
  if lp < MSGSIZE then
    match read with
    | some b => b.take (MSGSIZE - lp)
    | none => []
  else []

/-- `CarrierServer.dispatch` of a ConsoleCommand from the station it serves, mop.py 1177-1204. -/
def command (s : Server) (seq : Bool) (payload : Bytes) (accepted : Option Nat)
    (read : Option Bytes) : Server × List COut :=
  if seq = s.seq then
    match s.resp with
    | some (q, p) => ({ s with timer := true }, [.response s.remote q p])
    | none => ({ s with timer := true }, [])
  else
    match s.out with
    -- 1194: `len (None)`
    | none => ({ s with timer := true }, [.raise])
    | some o =>
      let w := ptyWrite (s.inp ++ payload) accepted
      let r := ptyRead o.length read
      ({ s with timer := true, inp := w.2, seq := !s.seq, out := some [],
                resp := some (!s.seq, o ++ r) },
        [.typed w.1, .taken r, .response s.remote (!s.seq) (o ++ r)])

/-- What reaches the console part of `MopCircuit.dispatch`, mop.py 640-668. -/
inductive CEv where
  | request (src ver : Bytes) (fork : Bool)
  | command (src : Bytes) (seq : Bool) (payload : Bytes) (accepted : Option Nat) (read : Option Bytes)
  | release (src : Bytes)
  | askId (src : Bytes)
  /-- the reservation timer -/
  | timeout
deriving DecidableEq, Repr

/-- One event; the state is `carrier_server`, `ver` is the configured verification. -/
def cstep (ver : Option Bytes) (sv : Option Server) : CEv → Option Server × List COut
  -- mop.py 655-661; the failed start's `release` comes before the assignment in 658
  | .request src v fork =>
    match sv with
    | some s => (some s, [])
    | none => if ver = some v then (some (newServer src fork), []) else (none, [])
  -- mop.py 666-667, 1168-1204
  | .command src seq payload a r =>
    match sv with
    | none => (none, [])
    | some s =>
      if src ≠ s.remote then (some s, [])
      else
        let x := command s seq payload a r
        (some x.1, x.2)
  -- mop.py 1151-1160, 1174-1176
  | .release src =>
    match sv with
    | none => (none, [])
    | some s => if src ≠ s.remote then (some s, []) else (none, [])
  -- mop.py 737-738, 746-767
  | .askId src =>
    (sv, [.sysid src ver.isSome (if ver.isSome then sv.map (·.remote) else none)])
  -- mop.py 1163-1167
  | .timeout =>
    match sv with
    | none => (none, [])
    | some s => if s.timer = true then (none, []) else (some s, [])

/-- A history of the server. -/
def crun (ver : Option Bytes) (sv : Option Server) : List CEv → Option Server × List (List COut)
  | [] => (sv, [])
  | e :: es =>
    let r := cstep ver sv e
    let r' := crun ver r.1 es
    (r'.1, r.2 :: r'.2)

/-! ## The client -/

/-- `CarrierClientConnection` in state `active`, mop.py 1021-1061: `msg` is the payload of the
command sent last while it is unanswered; `shown` is what was passed to the user. -/
structure Client where
  seq : Bool
  msg : Option Bytes
  pend : Bytes
  cmdsize : Nat
  retries : Nat
  closed : Bool
  shown : List Bytes
deriving DecidableEq, Repr

/-- `sendpoll` and `sendmsg`, mop.py 999-1013 and 900-903: the new state and the command sent. -/
def sendPoll (c : Client) : Client × List (Bool × Bytes) :=
  match c.msg with
  | some p => (c, [(c.seq, p)])
  | none =>
    ({ c with retries := 5, seq := !c.seq, msg := some (c.pend.take c.cmdsize),
              pend := c.pend.drop c.cmdsize }, [(!c.seq, c.pend.take c.cmdsize)])

/-- Entering the state, mop.py 980-986. -/
def newClient (cmdsize : Nat) : Client × List (Bool × Bytes) :=
  sendPoll { seq := false, msg := none, pend := [], cmdsize, retries := 5, closed := false, shown := [] }

/-- A timeout or a response out of sequence, mop.py 1039-1049. -/
def again (c : Client) : Client × List (Bool × Bytes) :=
  if c.retries - 1 ≠ 0 then sendPoll { c with retries := c.retries - 1 }
  else ({ c with retries := 0, closed := true }, [])

/-- `active` with a response, mop.py 1024-1049. -/
def onResponse (c : Client) (seq : Bool) (payload : Bytes) : Client × List (Bool × Bytes) :=
  if seq = c.seq then
    let c := { c with retries := 5, msg := none,
                      shown := if payload = [] then c.shown else c.shown ++ [payload] }
    if c.pend = [] then (c, []) else sendPoll c
  else again c

/-- `active` with input from the user, mop.py 1055-1061. -/
def onPost (c : Client) (b : Bytes) : Client × List (Bool × Bytes) :=
  if c.pend ≠ [] ∨ c.msg ≠ none then ({ c with pend := c.pend ++ b }, [])
  else sendPoll { c with pend := b }

/-! ## Client and server on a channel that loses and repeats -/

/-- A session: both ends, what is on the way in each direction (oldest first), and what was typed
by the user, what reached the terminal and what was taken from it. -/
structure Session where
  client : Client
  server : Server
  cmds : List (Bool × Bytes)
  resps : List (Bool × Bytes)
  posted : Bytes
  typed : Bytes
  taken : List Bytes

/-- What can happen in a session. -/
inductive SEv where
  | post (b : Bytes)
  | clientTimeout
  /-- the oldest command arrives; the write accepts `accepted` bytes, the read gives `read` -/
  | cmdArrives (accepted : Nat) (read : Option Bytes)
  | cmdLost
  | cmdRepeated
  | respArrives
  | respLost
  | respRepeated
deriving DecidableEq, Repr

def responses : List COut → List (Bool × Bytes)
  | [] => []
  | .response _ q p :: l => (q, p) :: responses l
  | _ :: l => responses l

def typedOf : List COut → Bytes
  | [] => []
  | .typed b :: l => b ++ typedOf l
  | _ :: l => typedOf l

def takenOf : List COut → List Bytes
  | [] => []
  | .taken b :: l => b :: takenOf l
  | _ :: l => takenOf l

/-- One step of a session; a closed client does nothing any more. -/
def sstep (x : Session) : SEv → Session
  | .post b =>
    if x.client.closed then x
    else
      let r := onPost x.client b
      { x with client := r.1, cmds := x.cmds ++ r.2, posted := x.posted ++ b }
  | .clientTimeout =>
    if x.client.closed then x
    else
      let r := again x.client
      { x with client := r.1, cmds := x.cmds ++ r.2 }
  | .cmdArrives a rd =>
    match x.cmds with
    | [] => x
    | (q, p) :: l =>
      let r := command x.server q p (some a) rd
      { x with server := r.1, cmds := l, resps := x.resps ++ responses r.2,
               typed := x.typed ++ typedOf r.2, taken := x.taken ++ takenOf r.2 }
  | .cmdLost => { x with cmds := x.cmds.tail }
  | .cmdRepeated =>
    match x.cmds with
    | [] => x
    | m :: l => { x with cmds := m :: m :: l }
  | .respArrives =>
    match x.resps with
    | [] => x
    | (q, p) :: l =>
      if x.client.closed then { x with resps := l }
      else
        let r := onResponse x.client q p
        { x with client := r.1, cmds := x.cmds ++ r.2, resps := l }
  | .respLost => { x with resps := x.resps.tail }
  | .respRepeated =>
    match x.resps with
    | [] => x
    | m :: l => { x with resps := m :: m :: l }

/-- A session just established: the reservation was made, the client sends its first poll. -/
def newSession (src : Bytes) (cmdsize : Nat) : Session :=
  let r := newClient cmdsize
  { client := r.1, server := newServer src true, cmds := r.2, resps := [], posted := [], typed := [],
    taken := [] }

def srun (x : Session) (es : List SEv) : Session := es.foldl sstep x

end Verif.Mop
