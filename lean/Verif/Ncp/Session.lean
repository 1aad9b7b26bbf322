import Verif.Ncp.Model
import Verif.Nml.Grammar

/-!
# The session of the program

The executor node, the connections and the one socket through which every message from the node arrives.
-/

namespace Verif.Ncp

open Verif.Nml (Bytes Ent PVal)

/-- What a listener sends on a connection: data, or the end of the connection. -/
inductive Reply
  | data (b : Bytes)
  | gone
  deriving DecidableEq, Repr

/-- What becomes of a connect request: accepted with data, rejected by the other side, refused at once because the node
is not known (session.py 889-890), or answered with an error (session.py 922-923). -/
inductive ConnOut
  | accept (b : Bytes)
  | reject
  | unknown
  | error
  deriving DecidableEq, Repr

/-- User, password and account. -/
abbrev Access := List (Option PVal)

/-- What happens, in order: connecting to a node, a request with the answer it will get (to the node of a connection, or
to the local listener), a connection taken down, a reply put on the screen. -/
inductive Ev
  | conn (d : Str) (a : Access) (out : ConnOut)
  | ask (node : Option Str) (req : Bytes) (ans : List Reply)
  | disc (d : Str)
  | shown (r : Bytes)
  deriving DecidableEq

/-- Messages on the socket, connectors.py 247-273: tagged answers to requests, and the messages of connections. -/
inductive Msg
  | connecting (tag : Nat)
  | accept (b : Bytes)
  | reject
  | unknown (tag : Nat)
  | error (tag : Nat)
  | reply (tag : Nat) (l : List Bytes)
  | data (b : Bytes)
  | gone
  deriving DecidableEq

/-- The tag of a message, if it has one. -/
def Msg.tag : Msg → Option Nat
  | .connecting t => some t
  | .unknown t => some t
  | .error t => some t
  | .reply t _ => some t
  | _ => none

/-- `Connection`, connectors.py 76-83: its handle, and the node it was made to. -/
structure Conn where
  h : Nat
  node : Str
  deriving DecidableEq

/-- How everything outside the program behaves, as a function of time (the number of requests so far), so that it may
depend on the past in any way: answers to connect requests, to data on a connection, to requests to the local listener;
and which replies cannot be displayed.  Connecting through a chain of nodes is taken as one step. -/
structure Env where
  connect : Nat → Str → Access → ConnOut
  answer : Nat → Conn → Bytes → List Reply
  loc : Nat → Bytes → List Bytes
  bad : Bytes → Bool

/-- The globals of the program, applications/ncp 665-667, and the connector: open connections, what has arrived on the
socket and has not been read, the last tag.  `log` is what has happened. -/
structure St where
  dest : Option Str := none
  conn : Option Conn := none
  version : Nat := 4
  opened : List Nat := []
  sock : List (Option Nat × Msg) := []
  tick : Nat := 0
  log : List Ev := []
  deriving DecidableEq

/-- Exceptions; `hang` is waiting for a message that does not come. -/
inductive SErr
  | hang
  | closed
  | seq
  | assert
  | api
  | index
  | display
  | refused
  | parse (e : Err)
  deriving DecidableEq

/-- Actions: state and exceptions, the state being kept when there is an exception. -/
def M (α : Type) := St → Except SErr α × St

instance : Monad M where
  pure a := fun s => (.ok a, s)
  bind x f := fun s => match x s with
    | (.ok a, s') => f a s'
    | (.error e, s') => (.error e, s')

/-- Raise an exception. -/
def raise {α : Type} (e : SErr) : M α := fun s => (.error e, s)

/-- Change the state. -/
def modify (f : St → St) : M Unit := fun s => (.ok (), f s)

/-- The state. -/
def state : M St := fun s => (.ok s, s)

/-- Something happens. -/
def event (e : Ev) : M Unit := modify fun s => { s with log := s.log ++ [e] }

/-- `SimpleConnector.recv` with `parse`, connectors.py 247-273: a message for a connection that is not open must be one
that opens it. -/
def recvSock : M (Option Nat × Msg) := fun s =>
  match s.sock with
  | [] => (.error .hang, s)
  | (none, m) :: r =>
    match m with
    | .error _ => (.error .api, { s with sock := r })
    | m => (.ok (none, m), { s with sock := r })
  | (some h, m) :: r =>
    if h ∈ s.opened then (.ok (some h, m), { s with sock := r })
    else
      match m with
      | .connecting t => (.ok (some h, .connecting t), { s with sock := r, opened := h :: s.opened })
      | _ => (.error .seq, { s with sock := r })

/-- `Connection.close`, connectors.py 105-108. -/
def close (h : Nat) : M Unit := modify fun s => { s with opened := s.opened.filter (· ≠ h) }

/-- `Connection.recv`, connectors.py 88-97. -/
def connRecv (h : Nat) : M Msg := do
  let s ← state
  if h ∉ s.opened then raise .closed
  else do
    let (rc, m) ← recvSock
    if rc ≠ some h then raise .assert
    else if m = .gone ∨ m = .reject then do
      close h
      pure m
    else pure m

/-- `Connection.data`, connectors.py 138-139, 99-103. -/
def sendData (env : Env) (c : Conn) (req : Bytes) : M Unit := fun s =>
  if c.h ∉ s.opened then (.error .closed, s)
  else
    (.ok (), { s with
      tick := s.tick + 1
      log := s.log ++ [.ask (some c.node) req (env.answer s.tick c req)]
      sock := s.sock ++ (env.answer s.tick c req).map fun r =>
        (some c.h, match r with | .data b => .data b | .gone => .gone) })

/-- `Connection.disconnect`, connectors.py 125-128. -/
def disconnect (c : Conn) : M Unit := do
  let s ← state
  if c.h ∉ s.opened then raise .closed
  else do
    event (.disc c.node)
    close c.h

/-- The second half of `SimpleConnector.exch`, connectors.py 278-280: the next message must be the answer. -/
def exchRecv (tag : Nat) : M (Option Nat × Msg) := do
  let (rc, m) ← recvSock
  if m.tag ≠ some tag then raise .assert else pure (rc, m)

/-- The messages that a connect request leads to. -/
def connMsgs (tag : Nat) : ConnOut → List (Option Nat × Msg)
  | .accept b => [(some tag, .connecting tag), (some tag, .accept b)]
  | .reject => [(some tag, .connecting tag), (some tag, .reject)]
  | .unknown => [(none, .unknown tag)]
  | .error => [(none, .error tag)]

/-- Sending a connect request. -/
def sendConnect (env : Env) (d : Str) (a : Access) : M Nat := fun s =>
  (.ok (s.tick + 1), { s with
    tick := s.tick + 1
    log := s.log ++ [.conn d a (env.connect s.tick d a)]
    sock := s.sock ++ connMsgs (s.tick + 1) (env.connect s.tick d a) })

/-- `SimpleConnector.connect`, connectors.py 221-245: the connection, if there is one, and the accept data. -/
def connect (env : Env) (d : Str) (a : Access) : M (Option Conn × Bytes) := do
  let tag ← sendConnect env d a
  let (rc, m) ← exchRecv tag
  let m ← match m, rc with
    | .connecting _, some h => connRecv h
    | m, _ => pure m
  match rc, m with
  | some _, .reject => pure (none, [])
  | some h, .accept b => pure (some ⟨h, d⟩, b)
  | some h, .data b => pure (some ⟨h, d⟩, b)
  | some h, _ => pure (some ⟨h, d⟩, [])
  | none, _ => pure (none, [])

/-- Sending a request to the local listener and waiting for the answer, applications/ncp 659. -/
def exchLocal (env : Env) (req : Bytes) : M (List Bytes) := do
  let s ← state
  modify fun s => { s with
    tick := s.tick + 1
    log := s.log ++ [.ask none req ((env.loc s.tick req).map .data)]
    sock := s.sock ++ [(none, .reply (s.tick + 1) (env.loc s.tick req))] }
  let (_, m) ← exchRecv (s.tick + 1)
  match m with
  | .reply _ l => pure l
  | _ => raise .api

/-- What is done with a reply; false when no more of them are wanted. -/
abbrev Consumer := Bytes → M Bool

/-- The loop of `reqresp` for a connection, applications/ncp 622-656.  `more` is the variable as a number, `tru` tells that it
is `True` itself; `old` that the request is one of Phase II.  `fuel` is more than the messages there are: without a
message the loop waits. -/
def replies (k : Consumer) (h : Nat) (old : Bool) : Nat → Nat → Bool → Bool → M Unit
  | 0, _, _, _ => raise .hang
  | fuel + 1, more, tru, mult =>
    if more = 0 then pure ()
    else do
      let m ← connRecv h
      match m with
      | .data (x :: b) => do
        let s ← state
        if x.toNat = 128 ∧ 2 < s.version then pure ()
        else if s.version = 2 ∧ tru = true ∧ old = true ∧ 0 < x.toNat ∧ x.toNat < 128 then
          match b with
          | lo :: hi :: _ => replies k h old fuel (Nml.two lo hi) false mult
          | _ => raise .index
        else if x.toNat = 2 then
          if mult then raise .assert else replies k h old fuel more tru true
        else do
          let go ← k (x :: b)
          if !go then pure ()
          else do
            let s ← state
            if s.version = 2 then replies k h old fuel (more - 1) false mult
            else replies k h old fuel (if mult then 1 else 0) mult mult
      | .data [] => raise .index
      | _ => pure ()

/-- The replies of the local listener one after the other, applications/ncp 660. -/
def each (k : Consumer) : List Bytes → M Unit
  | [] => pure ()
  | r :: l => do
    let go ← k r
    if !go then pure () else each k l

/-- `reqresp`, applications/ncp 613-660, with what is done with the replies. -/
def reqresp (env : Env) (k : Consumer) (req : Bytes) : M Unit := do
  let s ← state
  match s.conn with
  | some c => do
    sendData env c req
    let s ← state
    replies k c.h (req.head? == some 8) (s.sock.length + 1) 1 true false
  | none => do
    let l ← exchLocal env req
    each k l

/-- Replies to SHOW, applications/ncp 454-499: an error ends the display. -/
def showK (env : Env) : Consumer
  | [] => raise .index
  | x :: b => if env.bad (x :: b) then raise .display else do
    event (.shown (x :: b))
    pure (decide (x.toNat < 128))

/-- Replies to LOOP, applications/ncp 519-533. -/
def loopK (env : Env) : Consumer
  | [] => raise .index
  | x :: b => if env.bad (x :: b) then raise .display else do
    event (.shown (x :: b))
    pure true

/-- Replies to the request that tells Phase II from the others, applications/ncp 607-611. -/
def probeK : Consumer
  | [] => raise .index
  | x :: _ => do
    if x.toNat < 128 then modify fun s => { s with version := 4 }
    pure true

/-- `str.rstrip (":")`. -/
def rstrip (s : Str) : Str := (s.reverse.dropWhile (· = ':')).reverse

/-- Leaving the node there is a connection to, applications/ncp 577-580. -/
def leave : M Unit := do
  let s ← state
  match s.conn with
  | some c => do
    disconnect c
    modify fun s => { s with dest := none, version := 4 }
  | none => pure ()

/-- The version of the other side, applications/ncp 594. -/
def versionOf : Bytes → Nat
  | [] => 2
  | x :: _ => if x.toNat = 0 then 2 else x.toNat

/-- Going to another node, applications/ncp 581-611. -/
def enter (env : Env) (new : Option (Str × Access)) : M Unit :=
  match new with
  | none => modify fun s => { s with version := 4, conn := none }
  | some (d, a) => do
    let (rc, resp) ← connect env d a
    modify fun s => { s with conn := rc }
    match rc with
    | none => raise .refused
    | some _ => do
      modify fun s => { s with dest := some (rstrip d), version := versionOf resp }
      if versionOf resp = 2 then reqresp env probeK [20, 0, 0, 0, 0] else pure ()

/-- `doconnect`, applications/ncp 575-611. -/
def doconnect (env : Env) (new : Option (Str × Access)) : M Unit := do
  leave
  enter env new

/-- Commands. -/
inductive Verb
  | tell
  | set
  | look
  | clear
  | loop
  | zero
  deriving DecidableEq

/-- `cmd`, applications/ncp 538-546. -/
def cmd : I3 (Verb × Bool) :=
  .ofList [(k!"tell", (.tell, false)), (k!"set", (.set, false)), (k!"define", (.set, true)), (k!"show", (.look, false)),
    (k!"list", (.look, true)), (k!"clear", (.clear, false)), (k!"purge", (.clear, true)), (k!"loop", (.loop, false)),
    (k!"zero", (.zero, false))]

/-- `("executor", "node")`. -/
def execNode : List Str := [k!"executor", k!"node"]

/-- Access control information that was given. -/
def accessOf (acc : Sets) : Access := [attr acc .user, attr acc .password, attr acc .account]

/-- An exception of parsing, raised. -/
def lift {α : Type} : Except Err α → M α
  | .ok a => pure a
  | .error e => raise (.parse e)

/-- `try`, with what is done for any exception; waiting is not an exception. -/
def attempt (x : M Unit) (f : M Unit) : M Unit := fun s =>
  match x s with
  | (.ok (), s') => (.ok (), s')
  | (.error .hang, s') => (.error .hang, s')
  | (.error _, s') => f s'

/-- The part of `doset` within `try`, applications/ncp 356-358. -/
def setExec (env : Env) (rest : List Str) : M Unit :=
  match rest with
  | _ :: _ :: d :: more => do
    let (acc, _) ← lift (parseargs false accessparams accessparams true more [])
    doconnect env (some (upper d, accessOf acc))
  | _ => raise .index

/-- `doset`, applications/ncp 352-364. -/
def doset (env : Env) (perm : Bool) (rest : List Str) : M Unit :=
  if !perm && i3eq rest execNode then attempt (setExec env rest) (doconnect env none) else raise (.parse .nyi)

/-- `doclear`, applications/ncp 505-510. -/
def doclear (env : Env) (perm : Bool) (rest : List Str) : M Unit :=
  if !perm && i3eq rest execNode then doconnect env none else raise (.parse .nyi)

/-- `doshow`, applications/ncp 366-503; the requests of Phase II are not modelled. -/
def doshow (env : Env) (perm : Bool) (rest : List Str) : M Unit := do
  let s ← state
  if s.version = 2 then raise (.parse .unmodelled)
  else do
    let req ← lift (showReq perm rest)
    reqresp env (showK env) req

/-- `doloop`, applications/ncp 512-533. -/
def doloop (env : Env) (rest : List Str) : M Unit := do
  let req ← lift (loopReq rest)
  reqresp env (loopK env) req

/-- The commands other than TELL. -/
def act (env : Env) : Verb → Bool → List Str → M Unit
  | .set, perm, rest => doset env perm rest
  | .look, perm, rest => doshow env perm rest
  | .clear, perm, rest => doclear env perm rest
  | .loop, _, rest => doloop env rest
  | _, _, _ => raise (.parse .nyi)

/-- `dotell` from the first `try` for the command on, applications/ncp 340-350. -/
def tellBody (env : Env) (saved : St) (d : Str) (a : Access) (x : M Unit) : M Unit := do
  attempt (do
    modify fun s => { s with conn := none }
    doconnect env (some (d, a))
    x) (pure ())
  doconnect env none
  modify fun s => { s with dest := saved.dest, conn := saved.conn, version := saved.version }

/-- `dotell`, applications/ncp 325-350. -/
def dotell (env : Env) (rest : List Str) : M Unit := do
  let saved ← state
  match rest with
  | [] => raise (.parse .incomplete)
  | d :: rest => do
    let (acc, rest) ← lift (parseargs true accessparams accessparams true rest [])
    match rest with
    | [] => raise (.parse .incomplete)
    | tok :: rest =>
      match cmd.get tok with
      | none => raise (.parse .badkw)
      | some (a, perm) =>
        if a = .tell ∨ (perm = false ∧ (a = .set ∨ a = .clear) ∧ i3eq rest execNode = true) then raise (.parse .nested)
        else tellBody env saved d (accessOf acc) (act env a perm rest)

/-- How a command leaves the program: going on, at an end, or waiting for ever. -/
inductive Out
  | on
  | ended
  | hung
  deriving DecidableEq

/-- What becomes of an exception within a command: it is reported. -/
def reported (x : M Unit) (s : St) : Out × St :=
  match x s with
  | (.error .hang, s') => (.hung, s')
  | (_, s') => (.on, s')

/-- `docmd`, applications/ncp 308-323: an unknown first word is an exception outside of the `try`. -/
def docmd (env : Env) (toks : List Str) (s : St) : Out × St :=
  match toks with
  | [] => (.ended, s)
  | tok :: rest =>
    match cmd.get tok with
    | none => (.ended, s)
    | some (.tell, _) => reported (dotell env rest) s
    | some (a, perm) => reported (act env a perm rest) s

/-- White space within ASCII. -/
def space (c : Char) : Bool := c.toNat = 32 || (9 ≤ c.toNat && c.toNat ≤ 13) || (28 ≤ c.toNat && c.toNat ≤ 31)

/-- `qtok_re` over a line, and capitals except in what is quoted, applications/ncp 78, 700-706. -/
def tokensN : Nat → Str → List Str
  | 0, _ => []
  | _ + 1, [] => []
  | n + 1, c :: r =>
    if space c then tokensN n r
    else if (c = '"' ∨ c = '\'') ∧ c ∈ r then
      (c :: (r.takeWhile (· ≠ c) ++ [c])) :: tokensN n ((r.dropWhile (· ≠ c)).drop 1)
    else upper ((c :: r).takeWhile fun x => !space x) :: tokensN n ((c :: r).dropWhile fun x => !space x)

/-- The tokens of a line. -/
def tokens (s : Str) : List Str := tokensN s.length s

/-- What happens before the prompt, applications/ncp 690-692. -/
def beforePrompt (s : St) : Option St :=
  match s.dest with
  | none => some s
  | some [] => some s
  | some (_ :: _) =>
    match s.conn with
    | none => none
    | some c => if c.h ∈ s.opened then some s else some { s with dest := none }

/-- One round of the main loop, applications/ncp 689-709. -/
def round (env : Env) (line : Str) (s : St) : Out × St :=
  match beforePrompt s with
  | none => (.ended, s)
  | some s =>
    if line = [] then (.on, s)
    else
      match tokens line with
      | [] => (.ended, s)
      | t :: ts => if i3eq1 t k!"exit" then (.ended, s) else docmd env (t :: ts) s

/-- The main loop over the lines that are typed. -/
def session (env : Env) : List Str → St → Out × St
  | [], s => (.on, s)
  | l :: ls, s =>
    match round env l s with
    | (.on, s') => session env ls s'
    | x => x

end Verif.Ncp
