/-!
# Applications at the programming interface: requests, bindings, exit

Model of what an application connected to the API socket can do to session control:
`pydecnet/decnet/session.py` `DictConnector` (815-921), `ApiConnector` (1094-1118), the `dispatch` of
`BaseConnector` (752-790), `ApiListener` and `ObjectListener` (214-274), and the part of
`Session.dispatch` which looks up the object for an incoming connect (576-586, 677-682).

Applications (`ApiConnector` objects) are numbers, and so are handles (`id` of a connection or
listener).  A new object has an `id` which no live object has: a step that would create an object under a
handle in use does nothing.  What NSP says to a call is given by the action: success, a `DNAException`
(an answer to the application), or any other exception.  Object names are ASCII text.  Whether a connect
passes the access check is `Verif.Sess`; here all connects do.  Data and log messages are left out.
Sending to the API client never raises (apiserver.py 121-129).
-/

namespace Verif.AppApi

abbrev Str := List Nat

/-- `str.upper` on ASCII. -/
def upper (s : Str) : Str := s.map fun c => if 97 ≤ c ∧ c ≤ 122 then c - 32 else c

/-- What an object number or name stands for: an object of the configuration (or built in), or a listener
of an application, with its handle. -/
inductive Holder
  | config (i : Nat)
  | app (client handle : Nat)
deriving DecidableEq, Repr

/-- What an application's dictionary `conns` has under a handle; a listener with number and name (upper
case), zero and empty if there is none. -/
inductive Entry
  | conn
  | listener (num : Int) (name : Str)
deriving DecidableEq, Repr

/-- `nums`, `names`: `Session.obj_num`, `obj_name`.  `sess`: `Session.conns`, connections of
applications, each with its `client`.  `owned`: the dictionaries `conns` of all applications, in insertion
order.  `up`: no exception has left `dispatch` (that stops the node, `Verif.WorkQ`). -/
structure State where
  nums : List (Int × Holder)
  names : List (Str × Holder)
  sess : List (Nat × Nat)
  owned : List (Nat × Nat × Entry)
  up : Bool
deriving DecidableEq, Repr

/-- The handles in use. -/
def live (s : State) : List Nat := s.owned.map (·.2.1) ++ s.sess.map (·.1)

/-- `d[k] = v`. -/
def put {α β} [DecidableEq α] (d : List (α × β)) (k : α) (v : β) : List (α × β) :=
  (k, v) :: d.filter (·.1 ≠ k)

/-- `d.get (k)`. -/
def get {α β} [DecidableEq α] (d : List (α × β)) (k : α) : Option β := (d.find? (·.1 = k)).map (·.2)

/-- `del d[k]`; `none` is KeyError. -/
def del {α β} [DecidableEq α] (d : List (α × β)) (k : α) : Option (List (α × β)) :=
  if (get d k).isSome then some (d.filter (·.1 ≠ k)) else none

/-- The calls on a connection, session.py 829-861. -/
inductive Call
  | accept | reject | disconnect | abort | interrupt | data | setsockopt
deriving DecidableEq, Repr

/-- Those after which the handle is removed. -/
def Call.closes : Call → Bool
  | .reject => true
  | .disconnect => true
  | .abort => true
  | _ => false

/-- How a call into NSP ends. -/
inductive Res
  | ok
  | dna
  | other
deriving DecidableEq, Repr

/-- How `Session.connect` ends, session.py 487-520. -/
inductive ConnRes
  | ok (handle : Nat)
  | unknownNode
  | dna
  | other
deriving DecidableEq, Repr

/-- What a remote node connects to. -/
inductive Key
  | num (n : Int)
  | name (s : Str)
deriving DecidableEq, Repr

/-- A request of an application. -/
inductive Req
  | bind (num : Int) (name : Str) (handle : Nat)
  | connect (r : ConnRes)
  | call (what : Call) (handle : Nat) (r : Res)
  /-- `type` is not the name of a request. -/
  | unknown
  /-- Arguments that the method does not take, or that it cannot use. -/
  | malformed
deriving DecidableEq, Repr

inductive Act
  /-- A request, with its tag. -/
  | req (client : Nat) (tag : Option Nat) (r : Req)
  /-- The application has gone. -/
  | exit (client : Nat)
  /-- A connect from the network on a new connection. -/
  | incoming (conn : Nat) (key : Key)
  /-- Another packet on a connection; `closes`: a disconnect or reject. -/
  | packet (conn : Nat) (closes : Bool)
deriving DecidableEq, Repr

/-- The answers to requests. -/
inductive Reply
  | error
  | bound (handle : Nat)
  | connecting (handle : Nat)
  | unknownNode
deriving DecidableEq, Repr

/-- What can be seen. -/
inductive Out
  /-- Answer to the application. -/
  | reply (client : Nat) (tag : Option Nat) (r : Reply)
  /-- Message to the application about an incoming connect. -/
  | connect (client conn listener : Nat)
  /-- Message to the application about a connection. -/
  | message (client conn : Nat)
  /-- A connect that goes to an object of the configuration. -/
  | toConfig (i conn : Nat)
  /-- A connect refused: no such object. -/
  | refused (conn : Nat)
  /-- The application failed or has gone: its connections are aborted. -/
  | aborted (client : Nat) (conns : List Nat)
deriving DecidableEq, Repr

/-- `ObjectListener.disconnect`, session.py 245-253; `none` is KeyError. -/
def release (s : State) (num : Int) (name : Str) : Option State :=
  match (if num ≠ 0 then del s.nums num else some s.nums) with
  | none => none
  | some nums =>
    match (if name ≠ [] then del s.names name else some s.names) with
    | none => none
    | some names => some { s with nums := nums, names := names }

/-- session.py 771-790, the `except` branch of `BaseConnector.dispatch`; `none` is KeyError. -/
def cleanup (s : State) : List (Nat × Entry) → Option State
  | [] => some s
  | (_, .listener num name) :: es =>
    match release s num name with
    | none => none
    | some s => cleanup s es
  | (c, .conn) :: es =>
    match del s.sess c with
    | none => none
    | some sess => cleanup { s with sess := sess } es

/-- The dictionary of an application. -/
def entries (s : State) (k : Nat) : List (Nat × Entry) := (s.owned.filter (·.1 = k)).map (·.2)

/-- The connections in it. -/
def connsOf (s : State) (k : Nat) : List Nat :=
  ((entries s k).filter fun e => decide (e.2 = .conn)).map (·.1)

/-- An exception in `dispatch2`. -/
def fail (s : State) (k : Nat) : State × List Out :=
  match cleanup s (entries s k) with
  | some s' => (s', [.aborted k (connsOf s k)])
  | none => ({ s with up := false }, [.aborted k (connsOf s k)])

/-- `ApiListener.__init__`, session.py 262-267, with `ObjectListener.__init__`, 215-241. -/
def bindOk (s : State) (num : Int) (name : Str) : Bool :=
  (get s.names name).isNone && (get s.nums num).isNone && (decide (num ≠ 0) || decide (name ≠ [])) &&
    decide ((upper name).length ≤ 16)

def bound (s : State) (k : Nat) (num : Int) (name : Str) (h : Nat) : State :=
  { s with
    names := if name ≠ [] then put s.names (upper name) (.app k h) else s.names
    nums := if num ≠ 0 then put s.nums num (.app k h) else s.nums
    owned := s.owned ++ [(k, h, .listener num (upper name))] }

/-- `DictConnector.dispatch2` for a request, session.py 885-900, and the methods it calls. -/
def request (s : State) (k : Nat) (tag : Option Nat) : Req → State × List Out
  | .bind num name h =>
    if h ∈ live s then (s, [])
    else if bindOk s num name then (bound s k num name h, [.reply k tag (.bound h)])
    else (s, [.reply k tag .error])
  | .connect (.ok h) =>
    if h ∈ live s then (s, [])
    else
      ({ s with sess := s.sess ++ [(h, k)], owned := s.owned ++ [(k, h, .conn)] },
        [.reply k tag (.connecting h)])
  | .connect .unknownNode => (s, [.reply k tag .unknownNode])
  | .connect .dna => (s, [.reply k tag .error])
  | .connect .other => fail s k
  | .call what h r =>
    match get (entries s k) h with
    | none => fail s k                             -- `self.conns[handle]`: KeyError
    | some (.listener _ _) => fail s k             -- no such method, or `disconnect` with an argument
    | some .conn =>
      match r with
      | .dna => (s, [.reply k tag .error])
      | .other => fail s k
      | .ok =>
        if what.closes then
          match del s.sess h with
          | none => fail s k
          | some sess =>
            ({ s with sess := sess, owned := s.owned.filter fun e => ¬ (e.1 = k ∧ e.2.1 = h) }, [])
        else (s, [])
  | .unknown => (s, [.reply k tag .error])
  | .malformed => fail s k

/-- Which object a connect is for, session.py 576-583. -/
def lookup (s : State) : Key → Option Holder
  | .num n => get s.nums n
  | .name m => get s.names (upper m)

def step (s : State) : Act → State × List Out
  | .req k tag r => if s.up then request s k tag r else (s, [])
  | .exit k => if s.up then fail s k else (s, [])
  | .incoming c key =>
    if ¬ s.up ∨ c ∈ live s then (s, [])
    else
      match lookup s key with
      | none => (s, [.refused c])
      | some (.config i) => (s, [.toConfig i c])
      | some (.app k h) =>
        ({ s with sess := s.sess ++ [(c, k)], owned := s.owned ++ [(k, c, .conn)] }, [.connect k c h])
  | .packet c closes =>
    if ¬ s.up then (s, [])
    else
      match get s.sess c with
      | none => (s, [])
      | some k =>
        if closes then
          -- `del self.conns[handle]` in `BaseConnector.dispatch` is outside its `try` for exceptions
          match get (entries s k) c with
          | none => ({ s with up := false }, [])
          | some _ =>
            ({ s with
                sess := s.sess.filter (·.1 ≠ c)
                owned := s.owned.filter fun e => ¬ (e.1 = k ∧ e.2.1 = c) }, [.message k c])
        else
          (if (get (entries s k) c).isSome then s else { s with owned := s.owned ++ [(k, c, .conn)] },
            [.message k c])

/-- The start: the objects of the configuration. -/
def start (nums : List (Int × Nat)) (names : List (Str × Nat)) : State where
  nums := nums.map fun x => (x.1, .config x.2)
  names := names.map fun x => (x.1, .config x.2)
  sess := []
  owned := []
  up := true

/-- A history: the final state and all that was seen. -/
def run (s : State) (as : List Act) : State × List Out :=
  as.foldl (fun p a => let r := step p.1 a; (r.1, p.2 ++ r.2)) (s, [])

end Verif.AppApi
