/-!
# Session control: which application gets what

Model of the connection bookkeeping in `pydecnet/decnet/session.py`: `Session.conns`, the `conns` of
each connector, and the ways both change: incoming connects, packets from NSP, requests and
exceptions of applications, and their exit.

Connections (the NSP connection object together with the `SessionConnection` made for it) and
connectors (`client` of a connection) are numbers.  What NSP, the access check and the applications
decide is given by the action: whether a connect is admitted (that decision is `Verif.Sess`),
whether starting the object works, whether an application raises an exception, and whether NSP
accepts a call.

Left out: the listeners which an API client registers (they are in the same `conns` dictionary but
carry no messages), reply dictionaries to the application, and logging.
-/

namespace Verif.SessConn

/-- What is delivered to an application: session.py 75-110.  `close` is `Disconnect` or `Reject`
(the items with `closes = True`). -/
inductive Kind
  | connect | data | interrupt | accept | run | close
deriving DecidableEq, Repr

/-- The effects: a delivery (`dispatch2` of the connector), and the successful closing of a
connection by its application. -/
inductive Ev
  | deliver (client conn : Nat) (k : Kind)
  | appClosed (client conn : Nat)
deriving DecidableEq, Repr

/-- `conns` is `Session.conns`, with the `client` attribute of the connection object (`none` if it was
never set).  `owned` has the `conns` dictionaries of all connectors, in insertion order.  `up` is
false once an exception has left `dispatch` (which stops the node, `Verif.WorkQ`). -/
structure State where
  conns : List (Nat × Option Nat)
  owned : List (Nat × Nat)
  up : Bool
deriving DecidableEq, Repr

def State.init : State := ⟨[], [], true⟩

/-- `nspconn in self.conns` with the client attribute. -/
def lookup (s : State) (c : Nat) : Option (Option Nat) := (s.conns.find? (·.1 = c)).map (·.2)

/-- `del self.conns[nspconn]`. -/
def drop (s : State) (c : Nat) : State := { s with conns := s.conns.filter (·.1 ≠ c) }

/-- The connections of a connector. -/
def ofClient (s : State) (k : Nat) : List Nat := (s.owned.filter (·.1 = k)).map (·.2)

/-- session.py 771-790, the `except` branch of `BaseConnector.dispatch`: every connection of the
connector is aborted or rejected (or neither), and deleted from `Session.conns`; `KeyError` if it is
not there (`false`).  `self.conns` itself is not changed. -/
def cleanup (s : State) : List Nat → State × Bool
  | [] => (s, true)
  | c :: cs => if lookup s c = none then (s, false) else cleanup (drop s c) cs

/-- session.py 752-790 `BaseConnector.dispatch` for an item with a connection.  `raises`: the
application raises an exception.  The last component is false if an exception leaves the method. -/
def connDispatch (s : State) (k c : Nat) (kind : Kind) (raises : Bool) : State × List Ev × Bool :=
  if kind = .close ∧ (k, c) ∉ s.owned then (s, [], false)
  else
    let s1 := if kind = .close then { s with owned := s.owned.filter (· ≠ (k, c)) }
      else if (k, c) ∈ s.owned then s
      else { s with owned := s.owned ++ [(k, c)] }
    if raises then
      let r := cleanup s1 (ofClient s1 k)
      (r.1, [.deliver k c kind], r.2)
    else (s1, [.deliver k c kind], true)

/-- The calls of an application that close a connection, and the others. -/
inductive Call
  | closing   -- reject, disconnect, abort
  | other     -- accept, interrupt, data, setsockopt
deriving DecidableEq, Repr

/-- What can happen. -/
inductive Act
  /-- a connect message from NSP; `client` is the connector which the object delivers, `none` if
  that fails -/
  | connectInit (conn : Nat) (admitted : Bool) (client : Option Nat) (raises : Bool)
  /-- another packet from NSP -/
  | packet (conn : Nat) (kind : Kind) (raises : Bool)
  /-- `connect` by an application: a new connection -/
  | connect (client conn : Nat)
  /-- another request; `ok` false: NSP raises `WrongState` -/
  | call (client conn : Nat) (what : Call) (ok : Bool)
  /-- the application process or API client has gone -/
  | exited (client : Nat)
deriving DecidableEq, Repr

/-- An exception leaves `dispatch`. -/
def stopped (s : State) : State := { s with up := false }

/-- session.py 542-718 `Session.dispatch`, 487-520 `Session.connect`, 398-420 (closing calls of a
connection), 838-921 `DictConnector`.  `dict k`: connector `k` is a `DictConnector` (an application
process or API client, which refers to connections by handle), otherwise a module running in the
node. -/
def step (dict : Nat → Bool) (s : State) : Act → State × List Ev
  | .connectInit c admitted client raises =>
    if ¬ s.up then (s, [])
    else if lookup s c ≠ none then (s, [])         -- "Unexpected work item"
    else if ¬ admitted then (s, [])                -- `nspconn.reject`
    else
      match client with
      | none =>
        -- 683-692: `nspconn.reject`; the entry in `conns` stays, without `client`
        ({ s with conns := s.conns ++ [(c, none)] }, [])
      | some k =>
        let r := connDispatch { s with conns := s.conns ++ [(c, some k)] } k c .connect raises
        -- 688-692: any exception is caught, then `nspconn.reject (OBJ_FAIL)`, which raises
        -- `WrongState` if the connection was rejected already
        if r.2.2 ∨ lookup r.1 c ≠ none then (r.1, r.2.1) else (stopped r.1, r.2.1)
  | .packet c kind raises =>
    if ¬ s.up ∨ kind = .connect then (s, [])       -- 714-716: a connect is not expected here
    else
      match lookup s c with
      | none => (s, [])                            -- 556-562: ignored
      | some client =>
        let s1 := if kind = .close then drop s c else s
        match client with
        | none => (stopped s1, [])                 -- `conn.client`: AttributeError
        | some k =>
          let r := connDispatch s1 k c kind raises
          if r.2.2 then (r.1, r.2.1) else (stopped r.1, r.2.1)
  | .connect k c =>
    if ¬ s.up then (s, [])
    else
      ({ s with conns := s.conns ++ [(c, some k)], owned := s.owned ++ [(k, c)] }, [])
  | .call k c what ok =>
    if ¬ s.up then (s, [])
    else if dict k ∧ (k, c) ∉ s.owned then
      -- `self.conns[handle]`: KeyError, not a DNAException
      let r := cleanup s (ofClient s k)
      if r.2 then (r.1, []) else (stopped r.1, [])
    else if (k, c) ∉ s.owned then (s, [])          -- a module only has objects it was given
    else if ¬ ok then (s, [])                      -- `WrongState`, a DNAException
    else
      match what with
      | .other => (s, [])
      | .closing =>
        if lookup s c = none then
          -- `del self.parent.conns[self.nspconn]`: KeyError
          let r := cleanup s (ofClient s k)
          if r.2 then (r.1, []) else (stopped r.1, [])
        else
          let s1 := drop s c
          -- only `DictConnector` removes the handle
          (if dict k then { s1 with owned := s1.owned.filter (· ≠ (k, c)) } else s1,
            [.appClosed k c])
  | .exited k =>
    if ¬ s.up then (s, [])
    else
      let r := cleanup s (ofClient s k)
      if r.2 then (r.1, []) else (stopped r.1, [])

/-- A history: the final state and all effects. -/
def run (dict : Nat → Bool) (as : List Act) : State × List Ev :=
  as.foldl (fun p a => let r := step dict p.1 a; (r.1, p.2 ++ r.2)) (State.init, [])

/-- The connection an action creates. -/
def Act.opens : Act → Option Nat
  | .connectInit c _ _ _ => some c
  | .connect _ c => some c
  | _ => none

end Verif.SessConn
