import Verif.Lan.Model
import Verif.Addr.Model

/-!
# An end node on a LAN

Model of `EndnodeLanCircuit` and `NiCacheEntry`, pydecnet/decnet/route_eth.py:250-427,
of `LanCircuit.send`, route_eth.py:84-94, of `Adjacency` as far as it is used
there (adjacency.py:20-120), and of `EndnodeRouting.send` and `dispatch`,
routing.py:676-712, with `SelfAdj.send`, routing.py:137-152.

Node addresses are natural numbers (area * 1024 + id), link addresses byte
strings.  Times are in milliseconds; `int (timer * 3.1)` is computed exactly.
A timer is kept as the time it expires; serving it is an event of its own,
which does nothing before that time (a time-out which was cancelled in the
meantime is dropped, timers.py:120-123).  A step that raises an exception gives
`none`; the main loop of the node then stops it (node.py:299-329).  Counters,
logged events and tracing are left out.  Messages appear decoded; `Wire.lean`
has the way from the bytes of a frame to them.
-/

namespace Verif.LanEnd

abbrev Bytes := List UInt8

/-- `Macaddr (nodeid)`, common.py:433-434: `AA-00-04-00` and the address, low
byte first. -/
def mac (n : Nat) : Bytes := Verif.Addr.HIORD ++ Verif.Fields.le 2 n

/-- Configuration: own address, hello timer, whether the circuit has a loop
node (routing.py:147-149). -/
structure Cfg where
  own : Nat
  t3 : Nat
  loop : Bool
deriving Repr

/-- Destination of a packet as NSP gives it, and source as NSP gets it: a node
or the circuit itself (a loop node). -/
inductive Peer
  | node (n : Nat)
  | circuit
deriving DecidableEq, Repr

/-- A received message, decoded. -/
inductive Msg
  /-- RouterHello: node, node type, hello timer in seconds. -/
  | hello (id nt timer : Nat)
  /-- LongData or ShortData. -/
  | data (src dst : Nat) (rts : Bool) (payload : Bytes)
deriving DecidableEq, Repr

/-- The adjacency of the designated router, `self.dr`. -/
structure Rtr where
  id : Nat
  nt : Nat
  t4 : Nat
  timer : Option Nat
deriving DecidableEq, Repr

/-- `NiCacheEntry`, route_eth.py:250-274; `uid` is the identity of the object. -/
structure Ent where
  uid : Nat
  id : Nat
  hop : Bytes
  timer : Nat
deriving DecidableEq, Repr

structure St where
  dr : Option Rtr
  /-- `self.prevhops`. -/
  cache : List Ent
  /-- Entries no longer in `prevhops` whose timer still runs. -/
  gone : List Ent
  htimer : Nat
  now : Nat
  fresh : Nat
deriving Repr

/-- What others see. -/
inductive Out
  /-- A LongData packet given to the LAN: return request, addresses, payload,
  link address it is sent to. -/
  | tx (rqr : Bool) (src dst : Nat) (payload : Bytes) (hop : Bytes)
  /-- An EndnodeHello, with its `neighbor` field. -/
  | hello (neighbor : Option Nat)
  /-- `routing.adj_up` and `adj_down`. -/
  | up (id : Nat)
  | down (id : Nat)
  /-- A work item for NSP. -/
  | nsp (src : Peer) (rts : Bool) (payload : Bytes)
deriving DecidableEq, Repr

inductive Ev
  | wait (ms : Nat)
  | recv (hop : Bytes) (m : Msg)
  | send (dest : Peer) (payload : Bytes) (rqr tryhard : Bool)
  | helloTimer
  | drTimer
  | cacheTimer (uid : Nat)
deriving DecidableEq, Repr

/-- route_eth.py:257 `cachetime`. -/
def cachetime : Nat := 60000

/-- route_eth.py:318-326 `sendhello`. -/
def sendhello (c : Cfg) (st : St) : St × List Out :=
  ({ st with htimer := st.now + c.t3 }, [.hello (st.dr.map (·.id))])

/-- route_eth.py:80-82 `start`. -/
def start (c : Cfg) : St × List Out :=
  sendhello c { dr := none, cache := [], gone := [], htimer := 0, now := 0, fresh := 0 }

/-- `timers.start (adjacency, t4)`, adjacency.py:97-101 and 109-113: not for
Phase II; OverflowError if the time is too long. -/
def Rtr.listen (now : Nat) (r : Rtr) : Option Rtr :=
  if r.nt = Lan.PHASE2 then some r
  else if Lan.maxTimer ≤ r.t4 then none
  else some { r with timer := some (now + r.t4) }

/-- A new adjacency, adjacency.py:23-43 and `up`, 97-102. -/
def newRtr (c : Cfg) (st : St) (id nt timer : Nat) : Option (St × List Out) :=
  (Rtr.listen st.now ⟨id, nt, Lan.t4of c.t3 timer, none⟩).map fun r =>
    ({ st with dr := some r }, [.up id])

/-- RouterHello, route_eth.py:337-370. -/
def rhello (c : Cfg) (st : St) (id nt timer : Nat) : Option (St × List Out) :=
  if id / 1024 ≠ c.own / 1024 then some (st, [])
  else match st.dr with
    | some r =>
      if r.id ≠ id then
        (newRtr c st id nt timer).map fun x => (x.1, .down r.id :: x.2)
      else
        (r.listen st.now).map fun r => ({ st with dr := some r }, [])
    | none => newRtr c st id nt timer

/-- route_eth.py:376-381 with `alive`, 268-270: the previous hop of `n` is
remembered. -/
def learn (st : St) (n : Nat) (hop : Bytes) : St :=
  if st.cache.any (·.id = n) then
    { st with cache := st.cache.map fun e => if e.id = n then { e with hop := hop, timer := st.now + cachetime } else e }
  else
    { st with cache := st.cache ++ [⟨st.fresh, n, hop, st.now + cachetime⟩], fresh := st.fresh + 1 }

/-- route_eth.py:385-389 `cache_expire`.  The timer of the entry is not
stopped. -/
def expire (st : St) (n : Nat) : St :=
  { st with cache := st.cache.filter (·.id ≠ n), gone := st.gone ++ st.cache.filter (·.id = n) }

/-- routing.py:706-712 `EndnodeRouting.dispatch` and `SelfAdj.send`, 137-152.
`rx` tells that the packet came from the circuit, not from this node. -/
def deliver (c : Cfg) (rx : Bool) (src dst : Nat) (rts : Bool) (payload : Bytes) : List Out :=
  if dst = c.own then
    [.nsp (if rx && src = c.own && c.loop then .circuit else .node src) rts payload]
  else []

/-- What `circuit.send` does: link address the packet is sent to, and its
value (`None` and `False` are both taken for failure by the caller).
route_eth.py:391-419. -/
def circSend (c : Cfg) (st : St) (dst : Nat) (tryhard : Bool) : St × Option Bytes × Bool :=
  match (if tryhard then none else st.cache.find? (·.id = dst)) with
  | some e => (st, some e.hop, false)
  | none =>
    let st := if tryhard then expire st dst else st
    match st.dr with
    | some r => (st, some (mac r.id), true)
    | none => if dst = c.own then (st, none, false) else (st, some (mac dst), true)

/-- routing.py:689-691: the node a packet is addressed to. -/
def target (c : Cfg) : Peer → Nat
  | .node n => n
  | .circuit => c.own

/-- routing.py:676-704 `EndnodeRouting.send`. -/
def send (c : Cfg) (st : St) (dest : Peer) (payload : Bytes) (rqr tryhard : Bool) : St × List Out :=
  if dest = .node c.own then (st, deliver c false c.own c.own false payload)
  else
    let x := circSend c st (target c dest) tryhard
    (x.1, (match x.2.1 with | some h => [Out.tx rqr c.own (target c dest) payload h] | none => []) ++
      if !x.2.2 && rqr then deliver c false (target c dest) c.own true payload else [])

/-- route_eth.py:98-110: packets from this node, and from link addresses that
are not those of DECnet nodes, are ignored. -/
def accepted (c : Cfg) (hop : Bytes) : Bool :=
  hop ≠ mac c.own && match Verif.Addr.ofMac hop with | .ok _ => true | .error _ => false

/-- One event. -/
def step (c : Cfg) (st : St) : Ev → Option (St × List Out)
  | .wait ms => some ({ st with now := st.now + ms }, [])
  | .recv hop m =>
    if accepted c hop = false then some (st, [])
    else match m with
      | .hello id nt timer => rhello c st id nt timer
      | .data src dst rts payload => some (learn st src hop, deliver c true src dst rts payload)
  | .send dest payload rqr tryhard => some (send c st dest payload rqr tryhard)
  | .helloTimer => if st.now < st.htimer then some (st, []) else some (sendhello c st)
  | .drTimer =>
    -- adjacency.py:90-95 and `adj_timeout`, route_eth.py:306-316
    match st.dr with
    | some r =>
      match r.timer with
      | some t => if st.now < t then some (st, []) else some ({ st with dr := none }, [.down r.id, .down r.id])
      | none => some (st, [])
    | none => some (st, [])
  | .cacheTimer uid =>
    match (st.cache ++ st.gone).find? (·.uid = uid) with
    | some e =>
      if st.now < e.timer then some (st, [])
      else
        let st := expire st e.id
        some ({ st with gone := st.gone.filter (·.uid ≠ uid) }, [])
    | none => some (st, [])

/-- What happened: time, event, what others saw. -/
structure Rec where
  time : Nat
  ev : Ev
  outs : List Out
deriving DecidableEq, Repr

/-- The histories of an end node, with the state they lead to. -/
inductive Run (c : Cfg) : List Rec → St → Prop
  | start : Run c [] (start c).1
  | step {h st ev st' outs} : Run c h st → step c st ev = some (st', outs) →
      Run c (h ++ [⟨st.now, ev, outs⟩]) st'

/-- Every timer that runs has not yet reached its time, or has only just. -/
def Punctual (st : St) : Prop :=
  st.now ≤ st.htimer ∧ (∀ r, st.dr = some r → ∀ t, r.timer = some t → st.now ≤ t) ∧
  ∀ e ∈ st.cache ++ st.gone, st.now ≤ e.timer

/-- Histories in which timers are served when they are due. -/
inductive PRun (c : Cfg) : List Rec → St → Prop
  | start : PRun c [] (start c).1
  | step {h st ev st' outs} : PRun c h st → step c st ev = some (st', outs) → Punctual st' →
      PRun c (h ++ [⟨st.now, ev, outs⟩]) st'

end Verif.LanEnd
