import Verif.RoutPkt.Props
import Verif.Route.Model

/-!
# Forwarding of data packets (`decnet/routing.py`)

`L1Router.forward` (routing.py 1171-1252), used by level 1 and level 2 routers, `send` (1140-1169),
and the end node's `send` and `dispatch` (676-712).  Counters and event logging are left out.  Packets are
`Verif.RoutPkt.DataPkt`; flags are 0 or 1.
-/
namespace Verif.Forward

open Verif.RoutPkt (DataPkt)
open Verif.Route (Out Adj)

/-- What forwarding uses of a router. -/
structure RNode where
  /-- own address -/
  own : Nat
  maxvisits : Nat
  /-- `findoadj`, see `Verif.Route.Router.findoadj` -/
  find : Nat → Out
  /-- the circuit of an adjacency -/
  circ : Nat → Nat

/-- What becomes of a packet. -/
inductive Act
  /-- passed up to NSP (`SelfAdj.send`, routing.py 137-152) -/
  | toNsp (p : DataPkt)
  /-- sent to a neighbour -/
  | send (k : Nat) (p : DataPkt)
  | drop
  /-- AttributeError: there is no input circuit -/
  | error

/-- The visit limit, routing.py 1186-1198. -/
def limit (n : RNode) (p : DataPkt) (orig : Bool) : Nat :=
  if orig = false ∧ p.rts ≠ 0 then min (n.maxvisits * 2) 63 else n.maxvisits

/-- Swapped and marked as returned, routing.py 1223-1228. -/
def returned (p : DataPkt) : DataPkt := { p with dst := p.src, src := p.dst, rts := 1, rqr := 0, ie := 0 }

/-- `forward`, routing.py 1171-1252.  `inp` is the circuit of `pkt.src`, `none` for packets from this node. -/
def forward (n : RNode) (p : DataPkt) (inp : Option Nat) (orig : Bool) : Act :=
  let fail : Act :=
    if h : p.rqr ≠ 0 ∧ p.rts = 0 then forward n (returned p) inp false
    else .drop
  match n.find p.dst with
  | .via .self => .toNsp p
  | .via (.nbr k) =>
    -- "Forwarding (as opposed to originating)"
    if orig = false ∧ inp = none then .error
    else
      let p1 := if orig = false ∧ inp ≠ some (n.circ k) then { p with ie := 0 } else p
      if p.visit < limit n p orig then
        .send k (if orig then p1 else { p1 with visit := p1.visit + 1 })
      else
        if h : p.rqr ≠ 0 ∧ p.rts = 0 then forward n (returned p) inp false
        else .drop
  | .unreach => fail
  | .outOfRange => fail
termination_by if p.rts = 0 then 1 else 0
decreasing_by all_goals simp [returned, h.2]

/-- `send`, routing.py 1140-1153, to a normal node. -/
def originate (n : RNode) (payload : Fields.Bytes) (dst : Nat) (rqr : Bool) : Act :=
  forward n ⟨if rqr then 1 else 0, 0, 1, dst, n.own, 0, payload⟩ none true

/-- The circuit's view of the neighbour: broadcast, Phase IV point to point, Phase III point to point. -/
inductive Link
  | lan
  | ptp4
  | ptp3
  deriving DecidableEq

/-- The header as sent: long format on a LAN (route_eth.py 92-94), short format otherwise, which has no
`ie` bit; for a Phase III neighbour the destination is cut to the node number, and so is the source if
it is in this area (route_ptp.py 188-197, 212-213). -/
def wire (home : Nat) : Link → DataPkt → DataPkt
  | .lan, p => p
  | .ptp4, p => { p with ie := 0 }
  | .ptp3, p =>
    { p with
      ie := 0
      dst := p.dst % 1024
      src := if p.src / 1024 = home then p.src % 1024 else p.src }

/-- `EndnodeRouting.dispatch`, routing.py 705-712. -/
def endDispatch (own : Nat) (p : DataPkt) : Act := if p.dst = own then .toNsp p else .drop

/-- `EndnodeRouting.send`, routing.py 676-703; `ok` is the result of the circuit's `send`. -/
def endSend (own : Nat) (ok : Bool) (payload : Fields.Bytes) (dst : Nat) (rqr : Bool) : Act :=
  let p : DataPkt := ⟨if rqr then 1 else 0, 0, 1, dst, own, 0, payload⟩
  if dst ≠ own then
    if ok then .send 0 p
    else if rqr then endDispatch own { p with dst := p.src, src := p.dst, rts := 1, rqr := 0 }
    else .drop
  else endDispatch own p

end Verif.Forward
