import Verif.Nml.Model

/-!
# What a management client makes of the replies

Independent of the listener: how NCP reads the answer to one request (Network Management Functional
Specification, NICE response messages), and what is in it.
-/

namespace Verif.Nml

/-- What a client learns from an answer. -/
inductive Result
  | failed (code : Int)
  /-- For each entity its records. -/
  | entities (l : List (List Nat))
  | looped
  | notLooped (code : Int) (n : Nat)
deriving DecidableEq, Repr

/-- Reading on after "multiple items follow": code 3 says that more comes for the same entity, code 1 ends
it, code -128 ends the answer, and nothing may follow. -/
def more (cur : List Nat) : List Reply → Option (List (List Nat))
  | [] => none
  | .ent c e :: rs =>
    if c = 3 then more (cur ++ [e]) rs
    else if c = 1 then (more [] rs).map ((cur ++ [e]) :: ·)
    else none
  | .status c _ :: rs => if c = -128 ∧ rs = [] ∧ cur = [] then some [] else none
  | _ :: _ => none

/-- A complete answer read by a Phase III or IV client. -/
def client : List Reply → Option Result
  | [.ent c e] => if c = 1 then some (.entities [[e]]) else none
  | [.status c _] => if c < 0 ∧ c ≠ -128 then some (.failed c) else none
  | [.old c] => if c < 0 ∧ c ≠ -128 then some (.failed c) else none
  | [.loopOk _] => some .looped
  | [.loopErr c _ n] => if c < 0 ∧ c ≠ -128 then some (.notLooped c n) else none
  | .status c _ :: rs => if c = 2 then (more [] rs).map .entities else none
  | _ => none

/-- Records in Phase II form. -/
def oldRecords : List Reply → Option (List (List Nat))
  | [] => some []
  | .oldEnt e :: rs => (oldRecords rs).map ([e] :: ·)
  | _ => none

/-- A complete answer read by a Phase II client: an error code, or a count and as many records. -/
def oldClient : List Reply → Option Result
  | [.old c] => if c < 0 then some (.failed c) else none
  | [.status c _] => if c < 0 then some (.failed c) else none
  | .count n :: rs =>
    match oldRecords rs with
    | some l => if l.length = n then some (.entities l) else none
    | none => none
  | _ => none

/-- The records of an entry. -/
def Entry.records : Entry → List Nat
  | .one e => [e]
  | .many es => es

/-- The entities with at least one record. -/
def present (l : List Entry) : List (List Nat) := (l.map Entry.records).filter (· ≠ [])

/-- The replies among the outputs. -/
def sent : List Out → List Reply
  | [] => []
  | .reply r :: os => r :: sent os
  | _ :: os => sent os

/-- Replies and nothing else. -/
def Only (os : List Out) : Prop := os = (sent os).map .reply

end Verif.Nml
