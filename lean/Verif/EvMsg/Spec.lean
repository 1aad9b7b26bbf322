import Verif.EvMsg.Model
import Verif.Nice.Props

/-!
# Specification: event messages

Which events can be carried, what entity goes with which event, and how a file of events is read.
-/
namespace Verif.EvMsg

open Verif.Fields (Bytes le fromLe)

/-- A node as network management knows it: an address that is 0 or has a node number, a name of at most 127
characters of Latin-1. -/
def Node.Ok (n : Node) : Prop :=
  n.addr < 65536 ∧ (n.addr % 1024 = 0 → n.addr = 0) ∧ n.name.length ≤ 127 ∧ ∀ c ∈ n.name, c < 256

/-- An entity that can be told from the others by its code, and fits. -/
def Entity.Ok : Entity → Prop
  | .node n => n.Ok
  | .area a => a < 256
  | .none => True
  | .str c s => c < 256 ∧ c ≠ 0 ∧ c ≠ 5 ∧ c ≠ 255 ∧ s.length ≤ 255 ∧ ∀ x ∈ s, x < 256

/-- The event classes that are known: network management, session control, end communication, routing, data link,
physical link, and the ones of RSTS, RSX and VMS. -/
def Known (cls : Nat) : Prop := cls ∈ [0, 2, 3, 4, 5, 6, 33, 34, 64, 93, 94, 128, 353]

/-- The entity an event is about.  Lines have code 1, circuits 3, modules 4. -/
inductive About : (cls code : Nat) → Entity → Prop
  | eventsLost : About 0 0 .none
  | nodeCounters {c n} : c = 1 ∨ c = 5 → About 0 c (.node n)
  | lineCounters {c s} : c = 2 ∨ c = 4 → About 0 c (.str 1 s)
  | service {c s} : c = 3 ∨ c = 6 ∨ c = 7 → About 0 c (.str 3 s)
  | otherNetman {c e} : 8 ≤ c → About 0 c e
  | session {c} : About 2 c .none
  | ecl {c} : About 3 c .none
  | circuit {c s} : c ≤ 19 → c ≠ 14 → c ≠ 17 → About 4 c (.str 3 s)
  | reachability {n} : About 4 14 (.node n)
  | areaReachability {a} : About 4 17 (.area a)
  | dataLink {c s} : c ≤ 16 → About 5 c (.str 3 s)
  | dte {c s} : c = 17 ∨ c = 18 → About 5 c (.str 4 s)
  | physical {c s} : About 6 c (.str 1 s)
  | system {k c} : k = 33 ∨ k = 34 ∨ k = 64 ∨ k = 93 ∨ k = 94 ∨ k = 128 ∨ k = 353 → About k c .none
  | unknown {k c e} : ¬ Known k → About k c e

/-- An event that can be sent. -/
structure Event.Ok (e : Event) : Prop where
  cls : e.cls < 512
  code : e.code < 32
  halfday : e.halfday < 65536
  seconds : e.seconds < 65536
  ms : e.ms < 1024
  source : e.source.Ok

/-- What arrives: a counter beyond its range at the largest value. -/
def Event.seen (e : Event) : Event :=
  { e with body := e.body.map fun x => (x.1, x.2.map Nice.Item.sat) }

/-- The same entity, or another kind of thing with the same name. -/
def SameName : Entity → Entity → Prop
  | .str _ s, .str _ t => s = t
  | a, b => a = b

/-- A file of variable length records: a length of two bytes, low byte first, before each. -/
inductive Records : Bytes → List Bytes → Prop
  | nil : Records [] []
  | cons {r rest rs} : r.length < 65536 → Records rest rs →
      Records (UInt8.ofNat (r.length % 256) :: UInt8.ofNat (r.length / 256) :: (r ++ rest)) (r :: rs)

/-- What was appended to the file. -/
def fileOf (os : List Out) : Bytes :=
  (os.filterMap fun | .record b => some b | _ => none).flatten

/-- What was given to the Python logger. -/
def logged (os : List Out) : List Event := os.filterMap fun | .log e => some e | _ => none

/-- What was given to the monitor. -/
def monitored (os : List Out) : List Event := os.filterMap fun | .monitor e => some e | _ => none

end Verif.EvMsg
