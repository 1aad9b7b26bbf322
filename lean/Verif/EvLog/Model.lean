import Verif.EvQueue.Model

/-!
# Model of event logging, `decnet/event_logger.py`

Event lists (`parse_events`), filters, the sinks of a node, events from other nodes, and the
connection to a remote sink.

Simplifications: a Python `str` is the list of its code points; the decimal digits are those of ASCII
(`\d` also takes others); an event is its class and number together with the result of `encode`
(`none` if that raises); entities do not occur in filters, because nothing in the code sets a filter
with one (event_logger.py:404, 407, 253); log levels, tracing and the text of exceptions are left
out.
-/

namespace Verif.EvLog

abbrev Bytes := List UInt8

/-- Python text. -/
abbrev Str := List Nat

/-- Exceptions: `ValueError`, and the one of `raise RangeError`, which is `NameError`, the name not
being imported in event_logger.py. -/
inductive Err
  | value
  | name
deriving DecidableEq, Repr

/-! ## Event lists -/

/-- The event classes with definitions in events.py (lines 207, 292, 330, 357, 513, 653, 689, 719, 750,
766, 778, 794, 818). -/
def classes : List Nat := [0, 2, 3, 4, 5, 6, 33, 34, 64, 93, 94, 128, 353]

/-- `KNOWN_EVENTS`, event_logger.py:31-34: every class has a list of 32 (`nlist (32)`), all of whose
indices are taken. -/
def known (x : Nat × Nat) : Bool := classes.contains x.1 && decide (x.2 < 32)

/-- The value of a decimal digit. -/
def digit (c : Nat) : Option Nat := if 48 ≤ c ∧ c ≤ 57 then some (c - 48) else none

/-- `\d+`: the longest string of digits at the start, and the rest. -/
def span : Str → Str × Str
  | [] => ([], [])
  | c :: s => if (digit c).isSome then (c :: (span s).1, (span s).2) else ([], c :: s)

/-- `int (s)` of a string of digits. -/
def toNat (s : Str) : Nat := s.foldl (fun n c => 10 * n + (digit c).getD 0) 0

/-- `$`: at the end, or before a newline at the end. -/
def atEnd (s : Str) : Bool := s = [] || s = [10]

/-- The second half of `evt_re`, event_logger.py:55: a number, a range, or an asterisk. -/
def matchEvents (s : Str) : Option (Option (Str × Option Str)) :=
  match s with
  | 42 :: r => if atEnd r then some none else none
  | _ =>
    let (d, r) := span s
    if d = [] then none
    else if atEnd r then some (some (d, none))
    else match r with
      | 45 :: r =>
        let (d2, r) := span r
        if d2 ≠ [] ∧ atEnd r then some (some (d, some d2)) else none
      | _ => none

/-- `evt_re.match (item)`: class and events.  If the first number is followed by a period the other
half cannot match without taking it as the class. -/
def matchItem (s : Str) : Option (Option Str × Option (Str × Option Str)) :=
  match span s with
  | (d, 46 :: r) => if d ≠ [] then (matchEvents r).map (some d, ·) else none
  | _ => (matchEvents s).map (none, ·)

/-- `s.split (",")`. -/
def split : Str → List Str
  | [] => [[]]
  | c :: s =>
    match split s with
    | [] => [[c]]
    | x :: xs => if c = 44 then [] :: x :: xs else (c :: x) :: xs

/-- The first and last number of an entry, event_logger.py:84-96. -/
def range : Option (Str × Option Str) → Except Err (Nat × Nat)
  | none => .ok (0, 31)
  | some (d, none) => if toNat d > 31 then .error .name else .ok (toNat d, toNat d)
  | some (d, some d2) =>
    if toNat d2 ≤ toNat d then .error .value
    else if toNat d2 > 31 then .error .name
    else .ok (toNat d, toNat d2)

/-- `range (e1, e2 + 1)` with the class. -/
def pairs (cl a b : Nat) : List (Nat × Nat) := (List.range (b + 1 - a)).map fun i => (cl, a + i)

/-- The loop of `parse_events`, event_logger.py:72-98; `cl` is the class so far. -/
def parseItems : Option Nat → List Str → Except Err (List (Nat × Nat))
  | _, [] => .ok []
  | cl, s :: ss =>
    match matchItem s with
    | none => .error .value
    | some (c, ev) =>
      match (match c with
        | some d => if toNat d < 512 then .ok (toNat d) else .error .name
        | none => match cl with
          | none => .error .value
          | some k => .ok k : Except Err Nat) with
      | .error e => .error e
      | .ok k =>
        match range ev with
        | .error e => .error e
        | .ok (a, b) =>
          match parseItems (some k) ss with
          | .error e => .error e
          | .ok l => .ok (pairs k a b ++ l)

/-- `parse_events`, event_logger.py:57-99, followed by the intersection with the known events of
`setfilter`, 130: the test a filter with this list makes. -/
def parseEvents (s : Str) : Except Err (Nat × Nat → Bool) :=
  if s = [42, 46, 42] then .ok known
  else match parseItems none (split s) with
    | .error e => .error e
    | .ok l => .ok fun x => l.contains x && known x

/-! ## The sinks of a node -/

inductive Kind
  | console | file | monitor
deriving DecidableEq, Repr

/-- A `logging` line of the configuration, config.py:408-427. -/
structure Ent where
  node : Option Str
  kind : Kind
  events : Option Str
deriving DecidableEq, Repr

abbrev Filter := Nat × Nat → Bool

/-- A sink: local, or remote with its three filters. -/
inductive Sink
  | loc (k : Kind) (f : Filter)
  | remote (n : Str) (f : Kind → Filter)

/-- The events an entry enables, event_logger.py:401-407; an empty list counts as none. -/
def entFilter (e : Ent) : Except Err Filter :=
  match e.events with
  | some (c :: s) => parseEvents (c :: s)
  | _ => .ok fun x => decide (e.kind = .console ∧ e.node = none) && known x

/-- `setfilter` with `enable`: the events are added. -/
def addTo (f g : Filter) : Filter := fun x => f x || g x

def setKind (f : Kind → Filter) (k : Kind) (g : Filter) : Kind → Filter :=
  fun k' => if k' = k then addTo (f k') g else f k'

/-- Change the filters of the sink for a node. -/
def onNode (n : Str) (h : (Kind → Filter) → Kind → Filter) : Sink → Sink
  | .remote m f => if m = n then .remote m (h f) else .remote m f
  | .loc k f => .loc k f

/-- One entry, event_logger.py:377-407: the sink of a remote node is made for its first entry. -/
def addEnt (sinks : List Sink) (e : Ent) : Except Err (List Sink) :=
  match entFilter e with
  | .error x => .error x
  | .ok g =>
    match e.node with
    | none => .ok (sinks ++ [.loc e.kind g])
    | some n =>
      if sinks.any (fun s => match s with | .remote m _ => m = n | _ => false) then
        .ok (sinks.map (onNode n fun f => setKind f e.kind g))
      else .ok (sinks ++ [.remote n (setKind (fun _ _ => false) e.kind g)])

def addAll (sinks : List Sink) : List Ent → Except Err (List Sink)
  | [] => .ok sinks
  | e :: es => match addEnt sinks e with
    | .error x => .error x
    | .ok s => addAll s es

/-- `EventLogger.__init__`, event_logger.py:371-412.  `Loggers` (config.py:115-122) has one entry for
each pair of node and sink.  Without any entry there is a console with an empty filter. -/
def init (cfg : List Ent) : Except Err (List Sink) :=
  if cfg = [] then .ok [.loc .console fun _ => false] else addAll [] cfg

/-- An event. -/
structure Event where
  cls : Nat
  num : Nat
  enc : Option Bytes
deriving DecidableEq, Repr

/-- What happens to an event: text in the log of the process, a record in the file, a call of the
monitor (if one is registered), or a place in the queue for a remote node together with the sink flags
the message will have. -/
inductive Write
  | log
  | record (b : Bytes)
  | monitor
  | queue (n : Str) (flags : Nat)
deriving DecidableEq, Repr

/-- The record of the file sink, event_logger.py:235-242: `none` is an exception. -/
def record (b : Bytes) : Option Bytes :=
  if b.length < 65536 then some ([UInt8.ofNat (b.length % 256), UInt8.ofNat (b.length / 256)] ++ b) else none

/-- `writeevent` of a local sink, event_logger.py:223-260: `none` is an exception. -/
def writeLocal (k : Kind) (mon : Bool) (e : Event) : Option (List Write) :=
  match k with
  | .console => some [.log]
  | .file => match e.enc with
    | none => none
    | some b => (record b).map fun r => [.record r]
  | .monitor => some (if mon then [.monitor] else [])

/-- The bit of a sink type, event_logger.py:262 and events.py:106-108. -/
def Kind.bit : Kind → Nat
  | .console => 1 | .file => 2 | .monitor => 4

/-- `RemoteSink.sinkmask`, event_logger.py:297-302. -/
def mask (f : Kind → Filter) (x : Nat × Nat) : Nat :=
  (if f .console x then 1 else 0) + (if f .file x then 2 else 0) + (if f .monitor x then 4 else 0)

/-- The sink flags in the message of an event of this node, events.py:163: set when the event is made.
`writeevent` stores the mask in `_sinks` (event_logger.py:305), which nothing reads. -/
def wireFlags (_mask : Nat) : Nat := 7

/-- `logevent` of one sink, event_logger.py:213-219. -/
def logOne (mon : Bool) (e : Event) : Sink → Option (List Write)
  | .loc k f => if f (e.cls, e.num) then writeLocal k mon e else some []
  | .remote n f =>
    if mask f (e.cls, e.num) ≠ 0 then some [.queue n (wireFlags (mask f (e.cls, e.num)))] else some []

/-- `EventLogger.logevent`, event_logger.py:422-424: what is written, and whether an exception ended
the loop (the exception goes on to the caller, and stops the node). -/
def logEvent (mon : Bool) (e : Event) : List Sink → List Write × Bool
  | [] => ([], true)
  | s :: ss =>
    match logOne mon e s with
    | none => ([], false)
    | some w =>
      let r := logEvent mon e ss
      (w ++ r.1, r.2)

/-! ## Events from other nodes -/

/-- `localsinks` after the nodes of the process were made, in this order: the number of the node whose
sink is there (event_logger.py:264, 397).  A node without any `logging` line does not enter its
console. -/
def localSink (cfgs : List (List Ent)) (k : Kind) : Option Nat :=
  (List.range cfgs.length).foldl
    (fun r i => if (cfgs.getD i []).any (fun e => decide (e.node = none ∧ e.kind = k)) then some i else r) none

/-- Flag of a received message. -/
def flag (flags : Nat) (k : Kind) : Bool := flags / k.bit % 2 = 1

/-- `logremoteevent`, event_logger.py:426-430, called by the listener (modules/evl.py:40-41) of any
node of the process: the writes, each with the number of the node whose sink it is. -/
def logRemote (cfgs : List (List Ent)) (mon : Nat → Bool) (flags : Nat) (e : Event) :
    List Kind → List (Nat × Write) × Bool
  | [] => ([], true)
  | k :: ks =>
    match (if flag flags k then localSink cfgs k else none) with
    | none => logRemote cfgs mon flags e ks
    | some i =>
      match writeLocal k (mon i) e with
      | none => ([], false)
      | some w =>
        let r := logRemote cfgs mon flags e ks
        (w.map (i, ·) ++ r.1, r.2)

/-- The order of `type2id`, event_logger.py:262. -/
def kinds : List Kind := [.console, .file, .monitor]

end Verif.EvLog
