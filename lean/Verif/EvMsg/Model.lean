import Verif.Nice.Model

/-!
# Model of event messages, `decnet/events.py`

The messages of the event logging protocol: header, source node, entity and data items; the listener
(`decnet/modules/evl.py`) and the local sinks that get what it receives (`decnet/event_logger.py`).

Simplifications: the data items are those of `Verif.Nice`, kept as a list in the order of the message (`NICE.decode`
keeps one attribute for each number, and `encode` writes them in order of number); an event class is described by the
kind of entity of its layout only, not by the texts and levels it is displayed with; the microseconds of the clock
are a natural number; the monitor's handler does not raise.
-/
namespace Verif.EvMsg

open Verif.Fields (Bytes le fromLe toBytes byte latin1Enc latin1Dec aEnc aDec)

/-- Exceptions.  `decodeError` stands for `DecodeError` and its subclasses.  `conversion` stands for whatever comes of
a node or area where the layout has a name, or the reverse (`cls (val)`, common.py 191), which is not modelled. -/
inductive Err
  | decodeError
  | attributeError
  | typeError
  | conversion
  | encode (e : Fields.Err)
  deriving DecidableEq, Repr

/-- An exception from the coding of the items. -/
def ofNice : Nice.Err → Err
  | .decodeError => .decodeError
  | .attributeError => .attributeError
  | .typeError => .typeError
  | .encode e => .encode e

/-! ## Nodes and entities -/

/-- `NiceNode`, common.py 364-372: address, name and executor flag. -/
structure Node where
  addr : Nat
  name : List Nat
  exec : Bool
  deriving DecidableEq, Repr

/-- `NiceNode.encode`, common.py 380-385. -/
def Node.enc (n : Node) : Except Err Bytes := do
  let a ← (toBytes 2 (n.addr : Int)).mapError .encode
  let l ← (byte (n.name.length + if n.exec then 0x80 else 0)).mapError .encode
  let s ← (latin1Enc n.name).mapError .encode
  return a ++ l ++ s

/-- `NiceNode.decode`, common.py 387-396.  The name is a slice, cut short if there are not that many bytes.  An
exception (IndexError; ValueError for node number zero of an area, common.py 321-322) becomes `AtField`,
packet.py 1058-1059. -/
def decNode : Bytes → Except Err (Node × Bytes)
  | a :: b :: l :: r =>
    let n := fromLe [a, b]
    if n % 1024 = 0 ∧ n / 1024 ≠ 0 then .error .decodeError
    else
      let k := l.toNat % 128
      .ok ({ addr := n, name := latin1Dec (r.take k), exec := 128 ≤ l.toNat }, r.drop k)
  | _ => .error .decodeError

/-- The entities, events.py 83-94: node (code 0), area (5), none (255), and names with the code of the kind of
entity: line (1), logging (2), circuit (3), module (4) and the codes that are not known (`defaultclass`, 44-57). -/
inductive Entity
  | node (n : Node)
  | area (a : Nat)
  | none
  | str (code : Nat) (s : List Nat)
  deriving DecidableEq, Repr

/-- `EventEntityBase.encode`, events.py 41-42: the code and what the class of the entity encodes (nice_coding.py
76-77, 97-98; events.py 73-74). -/
def Entity.enc : Entity → Except Err Bytes
  | .node n => do return 0 :: (← n.enc)
  | .area a => do return [5, 0] ++ (← (byte a).mapError .encode)
  | .none => .ok [255]
  | .str c s => do
    return (← (byte c).mapError .encode) ++ (← (aEnc 255 s).mapError .encode)

/-- The entity in the layout of an event class: `EventEntityBase`, or one of its subclasses. -/
inductive Kind
  | any
  | none
  | node
  | area
  | str (code : Nat)
  deriving DecidableEq, Repr

/-- `EventEntityBase.decode`, events.py 36-39, with `findclassb` (packet.py 723-724): the class of the layout also
takes the codes it lists itself, which is so for circuits, with code 1 (events.py 88).  Exceptions become `AtField`. -/
def decEnt (k : Kind) : Bytes → Except Err (Entity × Bytes)
  | [] => .error .decodeError
  | c :: r =>
    if c = 0 then do
      let (n, r) ← decNode r
      return (.node n, r)
    else if c = 5 then
      -- nice_coding.py 102: `buf[1]`
      match r with
      | _ :: a :: r => .ok (.area a.toNat, r)
      | _ => .error .decodeError
    else if c = 255 then .ok (.none, r)
    else
      let c := if k = .str 3 ∧ c = 1 then 3 else c
      match aDec 255 r with
      | .ok (s, r) => .ok (.str c.toNat s, r)
      | .error _ => .error .decodeError

/-- `checktype` of the entity of the layout, common.py 186-191, before it is encoded: an entity of another class is
converted.  `NoEntity (val)` is a TypeError (events.py 64); a name is taken over by `str (val)`. -/
def retype : Kind → Entity → Except Err Entity
  | .any, e => .ok e
  | .none, .none => .ok .none
  | .none, _ => .error .typeError
  | .node, .node n => .ok (.node n)
  | .area, .area a => .ok (.area a)
  | .str c, .str _ s => .ok (.str c s)
  | _, _ => .error .conversion

/-- `cls ()`, common.py 188-190, for an event made without entity: the empty name, node or area 0; `EventEntityBase`
itself has no code (AttributeError in `encode`). -/
def defaultEnt : Kind → Except Err Entity
  | .any => .error .attributeError
  | .none => .ok .none
  | .node => .ok (.node { addr := 0, name := [], exec := false })
  | .area => .ok (.area 0)
  | .str c => .ok (.str c [])

/-- The layout found by class and code, `findclassb`, packet.py 700-746, with the classes of events.py: `none` for a
class with no layout of its own, that is with the header only.

Class 0: lines 206-288.  Classes 2, 3, 33, 34, 64, 93, 94, 128, 353: the class itself has a layout with no entity,
which its subclasses inherit and which is used for unknown codes (`defaultclass`, 121-130).  Class 4: `RoutingBase`
(356-359) has no layout; its subclasses are for codes 0 to 19.  Class 5: `DlBase` (512-515), codes 0 to 18.  Class 6:
line.  Any other class: `DefaultEvent` (198-204). -/
def layout (cls code : Nat) : Option Kind :=
  if cls = 0 then
    if code = 0 then some .none
    else if code = 1 ∨ code = 5 then some .node
    else if code = 2 ∨ code = 4 then some (.str 1)
    else if code = 3 ∨ code = 6 ∨ code = 7 then some (.str 3)
    else some .any
  else if cls = 4 then
    if code = 14 then some .node
    else if code = 17 then some .area
    else if code < 20 then some (.str 3)
    else none
  else if cls = 5 then
    if code < 17 then some (.str 3)
    else if code < 19 then some (.str 4)
    else none
  else if cls = 6 then some (.str 1)
  else if cls ∈ [2, 3, 33, 34, 64, 93, 94, 128, 353] then some .none
  else some .any

/-! ## Events -/

/-- An event, events.py 96-118. -/
structure Event where
  console : Bool
  file : Bool
  monitor : Bool
  cls : Nat
  code : Nat
  halfday : Nat
  seconds : Nat
  ms : Nat
  msAbsent : Bool
  source : Node
  /-- `entity_type` and the items; `none` if the class has no such fields. -/
  body : Option (Entity × List Nice.Item)
  deriving DecidableEq, Repr

/-- `1 << n` if set. -/
def bit (n : Nat) (b : Bool) : Nat := if b then 2 ^ n else 0

/-- A field of a bit map, packet.py 294-298: `FieldOverflow` if the value has more bits.  The fields do not overlap, so
that `|` is a sum. -/
def bits (v n : Nat) : Except Err Nat := if v < 2 ^ n then .ok v else .error (.encode .fieldOverflow)

/-- `Packet.encode`, packet.py 1006-1027, with the layout of the header, events.py 104-117, and that of the class.  An
entity or data the class has no field for is not encoded. -/
def encode (e : Event) : Except Err Bytes := do
  let fl := UInt8.ofNat (bit 0 e.console + bit 1 e.file + bit 2 e.monitor)
  let code ← bits e.code 5
  let cls ← bits e.cls 9
  let hd ← (toBytes 2 (e.halfday : Int)).mapError .encode
  let sec ← (toBytes 2 (e.seconds : Int)).mapError .encode
  let ms ← bits e.ms 10
  let src ← e.source.enc
  let hdr := [1, fl] ++ le 2 (code + 64 * cls) ++ hd ++ sec ++ le 2 (ms + bit 15 e.msAbsent) ++ src
  match layout e.cls e.code, e.body with
  | some k, some (ent, items) => do
    let ent ← retype k ent
    let eb ← ent.enc
    let ib ← (Nice.encode items).mapError ofNice
    return hdr ++ eb ++ ib
  | some k, none => do
    let ent ← defaultEnt k
    let eb ← ent.enc
    return hdr ++ eb
  | none, _ => .ok hdr

/-- `Event.decode`: `IndexedPacket.decode` (packet.py 1141-1160), `decode_data` (1048-1064).  Returns the event and what is
left of the message, which is nothing if the class ends in data items.  All exceptions of the header are
`DecodeError`s; those of the items are not caught in `decode_data`. -/
def decode : Bytes → Except Err (Event × Bytes)
  | f :: fl :: c0 :: c1 :: h0 :: h1 :: s0 :: s1 :: m0 :: m1 :: r =>
    if f ≠ 1 then .error .decodeError
    else do
      let (src, r) ← decNode r
      let fl := fl.toNat
      let c := fromLe [c0, c1]
      let m := fromLe [m0, m1]
      let e : Event :=
        { console := fl % 2 = 1, file := fl / 2 % 2 = 1, monitor := fl / 4 % 2 = 1,
          cls := c / 64 % 512, code := c % 32,
          halfday := fromLe [h0, h1], seconds := fromLe [s0, s1],
          ms := m % 1024, msAbsent := m / 32768 = 1, source := src, body := none }
      match layout e.cls e.code with
      | some k => do
        let (ent, r) ← decEnt k r
        let items ← (Nice.decode r).mapError ofNice
        return ({ e with body := some (ent, items) }, [])
      | none => .ok (e, r)
  | _ => .error .decodeError

/-! ## Time -/

/-- `Event.__init__`, events.py 158-162: the fields for a time given in microseconds since 1 Jan 1977.  A timedelta
holds days, seconds below 86400 and microseconds. -/
def stamp (t : Nat) : Nat × Nat × Nat :=
  let days := t / 86400000000
  let secs := t / 1000000 % 86400
  let us := t % 1000000
  let hd := secs / (12 * 60 * 60)
  (days * 2 + hd, secs % (12 * 60 * 60), us / 1000)

/-- `Event.__str__`, events.py 167-172: the time displayed, as milliseconds since 1 Jan 1977; the milliseconds are not
displayed if they are absent. -/
def shownTime (e : Event) : Nat :=
  let days := e.halfday / 2
  let hd := e.halfday % 2
  (days * 86400 + (e.seconds + hd * 12 * 60 * 60)) * 1000 + if e.msAbsent then 0 else e.ms

/-! ## Listener and local sinks -/

/-- `localsinks`, event_logger.py 272: which there are. -/
structure Sinks where
  console : Bool
  file : Bool
  monitor : Bool
  deriving DecidableEq, Repr

/-- What is done with an event: given to the Python logger, a record appended to the file, given to the monitor. -/
inductive Out
  | log (e : Event)
  | record (b : Bytes)
  | monitor (e : Event)
  deriving DecidableEq, Repr

/-- `LocalFile.writeevent`, event_logger.py 242-250, of an event that is not already encoded. -/
def fileRecord (e : Event) : Except Err Bytes := do
  let b ← encode e
  let l ← (toBytes 2 (b.length : Int)).mapError .encode
  return l ++ b

/-- `logremoteevent`, event_logger.py 443-447: the sinks in order; an exception stops it. -/
def deliver (s : Sinks) (e : Event) : List Out × Option Err :=
  let c := if s.console && e.console then [Out.log e] else []
  let m := if s.monitor && e.monitor then [Out.monitor e] else []
  if s.file && e.file then
    match fileRecord e with
    | .ok b => (c ++ [.record b] ++ m, none)
    | .error x => (c, some x)
  else (c ++ m, none)

/-- Subclasses of `DecodeError` among the exceptions. -/
def caught : Err → Bool
  | .decodeError => true
  | .encode .fieldOverflow => true
  | _ => false

/-- `Application.dispatch` of a data message, modules/evl.py 35-45, within `BaseConnector.dispatch`, session.py
768-786: an exception that is not a `DecodeError` aborts the connection.  What was done, and whether the
connection goes on. -/
def handle (s : Sinks) (b : Bytes) : List Out × Bool :=
  match decode b with
  | .error x => ([], caught x)
  | .ok (e, _) =>
    match deliver s e with
    | (o, none) => (o, true)
    | (o, some x) => (o, caught x)

/-- The messages of one connection; those after it is gone are not received. -/
def listen (s : Sinks) : List Bytes → List Out × Bool
  | [] => ([], true)
  | b :: bs =>
    match handle s b with
    | (o, true) => let (o', up) := listen s bs; (o ++ o', up)
    | (o, false) => (o, false)

end Verif.EvMsg
