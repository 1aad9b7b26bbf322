import Verif.Nice.Model
import Verif.MopId.Handler

/-!
# The MOP configurator read by network management: SHOW MODULE CONFIGURATOR

mop.py 397-468 (`Mop.nice_read`), nicepackets.py 803-825 (`ModuleReply`), modules/nml.py 156-210 (the
messages of the answer), with the coding of `Nice` and the table of stations of `MopId`.

Left out: how the request is decoded (`Nml`, `NiceEnt`); the fields of a reply before its parameters;
the same request from the HTTP monitor's API (modules/nml.py 68-82).  Times are whole milliseconds;
`time.localtime` is a function that is given.
-/

namespace Verif.Configr

open Nice (Simple Val Item)

abbrev Bytes := List UInt8

/-- Text; characters are numbers. -/
abbrev Str := List Nat

/-- What mop.py:436-437 takes of `time.localtime`. -/
structure Tm where
  mday : Nat
  mon : Nat
  hour : Nat
  min : Nat
  sec : Nat
deriving DecidableEq, Repr

/-- A circuit with MOP: its name, the stations heard (mop.py:718, 735-736), when it was started
(mop.py:719). -/
structure Circ where
  name : Str
  heard : List (Bytes × MopId.SysId × Int)
  start : Int
deriving DecidableEq, Repr

/-- The circuit in a request, nicepackets.py:1214 and 870-882: a number below zero is a kind of
plural. -/
inductive Qual where
  | none
  | plural (code : Int)
  | one (name : Str)
deriving DecidableEq, Repr

/-- The request, nicepackets.py:1206-1220: kind of information, module (`none`: a plural), circuit. -/
structure Req where
  info : Nat
  module : Option Str
  circuit : Qual
deriving DecidableEq, Repr

/-- The attributes of a reply that mop.py:429-467 sets. -/
structure Rec where
  circuit : Str
  addr : Option Bytes := none
  report : Option Tm := none
  functions : Option (List Nat) := none
  version : Option Bytes := none
  user : Option Bytes := none
  resTimer : Option Nat := none
  cmdSize : Option Nat := none
  respSize : Option Nat := none
  hwaddr : Option Bytes := none
  device : Option Nat := none
  processor : Option Nat := none
  datalink : Option Nat := none
  bufsize : Option Nat := none
  /-- the attribute `software`, mop.py:452-457 -/
  software : Option (Int × Option Bytes) := none
  /-- the attribute `software_identification`, that no code sets -/
  ident : Option (Int × Option Bytes) := none
  surveillance : Option Nat := none
  elapsed : Option (Int × Int × Int) := none
deriving DecidableEq, Repr

/-- Comparison of two addresses, as `bytes` of Python. -/
def before : Bytes → Bytes → Bool
  | [], _ => true
  | _ :: _, [] => false
  | a :: s, b :: t => if a.toNat < b.toNat then true else if b.toNat < a.toNat then false else before s t

/-- One step of sorting. -/
def insert (x : Bytes × MopId.SysId × Int) : List (Bytes × MopId.SysId × Int) →
    List (Bytes × MopId.SysId × Int)
  | [] => [x]
  | y :: r => if before x.1 y.1 then x :: y :: r else y :: insert x r

/-- mop.py:428, `sorted (c.sysid.heard.items ())`; keys are different, so that messages are never
compared. -/
def sorted (l : List (Bytes × MopId.SysId × Int)) : List (Bytes × MopId.SysId × Int) :=
  l.foldr insert []

/-- mop.py:438-443; without item 2 none of the attributes is there. -/
def functions (m : MopId.SysId) : List Nat :=
  let f := m.funcs.getD {}
  [(0, f.loop), (1, f.dump), (2, f.ploader), (3, f.sloader), (4, f.boot), (5, f.carrier),
    (6, f.counters)].filterMap fun x => if x.2 then some x.1 else none

/-- mop.py:452-457: 0 and the empty text are no software. -/
def softAttr : Option MopId.Soft → Option (Int × Option Bytes)
  | none => none
  | some (.code n) => if n = 0 then none else some (n, none)
  | some (.text t) => if t = [] then none else some (0, some t)

/-- mop.py:429-458, a station. -/
def station (tm : Int → Tm) (c : Circ) (x : Bytes × MopId.SysId × Int) : Rec :=
  { circuit := c.name
    addr := some x.1
    report := some (tm x.2.2)
    functions := if functions x.2.1 = [] then none else some (functions x.2.1)
    version := x.2.1.version
    user := x.2.1.user
    resTimer := x.2.1.resTimer
    cmdSize := x.2.1.cmdSize
    respSize := x.2.1.respSize
    hwaddr := x.2.1.hwaddr
    device := x.2.1.device
    processor := x.2.1.processor
    datalink := x.2.1.datalink
    bufsize := x.2.1.bufsize
    software := softAttr x.2.1.software }

/-- mop.py:464-467 and the conversion to whole numbers (`int` of nice_coding.py:153): `divmod` rounds
down, and what is left is not negative. -/
def hms (ms : Int) : Int × Int × Int :=
  (ms / 3600000, ms % 3600000 / 60000, ms % 3600000 % 60000 / 1000)

/-- mop.py:424-467 for one circuit. -/
def circuit (tm : Int → Tm) (stat : Bool) (now : Int) (c : Circ) : List Rec :=
  match (if stat then (sorted c.heard).map (station tm c) else []) with
  | [] => [{ circuit := c.name, surveillance := some 0, elapsed := some (hms (now - c.start)) }]
  | r :: rs => { r with surveillance := some 0, elapsed := some (hms (now - c.start)) } :: rs

/-- `"CONFIGURATOR"`. -/
def moduleName : Str := "CONFIGURATOR".toList.map Char.toNat

/-- mop.py:405-421; `none` if there is no answer. -/
def circuits (cs : List Circ) : Qual → Option (List Circ)
  | .none => some cs
  | .plural code => if code = -1 then some cs else none
  | .one name => (cs.find? fun c => c.name = name).map fun c => [c]

/-- mop.py:397-468 `nice_read`: `none` if nothing is entered in the reply.  `up` is `str.upper`. -/
def read (up : Str → Str) (tm : Int → Tm) (cs : List Circ) (now : Int) (q : Req) : Option (List Rec) :=
  if 2 ≤ q.info then none
  else if q.module.any fun n => up n ≠ moduleName then none
  else (circuits cs q.circuit).map fun l => l.flatMap (circuit tm (q.info = 1) now)

/-! ## Coding -/

/-- A parameter without value is not sent, nice_coding.py:663-664. -/
def opt {α : Type} (p : Nat) (f : α → Val) : Option α → List Item
  | none => []
  | some x => [.par p (f x)]

/-- DU-1, nice_coding.py:226. -/
def du1 (v : Int) : Simple := .num .du 1 v
/-- C-1, nice_coding.py:321. -/
def c1 (v : Int) : Simple := .num .c 1 v

/-- The value of parameter 1200: a code, or a code and a text. -/
def softVal : Int × Option Bytes → List Simple
  | (n, none) => [c1 n]
  | (n, some t) => [c1 n, .ai (t.map UInt8.toNat)]

/-- nicepackets.py:806-825, the parameters in the order of their numbers (nice_coding.py:562).  The name
of the attribute for parameter 1200 is made of its description (nice_coding.py:216-217). -/
def Rec.params (r : Rec) : List Item :=
  [Item.par 100 (.one (.ai r.circuit))]
  ++ opt 110 (fun v => .one (c1 (v : Nat))) r.surveillance
  ++ opt 111 (fun v => .many [.num .du 2 v.1, du1 v.2.1, du1 v.2.2]) r.elapsed
  ++ opt 120 (fun v => .one (.hi v)) r.addr
  ++ opt 130 (fun t => .many [du1 t.mday, c1 t.mon, du1 t.hour, du1 t.min, du1 t.sec]) r.report
  ++ opt 1001 (fun v => .many (v.map fun b => du1 b.toNat)) r.version
  ++ opt 1002 (fun l => .many (l.map fun (n : Nat) => c1 n)) r.functions
  ++ opt 1003 (fun v => .one (.hi v)) r.user
  ++ opt 1004 (fun v => .one (.num .du 2 (v : Nat))) r.resTimer
  ++ opt 1005 (fun v => .one (.num .du 2 (v : Nat))) r.cmdSize
  ++ opt 1006 (fun v => .one (.num .du 2 (v : Nat))) r.respSize
  ++ opt 1007 (fun v => .one (.hi v)) r.hwaddr
  ++ opt 1100 (fun v => .one (c1 (v : Nat))) r.device
  ++ opt 1200 (fun v => .many (softVal v)) r.ident
  ++ opt 1300 (fun v => .one (c1 (v : Nat))) r.processor
  ++ opt 1400 (fun v => .one (c1 (v : Nat))) r.datalink
  ++ opt 1401 (fun v => .one (.num .du 2 (v : Nat))) r.bufsize

/-- A message of the answer: a code only, or a code and parameters. -/
inductive Rep where
  | code (c : Int)
  | item (c : Int) (data : Bytes)
deriving DecidableEq, Repr

/-- modules/nml.py:195-206: the messages up to one that cannot be encoded, and whether there was one.
The exception aborts the connection (session.py:769-786). -/
def send : List (Int × Rec) → List Rep × Bool
  | [] => ([], false)
  | (c, r) :: l =>
    match Nice.encode r.params with
    | .error _ => ([], true)
    | .ok b => (.item c b :: (send l).1, (send l).2)

/-- modules/nml.py:198-204: the last one has code 1. -/
def coded : List Rec → List (Int × Rec)
  | [] => []
  | [r] => [(1, r)]
  | r :: s :: l => (3, r) :: coded (s :: l)

/-- modules/nml.py:156-210, the answer to the request, and whether an exception ended it. -/
def answer (up : Str → Str) (tm : Int → Tm) (cs : List Circ) (now : Int) (q : Req) : List Rep × Bool :=
  match read up tm cs now q with
  | none => if q.module.isSome then ([.code (-8)], false) else ([.code 2, .code (-128)], false)
  | some [r] => send [(1, r)]
  | some l =>
    let s := send (coded l)
    (.code 2 :: s.1 ++ (if s.2 then [] else [.code (-128)]), s.2)

end Verif.Configr
