import Verif.Configr.Model

/-!
# C130: what SHOW MODULE CONFIGURATOR should say
-/

namespace Verif.Configr

open Nice (Simple Val Item)

/-- Function `n` of the list in item 2 of a system identification. -/
def hasFunction (m : MopId.SysId) (n : Nat) : Bool :=
  match m.funcs with
  | none => false
  | some f => [f.loop, f.dump, f.ploader, f.sloader, f.boot, f.carrier, f.counters].getD n false

/-- The parameters of a station `k` on circuit `c`, that sent `m` at time `t`, with their numbers. -/
inductive Says (tm : Int → Tm) (c : Circ) (k : Bytes) (m : MopId.SysId) (t : Int) : Nat → Val → Prop
  | circuit : Says tm c k m t 100 (.one (.ai c.name))
  | addr : Says tm c k m t 120 (.one (.hi k))
  | report : Says tm c k m t 130 (.many [.num .du 1 (tm t).mday, .num .c 1 (tm t).mon, .num .du 1 (tm t).hour,
      .num .du 1 (tm t).min, .num .du 1 (tm t).sec])
  | version (a b d : UInt8) : m.version = some [a, b, d] → Says tm c k m t 1001
      (.many [.num .du 1 a.toNat, .num .du 1 b.toNat, .num .du 1 d.toNat])
  | functions (n : Nat) : n < 7 → hasFunction m n = true → Says tm c k m t 1002
      (.many (((List.range 7).filter (hasFunction m)).map fun (i : Nat) => .num .c 1 i))
  | user (v : Bytes) : m.user = some v → Says tm c k m t 1003 (.one (.hi v))
  | resTimer (v : Nat) : m.resTimer = some v → Says tm c k m t 1004 (.one (.num .du 2 v))
  | cmdSize (v : Nat) : m.cmdSize = some v → Says tm c k m t 1005 (.one (.num .du 2 v))
  | respSize (v : Nat) : m.respSize = some v → Says tm c k m t 1006 (.one (.num .du 2 v))
  | hwaddr (v : Bytes) : m.hwaddr = some v → Says tm c k m t 1007 (.one (.hi v))
  | device (v : Nat) : m.device = some v → Says tm c k m t 1100 (.one (.num .c 1 v))
  | processor (v : Nat) : m.processor = some v → Says tm c k m t 1300 (.one (.num .c 1 v))
  | datalink (v : Nat) : m.datalink = some v → Says tm c k m t 1400 (.one (.num .c 1 v))
  | bufsize (v : Nat) : m.bufsize = some v → Says tm c k m t 1401 (.one (.num .du 2 v))

/-- An address comes before another. -/
def Less (k k' : Bytes) : Prop :=
  ∃ (p s t : Bytes) (a b : UInt8), k = p ++ a :: s ∧ k' = p ++ b :: t ∧ a.toNat < b.toNat

/-- The address in a reply. -/
def addrOf (d : List Item) : Option Bytes :=
  d.findSome? fun
    | .par 120 (.one (.hi k)) => some k
    | _ => none

/-- The replies of one circuit. -/
structure Block (tm : Int → Tm) (now : Int) (c : Circ) (ds : List (List Item)) : Prop where
  /-- The first, and only the first, has the state of surveillance (enabled) and the time since it was
  started. -/
  first : ∃ (d : List Item) (r : List (List Item)) (h mi s : Int), ds = d :: r ∧
    (∀ v, .par 110 v ∈ d ↔ v = .one (.num .c 1 0)) ∧
    (∀ v, .par 111 v ∈ d ↔ v = .many [.num .du 2 h, .num .du 1 mi, .num .du 1 s]) ∧
    0 ≤ mi ∧ mi < 60 ∧ 0 ≤ s ∧ s < 60 ∧ h * 3600 + mi * 60 + s = (now - c.start) / 1000 ∧
    ∀ d' ∈ r, ∀ v, .par 110 v ∉ d' ∧ .par 111 v ∉ d'
  /-- The stations, in the order of their addresses, each once. -/
  order : (ds.filterMap addrOf).Pairwise Less ∧
    ∀ k, k ∈ ds.filterMap addrOf ↔ ∃ m t, (k, m, t) ∈ c.heard
  /-- What is said of each. -/
  says : ∀ k m t, (k, m, t) ∈ c.heard → ∃ d ∈ ds, ∀ p v, p ≠ 110 → p ≠ 111 →
    (.par p v ∈ d ↔ Says tm c k m t p v)
  /-- Nothing else. -/
  only : ∀ d ∈ ds, .par 100 (.one (.ai c.name)) ∈ d ∧
    (c.heard ≠ [] → ∃ k, addrOf d = some k) ∧ (c.heard = [] → ds = [d])

/-- The circuits a request is about; in a summary stations do not count. -/
inductive Asks (up : Str → Str) (cs : List Circ) (q : Req) : List Circ → Prop
  | all : (q.circuit = .none ∨ q.circuit = .plural (-1)) → Asks up cs q
      (cs.map fun c => if q.info = 1 then c else { c with heard := [] })
  | one (c : Circ) : c ∈ cs → q.circuit = .one c.name → Asks up cs q
      [if q.info = 1 then c else { c with heard := [] }]

/-- A summary or status of the configurator, by its name or as one of all modules. -/
def OfConfigurator (up : Str → Str) (q : Req) : Prop :=
  q.info < 2 ∧ ∀ n, q.module = some n → up n = "CONFIGURATOR".toList.map Char.toNat

/-- Sizes of the values in a system identification. -/
structure Sized (m : MopId.SysId) : Prop where
  version : ∀ v, m.version = some v → v.length = 3
  user : ∀ v, m.user = some v → v.length = 6
  hwaddr : ∀ v, m.hwaddr = some v → v.length = 6
  resTimer : ∀ v, m.resTimer = some v → v < 65536
  cmdSize : ∀ v, m.cmdSize = some v → v < 65536
  respSize : ∀ v, m.respSize = some v → v < 65536
  device : ∀ v, m.device = some v → v < 256
  processor : ∀ v, m.processor = some v → v < 256
  datalink : ∀ v, m.datalink = some v → v < 256
  bufsize : ∀ v, m.bufsize = some v → v < 65536

/-- A circuit as it can be. -/
structure Good (c : Circ) : Prop where
  name : c.name.length ≤ 255 ∧ ∀ x ∈ c.name, x ≤ 255
  keys : (c.heard.map (·.1)).Nodup
  addr : ∀ x ∈ c.heard, x.1.length = 6
  sized : ∀ x ∈ c.heard, Sized x.2.1

/-- Calendar times have numbers below 256. -/
def TmOk (tm : Int → Tm) : Prop :=
  ∀ t, (tm t).mday < 256 ∧ (tm t).mon < 256 ∧ (tm t).hour < 256 ∧ (tm t).min < 256 ∧ (tm t).sec < 256

/-- The parameters in an answer. -/
def bodies (l : List Rep) : List Bytes :=
  l.filterMap fun
    | .item _ b => some b
    | .code _ => none

/-- The codes of an answer. -/
def codes (l : List Rep) : List Int :=
  l.map fun
    | .item c _ => c
    | .code c => c

end Verif.Configr
