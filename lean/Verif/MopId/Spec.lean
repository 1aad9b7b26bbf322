import Verif.MopId.Handler

/-!
# What is claimed of identification messages
-/

namespace Verif.MopId

/-- The circuit has addresses of six bytes. -/
structure Addressed (c : Circ) : Prop where
  hw : c.hwaddr.length = 6
  server : ∀ r, c.server = some r → r.length = 6

/-- What a station that reads the identification is to learn: the address, that loop and counters
requests are served, that there is a console if one is configured, and who uses it. -/
structure Describes (c : Circ) (receipt : Nat) (m : SysId) : Prop where
  receipt : m.receipt = receipt
  hwaddr : m.hwaddr = some c.hwaddr
  version : m.version = some [3, 0, 0]
  loop : ∃ f, m.funcs = some f ∧ f.loop = true ∧ f.counters = true ∧ f.dump = false ∧
    f.ploader = false ∧ f.sloader = false ∧ f.boot = false ∧
    (f.carrier = true ↔ c.ver ≠ none) ∧ (f.reserved = true ↔ c.ver ≠ none ∧ c.server ≠ none)
  user : m.user = if c.ver = none then none else c.server
  console : (m.resTimer, m.cmdSize, m.respSize) =
    if c.ver = none then (none, none, none) else (some 15, some 512, some 512)
  device : (m.device, m.datalink, m.processor, m.software) =
    (some 9, some 1, some 2, some (.text ("DECnet/Python".toList.map fun c => UInt8.ofNat c.toNat)))
  nothing : m.time = none ∧ m.bufsize = none ∧ m.other = []

/-- The last identification that was heard of a station, and when. -/
def lastOf (src : Bytes) : List Ev → Option (SysId × Int)
  | [] => none
  | e :: es =>
    match lastOf src es with
    | some x => some x
    | none =>
      match e with
      | .frame s b now _ _ _ =>
        if s = src then
          match parse b with
          | some (.sysId m) => some (m, now)
          | _ => none
        else none
      | _ => none

/-- A value of a dictionary. -/
def get (l : List (Bytes × SysId × Int)) (k : Bytes) : Option (SysId × Int) :=
  (l.find? fun x => decide (x.1 = k)).map (·.2)

/-- A time zone in hours and minutes: the hours carry the sign. -/
def zoneSpec (tz : Int) (h m : Int) : Prop :=
  0 ≤ m ∧ m < 60 ∧ (0 ≤ tz → tz / 60 = h * 60 + m) ∧ (tz < 0 → -tz / 60 = -h * 60 + m)

/-- A time of day that does not exist (seconds up to 61 are allowed for). -/
def NoTime (t : Time) : Prop := 12 < t.mon ∨ 31 < t.mday ∨ 23 < t.hour ∨ 59 < t.min ∨ 61 < t.sec

/-- The list's entry `e` shows message `m` of station `src`. -/
structure Shows (src : Bytes) (m : SysId) (e : Entry) : Prop where
  src : e.src = src
  user : e.user = m.user
  resTimer : e.resTimer = m.resTimer.getD 0
  hwaddr : e.hwaddr = m.hwaddr
  time : e.time.map (·.1) = m.time
  device : e.device = m.device
  processor : e.processor = m.processor
  datalink : e.datalink = m.datalink
  bufsize : ∀ n, e.bufsize = some n ↔ m.bufsize = some n ∧ n ≠ 0
  software : e.software = m.software
  other : e.other = m.other
  services : ∃ f, m.funcs = some f ∧ ∀ s, s ∈ e.services ↔
    (s = "loop" ∧ f.loop) ∨ (s = "dump" ∧ f.dump) ∨ (s = "ploader" ∧ f.ploader) ∨
    (s = "sloader" ∧ f.sloader) ∨ (s = "boot" ∧ f.boot) ∨ (s = "carrier" ∧ f.carrier) ∨
    (s = "counters" ∧ f.counters)

end Verif.MopId
