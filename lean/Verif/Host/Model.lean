/-!
# Model of peer addresses (`HostAddress`, `/repo/pydecnet/decnet/host.py` 109-294)

A `HostAddress` holds the addresses found for the configured name of a peer.  Lookups are repeated
by a resolver thread (`NameResolver`, host.py 469-500) whenever the interval has passed; their results
come in through `lookup_done` (194-251).  `valid` (274-283) decides whether a connection or datagram
from an address is accepted (ddcmp.py 1079, ethernet.py 393, gre.py 144, multinet.py 262, 343);
`__next__` (256-272) gives the addresses to try for outgoing connections one after the other.

Simplifications: addresses are texts (lists of characters) with a port; the scope fields of an IPv6
socket address are left out; when a lookup is made is not modelled (a result may come at any time,
so the interval and `check_interval` are covered); a numeric name is a name whose lookups all give
the same answer.  The enumeration order of Python sets and `random.shuffle` is a choice of the
environment.
-/

namespace Verif.Host

/-- Address family. -/
inductive Fam where
  | v4 | v6
deriving DecidableEq, Repr

/-- Text of an IP address. -/
abbrev Text := List Char

/-- A pair of family and socket address, as returned by `getaddrinfo`. -/
structure AI where
  fam : Fam
  addr : Text
  port : Nat
deriving DecidableEq, Repr

/-- The attributes of a `HostAddress`. -/
structure State where
  any : Bool
  /-- `allow_ipv4`, `allow_ipv6`: 0 = not allowed, otherwise the preference (host.py 130-135) -/
  allow4 : Nat
  allow6 : Nat
  ipaddrs : List Text
  ailist : List AI
  /-- what is left of the iterator `aiiter` -/
  iter : List AI
  current : Option AI
deriving DecidableEq, Repr

/-- `fam in fams` and not link local: host.py 197-203, 216-224. -/
def usable (s : State) (a : AI) : Bool :=
  (match a.fam with
    | .v4 => decide (s.allow4 ≠ 0) || decide (s.allow6 = 0)
    | .v6 => decide (s.allow6 ≠ 0)) &&
  !(decide (a.fam = .v6) && "fe80".toList.isPrefixOf a.addr)

/-- Address family preference: host.py 235-247.  `o` is the order of the environment. -/
def arrange (s : State) (o : List AI) : List AI :=
  if s.allow4 = s.allow6 then o
  else if s.allow4 < s.allow6 then
    o.filter (fun a => decide (a.fam = .v6)) ++ o.filter (fun a => decide (a.fam = .v4))
  else o.filter (fun a => decide (a.fam = .v4)) ++ o.filter (fun a => decide (a.fam = .v6))

/-- `__next__`: host.py 256-272. -/
def next (s : State) : State :=
  match s.iter with
  | a :: r => { s with current := some a, iter := r }
  | [] =>
    match s.ailist with
    | a :: r => { s with current := some a, iter := r }
    | [] => { s with current := none, iter := [] }

/-- `self._current_ai in aiset`: host.py 250. -/
def keepsCurrent (s : State) (l : List AI) : Bool :=
  match s.current with
  | some a => decide (a ∈ l)
  | none => false

/-- `lookup_done`: host.py 194-251.  `found` is the answer of `getaddrinfo`, `o` the set `aiset` in
the order chosen by the environment (see `Enumerates`). -/
def lookupDone (s : State) (o : List AI) : State :=
  let s1 := { s with ipaddrs := s.ipaddrs ++ (o.map AI.addr) }
  if o = [] then s1
  else
    let l := arrange s o
    let s2 := { s1 with ailist := l, iter := l }
    if keepsCurrent s l then s2 else next s2

/-- `o` lists the set of usable results, each once: host.py 204-226 (`aiset`). -/
def Enumerates (s : State) (found o : List AI) : Prop :=
  o.Nodup ∧ ∀ a, a ∈ o ↔ a ∈ found ∧ usable s a = true

/-- The prefix removed by `valid`: host.py 280-282. -/
def strip (t : Text) : Text :=
  if "::ffff:".toList.isPrefixOf t then t.drop 7 else t

/-- `valid`: host.py 274-283. -/
def valid (s : State) (a : Text) : Bool := decide (strip a ∈ s.ipaddrs) || s.any

/-- What can happen to the object. -/
inductive Op where
  /-- a lookup completes with this answer, in this order of the environment -/
  | lookup (found o : List AI)
  /-- the owner asks for the next address -/
  | next
deriving Repr

/-- One step; only enumerations of the answer are allowed. -/
inductive Step : State → Op → State → Prop
  | lookup {s : State} {found o : List AI} (h : Enumerates s found o) :
      Step s (.lookup found o) (lookupDone s o)
  | next {s : State} : Step s .next (next s)

/-- A history. -/
inductive Steps : State → List Op → State → Prop
  | nil {s : State} : Steps s [] s
  | snoc {s t u : State} {os : List Op} {o : Op} (h : Steps s os t) (g : Step t o u) :
      Steps s (os ++ [o]) u

/-- The object for a name other than `*` before its first lookup: host.py 136-180. -/
def fresh (allow4 allow6 : Nat) : State := ⟨false, allow4, allow6, [], [], [], none⟩

end Verif.Host
