import Verif.Mapper.Model

/-!
# What the claims about the mapper say
-/

namespace Verif.Mapper

/-! ## One item -/

/-- A history of reports on an item: up or down, and when; the latest last.
Was it reported up last? -/
def lastUp : List (Bool × Nat) → Bool
  | [] => false
  | [(b, _)] => b
  | _ :: r => lastUp r

/-- When the present (or else the latest) period of being up began: the
earliest of the latest run of reports that it is up. -/
def upSince : Bool → Nat → List (Bool × Nat) → Nat
  | _, t, [] => t
  | was, t, (b, ts) :: r =>
    if b then upSince true (if was then t else ts) r else upSince false t r

/-- When it was first reported down after having been up. -/
def downSince : Bool → Nat → List (Bool × Nat) → Nat
  | _, t, [] => t
  | was, t, (b, ts) :: r =>
    if b then downSince true t r else downSince false (if was then ts else t) r

/-- Times go up, and are later than `t`. -/
def Rising : Nat → List (Bool × Nat) → Prop
  | _, [] => True
  | t, (_, ts) :: r => t < ts ∧ Rising ts r

/-! ## What has been seen of a scan -/

/-- What was seen since the latest scan began. -/
def since (out : List Out) : List Out :=
  out.foldl (fun acc o => match o with | .scan _ _ => [] | o => acc ++ [o]) []

/-- The nodes polled since the latest scan began, in order. -/
def polledOf (out : List Out) : List Id :=
  (since out).filterMap fun o => match o with | .polled i => some i | _ => none

/-- Something ended with the end of a full scan: the last thing seen after a
step from `s` to `t` is that. -/
def EndsFull (s t : S) : Prop := ∃ l, t.out = s.out ++ l ++ [.ended true]

/-! ## Histories -/

/-- The order in which a set is popped: all of it and nothing else. -/
def Picks (pick : List Id → List Id) : Prop := ∀ l x, x ∈ pick l ↔ x ∈ l

/-- What other parts of the program are relied upon for: sets are popped in
some order; the end of an attempt to connect is a reject; a poller gets no
items after it has reported; the update thread makes new entries, and while
the mapper waits for it. -/
def Ok (s : S) : Ev → Prop
  | .timeout _ _ pick => Picks pick
  | .deliver _ _ pick => Picks pick
  | .item k _ i => ∀ p, s.pollers[k]? = some p →
      p.dones = 0 ∧ (p.st = .connecting → i ≠ .disconnect)
  | .record n => s.st = .dbupdating ∧ n.it = {} ∧ n.adj = []
  | _ => True

/-- The same for a history. -/
def OkAll (c : Dec) : S → List Ev → Prop
  | _, [] => True
  | s, e :: es => Ok s e ∧ OkAll c (s.step c e) es

/-- The clock at each event, from `t` on: when the mapper's timer expires, it
is later than at every event before. -/
def Clock : Nat → List Ev → Prop
  | _, [] => True
  | t, .timeout now _ _ :: es => t < now ∧ Clock now es
  | t, .circ _ _ _ _ now :: es => Clock (max t now) es
  | t, .reach _ _ now :: es => Clock (max t now) es
  | t, _ :: es => Clock t es

/-- All times of an item are at most `t`. -/
def Item.Before (t : Nat) (i : Item) : Prop := i.seen ≤ t ∧ i.down ≤ t ∧ i.up ≤ t

/-- A map as it is after loading: entries have an object of their own, and the
times are at most `t`. -/
structure Map.Loaded (t : Nat) (m : Map) : Prop where
  refs : ∀ i r, (i, r) ∈ m.nodes → r < m.next ∧ (m.obj r).id = i
  nodup : (m.nodes.map Prod.fst).Nodup
  names : ∀ n r, (n, r) ∈ m.names → r < m.next
  times : ∀ r, (m.obj r).it.Before t
  adjs : ∀ r e, e ∈ (m.obj r).adj → e.2.Before t
  keys : ∀ r, ((m.obj r).adj.map Prod.fst).Nodup

/-- The mapper as it is started with a map (mapper.py:1182-1233). -/
def S.init (own : Id) (m : Map) : S := { own := own, m := m }

end Verif.Mapper
