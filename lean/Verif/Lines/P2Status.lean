import Verif.Lines.P2Props
import Verif.Lines.Props

/-!
# Status of the executor and of lines in requests of Phase II

nicepackets.py 1801-1834 and 1893-1916 (the replies), packet.py 137-200 (texts, reserved fields), 968-984 and 1006-1064;
node.py 477-481, nsp.py 491-494, routing.py 358-364, 572-578 and 642-653; route_eth.py 239-248, route_ptp.py 1029-1052;
modules/nml.py 155-181.

Left out: identifications of lines other than code 1 in a reply, which this package does not send; attributes of a reply that
are not in its layout; loop nodes.
-/

namespace Verif.Lines.P2

/-! ## The executor -/

/-- What the layers know: name and number of the node, version of Routing and of NSP, and the identification, which may be
configured (config.py:405-406) without limit. -/
structure Exec where
  name : Str
  tid : Nat
  rver : Bytes
  nver : Bytes
  ident : Str
deriving DecidableEq, Repr

/-- A text with its length before it, packet.py:140-146; `none` is an exception. -/
def encA (max : Nat) (s : Str) : Option Bytes :=
  if s.length ≤ max ∧ ∀ c ∈ s, c ≤ 255 then some (s.length :: s) else none

/-- The reply, nicepackets.py:1823-1834, with node.py:477-481, nsp.py:491-494, routing.py:572-578. -/
def execStatus (e : Exec) : Option Bytes :=
  match encA 6 e.name, encA 40 e.ident with
  | some a, some s => some (1 :: a ++ [min e.tid 255, 0, 0, 0, 0] ++ e.rver ++ e.nver ++ s)
  | _, _ => none

/-- What a client reads. -/
structure ExecRead where
  name : Str
  id : Nat
  state : Nat
  defhost : Str
  rver : Bytes
  nver : Bytes
  system : Str
deriving DecidableEq, Repr

/-- packet.py:148-160. -/
def takeA (max : Nat) : Bytes → Option (Str × Bytes)
  | [] => none
  | n :: r => if n ≤ max ∧ n ≤ r.length then some (r.take n, r.drop n) else none

/-- packet.py:968-984 and 1048-1064 with that layout. -/
def readExec : Bytes → Option ExecRead
  | 1 :: r =>
    match takeA 6 r with
    | some (name, id :: st :: _ :: _ :: r) =>
      match takeA 6 r with
      | some (host, a :: b :: c :: d :: e :: f :: r) =>
        match takeA 40 r with
        | some (sys, []) => some ⟨name, id, st, host, [a, b, c], [d, e, f], sys⟩
        | _ => none
      | _ => none
    | _ => none
  | _ => none

/-! ## Lines -/

/-- The neighbour that is shown: none; one with a name (for a LAN, the designated router); one whose number is zero, for
which there is no entry of a node, so that its name raises an exception (route_ptp.py:128-136 and 1043). -/
inductive Far where
  | nobody
  | named (s : Str)
  | noAddress
deriving DecidableEq, Repr

/-- A circuit of Routing. -/
structure SLine where
  name : Str
  far : Far
deriving DecidableEq, Repr

/-- `p2id` of the circuit at place `n`, routing.py:363. -/
def idOf (names : List Str) (n : Nat) : Option Bytes :=
  (names[n]?).bind fun s => lineId s (table (names.take n)).length

/-- The circuits with their identifications. -/
def places (ls : List SLine) : List (Option Bytes × SLine) :=
  ls.zipIdx.map fun x => (idOf (ls.map (·.name)) x.2, x.1)

/-- The replies, route_eth.py:239-248, route_ptp.py:1037-1052: identification and name of the neighbour; `none` is an
exception. -/
def collect : List (Option Bytes × SLine) → Option (List (Bytes × Str))
  | [] => some []
  | x :: r =>
    match x.1, x.2.far, collect r with
    | some k, .nobody, some l => some ((k, []) :: l)
    | some k, .named s, some l => some ((k, s) :: l)
    | _, _, _ => none

/-- nicepackets.py:1893-1916. -/
def statusRec (x : Bytes × Str) : Option Bytes := (encA 6 x.2).map fun a => 5 :: x.1 ++ [0, 0, 0] ++ a

/-- modules/nml.py:178-180: the replies, up to an exception. -/
def sendAll : List (Bytes × Str) → List Bytes × Bool
  | [] => ([], false)
  | x :: r =>
    match statusRec x with
    | none => ([], true)
    | some b => (b :: (sendAll r).1, (sendAll r).2)

/-- The answer: an exception before anything is sent; or a count and records, perhaps ended by an exception. -/
inductive SAns where
  | abort
  | recs (count : Nat) (rs : List Bytes) (broken : Bool)
deriving DecidableEq, Repr

/-- routing.py:642-653, modules/nml.py:156-181. -/
def status (ls : List SLine) (id : Bytes) : SAns :=
  let found := if id.head? = some 0 then (places ls).mergeSort (fun a b => before a.2.name b.2.name)
    else match (table (ls.map (·.name))).find? (fun x => x.1 = id) with
      | none => []
      | some x => (places ls).filter fun l => l.2.name = x.2
  if found = [] then .abort
  else match collect found with
    | none => .abort
    | some l => .recs l.length (sendAll l).1 (sendAll l).2

/-- What a client reads from a record. -/
def readStatus : Bytes → Option (Bytes × Nat × Str)
  | 5 :: 1 :: d :: c :: u :: z :: st :: _ :: _ :: r =>
    match takeA 6 r with
    | some (s, []) => some ([1, d, c, u, z], st, s)
    | _ => none
  | _ => none

/-! ## Proofs: the executor -/

theorem encA_some {max : Nat} {s : Str} {b : Bytes} (h : encA max s = some b) :
    s.length ≤ max ∧ (∀ c ∈ s, c ≤ 255) ∧ b = s.length :: s := by
  unfold encA at h
  split at h
  · next hc => injection h with h; exact ⟨hc.1, hc.2, h.symm⟩
  · cases h

theorem takeA_enc {max : Nat} (s : Str) (r : Bytes) (h : s.length ≤ max) :
    takeA max (s.length :: (s ++ r)) = some (s, r) := by
  show (if s.length ≤ max ∧ s.length ≤ (s ++ r).length then
    some ((s ++ r).take s.length, (s ++ r).drop s.length) else none) = some (s, r)
  rw [if_pos ⟨h, by simp⟩]
  simp

/-- A text for a field of the length. -/
def Text (max : Nat) (s : Str) : Prop := s.length ≤ max ∧ ∀ c ∈ s, c ≤ 255

/-! ## Proofs: lines -/

theorem distinct_take {names : List Str} (h : Distinct names) (n : Nat) : Distinct (names.take n) :=
  ⟨h.std.sublist (List.take_sublist n names), fun a ha => h.dte a (List.mem_of_mem_take ha), by
    have := h.few
    simp only [List.length_take]
    omega⟩

theorem idOf_lineId {names : List Str} (h : Distinct names) {n : Nat} {s : Str} (hs : names[n]? = some s) :
    idOf names n = lineId s n := by
  unfold idOf
  rw [hs]
  have hlt : n < names.length := (List.getElem?_eq_some_iff.1 hs).1
  show lineId s (table (names.take n)).length = _
  rw [(table_spec _ (distinct_take h n)).1, List.length_take]
  congr 1
  omega

theorem lineId_shape {s : Str} {n : Nat} (hn : n ≤ 255) : ∃ d c u, lineId s n = some [1, d, c, u, 0] := by
  unfold lineId
  cases h : standard s with
  | none => exact ⟨20, 0, n, by simp [hn]⟩
  | some b =>
    obtain ⟨d, c, u, rfl, _⟩ := standard_shape h
    exact ⟨d, c, u, rfl⟩

/-- The name shown for a neighbour. -/
def Far.shown : Far → Str
  | .named s => s
  | _ => []

/-- The neighbour has an address, and a name of at most six characters. -/
def Far.Ok (f : Far) : Prop := f ≠ .noAddress ∧ Text 6 f.shown

theorem readStatus_rec {d c u : Nat} {s : Str} (h : Text 6 s) :
    ∃ b, statusRec ([1, d, c, u, 0], s) = some b ∧ readStatus b = some ([1, d, c, u, 0], 0, s) := by
  have e1 : encA 6 s = some (s.length :: s) := if_pos h
  unfold statusRec
  simp only [e1, Option.map_some]
  refine ⟨_, rfl, ?_⟩
  have hA := takeA_enc (max := 6) s [] h.1
  rw [List.append_nil] at hA
  simp only [List.cons_append, List.nil_append]
  unfold readStatus
  simp only [hA]

/-- A record about a line. -/
def Shows (k : Bytes) (l : SLine) (b : Bytes) : Prop := readStatus b = some (k, 0, l.far.shown)

theorem collect_ok : ∀ ps : List (Option Bytes × SLine),
    (∀ p ∈ ps, p.2.far.Ok ∧ ∃ d c u, p.1 = some [1, d, c, u, 0]) →
    ∃ l, collect ps = some l ∧ l.length = ps.length ∧ (sendAll l).2 = false ∧
      List.Forall₂ (fun (p : Option Bytes × SLine) b => ∃ k, p.1 = some k ∧ Shows k p.2 b) ps (sendAll l).1
  | [], _ => ⟨[], rfl, rfl, rfl, .nil⟩
  | p :: ps, h => by
    obtain ⟨l, h1, h2, h3, h4⟩ := collect_ok ps (fun x hx => h x (by simp [hx]))
    obtain ⟨ok, d, c, u, hk⟩ := h p (by simp)
    obtain ⟨b, hb, hr⟩ := readStatus_rec (d := d) (c := c) (u := u) ok.2
    refine ⟨([1, d, c, u, 0], p.2.far.shown) :: l, ?_, by simp [h2], ?_, ?_⟩
    · unfold collect
      rw [hk, h1]
      cases hf : p.2.far with
      | nobody => rfl
      | named s => rfl
      | noAddress => exact absurd hf ok.1
    · unfold sendAll
      simp only [hb, h3]
    · unfold sendAll
      simp only [hb]
      exact .cons ⟨_, hk, hr⟩ h4

theorem map_fst_zipIdx' {α : Type} (l : List α) : l.zipIdx.map Prod.fst = l := by
  apply List.ext_getElem?
  intro n
  simp only [List.getElem?_map, List.getElem?_zipIdx]
  cases l[n]? <;> rfl

theorem places_get {ls : List SLine} {n : Nat} {l : SLine} (h : ls[n]? = some l) :
    (places ls)[n]? = some (idOf (ls.map (·.name)) n, l) := by
  unfold places
  simp [List.getElem?_map, List.getElem?_zipIdx, h]

theorem mem_places {ls : List SLine} {p : Option Bytes × SLine} (h : p ∈ places ls) :
    ∃ n, ls[n]? = some p.2 ∧ p.1 = idOf (ls.map (·.name)) n := by
  obtain ⟨n, hn⟩ := List.mem_iff_getElem?.1 h
  have hlt : n < ls.length := by
    have := (List.getElem?_eq_some_iff.1 hn).1
    simpa [places] using this
  have hg := places_get (ls := ls) (n := n) (l := ls[n]) (by simp [hlt])
  rw [hn] at hg
  injection hg with hg
  exact ⟨n, by simp [hlt, hg], by rw [hg]⟩

theorem places_ok {ls : List SLine} (hd : Distinct (ls.map (·.name))) (ho : ∀ l ∈ ls, l.far.Ok)
    {p : Option Bytes × SLine} (h : p ∈ places ls) :
    p.2.far.Ok ∧ (∃ d c u, p.1 = some [1, d, c, u, 0]) ∧ ∃ n, ls[n]? = some p.2 ∧ p.1 = lineId p.2.name n := by
  obtain ⟨n, h1, h2⟩ := mem_places h
  have hlt : n < ls.length := (List.getElem?_eq_some_iff.1 h1).1
  have hfew := hd.few
  simp only [List.length_map] at hfew
  have e := idOf_lineId hd (n := n) (s := p.2.name) (by simp [h1])
  rw [e] at h2
  refine ⟨ho _ (List.mem_of_getElem? h1), ?_, n, h1, h2⟩
  obtain ⟨d, c, u, hs⟩ := lineId_shape (s := p.2.name) (n := n) (by omega)
  exact ⟨d, c, u, h2.trans hs⟩

theorem collect_none {ps : List (Option Bytes × SLine)} {p : Option Bytes × SLine} (hp : p ∈ ps)
    (hf : p.2.far = .noAddress) : collect ps = none := by
  induction ps with
  | nil => cases hp
  | cons x r ih =>
    unfold collect
    rcases List.mem_cons.1 hp with rfl | h
    · rw [hf]; cases p.1 <;> cases collect r <;> rfl
    · rw [ih h]; cases x.1 <;> cases x.2.far <;> rfl

end Verif.Lines.P2
