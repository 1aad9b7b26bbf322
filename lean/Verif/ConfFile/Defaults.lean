import Verif.ConfFile.Start

/-!
# Examples of files; entries given more than once

C126, C127.
-/

namespace Verif.ConfFile

variable {V C : Type}

theorem tame_of (env : Env V C)
    (h : ∀ p ls, env.files p = some ls → ∀ raw ∈ ls, ∀ name, strip env.ws raw = '@' :: name →
      ∀ c ∈ name, env.ws c = false) : Tame env := by
  intro p ls hf raw hm name hc
  exact h p ls hf raw hm name (strip_contains _ _ _ hc)

/-! ## An example -/

/-- White space of ASCII. -/
def ascii (c : Char) : Bool := c = ' ' || c = '\t' || c = '\n' || c = '\r'

/-- A parser of `routing x` and `node x`. -/
def demoParse (l : Str) : Parsed (Ent Str) :=
  if "routing ".toList.isPrefixOf l then .entry ⟨"routing", false, l.drop 8⟩
  else if "node ".toList.isPrefixOf l then .entry ⟨"node", true, l.drop 5⟩
  else .error

/-- Files: a table. -/
def demo (fs : List (String × List String)) : Env Str (List Str) where
  ws := ascii
  files p := (fs.find? fun x => x.1.toList = p).map fun x => x.2.map String.toList
  parse := demoParse
  add c e := if e.val ∈ c then (c, false) else (c ++ [e.val], true)
  dflt _ := []

/-- The collections and the node of what starts. -/
def shown : End (St Str (List Str)) → Option (List Str × Option Str)
  | .start s => some (s.colls, s.single "routing")
  | _ => none

def demoFiles : List (String × List String) :=
  [("/etc/dn/a.conf", ["# a node\n", "  routing 1.1\n", "\n", "node\t@names/n.dat\n", "@b.conf"]),
   ("/etc/dn/names/n.dat", ["1.2 X\n", "@m.dat\n"]), ("/etc/dn/names/m.dat", ["1.3 Y"]),
   ("/etc/dn/b.conf", ["node 1.4 Z"])]

example : Sane ascii ∧ Tame (demo demoFiles) ∧
    shown (top (demo demoFiles) [] 5 "/etc/dn/a.conf".toList) =
      some (["1.2 X".toList, "1.3 Y".toList, "1.4 Z".toList], some "1.1".toList) := by
  refine ⟨⟨by decide, by decide, by decide⟩, ?_, by decide +kernel⟩
  apply tame_of
  intro p ls hf raw hm name hs
  have key : ∀ x ∈ demoFiles, ∀ r ∈ x.2.map String.toList,
      (match strip ascii r with | '@' :: n => n.all (fun c => !ascii c) | _ => true) = true := by decide +kernel
  simp only [demo, Option.map_eq_some_iff] at hf
  obtain ⟨x, hx, rfl⟩ := hf
  have := key x (List.mem_of_find?_eq_some hx) raw hm
  have hs' : strip ascii raw = '@' :: name := hs
  rw [hs'] at this
  intro c hc
  show ascii c = false
  simpa using List.all_eq_true.mp this c hc

/-- A file that includes itself through another one. -/
example : ∀ n, top (demo [("a", ["@b"]), ("b", ["routing 1.1", "@a"])]) [] n "a".toList = .crash := by
  intro n
  apply circle_crashes _ (fun p pre => pre = none ∧ (p = "a".toList ∨ p = "b".toList))
  · rintro p pre ls ⟨rfl, rfl | rfl⟩ hf
    · have e : (demo [("a", ["@b"]), ("b", ["routing 1.1", "@a"])]).files "a".toList = some ["@b".toList] := by
        decide +kernel
      rw [e] at hf; cases hf
      exact ⟨"@b".toList, by simp, "b".toList, none, by show classify ascii none _ = _; decide +kernel,
        rfl, .inr (by decide +kernel)⟩
    · have e : (demo [("a", ["@b"]), ("b", ["routing 1.1", "@a"])]).files "b".toList =
          some ["routing 1.1".toList, "@a".toList] := by decide +kernel
      rw [e] at hf; cases hf
      exact ⟨"@a".toList, by simp, "a".toList, none, by show classify ascii none _ = _; decide +kernel,
        rfl, .inl (by decide +kernel)⟩
  · exact ⟨rfl, .inl rfl⟩

/-- **A component given twice (C126, negation).**  The text beside the definition
of components says that a component that is no collection may not be
repeated; the second is taken without a word, and all of the first is lost. -/
theorem repeated_taken : shown (top (demo [("a", ["routing 1.1 --maxhops 5", "routing 1.2"])]) [] 2 "a".toList) =
    some ([], some "1.2".toList) := by decide +kernel

/-- **White space in the name of a file (C126, negation).**  `@my file` is no
include, but `node @my file` is, and a name after a name is. -/
theorem blank_name : classify ascii none "@my file".toList = .entry "@my file".toList ∧
    classify ascii none "node @my file".toList = .incl "my file".toList (some "node".toList) ∧
    classify ascii none "@my @file".toList = .incl "file".toList (some "@my".toList) := by decide +kernel

/-! ## Entries of a collection given more than once -/

/-- What is there is there again. -/
def Again (attrs : List String) (x y : Ns) : Prop := ∀ a ∈ attrs, ∀ v, x a = some v → y a = some v

theorem Again.trans {attrs : List String} {x y z : Ns} (h1 : Again attrs x y) (h2 : Again attrs y z) :
    Again attrs x z := fun a ha v h => h2 a ha v (h1 a ha v h)

theorem conflict_iff (attrs : List String) (x y : Ns) :
    (attrs.any fun a => x a ≠ y a ∧ x a ≠ none) = false ↔ Again attrs x y := by
  rw [List.any_eq_false]
  constructor
  · intro h a ha v hv
    have := h a ha
    simp only [decide_eq_true_eq, not_and] at this
    by_cases e : x a = y a
    · rw [← e]; exact hv
    · exact absurd hv (by have := this e; intro hh; rw [hh] at this; simp at this)
  · intro h a ha
    simp only [decide_eq_true_eq, not_and]
    intro hne hn
    cases hx : x a with
    | none => exact hn hx
    | some v => exact hne (by rw [hx, h a ha v hx])

variable {K : Type} [DecidableEq K]

theorem setitem_some (attrs : List String) (d d' : K → Option Ns) (k : K) (v : Ns) :
    setitem attrs d k v = some d' ↔ (∀ p, d k = some p → Again attrs p v) ∧
      d' = fun k' => if k' = k then some v else d k' := by
  unfold setitem
  cases h : d k with
  | none => simp [eq_comm]
  | some p =>
    dsimp only
    cases hc : attrs.any fun a => p a ≠ v a ∧ p a ≠ none with
    | true =>
      have : ¬ Again attrs p v := fun hh => by
        rw [(conflict_iff attrs p v).mpr hh] at hc; exact absurd hc (by simp)
      simp [this]
    | false =>
      have := (conflict_iff attrs p v).mp hc
      simp [this, eq_comm]

/-- The last entry for a key. -/
def lastFor (k : K) : List (K × Ns) → Option Ns
  | [] => none
  | x :: r =>
    match lastFor k r with
    | some v => some v
    | none => if x.1 = k then some x.2 else none

theorem collect_some (attrs : List String) (dflt : Ns) (l : List (K × Ns)) (d d' : K → Option Ns) :
    collect attrs dflt d l = some d' ↔
      (∀ x ∈ l, ∀ p, d x.1 = some p → Again attrs p (fill dflt x.2)) ∧
      l.Pairwise (fun x y => x.1 = y.1 → Again attrs (fill dflt x.2) (fill dflt y.2)) ∧
      ∀ k, d' k = match lastFor k l with
        | some g => some (fill dflt g)
        | none => d k := by
  induction l generalizing d with
  | nil =>
    simp only [collect, Option.some.injEq, lastFor]
    constructor
    · rintro rfl; exact ⟨by simp, .nil, fun _ => rfl⟩
    · rintro ⟨_, _, h⟩; exact (funext h).symm
  | cons x r ih =>
    obtain ⟨k, g⟩ := x
    simp only [collect, Option.bind_eq_some_iff]
    constructor
    · rintro ⟨d1, h1, h2⟩
      obtain ⟨h3, rfl⟩ := (setitem_some _ _ _ _ _).mp h1
      obtain ⟨h4, h5, h6⟩ := (ih _).mp h2
      refine ⟨?_, ?_, ?_⟩
      · intro x hx p hp
        rcases List.mem_cons.mp hx with rfl | hx
        · exact h3 p hp
        · by_cases hk : x.1 = k
          · exact (h3 p (by rw [← hk]; exact hp)).trans (h4 x hx _ (by simp [hk]))
          · exact h4 x hx p (by simp [hk, hp])
      · refine List.pairwise_cons.mpr ⟨fun y hy e => ?_, h5⟩
        exact h4 y hy _ (by simp at e; simp [e])
      · intro k'
        rw [h6, lastFor]
        cases lastFor k' r with
        | some v => rfl
        | none =>
          dsimp only
          by_cases e : k' = k
          · subst e; simp
          · simp [e, Ne.symm e]
    · rintro ⟨h1, h2, h3⟩
      obtain ⟨h4, h5⟩ := List.pairwise_cons.mp h2
      refine ⟨_, (setitem_some _ _ _ _ _).mpr ⟨fun p hp => h1 (k, g) (by simp) p hp, rfl⟩, (ih _).mpr ⟨?_, h5, ?_⟩⟩
      · intro x hx p hp
        by_cases e : x.1 = k
        · simp [e] at hp; subst hp; exact h4 x hx e.symm
        · simp [e] at hp; exact h1 x (by simp [hx]) p hp
      · intro k'
        rw [h3, lastFor]
        cases lastFor k' r with
        | some v => rfl
        | none =>
          dsimp only
          by_cases e : k' = k
          · subst e; simp
          · simp [e, Ne.symm e]

/-- **Given more than once (C127).**  For switches that have no default: a list
of entries of any length is taken exactly if whatever one gives, every later
one of the same name gives again with the same value, so that a later one can
add what earlier ones omitted; and of every name the last entry is kept. -/
theorem again_partial (attrs : List String) (dflt : Ns) (hd : ∀ a ∈ attrs, dflt a = none)
    (l : List (K × Ns)) :
    ((collect attrs dflt (fun _ => none) l).isSome ↔
      l.Pairwise fun x y => x.1 = y.1 → ∀ a ∈ attrs, ∀ v, x.2 a = some v → y.2 a = some v) ∧
    ∀ d, collect attrs dflt (fun _ => none) l = some d →
      ∀ k a, a ∈ attrs → (d k).map (· a) = (lastFor k l).map (· a) := by
  have hf : ∀ (g : Ns) a, a ∈ attrs → fill dflt g a = g a := by
    intro g a ha
    unfold fill
    cases h : g a with
    | some v => rfl
    | none => exact hd a ha
  have he : ∀ x y : Ns, Again attrs (fill dflt x) (fill dflt y) ↔ ∀ a ∈ attrs, ∀ v, x a = some v → y a = some v := by
    intro x y
    unfold Again
    constructor
    · intro h a ha v hv; rw [← hf y a ha]; exact h a ha v (by rw [hf x a ha]; exact hv)
    · intro h a ha v hv; rw [hf y a ha]; exact h a ha v (by rw [← hf x a ha]; exact hv)
  constructor
  · rw [Option.isSome_iff_exists]
    constructor
    · rintro ⟨d, h⟩
      exact ((collect_some _ _ _ _ _).mp h).2.1.imp fun h e => (he _ _).mp (h e)
    · intro h
      exact ⟨_, (collect_some attrs dflt l _ (fun k => match lastFor k l with
        | some g => some (fill dflt g)
        | none => none)).mpr ⟨by simp, h.imp fun h e => (he _ _).mpr (h e), fun _ => rfl⟩⟩
  · intro d h k a ha
    rw [((collect_some _ _ _ _ _).mp h).2.2 k]
    cases lastFor k l with
    | none => rfl
    | some g => simp [hf g a ha]

/-- A node with its verification added later, as in the description. -/
example : let l : List (String × Ns) := [("TEST", fun a => if a = "id" then some 1026 else none),
      ("OTHER", fun a => if a = "id" then some 1027 else none),
      ("TEST", fun a => if a = "id" then some 1026 else if a = "inbound_verification" then some 7 else none)]
    (collect ["id", "outbound_verification", "inbound_verification"] (fun _ => none) (fun _ => none) l).isSome ∧
    (collect ["id", "outbound_verification", "inbound_verification"] (fun _ => none) (fun _ => none)
      (l ++ [("TEST", fun a => if a = "id" then some 1026 else none)])).isNone := by decide +kernel

/-- **Switches with a default (C127, negation).**  If a switch has a default,
an entry that gives another value after one that omitted it is a conflict,
although the description lets a later entry add what was omitted; and one
that omits it after the default was given is none. -/
theorem default_conflicts (attrs : List String) (dflt : Ns) (a : String) (ha : a ∈ attrs) (v w : Nat)
    (hd : dflt a = some v) (hw : w ≠ v) (k : K) (g : Ns) (hg : g a = none) :
    collect attrs dflt (fun _ => none) [(k, g), (k, fun b => if b = a then some w else g b)] = none ∧
    (collect attrs dflt (fun _ => none) [(k, fun b => if b = a then some v else g b), (k, g)]).isSome := by
  constructor
  · cases h : collect attrs dflt (fun _ => none) [(k, g), (k, fun b => if b = a then some w else g b)] with
    | none => rfl
    | some d =>
      exfalso
      have h2 := ((collect_some _ _ _ _ _).mp h).2.1
      have h3 := (List.pairwise_cons.mp h2).1 (k, fun b => if b = a then some w else g b) (by simp) rfl a ha v
        (by simp [fill, hg, hd])
      simp [fill] at h3
      exact hw h3
  · rw [Option.isSome_iff_exists]
    refine ⟨_, (collect_some attrs dflt _ _ (fun k' => match lastFor k' _ with
        | some g => some (fill dflt g)
        | none => none)).mpr ⟨by simp, ?_, fun _ => rfl⟩⟩
    refine List.pairwise_cons.mpr ⟨?_, by simp⟩
    intro y hy _ b hb u hu
    simp only [List.mem_singleton] at hy
    subst hy
    by_cases e : b = a
    · subst e
      simp [fill] at hu; subst hu
      simp [fill, hg, hd]
    · simp [fill, e] at hu ⊢; exact hu

/-- Attributes of a circuit with their defaults (config.py:190-279), names and texts as numbers. -/
def circuitDefault : Ns := fun a =>
  if a = "cost" then some 4 else if a = "qmax" then some 7 else if a = "nr" then some 10
  else if a = "priority" then some 64
  else if a ∈ ["ipv4", "ipv6", "verify", "mop", "ip", "phase_5", "phase_1", "single_address", "random_address"]
  then some 0 else none

/-- `circuit eth-0 Ethernet` and then `circuit eth-0 Ethernet --cost 3`. -/
example : collect ["type", "device", "cost", "latency", "t1", "t3", "qmax", "nr", "priority", "verify"] circuitDefault
    (fun _ => none) [("ETH-0", fun a => if a = "type" then some 1 else none),
      ("ETH-0", fun a => if a = "cost" then some 3 else if a = "type" then some 1 else none)] = none :=
  (default_conflicts _ _ "cost" (by decide) 4 3 (by decide) (by decide) "ETH-0"
    (fun a => if a = "type" then some 1 else none) (by decide)).1

end Verif.ConfFile
