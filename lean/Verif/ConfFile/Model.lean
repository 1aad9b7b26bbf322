/-!
# Model of reading the configuration: `Config.scanconfig`

`/repo/pydecnet/decnet/config.py`.  Left to the environment: which characters are white
space, the contents of files, what `shlex.split` and `argparse` make of a line
(an entry, an error, or an exception of `shlex`), and how a collection takes an
entry.  The depth of the Python stack is a number.
-/

namespace Verif.ConfFile

abbrev Str := List Char

/-- What becomes of one line at `configparser.parse_args (shlex.split (l))` (config.py:532). -/
inductive Parsed (E : Type) where
  | entry (e : E)
  | error
  | raise

/-- An entry: the component, whether it is kept in a collection (config.py:174), its value. -/
structure Ent (V : Type) where
  attr : String
  coll : Bool
  val : V
  deriving DecidableEq

/-- The environment. -/
structure Env (V C : Type) where
  ws : Char → Bool
  files : Str → Option (List Str)
  parse : Str → Parsed (Ent V)
  /-- `c.add (p)`: the collection afterwards, and whether there was no conflict (config.py:541-545). -/
  add : C → Ent V → C × Bool
  /-- What `nsp`, `session` and `system` are without a line (config.py:503-506). -/
  dflt : String → V

/-- The `Config` object: its collections, its single elements. -/
structure St (V C : Type) where
  colls : C
  single : String → Option V

/-- How a scan ends: the stack overflowed, another exception, or done with
the lines reported as errors; `ok` is that there are none. -/
inductive Out (S : Type) where
  | deep
  | raise
  | done (s : S) (bad : List Str)

variable {V C : Type}

/-- `str.strip ()` (config.py:512). -/
def strip (ws : Char → Bool) (l : Str) : Str :=
  ((l.dropWhile ws).reverse.dropWhile ws).reverse

/-- `os.path.dirname` (posixpath of the Python library). -/
def dirname (p : Str) : Str :=
  let head := (p.reverse.dropWhile (· ≠ '/')).reverse
  if head.all (· = '/') then head else (head.reverse.dropWhile (· = '/')).reverse

/-- `os.path.join` of two names (posixpath of the Python library). -/
def join (a b : Str) : Str :=
  if b.head? = some '/' then b
  else if a = [] ∨ a.getLast? = some '/' then a ++ b
  else a ++ '/' :: b

/-- What a line asks for. -/
inductive Kind where
  | skip
  | incl (name : Str) (pre : Option Str)
  | entry (l : Str)
  deriving DecidableEq

/-- config.py:515-516. -/
def prefixed (pre : Option Str) (l : Str) : Str :=
  match pre with
  | none => l
  | some p => p ++ ' ' :: l

/-- config.py:517-527: `l.split (None, 1)` of a line without white space around it. -/
def kindOf (ws : Char → Bool) (l : Str) : Kind :=
  let entity := l.takeWhile (fun c => !ws c)
  let rest := (l.dropWhile (fun c => !ws c)).dropWhile ws
  match rest with
  | '@' :: ifn => if ifn = [] then .entry l else .incl ifn (some entity)
  | [] =>
    match l with
    | '@' :: ifn => if ifn = [] then .entry l else .incl ifn none
    | _ => .entry l
  | _ => .entry l

/-- config.py:512-527.  `if not l or l.startswith ("#")` comes before the prefix.
An empty prefix does not occur. -/
def classify (ws : Char → Bool) (pre : Option Str) (raw : Str) : Kind :=
  let l := strip ws raw
  if l = [] ∨ l.head? = some '#' then .skip else kindOf ws (prefixed pre l)

/-- config.py:538-547. -/
def put (env : Env V C) (s : St V C) (e : Ent V) : St V C × Bool :=
  if e.coll then
    let r := env.add s.colls e
    ({ s with colls := r.1 }, r.2)
  else ({ s with single := fun a => if a = e.attr then some e.val else s.single a }, true)

/-- config.py:532-547: one entry. -/
def entry (env : Env V C) (l : Str) (s : St V C) (bad : List Str) : Out (St V C) :=
  match env.parse l with
  | .raise => .raise
  | .error => .done s (bad ++ [l])
  | .entry e =>
    let r := put env s e
    .done r.1 (if r.2 then bad else bad ++ [l])

/-- config.py:511-547: the lines of one file; `rec` reads another file (config.py:529-531). -/
def lines (env : Env V C) (rec : Str → Option Str → St V C → List Str → Out (St V C)) (p : Str)
    (pre : Option Str) : List Str → St V C → List Str → Out (St V C)
  | [], s, bad => .done s bad
  | l :: ls, s, bad =>
    match classify env.ws pre l with
    | .skip => lines env rec p pre ls s bad
    | .incl name pre' =>
      match rec (join (dirname p) name) pre' s bad with
      | .done s' bad' => lines env rec p pre ls s' bad'
      | o => o
    | .entry l =>
      match entry env l s bad with
      | .done s' bad' => lines env rec p pre ls s' bad'
      | o => o

/-- config.py:509-548, 569 `scanconfig` of a file to be opened (config.py:530), with
that much room on the stack. -/
def scan (env : Env V C) : Nat → Str → Option Str → St V C → List Str → Out (St V C)
  | 0, _, _, _, _ => .deep
  | n + 1, p, pre, s, bad =>
    match env.files p with
    | none => .raise
    | some ls => lines env (scan env n) p pre ls s bad

/-- What becomes of the program. -/
inductive End (S : Type) where
  | crash
  | exit
  | start (s : S)

/-- config.py:499-506: collections empty, defaults for what needs no argument. -/
def init (env : Env V C) (c : C) : St V C :=
  ⟨c, fun a => if a = "nsp" ∨ a = "session" ∨ a = "system" then some (env.dflt a) else none⟩

/-- config.py:486-507, 549-568 for one top level file. -/
def top (env : Env V C) (c : C) (depth : Nat) (p : Str) : End (St V C) :=
  match scan env depth p none (init env c) [] with
  | .deep => .crash
  | .raise => .crash
  | .done s bad =>
    if bad ≠ [] then .exit
    else if ["nsp", "session", "system"].any fun a => (s.single a).isNone then .exit
    else
      let n := (s.single "bridge").isSome.toNat + (s.single "routing").isSome.toNat +
        ((s.single "http").isSome || (s.single "api").isSome).toNat
      if n ≠ 1 then .exit else .start s

/-! ## Collections with defaults: `checkdict` -/

/-- A namespace: the value of every attribute. -/
abbrev Ns := String → Option Nat

/-- What `argparse` makes of the switches given: the others get their defaults. -/
def fill (dflt given : Ns) : Ns := fun a =>
  match given a with
  | some v => some v
  | none => dflt a

/-- config.py:90-105: `none` is a conflict. -/
def setitem {K : Type} [DecidableEq K] (attrs : List String) (d : K → Option Ns) (k : K) (v : Ns) :
    Option (K → Option Ns) :=
  match d k with
  | some prev =>
    if attrs.any fun a => prev a ≠ v a ∧ prev a ≠ none then none
    else some fun k' => if k' = k then some v else d k'
  | none => some fun k' => if k' = k then some v else d k'

/-- The entries of a collection one after the other; `none` is that some of them was reported. -/
def collect {K : Type} [DecidableEq K] (attrs : List String) (dflt : Ns) (d : K → Option Ns) :
    List (K × Ns) → Option (K → Option Ns)
  | [] => some d
  | (k, g) :: r => (setitem attrs d k (fill dflt g)).bind fun d => collect attrs dflt d r

end Verif.ConfFile
