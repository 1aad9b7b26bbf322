import Verif.ConfFile.Model

/-!
# What `doc/config.txt` says about the files

The text of the files put together: `Reads env p pre es` says that the file
`p`, every line prefixed by `pre`, comes down to the entries `es`.
-/

namespace Verif.ConfFile

variable {V C : Type}

/-- White space at neither end, not empty. -/
def Bare (ws : Char → Bool) (l : Str) : Prop :=
  (∃ c, l.head? = some c ∧ ws c = false) ∧ ∃ c, l.getLast? = some c ∧ ws c = false

/-- A line is some white space, its contents, some white space. -/
def Contains (ws : Char → Bool) (raw l : Str) : Prop :=
  Bare ws l ∧ ∃ a b : Str, raw = a ++ l ++ b ∧ (∀ c ∈ a, ws c = true) ∧ ∀ c ∈ b, ws c = true

/-- Without white space. -/
def Word (ws : Char → Bool) (l : Str) : Prop := l ≠ [] ∧ ∀ c ∈ l, ws c = false

mutual
/-- The file. -/
inductive Reads (env : Env V C) : Str → Option Str → List Str → Prop where
  | file (p : Str) (pre : Option Str) (ls es : List Str) :
    env.files p = some ls → ReadsL env p pre ls es → Reads env p pre es
/-- Lines of the file `p`. -/
inductive ReadsL (env : Env V C) : Str → Option Str → List Str → List Str → Prop where
  | nil (p : Str) (pre : Option Str) : ReadsL env p pre [] []
  /-- "blank lines are ignored" -/
  | blank (p : Str) (pre : Option Str) (raw : Str) (ls es : List Str) :
    (∀ c ∈ raw, env.ws c = true) → ReadsL env p pre ls es → ReadsL env p pre (raw :: ls) es
  /-- "Comment lines have a #" -/
  | comment (p : Str) (pre : Option Str) (raw text : Str) (ls es : List Str) :
    Contains env.ws raw ('#' :: text) → ReadsL env p pre ls es → ReadsL env p pre (raw :: ls) es
  /-- "Lines beginning with @ are include file references", here in a file without prefix -/
  | incl (p raw name : Str) (ls es es' : List Str) :
    Contains env.ws raw ('@' :: name) → Word env.ws name →
    Reads env (join (dirname p) name) none es → ReadsL env p none ls es' →
    ReadsL env p none (raw :: ls) (es ++ es')
  /-- the same in a file with a prefix: the prefix stays -/
  | inclIn (p comp raw name : Str) (ls es es' : List Str) :
    Contains env.ws raw ('@' :: name) → name ≠ [] →
    Reads env (join (dirname p) name) (some comp) es → ReadsL env p (some comp) ls es' →
    ReadsL env p (some comp) (raw :: ls) (es ++ es')
  /-- "component @filename" -/
  | comp (p raw comp gap name : Str) (ls es es' : List Str) :
    Contains env.ws raw (comp ++ gap ++ '@' :: name) → Word env.ws comp → comp.head? ≠ some '@' →
    comp.head? ≠ some '#' → (gap ≠ [] ∧ ∀ c ∈ gap, env.ws c = true) → name ≠ [] →
    Reads env (join (dirname p) name) (some comp) es → ReadsL env p none ls es' →
    ReadsL env p none (raw :: ls) (es ++ es')
  /-- any other line without prefix: an entry, the second word of which does not start by @
and more -/
  | entry (p raw l : Str) (ls es : List Str) :
    Contains env.ws raw l → l.head? ≠ some '#' → (l.head? ≠ some '@' ∨ l = ['@']) →
    (∀ w gap r, l = w ++ gap ++ '@' :: r → Word env.ws w → gap ≠ [] → r ≠ [] →
      ¬ ∀ c ∈ gap, env.ws c = true) →
    ReadsL env p none ls es → ReadsL env p none (raw :: ls) (l :: es)
  /-- any other line with prefix -/
  | entryIn (p comp raw l : Str) (ls es : List Str) :
    Contains env.ws raw l → l.head? ≠ some '#' → (l.head? ≠ some '@' ∨ l = ['@']) →
    ReadsL env p (some comp) ls es →
    ReadsL env p (some comp) (raw :: ls) ((comp ++ ' ' :: l) :: es)
end

/-- White space as usual: a blank, and neither `@` nor `#`. -/
structure Sane (ws : Char → Bool) : Prop where
  blank : ws ' ' = true
  at_ : ws '@' = false
  hash : ws '#' = false

/-- No line asks for a file with white space in its name. -/
def Tame (env : Env V C) : Prop :=
  ∀ p ls, env.files p = some ls → ∀ raw ∈ ls, ∀ name, Contains env.ws raw ('@' :: name) →
    ∀ c ∈ name, env.ws c = false

/-- The entries in order: the state after them and the lines reported;
nothing when an exception is raised. -/
def follow (env : Env V C) : List Str → St V C → List Str → Option (St V C × List Str)
  | [], s, bad => some (s, bad)
  | l :: es, s, bad =>
    match env.parse l with
    | .raise => none
    | .error => follow env es s (bad ++ [l])
    | .entry e =>
      if (put env s e).2 then follow env es (put env s e).1 bad
      else follow env es (put env s e).1 (bad ++ [l])

end Verif.ConfFile
