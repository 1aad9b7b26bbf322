import Verif.Fal.Path
import Mathlib.Data.List.Forall2

/-!
# Inside a directory

Independent of the model: where a name leads, one component at a time.
-/

namespace Verif.Fal

/-- One step from a directory (given by its components, last first): up, stay or down. -/
def walk (at' : List Str) (c : Str) : List Str :=
  if c = [] ∨ c = dot then at' else if c = up then at'.tail else c :: at'

/-- Where an absolute name leads. -/
def place (f : Str) : List Str := ((split f).foldl walk []).reverse

/-- A name for a file or directory: not empty, no slash, not `.` or `..`. -/
def Plain (c : Str) : Prop := c ≠ [] ∧ c ≠ dot ∧ c ≠ up ∧ 47 ∉ c

/-- `f` is in the directory `root` or below. -/
def Inside (root f : Str) : Prop := place root <+: place f

/-- The root: an absolute name, in normal form, without wild cards (`*`, `?`, `[`) in it. -/
structure Root (root : Str) (rc : List Str) : Prop where
  name : root = 47 :: join rc
  some : rc ≠ []
  plain : ∀ c ∈ rc, Plain c
  tame : ∀ c ∈ rc, 42 ∉ c ∧ 63 ∉ c ∧ 91 ∉ c

/-- What `glob` does: a file found has as many components as the pattern; components without wild cards
stay, those with stand for entries of directories.  And what ends in a directory name (`..`, `.`, or a slash)
is a directory. -/
structure Fs.Ok (fs : Fs) : Prop where
  glob : ∀ p f, f ∈ fs.glob p → List.Forall₂ (fun a b =>
    (42 ∉ a ∧ 63 ∉ a ∧ 91 ∉ a ∧ b = a) ∨ ((42 ∈ a ∨ 63 ∈ a ∨ 91 ∈ a) ∧ Plain b)) (split p) (split f)
  dir : ∀ p f, f ∈ fs.glob p → (split f).getLast? = some up → fs.isdir f = true

end Verif.Fal
