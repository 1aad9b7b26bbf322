/-!
# File names of the file access listener

Model of `applyroot` and of the choice of files in `files`, `pydecnet/decnet/applications/fal.py` 33-40,
53-100, with `os.path.normpath`, `abspath`, `join` of POSIX Python and what is used of `glob`.

A file name is a list of character codes.  The file system is the environment: which names are directories
and what `glob` finds.  Symbolic links are not followed here: the theorems are about names.
-/

namespace Verif.Fal

abbrev Str := List Nat

/-- `s.split ("/")`. -/
def split : Str → List Str
  | [] => [[]]
  | c :: s =>
    if c = 47 then [] :: split s
    else match split s with
      | h :: t => (c :: h) :: t
      | [] => [[c]]

/-- `"/".join (cs)`. -/
def join : List Str → Str
  | [] => []
  | [c] => c
  | c :: d :: cs => c ++ 47 :: join (d :: cs)

/-- `.` and `..`. -/
def dot : Str := [46]
def up : Str := [46, 46]

/-- One component in `posixpath.normpath`; `st` is `new_comps` in reverse order, `k` the number of initial
slashes. -/
def push (k : Nat) (st : List Str) (c : Str) : List Str :=
  if c = [] ∨ c = dot then st
  else if c ≠ up ∨ (k = 0 ∧ st = []) ∨ st.head? = some up then c :: st
  else st.tail

/-- The number of initial slashes that are kept. -/
def slashes (s : Str) : Nat :=
  match s with
  | 47 :: 47 :: 47 :: _ => 1
  | 47 :: 47 :: _ => 2
  | 47 :: _ => 1
  | _ => 0

/-- The components that are left. -/
def comps (s : Str) : List Str := ((split s).foldl (push (slashes s)) []).reverse

/-- `os.path.normpath`. -/
def normpath (s : Str) : Str :=
  let r := List.replicate (slashes s) 47 ++ join (comps s)
  if r = [] then dot else r

/-- `while s.startswith (".."): s = s[3:]`, fal.py 37-38. -/
def stripUp : Str → Str
  | 46 :: 46 :: _ :: s => stripUp s
  | [46, 46] => []
  | s => s

/-- `applyroot`, fal.py 35-41, when there is a root (an absolute name, so that `abspath` is `normpath`). -/
def applyroot (root s : Str) : Str := normpath (normpath (root ++ 47 :: stripUp (normpath s)))

/-- `if pn.endswith (x): pn = pn[:-len (x)]`. -/
def cut (x pn : Str) : Str := if x.isSuffixOf pn then pn.take (pn.length - x.length) else pn

/-- The file system, as far as the names go. -/
structure Fs where
  isdir : Str → Bool
  glob : Str → List Str

/-- `os.path.join (pn, "*")`. -/
def joinStar (pn : Str) : Str := if [47].isSuffixOf pn then pn ++ [42] else pn ++ [47, 42]

/-- The pattern, fal.py 65-73. -/
def pattern (fs : Fs) (root : Str) (dirop : Bool) (spec : Str) : Str :=
  let pn := cut [42, 46, 42] (cut [59, 42] (applyroot root spec))
  if dirop && fs.isdir pn then joinStar pn else pn

/-- The files described (for a directory request) or opened, fal.py 73-103: what `glob` finds, less
directories if they are to be opened.  Left out: files that vanish or cannot be read, which are skipped. -/
def chosen (fs : Fs) (root : Str) (dirop : Bool) (spec : Str) : List Str :=
  (fs.glob (pattern fs root dirop spec)).filter fun f => dirop || !fs.isdir f

end Verif.Fal
