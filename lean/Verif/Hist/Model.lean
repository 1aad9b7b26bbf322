/-!
# Histograms of the time work items take

common.py 829-863, node.py 29-48.  A sample is a time in tenths of a second, after `round`.  Left out: rounding, the mean as a
floating point number, text.
-/

namespace Verif.Hist

/-- The counter: values with how often they occurred, in the order of their first occurrence. -/
abbrev Table := List (Int × Nat)

/-- common.py:861-863. -/
def count (k : Int) : Table → Table
  | [] => [(k, 1)]
  | (x, n) :: r => if x = k then (x, n + 1) :: r else (x, n) :: count k r

/-- The counter after samples. -/
def table (l : List Int) : Table := l.foldl (fun t k => count k t) []

/-- What is shown, common.py:833-859; the mean is `sum / total`. -/
structure Stats where
  min : Int
  max : Int
  sum : Int
  total : Nat
  median : Int
deriving DecidableEq, Repr

/-- common.py:847-851. -/
def med (h : Nat) : Nat → Table → Option Int
  | _, [] => none
  | c, (k, v) :: r => if h ≤ c + v then some k else med h (c + v) r

/-- common.py:839-842. -/
def sums (t : Table) : Nat × Int := t.foldl (fun a x => (a.1 + x.2, a.2 + x.1 * x.2)) (0, 0)

/-- common.py:833-851; `none` is an exception. -/
def stats (t : Table) : Option Stats :=
  let data := t.mergeSort (fun a b => a.1 ≤ b.1)
  match data.head?, data.getLast?, med ((sums data).1 / 2) 0 data with
  | some a, some b, some m => some ⟨a.1, b.1, (sums data).2, (sums data).1, m⟩
  | _, _, _ => none

/-! ## Work items of a node -/

/-- Owner and kind of a work item, as text. -/
abbrev Key := List Nat × List Nat

/-- node.py:36-40. -/
def add (k : Key) (v : Int) : List (Key × Table) → List (Key × Table)
  | [] => [(k, count v [])]
  | (x, t) :: r => if x = k then (x, count v t) :: r else (x, t) :: add k v r

/-- After work items. -/
def work (l : List (Key × Int)) : List (Key × Table) := l.foldl (fun w e => add e.1 e.2 w) []

/-- Order of texts. -/
def leText : List Nat → List Nat → Bool
  | [], _ => true
  | _ :: _, [] => false
  | a :: x, b :: y => if a < b then true else if b < a then false else leText x y

/-- Order of tuples. -/
def leKey (a b : Key) : Bool := if a.1 = b.1 then leText a.2 b.2 else leText a.1 b.1

/-- node.py:42-48. -/
def rows (l : List (Key × Int)) : List (Key × Option Stats) :=
  ((work l).mergeSort (fun a b => leKey a.1 b.1)).map fun x => (x.1, stats x.2)

end Verif.Hist
