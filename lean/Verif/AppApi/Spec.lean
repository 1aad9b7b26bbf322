import Verif.AppApi.Model

/-!
# Who holds an object

From what can be seen, without the tables: a binding that was granted holds until the application fails
or goes.
-/

namespace Verif.AppApi

/-- The key is one of a binding's: number (not zero) or name (not empty; upper and lower case are the
same). -/
def names (key : Key) (num : Int) (name : Str) : Bool :=
  match key with
  | .num n => decide (n = num ∧ num ≠ 0)
  | .name m => decide (upper m = upper name ∧ name ≠ [])

/-- Who holds an object after one more event. -/
def holds (f : Key → Option Holder) (a : Act) (os : List Out) : Key → Option Holder := fun key =>
  match a, os with
  | .req k _ (.bind num name _), [.reply _ _ (.bound h)] => if names key num name then some (.app k h) else f key
  | _, [.aborted k _] =>
    match f key with
    | some (.app k' h) => if k' = k then none else some (.app k' h)
    | x => x
  | _, _ => f key

/-- A history with what was seen at each event. -/
def trace (s : State) : List Act → List (Act × List Out)
  | [] => []
  | a :: as => (a, (step s a).2) :: trace (step s a).1 as

/-- Who holds an object in the end. -/
def holder (f : Key → Option Holder) (tr : List (Act × List Out)) : Key → Option Holder :=
  tr.foldl (fun f x => holds f x.1 x.2) f

/-- The application an action comes from. -/
def Act.client : Act → Option Nat
  | .req k _ _ => some k
  | .exit k => some k
  | _ => none

/-- The application that failed or went. -/
def failed : List Out → Option Nat
  | [.aborted k _] => some k
  | _ => none

/-- After an application has failed or gone nothing comes from it any more. -/
def Silent : List (Act × List Out) → Prop
  | [] => True
  | (_, os) :: tr => (∀ k, failed os = some k → ∀ x ∈ tr, x.1.client ≠ some k) ∧ Silent tr

/-- Names in bindings are in upper case. -/
def Upper (as : List Act) : Prop :=
  ∀ k tag num name h, .req k tag (.bind num name h) ∈ as → upper name = name

/-- The objects of the configuration: numbers not zero, names in upper case and not empty. -/
def Configured (nums : List (Int × Nat)) (names : List (Str × Nat)) : Prop :=
  (∀ x ∈ nums, x.1 ≠ 0) ∧ (∀ x ∈ names, x.1 ≠ [] ∧ upper x.1 = x.1)

end Verif.AppApi
