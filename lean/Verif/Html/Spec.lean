import Verif.Html.Model

/-!
# What a reader of a page sees: opening and closing tags

A reader of HTML, one character at a time: text is skipped, `<` starts a tag,
`>` ends it; a tag opens an element, closes the innermost one or (`br`,
`meta`, `link`) stands alone.  Closing anything but the innermost element is an
error.  Quotation marks are not looked at: no attribute used here has a `>`.
-/

namespace Verif.Html

/-- Where the reader is: the tag read so far backwards, the elements open
(innermost first), all elements opened until now in order. -/
structure Rd where
  acc : Option Str
  open_ : List Str
  seen : List Str
  deriving DecidableEq, Repr

/-- Elements without end. -/
def void (n : Str) : Bool := n = "br".toList || n = "meta".toList || n = "link".toList

/-- A whole tag, without the brackets. -/
def tag (t : Str) (stk seen : List Str) : Option Rd :=
  match t with
  | '/' :: n =>
    match stk with
    | [] => none
    | m :: r => if m = n then some ⟨none, r, seen⟩ else none
  | t =>
    let n := t.takeWhile (· ≠ ' ')
    if void n then some ⟨none, stk, seen⟩ else some ⟨none, n :: stk, seen ++ [n]⟩

/-- One character. -/
def step (c : Char) (r : Rd) : Option Rd :=
  match r.acc with
  | none => if c = '<' then some { r with acc := some [] } else some r
  | some a => if c = '>' then tag a.reverse r.open_ r.seen else some { r with acc := some (c :: a) }

/-- A whole text. -/
def read : Str → Rd → Option Rd
  | [], r => some r
  | c :: t, r => (step c r).bind (read t)

/-- A text without markup. -/
def noTag (s : Str) : Prop := '<' ∉ s
/-- An attribute that does not end its tag. -/
def noEnd (s : Str) : Prop := '>' ∉ s
instance (s : Str) : Decidable (noTag s) := inferInstanceAs (Decidable ('<' ∉ s))
instance (s : Str) : Decidable (noEnd s) := inferInstanceAs (Decidable ('>' ∉ s))

/-- Nothing open, nothing seen. -/
def fresh : Rd := ⟨none, [], []⟩

end Verif.Html
