/-!
# Keywords that may be abbreviated

Model of `pydecnet/decnet/i3dict.py`.  Characters are changed from one case to the other if they are letters of ASCII;
others are left alone.
-/

namespace Verif.Ncp

abbrev Str := List Char

/-- `str.lower` for a character. -/
def low (c : Char) : Char := if 'A' ≤ c ∧ c ≤ 'Z' then Char.ofNat (c.toNat + 32) else c

/-- `str.upper` for a character. -/
def up (c : Char) : Char := if 'a' ≤ c ∧ c ≤ 'z' then Char.ofNat (c.toNat - 32) else c

/-- `str.lower`. -/
def lower (s : Str) : Str := s.map low

/-- `str.upper`. -/
def upper (s : Str) : Str := s.map up

/-- The dictionary below an `i3dict`, in the order of insertion: the first three letters, the whole keyword and the
value, i3dict.py 49-51. -/
abbrev I3 (α : Type) := List (Str × Str × α)

variable {α : Type}

/-- The dictionary method `__setitem__`. -/
def rawSet (d : I3 α) (k : Str) (v : Str × α) : I3 α :=
  if d.any (fun p => p.1 == k) then d.map fun p => if p.1 == k then (k, v) else p else d ++ [(k, v)]

/-- `__setitem__`, i3dict.py 49-51. -/
def I3.set (d : I3 α) (key : Str) (v : α) : I3 α := rawSet d ((lower key).take 3) (lower key, v)

/-- `__getitem__`, i3dict.py 39-47; none for `KeyError`. -/
def I3.get (d : I3 α) (key : Str) : Option α :=
  match d.find? fun p => p.1 == (lower key).take 3 with
  | none => none
  | some p => if (lower key).isPrefixOf p.2.1 then some p.2.2 else none

/-- `__contains__`, i3dict.py 25-30. -/
def I3.contains (d : I3 α) (key : Str) : Bool := (d.get key).isSome

/-- `__delitem__`, i3dict.py 32-37; none for `KeyError`.  The key in the call of the base class is cut before it is made
lower case. -/
def I3.del (d : I3 α) (key : Str) : Option (I3 α) :=
  match d.get key with
  | none => none
  | some _ => some (d.filter fun p => p.1 != lower (key.take 3))

/-- `__init__`, i3dict.py 14-23. -/
def I3.ofList (l : List (Str × α)) : I3 α := l.foldl (fun d p => d.set p.1 p.2) []

/-- `keys`, i3dict.py 62-64. -/
def I3.keys (d : I3 α) : List Str := d.map fun p => p.2.1

/-- `values`, i3dict.py 66-68. -/
def I3.values (d : I3 α) : List α := d.map fun p => p.2.2

/-- `setdefault`, i3dict.py 78-80: it uses a name that does not exist, whatever the arguments; none for `NameError`. -/
def I3.setdefault (_ : I3 α) (_ : Str) (_ : α) : Option (α × I3 α) := none

/-- `i3eq` for a token, i3dict.py 84-85. -/
def i3eq1 (a b : Str) : Bool := (lower a).isPrefixOf b

/-- `i3eq` for lists, i3dict.py 86-91. -/
def i3eq (a b : List Str) : Bool :=
  if a.length < b.length then false else (a.zip b).all fun p => i3eq1 p.1 p.2

/-- What is done to a dictionary. -/
inductive Act (α : Type) where
  | set (key : Str) (v : α)
  | del (key : Str)

/-- A dictionary after one action; a `KeyError` leaves it as it is. -/
def I3.act (d : I3 α) : Act α → I3 α
  | .set k v => I3.set d k v
  | .del k => (I3.del d k).getD d

/-- A dictionary after a history. -/
def I3.run (acts : List (Act α)) : I3 α := acts.foldl I3.act []

end Verif.Ncp
