/-!
# The device of a framer (`decnet/ddcmp.py`)

`DEVICE:MODE` or `DEVICE:MODE:SPEED`, ddcmp.py:1438-1476.  Every refusal is ValueError.  Characters other than A to Z are
left as they are by `lower`; Python changes others too, but no name of a mode has any.  `int` is a parameter.  The rest of
the constructor is left out.
-/

namespace Verif.FramerDev

abbrev Str := List Char

/-- `str.split (":")`. -/
def split : Str → List Str
  | [] => [[]]
  | c :: r =>
    if c = ':' then [] :: split r
    else match split r with
      | [] => [[c]]
      | p :: ps => (c :: p) :: ps

/-- A mode: its name, code and whether it loops. -/
structure Mode where
  name : Str
  code : Nat
  loop : Nat
deriving DecidableEq, Repr

/-- `FRAMER_MODES`, ddcmp.py:1431-1436, with the codes of 1423-1425. -/
def modes : List Mode :=
  [⟨"rs232_dte".toList, 0, 0⟩, ⟨"rs232_dce".toList, 2, 0⟩, ⟨"integral".toList, 1, 0⟩, ⟨"coax".toList, 1, 0⟩,
    ⟨"loopback".toList, 1, 1⟩]

/-- The loop over the modes, ddcmp.py:1464-1472; `none` is the exception for an ambiguous one. -/
def scan (m : Str) : List Mode → Option (Nat × Nat) → Option (Option (Nat × Nat))
  | [], acc => some acc
  | x :: r, acc =>
    if m.isPrefixOf x.name then
      match acc with
      | some _ => none
      | none => scan m r (some (x.code, x.loop))
    else scan m r acc

/-- ddcmp.py:1463-1474. -/
def resolve (mode : Str) : Option (Nat × Nat) :=
  match scan (mode.map Char.toLower) modes none with
  | some (some x) => some x
  | _ => none

/-- What the constructor settles: the interface, the two addresses, mode, loop, speed. -/
structure Dev (A : Type) where
  dev : Str
  addr : A
  mode : Nat
  loop : Nat
  speed : Int

/-- ddcmp.py:1446-1459: `fs` are the framers found, by interface. -/
def find {A : Type} (fs : List (Str × A)) (d : Str) : Option (Str × A) :=
  if d = ['*'] then
    match fs with
    | [x] => some x
    | _ => none
  else fs.find? fun x => x.1 = d

/-- ddcmp.py:1460-1462. -/
def speed (int : Str → Option Int) : List Str → Option Int
  | [] => some 0
  | s :: _ => int s

/-- ddcmp.py:1443-1476. -/
def make {A : Type} (int : Str → Option Int) (fs : List (Str × A)) (device : Str) : Option (Dev A) :=
  match split device with
  | d :: m :: rest =>
    if rest.length > 1 then none
    else match find fs d, speed int rest, resolve m with
      | some x, some v, some y => some ⟨x.1, x.2, y.1, y.2, if y.2 ≠ 0 ∧ v = 0 then 1000000 else v⟩
      | _, _, _ => none
  | _ => none

end Verif.FramerDev
