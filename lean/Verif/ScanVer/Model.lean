/-!
# Verification for the console carrier (`decnet/common.py`)

`scan_ver`, common.py:655-668, used for the configuration (config.py:212) and for requests to the API (mop.py:884).
Characters are numbers.  `int (s, 16)` is a parameter: a number, or ValueError.
-/

namespace Verif.ScanVer

abbrev Str := List Nat

inductive Err where
  | value
  | overflow
deriving DecidableEq, Repr

/-- `s.lower ().startswith ("0x")`, common.py:659. -/
def isHex : Str → Bool
  | 48 :: c :: _ => c = 120 || c = 88
  | _ => false

/-- `n.to_bytes (k, "big")`, without the test for overflow. -/
def toBig : Nat → Nat → List Nat
  | 0, _ => []
  | k + 1, n => toBig k (n / 256) ++ [n % 256]

/-- `s.encode ("latin-1", "ignore")`, common.py:662. -/
def latin (s : Str) : List Nat := s.filter fun c => c < 256

/-- common.py:655-668. -/
def scanVer (int16 : Str → Option Nat) (s : Str) : Except Err (List Nat) :=
  if isHex s then
    match int16 s with
    | none => .error .value
    | some n => if n < 256 ^ 8 then .ok (toBig 8 n) else .error .overflow
  else if 8 < (latin s).length then .error .value
  else .ok (latin s ++ List.replicate (8 - (latin s).length) 0)

end Verif.ScanVer
