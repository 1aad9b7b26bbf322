/-!
# Model of `decnet/modulo.py`

A value of a `Mod` subclass is the pair of its class modulus `m` and the plain integer.
Results that the code returns as `NotImplemented` (for comparisons Python then tries the
reflected operation, which is `NotImplemented` in exactly the same cases, and raises
`TypeError`) are `none`.
-/
namespace Verif.Modulo

/-- `classdict["undef"]`, modulo.py 19-26: `None` for an odd modulus, half the modulus if even. -/
def undef (m : Int) : Option Int := if m % 2 = 1 then none else some (m / 2)

/-- `classdict["maxdelta"]`, modulo.py 19-26. -/
def maxdelta (m : Int) : Int := if m % 2 = 1 then m / 2 else m / 2 - 1

/-- `Mod.__new__`, modulo.py 51-57; `none` is `OverflowError`. -/
def new (m v : Int) : Option Int := if 0 ≤ v ∧ v < m then some v else none

/-- `Mod.__lt__` on two values of the same class, modulo.py 62-70. -/
def lt (m a b : Int) : Option Bool :=
  let delta := (b - a) % m
  if some delta = undef m then none
  else some (decide (0 < delta ∧ delta ≤ maxdelta m))

/-- `Mod.__le__`, modulo.py 72-80. -/
def le (m a b : Int) : Option Bool :=
  let delta := (b - a) % m
  if some delta = undef m then none
  else some (decide (delta ≤ maxdelta m))

/-- `Mod.__gt__`, modulo.py 82-90. -/
def gt (m a b : Int) : Option Bool :=
  let delta := (a - b) % m
  if some delta = undef m then none
  else some (decide (0 < delta ∧ delta ≤ maxdelta m))

/-- `Mod.__ge__`, modulo.py 92-100. -/
def ge (m a b : Int) : Option Bool :=
  let delta := (a - b) % m
  if some delta = undef m then none
  else some (decide (delta ≤ maxdelta m))

/-- `Mod.__eq__` is inherited from `int`. -/
def eq (a b : Int) : Bool := decide (a = b)

/-- `Mod.__add__`, modulo.py 102-103: the constructor is applied to the reduced value. -/
def add (m a b : Int) : Option Int := new m ((a + b) % m)
/-- `Mod.__sub__`, modulo.py 105-106. -/
def sub (m a b : Int) : Option Int := new m ((a - b) % m)
/-- `Mod.__mul__`, modulo.py 108-109. -/
def mul (m a b : Int) : Option Int := new m ((a * b) % m)

end Verif.Modulo
