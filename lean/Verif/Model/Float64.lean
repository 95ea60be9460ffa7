import Mathlib.Data.Int.Log
import Mathlib.Algebra.Order.Floor.Semiring
import Mathlib.Data.Rat.Floor

/-!
# IEEE 754 binary64 rounding, as a function on rationals

Python floats and NumPy `float64` are binary64 numbers; `+ - * /` return the exact result rounded to the
nearest binary64 number, ties to even. Numbers are represented by the rationals they denote.

Not modelled: overflow to infinity, subnormal numbers, signed zeros. Every number in the examples is far
from both ends of the exponent range.
-/

namespace Ranx.F64

/-- nearest integer, ties to even (`np.rint`, the IEEE rounding of significands) -/
def rhe (x : ℚ) : ℤ :=
  if x - x.floor < 1 / 2 then x.floor
  else if 1 / 2 < x - x.floor then x.floor + 1
  else if x.floor % 2 = 0 then x.floor else x.floor + 1

/-- spacing of the 53-bit numbers around `x ≠ 0` -/
def ulp (x : ℚ) : ℚ := (2 : ℚ) ^ (Int.log 2 |x| - 52)

/-- nearest binary64 number, ties to even -/
def fl (x : ℚ) : ℚ := if x = 0 then 0 else (rhe (x / ulp x) : ℚ) * ulp x

/-- float `+` -/
def add (x y : ℚ) : ℚ := fl (x + y)
/-- float `-` -/
def sub (x y : ℚ) : ℚ := fl (x - y)
/-- float `*` -/
def mul (x y : ℚ) : ℚ := fl (x * y)
/-- float `/` by a non-zero number -/
def div (x y : ℚ) : ℚ := fl (x / y)

/-- Python `sum` of a sequence of NumPy floats: left to right, starting at 0 (the compensated summation of
Python 3.12 applies to exact `float`s only, not to `np.float64`) -/
def sum (l : List ℚ) : ℚ := l.foldl add 0

end Ranx.F64
