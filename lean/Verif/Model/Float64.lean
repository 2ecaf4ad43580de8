import Mathlib.Data.Int.Log
import Mathlib.Algebra.Order.Archimedean.Real.Basic
import Mathlib.Algebra.Order.Floor.Ring

/-!
Python's floats (numpy's float64): binary64 numbers as real numbers, and the rounding of the arithmetic operations (to nearest, ties to even).
Numbers too large for binary64, infinities and nan are left out: the exponent is bounded from below only.
-/

namespace Verif.Float64

/-- A real number that is a float: 53 significant bits, smallest positive number `2 ^ -1074`. -/
def IsFloat (x : ℝ) : Prop := ∃ m e : ℤ, |m| < 2 ^ 53 ∧ -1074 ≤ e ∧ x = m * 2 ^ e

/-- The exponent of the last place of numbers of the size of `x`. -/
noncomputable def place (x : ℝ) : ℤ := if x = 0 then -1074 else max (Int.log 2 |x| - 52) (-1074)

/-- The distance of neighbouring floats of the size of `x`. -/
noncomputable def ulp (x : ℝ) : ℝ := 2 ^ place x

/-- The nearest integer, the even one of two. -/
noncomputable def roundEven (x : ℝ) : ℤ :=
  if Int.fract x < 1 / 2 then ⌊x⌋ else if 1 / 2 < Int.fract x then ⌊x⌋ + 1 else if ⌊x⌋ % 2 = 0 then ⌊x⌋ else ⌊x⌋ + 1

/-- The float that an operation with the exact result `x` returns. -/
noncomputable def fl (x : ℝ) : ℝ := roundEven (x / ulp x) * ulp x

end Verif.Float64
