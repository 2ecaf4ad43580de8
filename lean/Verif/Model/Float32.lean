import Verif.Model.Float64

/-!
numpy's float32: binary32 numbers as real numbers, and rounding to them (to nearest, ties to even). As for `Verif.Float64`, numbers too large, infinities and nan are left out.
-/

namespace Verif.Float32

/-- A real number that is a binary32 number: 24 significant bits, smallest positive number `2 ^ -149`. -/
def IsFloat (x : ℝ) : Prop := ∃ m e : ℤ, |m| < 2 ^ 24 ∧ -149 ≤ e ∧ x = m * 2 ^ e

/-- The exponent of the last place of numbers of the size of `x`. -/
noncomputable def place (x : ℝ) : ℤ := if x = 0 then -149 else max (Int.log 2 |x| - 23) (-149)

/-- The distance of neighbouring binary32 numbers of the size of `x`. -/
noncomputable def ulp (x : ℝ) : ℝ := 2 ^ place x

/-- The binary32 number nearest to `x`. -/
noncomputable def fl (x : ℝ) : ℝ := Float64.roundEven (x / ulp x) * ulp x

end Verif.Float32
