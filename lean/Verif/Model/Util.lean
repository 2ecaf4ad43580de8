import Mathlib.Algebra.Order.Field.Basic

/-!
Model of `nonasymptotic/util.py`. Coordinates are elements of a linearly ordered field `K` (rounding is not modelled). Rows
of the numpy batch are independent, so the model is of one row.
-/

namespace Verif.Util

variable {K : Type*} [Field K] [LinearOrder K]

/-- util.py:4-5 `cross_2d`, for one row. -/
def cross2d (v w : K × K) : K := v.1 * w.2 - v.2 * w.1

/-- util.py:8-54 `detect_intersect`, for one row. Division by zero in numpy gives inf or nan, for which at least one of the
four comparisons in lines 48-51 is false; this is the explicit branch on `crossDir = 0`. -/
def detectIntersect (s1e1 s1e2 s2e1 s2e2 : K × K) : Bool :=
  let s1Dir := s1e2 - s1e1
  let s2Dir := s2e2 - s2e1
  let crossDir := cross2d s1Dir s2Dir
  let unnormed1 := cross2d (s2e1 - s1e1) s2Dir
  let unnormed2 := cross2d (s2e1 - s1e1) s1Dir
  let isCollinear := decide (crossDir = 0) && decide (unnormed2 = 0)
  let isCleanlyIntersecting :=
    if crossDir = 0 then false
    else
      let c1 := unnormed1 / crossDir
      let c2 := unnormed2 / crossDir
      decide (0 ≤ c1) && decide (c1 ≤ 1) && decide (0 ≤ c2) && decide (c2 ≤ 1)
  isCleanlyIntersecting || isCollinear

end Verif.Util
