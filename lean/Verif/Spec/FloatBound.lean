import Verif.Model.FloatBound
import Verif.Spec.Bound

/-! What is assumed of the functions of libm and SciPy, and the quantities in which the claims about `compute_numerical_bound` in floats are
stated. -/

namespace Verif.Spec

open Verif.Bound Verif.Float64 Finset

/-- The library's results have relative error at most `μ`: the logarithm of positive floats and of positive ints, powers of positive numbers
unless they underflow, the gamma function from 1 on, and the constant pi. -/
structure Accurate (lib : Libm) (μ : ℝ) : Prop where
  log2 : ∀ x, IsFloat x → 0 < x → |lib.log2 x - Real.logb 2 x| ≤ μ * |Real.logb 2 x|
  log2Int : ∀ k : ℕ, 0 < k → |lib.log2Int k - Real.logb 2 k| ≤ μ * |Real.logb 2 k|
  pow : ∀ x y, 0 < x → 0 ≤ y → 2 ^ (-1000 : ℤ) ≤ x ^ y → |lib.pow x y - x ^ y| ≤ μ * x ^ y
  gamma : ∀ x, 1 ≤ x → |lib.gamma x - Real.Gamma x| ≤ μ * Real.Gamma x
  pi : |lib.pi - Real.pi| ≤ μ * Real.pi

/-- The size, in bits, of what the search compares at the count `m`: the logarithm of twice the number of subsets of `2m` points with at most
`vc` elements, and the bits of the failure probability `1 - p`. -/
noncomputable def bits (m vc : ℕ) (p : ℝ) : ℝ :=
  Real.logb 2 (∑ i ∈ range (vc + 1), (Nat.choose (2 * m) i : ℝ)) + 1 - Real.logb 2 (1 - p)

/-- Positive numbers `x` and `y` differ by at most `k` factors of `1 + 2μ`. -/
def Within (μ : ℝ) (k : ℝ) (x y : ℝ) : Prop := 0 < x ∧ 0 < y ∧ x ≤ (1 + 2 * μ) ^ k * y ∧ y ≤ (1 + 2 * μ) ^ k * x

/-- None of the exact values of the intermediate results of `compute_rho` is near the range where floats lose precision. -/
structure NoUnderflow (clearance vol : ℝ) (dim : ℕ) (tol : Option ℝ) : Prop where
  sphere : 2 ^ (-900 : ℤ) ≤ volUnitSphere dim
  measure : 2 ^ (-900 : ℤ) ≤ volUnitSphere dim / vol
  stretch : ∀ t, tol = some t → 2 ^ (-400 : ℤ) ≤ t
  radius : 2 ^ (-900 : ℤ) ≤ netRadius clearance tol
  power : 2 ^ (-900 : ℤ) ≤ netRadius clearance tol ^ dim
  rho : 2 ^ (-900 : ℤ) ≤ netMeasure clearance tol dim vol

/-- The exponent of the factor by which the failure probability may exceed `1 - p`, for a clearance `δ'` slightly below the one that the function
was called with. -/
noncomputable def slack (μ : ℝ) (dim : ℕ) (δ δ' p : ℝ) (N : ℕ) : ℝ :=
  ((1 + (15 * dim + 18) * μ) * (δ / δ') ^ dim - 1 + 27 * μ) * bits N (dim + 1) p

end Verif.Spec
