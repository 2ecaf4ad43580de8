import Verif.Model.Bound
import Verif.Model.Float64

/-!
`compute_numerical_bound` of `nonasymptotic/bound.py` in float arithmetic: `rd` rounds the result of each operation (`Float64.fl` for
binary64), and the functions that IEEE 754 does not fix are parameters. Sums of binomial coefficients are Python ints and stay exact.
-/

namespace Verif.Bound

/-- Functions of C's libm, CPython and SciPy whose results are not the exact ones rounded: `math.log2` of a float (bound.py:97) and of an int
(bound.py:60), the power operator (bound.py:10, 20, 33, 149, 151), `scipy.special.gamma` (bound.py:10), and the constant `np.pi`. -/
structure Libm where
  log2 : ℝ → ℝ
  log2Int : ℕ → ℝ
  pow : ℝ → ℝ → ℝ
  gamma : ℝ → ℝ
  pi : ℝ

/-- A library without errors; with `rd = id` it turns the definitions of this file into those of `Model/Bound.lean`. -/
noncomputable def Libm.exact : Libm := ⟨Real.logb 2, fun k => Real.logb 2 k, fun x y => x ^ y, Real.Gamma, Real.pi⟩

/-- A library that returns the exact results rounded by `rd`. -/
noncomputable def Libm.rounded (rd : ℝ → ℝ) : Libm :=
  ⟨fun x => rd (Real.logb 2 x), fun k => rd (Real.logb 2 k), fun x y => rd (x ^ y), fun x => rd (Real.Gamma x), rd Real.pi⟩

/-- bound.py:9-10 `compute_vol_unit_sphere`. `dim / 2` and `dim / 2 + 1` are exact. -/
noncomputable def volUnitSphereR (rd : ℝ → ℝ) (lib : Libm) (dim : ℕ) : ℝ :=
  rd (lib.pow lib.pi ((dim : ℝ) / 2) / lib.gamma ((dim : ℝ) / 2 + 1))

/-- bound.py:20 and bound.py:149: `tol / np.sqrt(1 + tol ** 2) if tol is not None else 1.0`. -/
noncomputable def alphaR (rd : ℝ → ℝ) (lib : Libm) (tol : Option ℝ) : ℝ :=
  match tol with
  | some t => rd (t / rd (Real.sqrt (rd (1 + lib.pow t 2))))
  | none => 1

/-- bound.py:13-21 `compute_epsilon_net_radius`. -/
noncomputable def epsilonNetRadiusR (rd : ℝ → ℝ) (lib : Libm) (clearance : ℝ) (tol : Option ℝ) : ℝ :=
  rd (alphaR rd lib tol * clearance)

/-- bound.py:24-33 `compute_rho`. -/
noncomputable def rhoR (rd : ℝ → ℝ) (lib : Libm) (clearance : ℝ) (tol : Option ℝ) (dim : ℕ) (volEnv : ℝ) : ℝ :=
  rd (rd (volUnitSphereR rd lib dim / volEnv) * lib.pow (epsilonNetRadiusR rd lib clearance tol) dim)

/-- bound.py:44-61 `compute_sauer_shelah_bound_log2`. The int `m` is converted to a float in the product; the sum is evaluated from left to
right. -/
noncomputable def sauerShelahLog2R (rd : ℝ → ℝ) (lib : Libm) (m : ℕ) (ρ : ℝ) (vc : ℕ) : ℝ :=
  rd (rd (lib.log2Int (ssCombSum m vc) + rd (rd (-ρ * rd m) / 2)) + 1)

/-- bound.py:149-151: the connection radius. `np.sqrt` of a negative number would be nan; the model has 0 there. -/
noncomputable def connRadiusR (rd : ℝ → ℝ) (lib : Libm) (clearance : ℝ) (tol : Option ℝ) : ℝ :=
  let a := alphaR rd lib tol
  rd (rd (2 * rd (a + rd (Real.sqrt (rd (1 - lib.pow a 2))))) * clearance)

/-- bound.py:136-162 `compute_numerical_bound` with the search of bound.py:87-133 (`log_failure_prob` is bound.py:97); `none` means that the
search is still running after `fuel` passes per loop. -/
noncomputable def numericalBoundR (rd : ℝ → ℝ) (lib : Libm) (clearance successProb volume : ℝ) (dim : ℕ) (tol : Option ℝ) (fuel : ℕ) :
    Option (Except PyErr (ℕ × ℝ)) :=
  if successProb ≤ 0 ∨ 1 ≤ successProb then some (.error .arithmetic)
  else
    let ρ := rhoR rd lib clearance tol dim volume
    let vc := dim + 1
    match doublingSampleSearch (fun m => sauerShelahLog2R rd lib m ρ vc) (lib.log2 (rd (1 - successProb))) fuel with
    | none => none
    | some (.error e) => some (.error e)
    | some (.ok n) => some (.ok (n, connRadiusR rd lib clearance tol))

end Verif.Bound
