import Mathlib.Analysis.SpecialFunctions.Sqrt

/-!
Model of the tolerance that the straight-line trial hands to the completeness check (run_straight_line_optimality_trial.py:98-100). Floats
are real numbers, `none` is `nan`.
-/

namespace Verif.Exps

/-- The formula (straight_line:100). -/
noncomputable def epsilonTol (y : ℝ) : ℝ := (1 - Real.sqrt (2 * y ^ 2 - y ^ 4)) / (y ^ 2 - 1)

/-- The tolerance for a radius and a positive clearance (straight_line:98-100): `np.sqrt` of a negative number is `nan`; with a normed radius
of 1 there is a division of 0 by 0. -/
noncomputable def lineTolerance (rad clearance : ℝ) : Option ℝ :=
  let normed := rad / 2 / clearance
  if 2 * normed ^ 2 - normed ^ 4 < 0 ∨ normed ^ 2 - 1 = 0 then none else some (epsilonTol normed)

end Verif.Exps
