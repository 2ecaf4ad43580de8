import Verif.Model.Py
import Verif.Model.Float64

/-! The radius search of bound.py with the rounding of its arithmetic. -/

namespace Verif.Bound

open Verif.Float64

/-- bound.py:275-290, one pass of the loop of `halving_radius_search_over_log_prob_bound` over `(rad_lb, rad_ub)`, in floats; `g` is
`radius_to_log_prob`, `L` is `log_failure_prob`. (`Model/Tails.lean` has it in exact arithmetic.) -/
noncomputable def halvingBodyFloat {β : Type*} [LinearOrder β] (g : ℝ → β) (L : β) (tol : ℝ) (s : ℝ × ℝ) : Step (ℝ × ℝ) (Except PyErr ℝ) :=
  let lb := s.1
  let ub := s.2
  if fl (ub - lb) ≤ tol then .done (.ok lb)
  else if ub < lb then .done (.error .arithmetic)
  else
    let test := fl (fl (lb + ub) / 2)
    let testGamma := g test
    let nextGamma := g (fl (test - fl (tol / 2)))
    if testGamma ≤ nextGamma ∨ L < testGamma then .next (lb, test) else .next (test, ub)

/-- bound.py:265-290 `halving_radius_search_over_log_prob_bound` in floats. -/
noncomputable def halvingRadiusSearchFloat {β : Type*} [LinearOrder β] (g : ℝ → β) (L : β) (lb ub tol : ℝ) (fuel : ℕ) : Option (Except PyErr ℝ) :=
  if lb < ub then loop (halvingBodyFloat g L tol) fuel (lb, ub) else some (.error .assertion)

end Verif.Bound
