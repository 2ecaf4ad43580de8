import Mathlib.Data.EReal.Operations
import Verif.Model.Bound

/-!
Model of the effective-connection-radius part of `nonasymptotic/bound.py` (lines 174-314). Sample counts are natural
numbers, neighbour counts and radii are reals. Values that numpy represents as `-inf`/`inf` are `⊥`/`⊤` of `EReal`.
-/

namespace Verif.Bound

/-- bound.py:184-185, 207-208: `compute_vol_unit_sphere(dim) / vol_env * conn_rad ** dim`. -/
noncomputable def ballFraction (rad : ℝ) (dim : ℕ) (volEnv : ℝ) : ℝ :=
  volUnitSphere dim / volEnv * rad ^ dim

/-- bound.py:174-194 `compute_tail_knn_radius_log_prob_hoeffding`. For `m = 1` Python divides by zero; the theorems ask
for `m ≥ 2`. -/
noncomputable def tailHoeffding (m : ℕ) (k rad : ℝ) (dim : ℕ) (volEnv : ℝ) : ℝ :=
  let p := ballFraction rad dim volEnv
  let tail := k / ((m : ℝ) - 1) - p
  let tail := max tail 0
  Real.log m - 2 * ((m : ℝ) - 1) * tail ^ 2

/-- bound.py:197-216 `compute_tail_knn_radius_log_prob_hoeffding_mean_variant`. For `m = 1` or `conn_rad = 0` Python
divides by zero; the theorems exclude that. -/
noncomputable def tailHoeffdingMean (m : ℕ) (k rad : ℝ) (dim : ℕ) (volEnv : ℝ) : ℝ :=
  let p := ballFraction rad dim volEnv
  let tail := k / ((m : ℝ) - 1) / p - 1
  let tail := max tail 0
  Real.log m - 2 * ((m : ℝ) - 1) * tail ^ 2 / p ^ 2

/-- bound.py:219-235 `compute_tail_knn_radius_log_prob_chernoff_generic`, for `k > 0`. `np.log(0)` is `-inf`, which makes
the whole expression `-inf`. -/
noncomputable def tailChernoff (m : ℕ) (k rad : ℝ) (dim : ℕ) (volEnv : ℝ) : EReal :=
  let p := min (ballFraction rad dim volEnv) 1
  let mu := ((m : ℝ) - 1) * p
  if mu = 0 then ⊥
  else ((Real.log m - mu + k * (1 + Real.log mu - Real.log k) : ℝ) : EReal)

/-- scipy.special.rel_entr, the summand of scipy.stats.entropy (used at bound.py:258, 260). -/
noncomputable def relEntr (x y : ℝ) : EReal :=
  if 0 < x ∧ 0 < y then ((x * Real.log (x / y) : ℝ) : EReal)
  else if x = 0 ∧ 0 ≤ y then 0
  else ⊤

/-- scipy.stats.entropy of two two-point distributions (bound.py:258, 260). Both arrays that the code passes sum to one,
so scipy's normalisation is the identity and is left out. -/
noncomputable def entropy2 (x p : ℝ) : EReal :=
  relEntr x p + relEntr (1 - x) (1 - p)

/-- bound.py:238-262 `compute_tail_knn_radius_log_prob_chernoff_kl`; `union` is `enable_union_bound_factor`. -/
noncomputable def tailKL (m : ℕ) (k rad : ℝ) (dim : ℕ) (volEnv : ℝ) (union : Bool := true) : EReal :=
  let p := min (ballFraction rad dim volEnv) 1
  let tail := max (k / m - p) 0
  let ent := entropy2 (p + tail) p
  if union then ((Real.log m : ℝ) : EReal) - ent * (((m : ℝ) - 1 : ℝ) : EReal)
  else -(ent * (((m : ℝ) - 1 : ℝ) : EReal))

/-- bound.py:275-290, one pass of the loop of `halving_radius_search_over_log_prob_bound` over `(rad_lb, rad_ub)`; `g` is
`radius_to_log_prob`, `L` is `log_failure_prob`. -/
noncomputable def halvingBody {β : Type*} [LinearOrder β] (g : ℝ → β) (L : β) (tol : ℝ) (s : ℝ × ℝ) :
    Step (ℝ × ℝ) (Except PyErr ℝ) :=
  let lb := s.1
  let ub := s.2
  if ub - lb ≤ tol then .done (.ok lb)
  else if ub < lb then .done (.error .arithmetic)
  else
    let test := (lb + ub) / 2
    let testGamma := g test
    let nextGamma := g (test - tol / 2)
    if testGamma ≤ nextGamma ∨ L < testGamma then .next (lb, test) else .next (test, ub)

/-- bound.py:265-290 `halving_radius_search_over_log_prob_bound`. -/
noncomputable def halvingRadiusSearch {β : Type*} [LinearOrder β] (g : ℝ → β) (L : β) (lb ub tol : ℝ) (fuel : ℕ) :
    Option (Except PyErr ℝ) :=
  if lb < ub then loop (halvingBody g L tol) fuel (lb, ub) else some (.error .assertion)

/-- bound.py:265-290 with the `success_prob` argument and a numpy-valued bound (`⊥` is `-inf`): line 272-273 compute
`np.log(1 - success_prob)`. For `success_prob ≥ 1` that is `-inf` or nan; the theorems ask for `success_prob < 1`. -/
noncomputable def halvingRadiusSearchProb (g : ℝ → EReal) (lb ub successProb tol : ℝ) (fuel : ℕ) :
    Option (Except PyErr ℝ) :=
  halvingRadiusSearch g ((Real.log (1 - successProb) : ℝ) : EReal) lb ub tol fuel

/-- bound.py:292-299 `compute_eff_conn_rad_bound` for `m ≥ 2`. `math.pow` raises ValueError for a negative base unless
the exponent `1/dim` is an integer, that is for `dim ≠ 1`. -/
noncomputable def effConnRadBound (m : ℕ) (k : ℝ) (dim : ℕ) (volEnv failureProb : ℝ) : Except PyErr ℝ :=
  let measure := min (volUnitSphere dim / volEnv) 1
  let numer := k - Real.sqrt (2 * k * (Real.log m - Real.log failureProb))
  let denom := ((m : ℝ) - 1) * measure
  if numer / denom < 0 ∧ dim ≠ 1 then .error .value
  else .ok ((numer / denom) ^ (1 / (dim : ℝ)))

/-- bound.py:308-314, one pass of the loop of `linear_radius_search_over_prob_bound`; the loop variable is `rad`. -/
noncomputable def linearBody {β : Type*} [LinearOrder β] (g : ℝ → β) (failureProb : β) (ub tol : ℝ) (rad : ℝ) :
    Step ℝ (Except PyErr ℝ) :=
  if ub < rad then .done (.error .arithmetic)
  else
    let testGamma := g (rad + tol)
    if failureProb < testGamma then .done (.ok rad) else .next rad

/-- bound.py:301-314 `linear_radius_search_over_prob_bound`. -/
noncomputable def linearRadiusSearch {β : Type*} [LinearOrder β] (g : ℝ → β) (failureProb : β) (lb ub tol : ℝ)
    (fuel : ℕ) : Option (Except PyErr ℝ) :=
  loop (linearBody g failureProb ub tol) fuel lb

end Verif.Bound
