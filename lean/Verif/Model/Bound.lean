import Mathlib.Analysis.SpecialFunctions.Log.Base
import Mathlib.Analysis.SpecialFunctions.Gamma.Basic
import Mathlib.Analysis.SpecialFunctions.Sqrt
import Mathlib.Data.Nat.Choose.Sum
import Verif.Model.Py

/-!
Model of `nonasymptotic/bound.py`. Floats are modelled as real numbers, except for the midpoint `int((lb + ub) / 2)`
of the sample search, whose binary64 rounding is modelled exactly.
-/

namespace Verif.Bound

open Finset

/-! ### Sample search -/

/-- `n / 2^s` rounded to the nearest integer, ties to even. Part of the model of the int/int true division at
bound.py:121. -/
def roundHalfEven (n s : ℕ) : ℕ :=
  let q := n / 2 ^ s
  let r := n % 2 ^ s
  if 2 * r < 2 ^ s then q
  else if 2 ^ s < 2 * r then q + 1
  else if q % 2 = 0 then q else q + 1

/-- bound.py:121 `int(n / 2)` for a nonnegative Python int `n`: true division gives the binary64 number nearest to
`n/2` (53 significant bits, ties to even), `int` truncates. Below `2^53` the quotient is exact. The exponent range of
binary64 is not modelled: the search raises before `n` gets near `2^1024`. -/
def pyHalf (n : ℕ) : ℕ :=
  if n < 2 ^ 53 then n / 2
  else
    let s := Nat.log2 n - 52
    roundHalfEven n s * 2 ^ s / 2

/-- bound.py:101-112, one pass of the doubling loop; `f` is `samples_to_log2_prob`, `L` is `log_failure_prob`. Leaving
the loop by `break` is `.ok ub`. The literal `1e300` is taken as `10^300`; no power of two lies between `10^300` and the
binary64 number nearest to it. -/
def doublingBody {α : Type*} [LinearOrder α] (f : ℕ → α) (L : α) (ub : ℕ) : Step ℕ (Except PyErr ℕ) :=
  let cand := f ub
  let next := f (ub + 1)
  if cand ≤ L ∧ next ≤ cand then .done (.ok ub)
  else
    let ub' := ub * 2
    if 10 ^ 300 < ub' then .done (.error .overflow) else .next ub'

/-- bound.py:115-133, one pass of the bisection loop over `(m_samples_lb, m_samples_ub)`. -/
def bisectBody {α : Type*} [LinearOrder α] (f : ℕ → α) (L : α) (s : ℕ × ℕ) : Step (ℕ × ℕ) (Except PyErr ℕ) :=
  let lb := s.1
  let ub := s.2
  if ub = lb + 1 then .done (.ok ub)
  else if ub ≤ lb then .done (.error .arithmetic)
  else
    let test := pyHalf (lb + ub)
    let cand := f test
    let next := f (test + 1)
    if L < cand ∨ cand < next then .next (test, ub) else .next (lb, test)

/-- bound.py:87-133 `doubling_sample_search_over_log2_prob_bound`, with `L = math.log2(1 - success_prob)`; each loop
gets `fuel` passes and `none` means that one of them is still running. -/
def doublingSampleSearch {α : Type*} [LinearOrder α] (f : ℕ → α) (L : α) (fuel : ℕ) : Option (Except PyErr ℕ) :=
  match loop (doublingBody f L) fuel 2 with
  | none => none
  | some (.error e) => some (.error e)
  | some (.ok ub) => loop (bisectBody f L) fuel (1, ub)

/-! ### Closed formulas -/

/-- bound.py:9-10 `compute_vol_unit_sphere`. -/
noncomputable def volUnitSphere (dim : ℕ) : ℝ :=
  Real.pi ^ ((dim : ℝ) / 2) / Real.Gamma ((dim : ℝ) / 2 + 1)

/-- bound.py:20 and bound.py:149: the factor `alpha`; `tol = None` is `none`. -/
noncomputable def alpha (tol : Option ℝ) : ℝ :=
  match tol with
  | some t => t / Real.sqrt (1 + t ^ 2)
  | none => 1

/-- bound.py:13-21 `compute_epsilon_net_radius`. -/
noncomputable def epsilonNetRadius (clearance : ℝ) (tol : Option ℝ) : ℝ :=
  alpha tol * clearance

/-- bound.py:24-33 `compute_rho`. -/
noncomputable def rho (clearance : ℝ) (tol : Option ℝ) (dim : ℕ) (volEnv : ℝ) : ℝ :=
  let measureUnitSphere := volUnitSphere dim / volEnv
  measureUnitSphere * epsilonNetRadius clearance tol ^ dim

/-- bound.py:35-42 `compute_ss_comb_sum`, exact integers. -/
def ssCombSum (m vc : ℕ) : ℕ :=
  ((List.range (vc + 1)).map fun d => Nat.choose (2 * m) d).sum

/-- bound.py:44-61 `compute_sauer_shelah_bound_log2`. -/
noncomputable def sauerShelahLog2 (m : ℕ) (ρ : ℝ) (vc : ℕ) : ℝ :=
  Real.logb 2 (ssCombSum m vc) + (-ρ * m / 2) + 1

/-- bound.py:63-76 `compute_net_radius_from_prob` with `ad_hoc_magnitude_correction = 1`, so that `np.ceil` does nothing
to an integer `n_samples`. `x ** (1 / dim)` is the real power. -/
noncomputable def netRadiusFromProb (dim n : ℕ) (failureProb volEnv : ℝ) : ℝ :=
  let measureUnitSphere := volUnitSphere dim / volEnv
  ((2 / n / measureUnitSphere) * (Real.logb 2 (ssCombSum n (dim + 1)) - Real.logb 2 failureProb)) ^ (1 / (dim : ℝ))

/-- bound.py:79-84 `compute_blumer_bound`. -/
noncomputable def blumerBound (netRad : ℝ) (dim : ℕ) (gamma volEnv : ℝ) : ℝ :=
  let volNetBall := volUnitSphere dim * netRad ^ dim
  let measure := volNetBall / volEnv
  let vc : ℕ := dim + 1
  max (4 / measure * Real.logb 2 (2 / gamma)) (8 * vc / measure * Real.logb 2 (13 / measure))

/-- bound.py:136-162 `compute_numerical_bound`; `none` means that the search is still running after `fuel` passes per
loop. -/
noncomputable def numericalBound (clearance successProb volume : ℝ) (dim : ℕ) (tol : Option ℝ) (fuel : ℕ) :
    Option (Except PyErr (ℕ × ℝ)) :=
  if successProb ≤ 0 ∨ 1 ≤ successProb then some (.error .arithmetic)
  else
    let a := alpha tol
    let connR := 2 * (a + Real.sqrt (1 - a ^ 2)) * clearance
    let ρ := rho clearance tol dim volume
    let vc := dim + 1
    match doublingSampleSearch (fun m => sauerShelahLog2 m ρ vc) (Real.logb 2 (1 - successProb)) fuel with
    | none => none
    | some (.error e) => some (.error e)
    | some (.ok n) => some (.ok (n, connR))

/-- bound.py:165-171 `compute_connection_radius` (`tol=None` raises TypeError in Python and is not covered). -/
noncomputable def connectionRadius (clearance tol : ℝ) : ℝ :=
  2 * clearance * (tol + 1) / Real.sqrt (1 + tol ^ 2)

end Verif.Bound
