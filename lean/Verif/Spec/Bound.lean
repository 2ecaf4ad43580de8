import Mathlib.Analysis.SpecialFunctions.Pow.Real
import Mathlib.Data.Nat.Choose.Basic
import Mathlib.Algebra.BigOperators.Group.Finset.Basic
import Mathlib.MeasureTheory.Measure.Haar.OfBasis
import Mathlib.MeasureTheory.Measure.Haar.InnerProductSpace

/-!
Specification for the sample bound, independent of the model: the failure probability bound of the Sauer-Shelah /
epsilon-net argument in linear scale, and the measure of the net's balls as a Lebesgue measure.
-/

namespace Verif.Spec

open Finset MeasureTheory

/-- Upper bound on the probability that `m` samples fail to hit every set of measure at least `ρ` of a set system of
VC dimension `vc`:  `2 * (C(2m,0) + ... + C(2m,vc)) * 2^(-ρ m / 2)`. -/
noncomputable def failureBound (m : ℕ) (ρ : ℝ) (vc : ℕ) : ℝ :=
  2 * (∑ i ∈ range (vc + 1), (Nat.choose (2 * m) i : ℝ)) * (2 : ℝ) ^ (-(ρ * m) / 2)

/-- Radius of the balls that the samples have to hit: the clearance scaled by `ε / sqrt (1 + ε²)` for stretch factor
`1 + ε`, or the clearance itself if only existence of a path is asked for. -/
noncomputable def netRadius (clearance : ℝ) : Option ℝ → ℝ
  | none => clearance
  | some ε => clearance * (ε / Real.sqrt (1 + ε ^ 2))

/-- Fraction of the environment's volume taken by one ball of the net in `ℝ^dim`. -/
noncomputable def netMeasure (clearance : ℝ) (tol : Option ℝ) (dim : ℕ) (volEnv : ℝ) : ℝ :=
  (volume (Metric.ball (0 : EuclideanSpace ℝ (Fin dim)) (netRadius clearance tol))).toReal / volEnv

/-- The requested stretch factor is absent or nonnegative. -/
def TolNonneg : Option ℝ → Prop
  | none => True
  | some ε => 0 ≤ ε

end Verif.Spec
