import Verif.Spec.Sampling

/-!
Specification of the random draws behind successive calls of a sampler: numpy's `rng.uniform` and `rng.choice(.., p=..)`.
-/

namespace Verif.Spec

open MeasureTheory ProbabilityTheory

/-- Successive independent draws from the unit cube. (numpy excludes 1, an event of probability zero.) -/
structure UnitDraws {Ω : Type*} [MeasurableSpace Ω] (Pr : Measure Ω) {m : ℕ} (U : ℕ → Ω → Fin m → ℝ) : Prop where
  measurable : ∀ i, Measurable (U i)
  indep : iIndepFun U Pr
  uniform : ∀ i, pdf.IsUniform (U i) (Set.Icc 0 1) Pr volume

/-- Each sample takes two independent draws: a choice with weights `p`, and a point of the unit cube. Samples are independent. -/
structure ChoiceDraws {Ω : Type*} [MeasurableSpace Ω] (Pr : Measure Ω) {ι : Type*} [MeasurableSpace ι] (p : ι → ℝ) {m : ℕ}
    (R : ℕ → Ω → ι) (U : ℕ → Ω → Fin m → ℝ) : Prop where
  measurable : ∀ i, Measurable (R i)
  measurable' : ∀ i, Measurable (U i)
  choice : ∀ i r, Pr (R i ⁻¹' {r}) = ENNReal.ofReal (p r)
  uniform : ∀ i, pdf.IsUniform (U i) (Set.Icc 0 1) Pr volume
  indepPair : ∀ i, IndepFun (R i) (U i) Pr
  indep : iIndepFun (fun i ω => (R i ω, U i ω)) Pr

end Verif.Spec
