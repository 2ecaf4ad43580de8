import Mathlib.Probability.Independence.InfinitePi
import Verif.Spec.Draws

/-! There are random draws as in the specification. -/

namespace Verif.Spec

open MeasureTheory ProbabilityTheory

theorem cube_volume (m : ℕ) : (volume : Measure (Fin m → ℝ)) (Set.Icc 0 1) = 1 := by
  rw [Real.volume_Icc_pi]
  simp

instance (m : ℕ) : IsProbabilityMeasure (cond (volume : Measure (Fin m → ℝ)) (Set.Icc 0 1)) :=
  cond_isProbabilityMeasure_of_finite (by rw [cube_volume]; simp) (by rw [cube_volume]; simp)

theorem exists_unitDraws (m : ℕ) : ∃ Pr : Measure (ℕ → Fin m → ℝ), IsProbabilityMeasure Pr ∧ UnitDraws Pr fun i x => x i := by
  refine ⟨Measure.infinitePi fun _ => cond volume (Set.Icc 0 1), inferInstance, fun i => measurable_pi_apply i, ?_, ?_⟩
  · exact iIndepFun_infinitePi (X := fun _ x => x) fun _ => measurable_id
  · intro i
    exact (measurePreserving_eval_infinitePi (fun _ => cond volume (Set.Icc (0 : Fin m → ℝ) 1)) i).map_eq

theorem exists_choiceDraws {ι : Type*} [Fintype ι] [MeasurableSpace ι] [MeasurableSingletonClass ι] {p : ι → ℝ} (h0 : ∀ r, 0 ≤ p r)
    (h1 : ∑ r, p r = 1) (m : ℕ) :
    ∃ Pr : Measure (ℕ → ι × (Fin m → ℝ)), IsProbabilityMeasure Pr ∧ ChoiceDraws Pr p (fun i x => (x i).1) fun i x => (x i).2 := by
  classical
  let μ : Measure ι := ∑ r, ENNReal.ofReal (p r) • Measure.dirac r
  have hμ : ∀ r, μ {r} = ENNReal.ofReal (p r) := by
    intro r
    simp only [μ, Measure.coe_finsetSum, Measure.coe_smul, Finset.sum_apply, Pi.smul_apply, smul_eq_mul,
      Measure.dirac_apply' _ (measurableSet_singleton r), Set.indicator, Set.mem_singleton_iff, Pi.one_apply, mul_ite, mul_one, mul_zero,
      Finset.sum_ite_eq', Finset.mem_univ, if_true]
  have hprob : IsProbabilityMeasure μ := by
    constructor
    simp only [μ, Measure.coe_finsetSum, Measure.coe_smul, Finset.sum_apply, Pi.smul_apply, smul_eq_mul, measure_univ, mul_one]
    rw [← ENNReal.ofReal_sum_of_nonneg fun r _ => h0 r, h1]
    simp
  let κ : Measure (ι × (Fin m → ℝ)) := μ.prod (cond volume (Set.Icc 0 1))
  have hmp := fun i : ℕ => measurePreserving_eval_infinitePi (fun _ => κ) i
  refine ⟨Measure.infinitePi fun _ => κ, inferInstance, fun i => measurable_fst.comp (measurable_pi_apply i),
    fun i => measurable_snd.comp (measurable_pi_apply i), ?_, ?_, ?_, ?_⟩
  · intro i r
    have h2 : (Measure.infinitePi fun _ : ℕ => κ).map (fun x => (x i).1) = μ := by
      have : (fun x : ℕ → ι × (Fin m → ℝ) => (x i).1) = Prod.fst ∘ Function.eval i := rfl
      rw [this, ← Measure.map_map measurable_fst (measurable_pi_apply i), (hmp i).map_eq, Measure.map_fst_prod]
      simp
    have hm : Measurable fun x : ℕ → ι × (Fin m → ℝ) => (x i).1 := measurable_fst.comp (measurable_pi_apply i)
    rw [← Measure.map_apply hm (measurableSet_singleton r), h2, hμ r]
  · intro i
    show (Measure.infinitePi fun _ : ℕ => κ).map (fun x => (x i).2) = _
    have : (fun x : ℕ → ι × (Fin m → ℝ) => (x i).2) = Prod.snd ∘ Function.eval i := rfl
    rw [this, ← Measure.map_map measurable_snd (measurable_pi_apply i), (hmp i).map_eq, Measure.map_snd_prod]
    simp
  · intro i
    have h3 : IndepFun (Prod.fst : ι × (Fin m → ℝ) → ι) Prod.snd κ := indepFun_prod measurable_id measurable_id
    have he : Measurable (Function.eval i : (ℕ → ι × (Fin m → ℝ)) → _) := measurable_pi_apply i
    have h4 : κ = (Measure.infinitePi fun _ : ℕ => κ).map (Function.eval i) := (hmp i).map_eq.symm
    rw [h4, indepFun_iff_map_prod_eq_prod_map_map measurable_fst.aemeasurable measurable_snd.aemeasurable,
      Measure.map_map (by fun_prop) he, Measure.map_map measurable_fst he, Measure.map_map measurable_snd he] at h3
    exact (indepFun_iff_map_prod_eq_prod_map_map (measurable_fst.comp he).aemeasurable (measurable_snd.comp he).aemeasurable).2 h3
  · exact iIndepFun_infinitePi (P := fun _ : ℕ => κ) (X := fun _ x => x) fun _ => measurable_id

end Verif.Spec
