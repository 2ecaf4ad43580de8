import Mathlib.MeasureTheory.Integral.Pi
import Mathlib.Analysis.SpecialFunctions.Pow.Real
import Mathlib.Analysis.Complex.ExponentialBounds
import Mathlib.Tactic.Linarith

/-!
The number of independent samples in a set: exponential moments and tails.
-/

namespace Verif.Net

open MeasureTheory Finset

variable {X : Type*} [MeasurableSpace X] {ι : Type*} [Fintype ι]

/-- The number of samples in `S`. -/
noncomputable def count (S : Set X) (y : ι → X) : ℕ := by
  classical exact #(univ.filter fun i => y i ∈ S)

open Classical in
omit [MeasurableSpace X] in
theorem prod_eq_pow_count (S : Set X) (a : ℝ) (y : ι → X) : (∏ i, if y i ∈ S then a else 1) = a ^ count S y := by
  rw [Finset.prod_ite]
  simp [count]

theorem measurable_count {S : Set X} (hS : MeasurableSet S) : Measurable (fun y : ι → X => count S y) := by
  classical
  have : (fun y : ι → X => count S y) = fun y => ∑ i, if y i ∈ S then 1 else 0 := by
    funext y
    simp [count]
  rw [this]
  exact Finset.measurable_sum _ fun i _ => Measurable.ite (measurable_pi_apply i hS) measurable_const measurable_const

variable (μ : Measure X) [IsProbabilityMeasure μ]

/-- The exponential moment of the count. -/
theorem integral_pow_count {S : Set X} (hS : MeasurableSet S) (a : ℝ) :
    ∫ y : ι → X, a ^ count S y ∂(Measure.pi fun _ => μ) = (1 - μ.real S + a * μ.real S) ^ Fintype.card ι := by
  classical
  have h1 : ∀ y : ι → X, a ^ count S y = ∏ i, (fun x => if x ∈ S then a else 1) (y i) := fun y => (prod_eq_pow_count S a y).symm
  simp_rw [h1]
  rw [integral_fintype_prod_eq_pow (fun x => if x ∈ S then a else 1)]
  congr 1
  have h2 : (fun x => if x ∈ S then a else 1) = fun x => S.indicator (fun _ => a) x + Sᶜ.indicator (fun _ => (1 : ℝ)) x := by
    funext x
    by_cases hx : x ∈ S <;> simp [hx]
  rw [h2, integral_add, integral_indicator_const _ hS, integral_indicator_const _ hS.compl, measureReal_compl hS]
  · simp
    ring
  · exact (integrable_const a).indicator hS
  · exact (integrable_const (1 : ℝ)).indicator hS.compl

theorem integrable_pow_count {S : Set X} (hS : MeasurableSet S) {a : ℝ} (h0 : 0 ≤ a) :
    Integrable (fun y : ι → X => a ^ count S y) (Measure.pi fun _ => μ) := by
  apply Integrable.of_bound (C := (max a 1) ^ Fintype.card ι)
  · exact ((measurable_of_countable (fun n : ℕ => a ^ n)).comp (measurable_count hS)).aestronglyMeasurable
  · refine Filter.Eventually.of_forall fun y => ?_
    rw [Real.norm_eq_abs, abs_of_nonneg (pow_nonneg h0 _)]
    calc a ^ count S y ≤ (max a 1) ^ count S y := pow_le_pow_left₀ h0 (le_max_left _ _) _
      _ ≤ _ := pow_le_pow_right₀ (le_max_right _ _) (by
        classical
        exact card_le_univ _)

/-- Markov's inequality for the exponential moment, upper tail. -/
theorem upper_tail {S : Set X} (hS : MeasurableSet S) {a : ℝ} (h1 : 1 ≤ a) (k : ℝ) :
    a ^ k * (Measure.pi fun _ : ι => μ).real {y | k ≤ count S y} ≤ (1 - μ.real S + a * μ.real S) ^ Fintype.card ι := by
  rw [← integral_pow_count μ hS a]
  refine le_trans ?_ (mul_meas_ge_le_integral_of_nonneg (Filter.Eventually.of_forall fun y => ?_)
    (integrable_pow_count μ hS (by linarith)) (a ^ k))
  · apply mul_le_mul_of_nonneg_left _ (by positivity)
    refine measureReal_mono (fun y hy => ?_) (measure_ne_top _ _)
    simp only [Set.mem_ofPred_eq] at hy ⊢
    rw [← Real.rpow_natCast]
    exact Real.rpow_le_rpow_of_exponent_le h1 hy
  · simp only [Pi.zero_apply]
    positivity

/-- Markov's inequality for the exponential moment, lower tail. -/
theorem lower_tail {S : Set X} (hS : MeasurableSet S) {a : ℝ} (h0 : 0 < a) (h1 : a ≤ 1) (k : ℝ) :
    a ^ k * (Measure.pi fun _ : ι => μ).real {y | count S y ≤ k} ≤ (1 - μ.real S + a * μ.real S) ^ Fintype.card ι := by
  rw [← integral_pow_count μ hS a]
  refine le_trans ?_ (mul_meas_ge_le_integral_of_nonneg (Filter.Eventually.of_forall fun y => ?_)
    (integrable_pow_count μ hS h0.le) (a ^ k))
  · apply mul_le_mul_of_nonneg_left _ (by positivity)
    refine measureReal_mono (fun y hy => ?_) (measure_ne_top _ _)
    simp only [Set.mem_ofPred_eq] at hy ⊢
    rw [← Real.rpow_natCast]
    exact Real.rpow_le_rpow_of_exponent_ge h0 h1 hy
  · simp only [Pi.zero_apply]
    positivity

/-- With probability at least one half, at least half of the expected number of samples is in the set. -/
theorem half_many {S : Set X} (hS : MeasurableSet S) {ε : ℝ} (hε : ε ≤ μ.real S) (h8 : 8 ≤ ε * Fintype.card ι) :
    1 / 2 ≤ (Measure.pi fun _ : ι => μ).real {y | ε * Fintype.card ι / 2 ≤ count S y} := by
  set m : ℝ := (Fintype.card ι : ℝ) with hm
  set q := μ.real S
  have hq1 : q ≤ 1 := measureReal_le_one
  have hlow := lower_tail (ι := ι) μ hS (a := 1 / 2) (by norm_num) (by norm_num) (ε * m / 2)
  have hexp : (1 - q + 1 / 2 * q) ^ Fintype.card ι ≤ Real.exp (-(ε * m / 2)) := by
    calc (1 - q + 1 / 2 * q) ^ Fintype.card ι ≤ Real.exp (-(ε / 2)) ^ Fintype.card ι := by
          apply pow_le_pow_left₀ (by linarith)
          linarith [Real.add_one_le_exp (-(ε / 2))]
      _ = Real.exp (-(ε * m / 2)) := by
          rw [← Real.exp_nat_mul]
          congr 1
          rw [hm]
          ring
  have ha : (1 / 2 : ℝ) ^ (ε * m / 2) = Real.exp (-(Real.log 2 * (ε * m / 2))) := by
    rw [Real.rpow_def_of_pos (by norm_num)]
    congr 1
    rw [one_div, Real.log_inv]
    ring
  set P := (Measure.pi fun _ : ι => μ)
  have hP : P.real {y | count S y ≤ ε * m / 2} ≤ 1 / 2 := by
    have h2 : P.real {y | count S y ≤ ε * m / 2} ≤ Real.exp (-(ε * m / 2) * (1 - Real.log 2)) := by
      rw [ha] at hlow
      have h3 := hlow.trans hexp
      have h4 : Real.exp (-(ε * m / 2)) = Real.exp (-(Real.log 2 * (ε * m / 2))) * Real.exp (-(ε * m / 2) * (1 - Real.log 2)) := by
        rw [← Real.exp_add]
        congr 1
        ring
      rw [h4] at h3
      exact le_of_mul_le_mul_left h3 (Real.exp_pos _)
    have h5 : Real.exp (-(ε * m / 2) * (1 - Real.log 2)) ≤ Real.exp (-Real.log 2) := by
      apply Real.exp_le_exp.2
      have := Real.log_two_lt_d9
      nlinarith
    rw [Real.exp_neg, Real.exp_log (by norm_num)] at h5
    linarith [h2, h5]
  have hmeas : MeasurableSet {y : ι → X | count S y ≤ ε * m / 2} :=
    ((measurable_of_countable (fun n : ℕ => (n : ℝ))).comp (measurable_count hS)) measurableSet_Iic
  have hcompl := measureReal_compl (μ := P) hmeas
  simp only [probReal_univ] at hcompl
  calc (1 / 2 : ℝ) ≤ P.real {y | count S y ≤ ε * m / 2}ᶜ := by linarith
    _ ≤ _ := by
      refine measureReal_mono (fun y hy => ?_) (measure_ne_top _ _)
      simp only [Set.mem_compl_iff, Set.mem_ofPred_eq, not_le] at hy ⊢
      exact hy.le

end Verif.Net
