import Mathlib.Probability.Moments.SubGaussian
import Mathlib.Analysis.SpecialFunctions.Log.ERealExp
import Verif.Lemmas.NetSampling

/-!
How many other samples lie within a radius of a sample: binomial tails and the union bound over the samples.
-/

namespace Verif.Net

open MeasureTheory ProbabilityTheory Finset Verif.Spec

section tails

variable {X : Type*} [MeasurableSpace X] (μ : Measure X) [IsProbabilityMeasure μ] {n : ℕ} {S : Set X} {p : ℝ}

/-- The exponential-moment bound with an upper bound `p` on the measure of the set. -/
theorem upper_tail_le (hS : MeasurableSet S) (hp : μ.real S ≤ p) {a : ℝ} (h1 : 1 ≤ a) (k : ℝ) :
    (Measure.pi fun _ : Fin n => μ).real {y | k ≤ count S y} ≤ (1 + (a - 1) * p) ^ n / a ^ k := by
  have h := upper_tail (ι := Fin n) μ hS h1 k
  rw [Fintype.card_fin] at h
  have ha : 0 < a ^ k := by positivity
  rw [le_div_iff₀ ha, mul_comm]
  refine h.trans ?_
  have h0 : (0 : ℝ) ≤ μ.real S := measureReal_nonneg
  apply pow_le_pow_left₀
  · have : μ.real S ≤ 1 := measureReal_le_one
    nlinarith
  · nlinarith

/-- Chernoff, generic form. -/
theorem tail_generic (hS : MeasurableSet S) (hp : μ.real S ≤ p) {k : ℝ} (hp0 : 0 < p) (hn : 1 ≤ n) (hk : n * p ≤ k) :
    (Measure.pi fun _ : Fin n => μ).real {y | k ≤ count S y} ≤ Real.exp (-(n * p) + k * (1 + Real.log (n * p) - Real.log k)) := by
  have hn' : (0 : ℝ) < n := by exact_mod_cast hn
  have hmu : 0 < n * p := by positivity
  have hk0 : 0 < k := hmu.trans_le hk
  have h := upper_tail_le μ (n := n) hS hp (a := k / (n * p)) (by rw [le_div_iff₀ hmu]; linarith) k
  refine h.trans ?_
  have h1 : (1 + (k / (n * p) - 1) * p) ^ n ≤ Real.exp (k - n * p) := by
    have h2 : 1 + (k / (n * p) - 1) * p ≤ Real.exp ((k - n * p) / n) := by
      have h3 : (k / (n * p) - 1) * p = (k - n * p) / n := by
        field_simp
      rw [h3]
      linarith [Real.add_one_le_exp ((k - n * p) / n)]
    calc _ ≤ Real.exp ((k - n * p) / n) ^ n := by
          apply pow_le_pow_left₀ _ h2
          have : 1 ≤ k / (n * p) := by rw [le_div_iff₀ hmu]; linarith
          nlinarith
      _ = _ := by
          rw [← Real.exp_nat_mul]
          congr 1
          field_simp
  have h4 : (k / (n * p)) ^ k = Real.exp (k * (Real.log k - Real.log (n * p))) := by
    rw [Real.rpow_def_of_pos (by positivity), Real.log_div hk0.ne' hmu.ne', mul_comm]
  rw [h4, div_le_iff₀ (Real.exp_pos _), ← Real.exp_add]
  refine h1.trans (Real.exp_le_exp.2 ?_)
  linarith

/-- Chernoff with relative entropy, for a fraction `x` of the samples with `n x ≤ k`. -/
theorem tail_kl (hS : MeasurableSet S) (hp : μ.real S ≤ p) {k x : ℝ} (hp0 : 0 < p) (hpx : p ≤ x) (hx1 : x < 1) (hk : n * x ≤ k) :
    (Measure.pi fun _ : Fin n => μ).real {y | k ≤ count S y} ≤
      Real.exp (-((x * Real.log (x / p) + (1 - x) * Real.log ((1 - x) / (1 - p))) * n)) := by
  have hx0 : 0 < x := hp0.trans_le hpx
  have h1x : 0 < 1 - x := by linarith
  have h1p : 0 < 1 - p := by linarith
  set a := x * (1 - p) / (p * (1 - x)) with ha
  have ha1 : 1 ≤ a := by
    rw [ha, le_div_iff₀ (by positivity)]
    nlinarith
  have h := upper_tail_le μ (n := n) hS hp ha1 k
  refine h.trans ?_
  have h2 : 1 + (a - 1) * p = (1 - p) / (1 - x) := by
    rw [ha]
    field_simp
    ring
  have hla : Real.log a = Real.log (x / p) - Real.log ((1 - x) / (1 - p)) := by
    rw [ha, ← Real.log_div (by positivity) (by positivity)]
    congr 1
    field_simp
  have hla0 : 0 ≤ Real.log a := Real.log_nonneg ha1
  have h3 : ((1 - p) / (1 - x)) ^ n = Real.exp (-(n * Real.log ((1 - x) / (1 - p)))) := by
    rw [← mul_neg, ← Real.log_inv, inv_div, Real.exp_nat_mul, Real.exp_log (by positivity)]
  have h4 : a ^ k = Real.exp (Real.log a * k) := Real.rpow_def_of_pos (by positivity) k
  rw [h2, h3, h4, div_le_iff₀ (Real.exp_pos _), ← Real.exp_add]
  apply Real.exp_le_exp.2
  have h5 : Real.log a * (n * x) ≤ Real.log a * k := mul_le_mul_of_nonneg_left hk hla0
  rw [hla] at h5 ⊢
  nlinarith

/-- Hoeffding's lemma for an indicator. -/
theorem hoeffding_indicator (hS : MeasurableSet S) (s : ℝ) :
    1 - μ.real S + Real.exp s * μ.real S ≤ Real.exp (μ.real S * s + s ^ 2 / 8) := by
  classical
  have hmeas : Measurable (S.indicator fun _ => (1 : ℝ)) := measurable_const.indicator hS
  have h := hasSubgaussianMGF_of_mem_Icc (μ := μ) (a := 0) (b := 1) (X := S.indicator fun _ => (1 : ℝ)) hmeas.aemeasurable
    (Filter.Eventually.of_forall fun ω => by
      by_cases hω : ω ∈ S <;> simp [hω])
  have hle := h.mgf_le s
  have hint : ∫ ω, S.indicator (fun _ => (1 : ℝ)) ω ∂μ = μ.real S := by
    rw [integral_indicator_const _ hS]
    simp
  rw [hint] at hle
  have hmgf : mgf (fun ω => S.indicator (fun _ => (1 : ℝ)) ω - μ.real S) μ s =
      Real.exp (-(s * μ.real S)) * (1 - μ.real S + Real.exp s * μ.real S) := by
    unfold mgf
    have h1 : ∀ ω, Real.exp (s * (S.indicator (fun _ => (1 : ℝ)) ω - μ.real S)) =
        Real.exp (-(s * μ.real S)) * (1 + S.indicator (fun _ => Real.exp s - 1) ω) := by
      intro ω
      by_cases hω : ω ∈ S
      · simp only [Set.indicator_of_mem hω]
        rw [mul_sub, mul_one, sub_eq_add_neg, Real.exp_add]
        ring
      · simp only [Set.indicator_of_notMem hω]
        rw [zero_sub, mul_neg]
        ring
    simp_rw [h1]
    rw [integral_const_mul, integral_add (integrable_const _) ((integrable_const _).indicator hS), integral_indicator_const _ hS]
    simp
    ring
  rw [hmgf] at hle
  have h2 : ((((‖(1 : ℝ) - 0‖₊ / 2) ^ 2 : NNReal) : ℝ) * s ^ 2 / 2) = s ^ 2 / 8 := by
    simp
    ring
  rw [h2] at hle
  have h3 := mul_le_mul_of_nonneg_left hle (Real.exp_pos (s * μ.real S)).le
  rw [← mul_assoc, ← Real.exp_add, ← Real.exp_add] at h3
  simp only [add_neg_cancel, Real.exp_zero, one_mul] at h3
  rw [mul_comm s] at h3
  exact h3

/-- Hoeffding. -/
theorem tail_hoeffding (hS : MeasurableSet S) (hp : μ.real S ≤ p) {k : ℝ} (hn : 1 ≤ n) (hk : p ≤ k / n) :
    (Measure.pi fun _ : Fin n => μ).real {y | k ≤ count S y} ≤ Real.exp (-(2 * n * (k / n - p) ^ 2)) := by
  have hn' : (0 : ℝ) < n := by exact_mod_cast hn
  set t := k / n - p with ht
  set s := 4 * t with hs
  have ht0 : 0 ≤ t := by rw [ht]; linarith
  have hs0 : 0 ≤ s := by rw [hs]; linarith
  have h := upper_tail (ι := Fin n) μ hS (a := Real.exp s) (Real.one_le_exp hs0) k
  rw [Fintype.card_fin] at h
  have hq0 : (0 : ℝ) ≤ μ.real S := measureReal_nonneg
  have hq1 : μ.real S ≤ 1 := measureReal_le_one
  have h2 : (1 - μ.real S + Real.exp s * μ.real S) ^ n ≤ Real.exp (n * (p * s + s ^ 2 / 8)) := by
    rw [Real.exp_nat_mul]
    apply pow_le_pow_left₀
    · have := Real.exp_pos s
      have : 0 ≤ Real.exp s * μ.real S := by positivity
      linarith
    · refine (hoeffding_indicator μ hS s).trans (Real.exp_le_exp.2 ?_)
      have := mul_le_mul_of_nonneg_right hp hs0
      linarith
  have h3 : Real.exp s ^ k = Real.exp (s * k) := (Real.exp_mul s k).symm
  rw [h3] at h
  have h4 := h.trans h2
  have h5 : (Measure.pi fun _ : Fin n => μ).real {y | k ≤ count S y} ≤ Real.exp (n * (p * s + s ^ 2 / 8)) / Real.exp (s * k) := by
    rw [le_div_iff₀ (Real.exp_pos _), mul_comm]
    exact h4
  refine h5.trans ?_
  rw [← Real.exp_sub]
  apply Real.exp_le_exp.2
  have hk' : k = n * (t + p) := by
    rw [ht]
    field_simp
    ring
  rw [hk', hs]
  apply le_of_eq
  ring

/-- With an empty set no sample is counted, and never more than all samples. -/
theorem tail_zero {k : ℝ} (hk : S = ∅ ∧ 0 < k ∨ (n : ℝ) < k) : (Measure.pi fun _ : Fin n => μ).real {y | k ≤ count S y} = 0 := by
  have : {y : Fin n → X | k ≤ count S y} = ∅ := by
    ext y
    simp only [Set.mem_ofPred_eq, Set.mem_empty_iff_false, iff_false, not_le]
    rcases hk with ⟨rfl, hk⟩ | hk
    · simpa [count] using hk
    · refine lt_of_le_of_lt ?_ hk
      have : count S y ≤ n := by
        classical
        unfold count
        exact (card_le_univ _).trans (by simp)
      exact_mod_cast this
  rw [this]
  simp

end tails

variable {E : Type*} [NormedAddCommGroup E] [MeasurableSpace E] [BorelSpace E] [SecondCountableTopology E]

/-- One sample: integrate the tail over its position. -/
theorem prob_row_le (μ : Measure E) [IsProbabilityMeasure μ] {n : ℕ} (i : Fin (n + 1)) {k r B : ℝ}
    (hB : ∀ x, (Measure.pi fun _ : Fin n => μ).real {y | k ≤ count (Metric.ball x r) y} ≤ B) :
    (Measure.pi fun _ : Fin (n + 1) => μ).real {y | k ≤ #(univ.filter fun j => j ≠ i ∧ dist (y j) (y i) < r)} ≤ B := by
  classical
  have hB0 : 0 ≤ B := measureReal_nonneg.trans (hB 0)
  set A : Set (E × (Fin n → E)) := {z | k ≤ #(univ.filter fun j => dist (z.2 j) z.1 < r)} with hA
  have hAm : MeasurableSet A := by
    have hcount : Measurable fun z : E × (Fin n → E) => #(univ.filter fun j => dist (z.2 j) z.1 < r) := by
      simp_rw [card_filter]
      refine Finset.measurable_sum _ fun j _ => ?_
      refine Measurable.ite ?_ measurable_const measurable_const
      exact measurableSet_lt (((measurable_pi_apply j).comp measurable_snd).dist measurable_fst) measurable_const
    exact measurableSet_le measurable_const ((measurable_of_countable (fun n : ℕ => (n : ℝ))).comp hcount)
  have hpres := measurePreserving_piFinSuccAbove (fun _ : Fin (n + 1) => μ) i
  have hset : {y : Fin (n + 1) → E | k ≤ #(univ.filter fun j => j ≠ i ∧ dist (y j) (y i) < r)} =
      MeasurableEquiv.piFinSuccAbove (fun _ => E) i ⁻¹' A := by
    ext y
    simp only [Set.mem_ofPred_eq, Set.mem_preimage, hA]
    have : #(univ.filter fun j => j ≠ i ∧ dist (y j) (y i) < r) =
        #(univ.filter fun j : Fin n => dist (y (i.succAbove j)) (y i) < r) := by
      rw [← card_map (Fin.succAboveEmb i)]
      congr 1
      ext j
      simp only [mem_filter, mem_univ, true_and, mem_map, Fin.coe_succAboveEmb]
      constructor
      · rintro ⟨hj, hd⟩
        obtain ⟨l, rfl⟩ := Fin.exists_succAbove_eq hj
        exact ⟨l, hd, rfl⟩
      · rintro ⟨l, hd, rfl⟩
        exact ⟨Fin.succAbove_ne i l, hd⟩
    rw [this]
    rfl
  rw [hset]
  have hm : (Measure.pi fun _ : Fin (n + 1) => μ) (MeasurableEquiv.piFinSuccAbove (fun _ => E) i ⁻¹' A) =
      (μ.prod (Measure.pi fun _ : Fin n => μ)) A := hpres.measure_preimage hAm.nullMeasurableSet
  rw [Measure.real, hm, Measure.prod_apply hAm]
  refine ENNReal.toReal_le_of_le_ofReal hB0 ?_
  calc _ ≤ ∫⁻ _, ENNReal.ofReal B ∂μ := by
        refine lintegral_mono fun x => ?_
        have hx := hB x
        rw [Measure.real] at hx
        have h1 : Prod.mk x ⁻¹' A = {y | k ≤ count (Metric.ball x r) y} := by
          ext y
          simp only [Set.mem_preimage, hA, Set.mem_ofPred_eq, count, Metric.mem_ball]
        rw [h1]
        exact (ENNReal.le_ofReal_iff_toReal_le (measure_ne_top _ _) hB0).2 hx
    _ = _ := by simp

theorem neighbours_fin {Ω : Type*} {E : Type*} [PseudoMetricSpace E] (X : ℕ → Ω → E) (d m : ℕ) (r : ℝ) (ω : Ω) (i : Fin m) :
    neighbours X d m r ω i = #(univ.filter fun j : Fin m => j ≠ i ∧ dist (X (d + j) ω) (X (d + i) ω) < r) := by
  unfold neighbours
  rw [← card_map (Fin.valEmbedding (n := m))]
  congr 1
  ext j
  simp only [mem_filter, mem_range, mem_map, mem_univ, true_and, Fin.valEmbedding_apply]
  constructor
  · rintro ⟨hj, hne, hd⟩
    exact ⟨⟨j, hj⟩, ⟨fun h => hne (by rw [← h]), hd⟩, rfl⟩
  · rintro ⟨l, ⟨hne, hd⟩, rfl⟩
    exact ⟨l.2, fun h => hne (Fin.ext h), hd⟩

variable {Ω : Type*} [MeasurableSpace Ω] {Pr : Measure Ω} [IsProbabilityMeasure Pr] {dim : ℕ} {X : ℕ → Ω → Space dim} {S : Set (Space dim)}

/-- One uniform sample has many neighbours. -/
theorem iid_row_le (h : IidUniform Pr X S) {m : ℕ} (d i : ℕ) (hi : i < m) {k r B : ℝ}
    (hB : ∀ x, (Measure.pi fun _ : Fin (m - 1) => cond volume S).real {y | k ≤ count (Metric.ball x r) y} ≤ B) :
    Pr.real {ω | k ≤ neighbours X d m r ω i} ≤ B := by
  have := IidUniform.prob h
  obtain ⟨n, rfl⟩ : ∃ n, m = n + 1 := ⟨m - 1, by omega⟩
  have h1 := prob_row_le (n := n) (cond volume S) ⟨i, hi⟩ hB
  refine le_trans ?_ h1
  have hmeas : AEMeasurable (fun ω (i : Fin (n + 1)) => X (d + i) ω) Pr :=
    (measurable_pi_lambda _ fun i => h.measurable _).aemeasurable
  rw [← IidUniform.law h d (n + 1)]
  have hpm : IsProbabilityMeasure (Pr.map fun ω (i : Fin (n + 1)) => X (d + i) ω) := Measure.isProbabilityMeasure_map hmeas
  unfold Measure.real
  refine ENNReal.toReal_mono (measure_ne_top _ _) ?_
  refine le_trans (measure_mono fun ω hω => ?_) (Measure.le_map_apply hmeas _)
  simp only [Set.mem_preimage, Set.mem_ofPred_eq] at hω ⊢
  rw [show neighbours X d (n + 1) r ω i = neighbours X d (n + 1) r ω (⟨i, hi⟩ : Fin (n + 1)) from rfl, neighbours_fin] at hω
  exact hω

/-- Union bound over the samples. -/
theorem iid_some_row_le (h : IidUniform Pr X S) {m : ℕ} (d : ℕ) {k r B : ℝ}
    (hB : ∀ x, (Measure.pi fun _ : Fin (m - 1) => cond volume S).real {y | k ≤ count (Metric.ball x r) y} ≤ B) :
    Pr.real {ω | ∃ i < m, k ≤ neighbours X d m r ω i} ≤ m * B := by
  have hset : {ω | ∃ i < m, k ≤ neighbours X d m r ω i} = ⋃ i ∈ range m, {ω | k ≤ neighbours X d m r ω i} := by
    ext ω
    simp
  rw [hset]
  refine (measureReal_biUnion_finset_le _ _).trans ?_
  calc _ ≤ ∑ _i ∈ range m, B := sum_le_sum fun i hi => iid_row_le h d i (mem_range.1 hi) hB
    _ = _ := by simp

/-- A uniform sample lies in a given ball with at most the ball's share of the volume. -/
theorem cond_ball_le (h : IidUniform Pr X S) (hS : MeasurableSet S) {vol : ℝ} (hvol0 : 0 < vol) (hvol : ENNReal.ofReal vol ≤ volume S)
    (x : Space dim) (r : ℝ) : (cond volume S).real (Metric.ball x r) ≤ min ((volume (Metric.ball (0 : Space dim) r)).toReal / vol) 1 := by
  have := IidUniform.prob h
  have hne := IidUniform.volume_ne h
  refine le_min ?_ measureReal_le_one
  rw [Measure.real, cond_apply hS, ENNReal.toReal_mul, ENNReal.toReal_inv]
  have h1 : vol ≤ (volume S).toReal := (ENNReal.ofReal_le_iff_le_toReal hne.2).1 hvol
  have h2 : (volume S).toReal⁻¹ ≤ vol⁻¹ := by gcongr
  have h3 : (volume (S ∩ Metric.ball x r)).toReal ≤ (volume (Metric.ball (0 : Space dim) r)).toReal := by
    rw [← Measure.addHaar_ball_center volume x r]
    exact ENNReal.toReal_mono measure_ball_lt_top.ne (measure_mono Set.inter_subset_right)
  rw [div_eq_inv_mul]
  gcongr

end Verif.Net
