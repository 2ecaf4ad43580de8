import Mathlib.MeasureTheory.Constructions.BorelSpace.Metric
import Mathlib.Topology.MetricSpace.Basic
import Verif.Lemmas.Counts
import Verif.Lemmas.Swaps
import Verif.Spec.Bound

/-!
The epsilon-net theorem for balls of one radius: the probability that independent samples miss some ball of large measure.
-/

namespace Verif.Net

open MeasureTheory Finset Verif.Spec

variable {E : Type*} [NormedAddCommGroup E] [InnerProductSpace ℝ E] [FiniteDimensional ℝ E] [MeasurableSpace E] [BorelSpace E]
variable (μ : Measure E) [IsProbabilityMeasure μ] {m : ℕ}

omit [InnerProductSpace ℝ E] [FiniteDimensional ℝ E] in
theorem measurable_far (c : E) (s : ℝ) : MeasurableSet {x : E | s ≤ dist x c} := by
  have : {x : E | s ≤ dist x c} = (Metric.ball c s)ᶜ := by
    ext x
    simp
  rw [this]
  exact measurableSet_ball.compl

omit [InnerProductSpace ℝ E] [FiniteDimensional ℝ E] in
theorem measurable_near (c : E) (s : ℝ) : MeasurableSet {x : E | dist x c < s} := measurableSet_ball (x := c) (ε := s)

omit [FiniteDimensional ℝ E] in
theorem measurable_bad {D : Set E} (hD : D.Countable) (s t : ℝ) : MeasurableSet {z : Fin m → E × E | Bad D s t z} := by
  have : {z : Fin m → E × E | Bad D s t z} = ⋃ c ∈ D, ((⋂ i, {z | s ≤ dist (z i).1 c}) ∩
      ⋃ J : Finset (Fin m), {z | t ≤ #J} ∩ ⋂ i ∈ J, {z | dist (z i).2 c < s}) := by
    ext z
    simp only [Bad, Set.mem_ofPred_eq, Set.mem_iUnion, Set.mem_inter_iff, Set.mem_iInter, exists_prop]
  rw [this]
  refine MeasurableSet.biUnion hD fun c _ => MeasurableSet.inter ?_ ?_
  · exact MeasurableSet.iInter fun i => (measurable_fst.comp (measurable_pi_apply i)) (measurable_far c s)
  · refine MeasurableSet.iUnion fun J => MeasurableSet.inter (MeasurableSet.const _) ?_
    exact Finset.measurableSet_biInter _ fun i _ => (measurable_snd.comp (measurable_pi_apply i)) (measurable_near c s)

omit [FiniteDimensional ℝ E] in
theorem measurable_miss {D : Set E} (hD : D.Countable) (s : ℝ) : MeasurableSet {x : Fin m → E | ∃ c ∈ D, ∀ i, s ≤ dist (x i) c} := by
  have : {x : Fin m → E | ∃ c ∈ D, ∀ i, s ≤ dist (x i) c} = ⋃ c ∈ D, ⋂ i, {x | s ≤ dist (x i) c} := by
    ext x
    simp
  rw [this]
  exact MeasurableSet.biUnion hD fun c _ => MeasurableSet.iInter fun i => (measurable_pi_apply (X := fun _ : Fin m => E) i) (measurable_far c s)

theorem preserving_exchange (σ : Fin m → Bool) :
    MeasurePreserving (exchange (E := E) σ) (Measure.pi fun _ => μ.prod μ) (Measure.pi fun _ => μ.prod μ) := by
  have : exchange (E := E) σ = fun z i => (if σ i then Prod.swap else id) (z i) := by
    funext z i
    unfold exchange
    cases σ i <;> simp
  rw [this]
  refine measurePreserving_pi _ _ (f := fun i => if σ i then Prod.swap else id) fun i => ?_
  cases σ i
  · simp only [Bool.false_eq_true, if_false]
    exact MeasurePreserving.id _
  · simp only [if_true]
    exact Measure.measurePreserving_swap

/-- Second half of the argument: random exchanges. -/
theorem prob_bad {D : Set E} (hD : D.Countable) (s t : ℝ) :
    (Measure.pi fun _ : Fin m => μ.prod μ).real {z | Bad D s t z} ≤
      ((∑ i ∈ range (Module.finrank ℝ E + 1 + 1), (2 * m).choose i : ℕ) : ℝ) * 2 ^ (-t) := by
  classical
  set Q := Measure.pi fun _ : Fin m => μ.prod μ with hQ
  have hB := measurable_bad (m := m) hD s t
  have h1 : ∀ σ : Fin m → Bool, Q.real {z | Bad D s t z} = ∫ z, (if Bad D s t (exchange σ z) then 1 else 0 : ℝ) ∂Q := by
    intro σ
    have hpre := (preserving_exchange μ σ).measure_preimage hB.nullMeasurableSet
    have h2 : (fun z => (if Bad D s t (exchange σ z) then 1 else 0 : ℝ)) = (exchange σ ⁻¹' {z | Bad D s t z}).indicator fun _ => 1 := by
      funext z
      by_cases hz : Bad D s t (exchange σ z) <;> simp [hz]
    rw [h2, integral_indicator_const _ ((preserving_exchange μ σ).measurable hB)]
    simp only [smul_eq_mul, mul_one, Measure.real]
    rw [hpre]
  have h3 : (2 : ℝ) ^ (m : ℝ) * Q.real {z | Bad D s t z} =
      ∫ z, ((univ.filter fun σ : Fin m → Bool => Bad D s t (exchange σ z)).card : ℝ) ∂Q := by
    have h4 : ∀ z, ((univ.filter fun σ : Fin m → Bool => Bad D s t (exchange σ z)).card : ℝ) =
        ∑ σ : Fin m → Bool, (if Bad D s t (exchange σ z) then 1 else 0 : ℝ) := by
      intro z
      simp
    simp_rw [h4]
    rw [integral_finsetSum]
    · simp_rw [← h1]
      simp
    · intro σ _
      have h2 : (fun z => (if Bad D s t (exchange σ z) then 1 else 0 : ℝ)) = (exchange σ ⁻¹' {z | Bad D s t z}).indicator fun _ => 1 := by
        funext z
        by_cases hz : Bad D s t (exchange σ z) <;> simp [hz]
      rw [h2]
      exact (integrable_const 1).indicator ((preserving_exchange μ σ).measurable hB)
  have h5 : (2 : ℝ) ^ (m : ℝ) * Q.real {z | Bad D s t z} ≤
      ((∑ i ∈ range (Module.finrank ℝ E + 1 + 1), (2 * m).choose i : ℕ) : ℝ) * (2 ^ (m : ℝ) * 2 ^ (-t)) := by
    rw [h3]
    refine (integral_mono_of_nonneg (Filter.Eventually.of_forall fun z => by positivity) (integrable_const _)
      (Filter.Eventually.of_forall fun z => card_bad D s t z)).trans ?_
    simp
  have h6 : (0 : ℝ) < 2 ^ (m : ℝ) := by positivity
  have h7 : ((∑ i ∈ range (Module.finrank ℝ E + 1 + 1), (2 * m).choose i : ℕ) : ℝ) * (2 ^ (m : ℝ) * 2 ^ (-t)) =
      2 ^ (m : ℝ) * (((∑ i ∈ range (Module.finrank ℝ E + 1 + 1), (2 * m).choose i : ℕ) : ℝ) * 2 ^ (-t)) := by ring
  rw [h7] at h5
  exact le_of_mul_le_mul_left h5 h6

omit [FiniteDimensional ℝ E] in
/-- First half of the argument: a second sample. -/
theorem prob_miss_le {D : Set E} (hD : D.Countable) {s ε : ℝ} (hε : ∀ c ∈ D, ε ≤ μ.real (Metric.ball c s)) (h8 : 8 ≤ ε * m) :
    (Measure.pi fun _ : Fin m => μ).real {x | ∃ c ∈ D, ∀ i, s ≤ dist (x i) c} ≤
      2 * (Measure.pi fun _ : Fin m => μ.prod μ).real {z | Bad D s (ε * m / 2) z} := by
  classical
  set P := Measure.pi fun _ : Fin m => μ with hP
  set Q := Measure.pi fun _ : Fin m => μ.prod μ with hQ
  set A := {x : Fin m → E | ∃ c ∈ D, ∀ i, s ≤ dist (x i) c} with hA
  set B := {z : Fin m → E × E | Bad D s (ε * m / 2) z} with hB
  have hBm : MeasurableSet B := measurable_bad hD _ _
  have hAm : MeasurableSet A := measurable_miss hD s
  have hpres := measurePreserving_arrowProdEquivProdArrow E E (Fin m) (fun _ => μ) (fun _ => μ)
  let e := MeasurableEquiv.arrowProdEquivProdArrow E E (Fin m)
  have hQB : Q B = (P.prod P) (e.symm ⁻¹' B) := by
    have := hpres.measure_preimage (s := e.symm ⁻¹' B) (e.symm.measurable hBm).nullMeasurableSet
    rw [← this]
    rfl
  have hlow : ∀ x ∈ A, (1 / 2 : ENNReal) ≤ P (Prod.mk x ⁻¹' (e.symm ⁻¹' B)) := by
    rintro x ⟨c, hc, hx⟩
    have hhalf := half_many (ι := Fin m) μ (S := Metric.ball c s) measurableSet_ball (hε c hc) (by simpa using h8)
    simp only [Fintype.card_fin] at hhalf
    have hsub : {y : Fin m → E | ε * m / 2 ≤ count (Metric.ball c s) y} ⊆ Prod.mk x ⁻¹' (e.symm ⁻¹' B) := by
      intro y hy
      refine ⟨c, hc, fun i => ?_, univ.filter fun i => y i ∈ Metric.ball c s, ?_, fun i hi => ?_⟩
      · exact hx i
      · simp only [Set.mem_ofPred_eq, count] at hy
        convert hy using 2
      · simp only [mem_filter, mem_univ, true_and, Metric.mem_ball] at hi
        exact hi
    calc (1 / 2 : ENNReal) = ENNReal.ofReal (1 / 2) := by
          rw [ENNReal.ofReal_div_of_pos (by norm_num)]
          simp
      _ ≤ ENNReal.ofReal (P.real {y : Fin m → E | ε * m / 2 ≤ count (Metric.ball c s) y}) := ENNReal.ofReal_le_ofReal hhalf
      _ = P {y : Fin m → E | ε * m / 2 ≤ count (Metric.ball c s) y} := ofReal_measureReal
      _ ≤ _ := measure_mono hsub
  have hint : P A * (1 / 2) ≤ Q B := by
    rw [hQB, Measure.prod_apply (e.symm.measurable hBm)]
    calc P A * (1 / 2) = ∫⁻ x in A, (1 / 2 : ENNReal) ∂P := by
          rw [setLIntegral_const, mul_comm]
      _ ≤ ∫⁻ x in A, P (Prod.mk x ⁻¹' (e.symm ⁻¹' B)) ∂P := setLIntegral_mono' hAm hlow
      _ ≤ _ := setLIntegral_le_lintegral _ _
  have h2 : P A ≤ 2 * Q B := by
    calc P A = 2 * (P A * (1 / 2)) := by
          rw [mul_comm (P A), ← mul_assoc, one_div, ENNReal.mul_inv_cancel (by norm_num) (by norm_num), one_mul]
      _ ≤ 2 * Q B := by gcongr
  have h3 := ENNReal.toReal_mono (ENNReal.mul_ne_top (by norm_num) (measure_ne_top Q B)) h2
  rw [ENNReal.toReal_mul] at h3
  simpa [Measure.real] using h3

/-- The epsilon-net theorem, countably many balls, enough samples. -/
theorem net_countable {D : Set E} (hD : D.Countable) {s ε : ℝ} (hε : ∀ c ∈ D, ε ≤ μ.real (Metric.ball c s)) (h8 : 8 ≤ ε * m) :
    (Measure.pi fun _ : Fin m => μ).real {x | ∃ c ∈ D, ∀ i, s ≤ dist (x i) c} ≤ failureBound m ε (Module.finrank ℝ E + 1) := by
  refine (prob_miss_le μ hD hε h8).trans ?_
  have h := prob_bad (m := m) μ hD s (ε * m / 2)
  unfold failureBound
  push_cast at h
  have h9 : -(ε * m / 2) = -(ε * m) / 2 := by ring
  rw [h9] at h
  linarith

/-- With fewer samples the bound says nothing. -/
theorem failureBound_ge_one {ε : ℝ} {vc : ℕ} (hm : 2 ≤ m) (hvc : 2 ≤ vc) (h8 : ε * m < 8) : 1 ≤ failureBound m ε vc := by
  unfold failureBound
  have h1 : (11 : ℝ) ≤ ∑ i ∈ range (vc + 1), (Nat.choose (2 * m) i : ℝ) := by
    calc (11 : ℝ) ≤ ∑ i ∈ range 3, (Nat.choose (2 * m) i : ℝ) := by
          have h2 : Nat.choose 4 2 ≤ Nat.choose (2 * m) 2 := Nat.choose_le_choose 2 (by omega)
          have h3 : ((Nat.choose 4 2 : ℕ) : ℝ) ≤ (Nat.choose (2 * m) 2 : ℝ) := by exact_mod_cast h2
          have h4 : (2 : ℝ) ≤ m := by exact_mod_cast hm
          simp only [sum_range_succ, range_zero, sum_empty, Nat.choose_zero_right, Nat.choose_one_right]
          have h5 : Nat.choose 4 2 = 6 := rfl
          rw [h5] at h3
          push_cast at h3 ⊢
          linarith
      _ ≤ _ := by
          apply sum_le_sum_of_subset_of_nonneg
          · exact range_subset_range.2 (by omega)
          · intros
            positivity
  have h2 : (2 : ℝ) ^ (-4 : ℝ) ≤ 2 ^ (-(ε * m) / 2) := Real.rpow_le_rpow_of_exponent_le (by norm_num) (by linarith)
  have h3 : (2 : ℝ) ^ (-4 : ℝ) = 1 / 16 := by
    rw [show (-4 : ℝ) = ((-4 : ℤ) : ℝ) by norm_num, Real.rpow_intCast]
    norm_num
  rw [h3] at h2
  calc (1 : ℝ) ≤ 2 * 11 * (1 / 16) := by norm_num
    _ ≤ _ := by
      apply mul_le_mul _ h2 (by norm_num) (by positivity)
      linarith

/-- The epsilon-net theorem for balls whose measure grows at least like `κ s ^ d` with the radius. -/
theorem net_of_density {C : Set E} {r κ : ℝ} {d : ℕ} (hd : d = Module.finrank ℝ E) (hd1 : 1 ≤ d) (hm : 2 ≤ m) (hr : 0 ≤ r)
    (hκ : ∀ c ∈ C, ∀ s, 0 ≤ s → s ≤ r → κ * s ^ d ≤ μ.real (Metric.ball c s)) :
    (Measure.pi fun _ : Fin m => μ).real {x | ∃ c ∈ C, ∀ i, r ≤ dist (x i) c} ≤ failureBound m (κ * r ^ d) (d + 1) := by
  have : ProperSpace E := FiniteDimensional.proper_real E
  obtain ⟨D, hDC, hD, hdense⟩ := TopologicalSpace.IsSeparable.exists_countable_dense_subset (TopologicalSpace.IsSeparable.of_separableSpace C)
  set P := Measure.pi fun _ : Fin m => μ
  rcases hr.eq_or_lt with rfl | hr0
  · have h0 : κ * (0 : ℝ) ^ d * m < 8 := by
      rw [zero_pow (by omega)]
      norm_num
    exact measureReal_le_one.trans (failureBound_ge_one hm (by omega) h0)
  -- for every smaller radius
  have hs : ∀ s, 0 < s → s < r → P.real {x | ∃ c ∈ C, ∀ i, r ≤ dist (x i) c} ≤ failureBound m (κ * s ^ d) (d + 1) := by
    intro s hs0 hsr
    by_cases h8 : κ * s ^ d * m < 8
    · exact measureReal_le_one.trans (failureBound_ge_one hm (by omega) h8)
    · have hnet := net_countable (m := m) μ hD (s := s) (ε := κ * s ^ d) (fun c hc => hκ c (hDC hc) s hs0.le hsr.le) (not_lt.1 h8)
      rw [← hd] at hnet
      refine le_trans (measureReal_mono (fun x hx => ?_) (measure_ne_top _ _)) hnet
      obtain ⟨c, hc, hx⟩ := hx
      obtain ⟨c', hc', hcc⟩ := Metric.mem_closure_iff.1 (hdense hc) (r - s) (by linarith)
      refine ⟨c', hc', fun i => ?_⟩
      have := dist_triangle (x i) c' c
      rw [dist_comm c' c] at this
      linarith [hx i]
  have hcont : Filter.Tendsto (fun s : ℝ => failureBound m (κ * s ^ d) (d + 1)) (nhdsWithin r (Set.Iio r))
      (nhds (failureBound m (κ * r ^ d) (d + 1))) := by
    have : Continuous fun s : ℝ => failureBound m (κ * s ^ d) (d + 1) := by
      unfold failureBound
      refine Continuous.mul continuous_const ?_
      refine Continuous.rpow continuous_const (by fun_prop) fun s => Or.inl (by norm_num)
    exact this.continuousAt.tendsto.mono_left nhdsWithin_le_nhds
  refine ge_of_tendsto hcont ?_
  filter_upwards [Ioo_mem_nhdsLT hr0] with s hs'
  exact hs s hs'.1 hs'.2

end Verif.Net
