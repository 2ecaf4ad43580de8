import Verif.Lemmas.NeighborTails
import Verif.Props.BoundTails
import Verif.Props.NetGuarantee

/-!
C80: the tail bounds of `bound.py` for the number of neighbours are bounds on probabilities.
-/

namespace Verif.Props

open MeasureTheory ProbabilityTheory Verif.Bound Verif.Spec Verif.Net

variable {Ω : Type*} [MeasurableSpace Ω] {Pr : Measure Ω} [IsProbabilityMeasure Pr] {dim : ℕ} {X : ℕ → Ω → Space dim}
  {S : Set (Space dim)}

theorem ballFraction_eq {r vol : ℝ} {dim : ℕ} (hdim : 1 ≤ dim) (hr : 0 ≤ r) :
    ballFraction r dim vol = (volume (Metric.ball (0 : Space dim) r)).toReal / vol := by
  have h := rho_eq_netMeasure (tol := none) (vol := vol) hdim hr trivial
  unfold rho epsilonNetRadius alpha netMeasure netRadius at h
  simp only [one_mul] at h
  exact h

theorem ballFraction_pos {r vol : ℝ} {dim : ℕ} (hv : 0 < vol) (hr : 0 < r) : 0 < ballFraction r dim vol := by
  unfold ballFraction
  have := volUnitSphere_pos dim
  positivity

theorem ball_empty_or {r vol : ℝ} {dim : ℕ} (hv : 0 < vol) (hr : 0 ≤ r) (x : Space dim) :
    (Metric.ball x r = ∅) ∨ 0 < ballFraction r dim vol := by
  rcases hr.eq_or_lt with h | h
  · exact Or.inl (Metric.ball_eq_empty.2 h.symm.le)
  · exact Or.inr (ballFraction_pos hv h)

theorem to_ennreal {A : Set Ω} {B : ℝ} (hB : 0 ≤ B) (h : Pr.real A ≤ B) : Pr A ≤ ENNReal.ofReal B :=
  (ENNReal.le_ofReal_iff_toReal_le (measure_ne_top _ _) hB).2 h

/-- C80, Hoeffding. For `m` independent samples, uniform in a region of at least the given volume: the probability that some sample
has `k` or more others closer than the radius is at most the exponential of the returned value. -/
theorem C80_hoeffding (hX : IidUniform Pr X S) (hS : MeasurableSet S) (hdim : 1 ≤ dim) {vol : ℝ} (hv : 0 < vol)
    (hvol : ENNReal.ofReal vol ≤ volume S) {m : ℕ} (hm : 2 ≤ m) {k r : ℝ} (hr : 0 ≤ r) (d : ℕ) :
    Pr {ω | ∃ i < m, k ≤ neighbours X d m r ω i} ≤ ENNReal.ofReal (Real.exp (tailHoeffding m k r dim vol)) := by
  have := IidUniform.prob hX
  have hm0 : (0 : ℝ) < m := by
    have : 0 < m := by omega
    exact_mod_cast this
  have hcast : ((m - 1 : ℕ) : ℝ) = (m : ℝ) - 1 := by
    push_cast [Nat.cast_sub (show 1 ≤ m by omega)]
    ring
  apply to_ennreal (Real.exp_pos _).le
  set p := ballFraction r dim vol with hp
  have hval : Real.exp (tailHoeffding m k r dim vol) = m * Real.exp (-(2 * ((m : ℝ) - 1) * max (k / ((m : ℝ) - 1) - p) 0 ^ 2)) := by
    unfold tailHoeffding
    simp only [← hp]
    rw [sub_eq_add_neg, Real.exp_add, Real.exp_log hm0]
  rw [hval]
  apply iid_some_row_le hX d
  intro x
  by_cases hk : p ≤ k / ((m : ℝ) - 1)
  · rw [max_eq_left (by linarith), ← hcast]
    refine tail_hoeffding _ measurableSet_ball ?_ (by omega) (by rw [hcast]; exact hk)
    refine (cond_ball_le hX hS hv hvol x r).trans ((min_le_left _ _).trans (le_of_eq ?_))
    rw [hp, ballFraction_eq hdim hr]
  · rw [max_eq_right (by linarith)]
    simp

/-- C80 (part), generic Chernoff bound, for `k` at least the expected number of neighbours. Missing: smaller `k`, where the value is
not a bound (`C80_chernoff_generic_false`). -/
theorem C80_chernoff_generic_partial (hX : IidUniform Pr X S) (hS : MeasurableSet S) (hdim : 1 ≤ dim) {vol : ℝ} (hv : 0 < vol)
    (hvol : ENNReal.ofReal vol ≤ volume S) {m : ℕ} (hm : 2 ≤ m) {k r : ℝ} (hr : 0 ≤ r) (hk0 : 0 < k)
    (hk : ((m : ℝ) - 1) * min (ballFraction r dim vol) 1 ≤ k) (d : ℕ) :
    Pr {ω | ∃ i < m, k ≤ neighbours X d m r ω i} ≤ EReal.exp (tailChernoff m k r dim vol) := by
  have := IidUniform.prob hX
  have hm0 : (0 : ℝ) < m := by
    have : 0 < m := by omega
    exact_mod_cast this
  have hcast : ((m - 1 : ℕ) : ℝ) = (m : ℝ) - 1 := by
    push_cast [Nat.cast_sub (show 1 ≤ m by omega)]
    ring
  have hm1 : (0 : ℝ) < (m : ℝ) - 1 := by
    rw [← hcast]
    have : 0 < m - 1 := by omega
    exact_mod_cast this
  unfold tailChernoff
  simp only
  set p := min (ballFraction r dim vol) 1 with hp
  rcases hr.eq_or_lt with h0 | h0
  · -- no ball
    have hB : Pr.real {ω | ∃ i < m, k ≤ neighbours X d m r ω i} ≤ m * 0 := by
      apply iid_some_row_le hX d
      intro x
      exact (tail_zero _ (Or.inl ⟨Metric.ball_eq_empty.2 h0.symm.le, hk0⟩)).le
    rw [mul_zero] at hB
    have := to_ennreal le_rfl hB
    rw [ENNReal.ofReal_zero] at this
    exact this.trans bot_le
  · have hp0 : 0 < p := lt_min (ballFraction_pos hv h0) one_pos
    have hmu : ((m : ℝ) - 1) * p ≠ 0 := (mul_pos hm1 hp0).ne'
    rw [if_neg hmu, EReal.exp_coe]
    apply to_ennreal (Real.exp_pos _).le
    have hval : Real.exp (Real.log m - ((m : ℝ) - 1) * p + k * (1 + Real.log (((m : ℝ) - 1) * p) - Real.log k)) =
        m * Real.exp (-(((m : ℝ) - 1) * p) + k * (1 + Real.log (((m : ℝ) - 1) * p) - Real.log k)) := by
      rw [sub_eq_add_neg, add_assoc, Real.exp_add, Real.exp_log hm0]
    rw [hval]
    apply iid_some_row_le hX d
    intro x
    rw [← hcast]
    refine tail_generic _ measurableSet_ball ?_ hp0 (by omega) (by rw [hcast]; exact hk)
    rw [hp, ballFraction_eq hdim hr]
    exact cond_ball_le hX hS hv hvol x r

/-- The tail of one row for the relative-entropy bound. -/
theorem row_kl (hX : IidUniform Pr X S) (hS : MeasurableSet S) (hdim : 1 ≤ dim) {vol : ℝ} (hv : 0 < vol)
    (hvol : ENNReal.ofReal vol ≤ volume S) {m : ℕ} (hm : 2 ≤ m) {k r : ℝ} (hr : 0 ≤ r) (hk0 : 0 ≤ k) :
    ∃ B : ℝ, 0 ≤ B ∧ ENNReal.ofReal B ≤ EReal.exp (tailKL m k r dim vol false) ∧
      ∀ x : Space dim, (Measure.pi fun _ : Fin (m - 1) => cond volume S).real {y | k ≤ count (Metric.ball x r) y} ≤ B := by
  have := IidUniform.prob hX
  have hm0 : (0 : ℝ) < m := by
    have : 0 < m := by omega
    exact_mod_cast this
  have hcast : ((m - 1 : ℕ) : ℝ) = (m : ℝ) - 1 := by
    push_cast [Nat.cast_sub (show 1 ≤ m by omega)]
    ring
  have hm1 : (0 : ℝ) < (m : ℝ) - 1 := by
    rw [← hcast]
    have : 0 < m - 1 := by omega
    exact_mod_cast this
  unfold tailKL
  simp only [Bool.false_eq_true, if_false]
  set p := min (ballFraction r dim vol) 1 with hp
  have hp1 : p ≤ 1 := min_le_right _ _
  have hp0' : 0 ≤ p := by
    refine le_min ?_ zero_le_one
    rw [ballFraction_eq hdim hr]
    positivity
  by_cases hpx : k / m ≤ p
  · -- the bound is trivial
    refine ⟨1, zero_le_one, ?_, fun x => measureReal_le_one⟩
    rw [max_eq_right (by linarith), add_zero, entropy_self hp0' hp1]
    simp
  · rw [not_le] at hpx
    rw [max_eq_left (by linarith)]
    have hx : p + (k / m - p) = k / m := by ring
    rw [hx]
    have hk : 0 < k := by
      rw [lt_div_iff₀ hm0] at hpx
      exact lt_of_le_of_lt (by positivity) hpx
    rcases hr.eq_or_lt with h0 | h0
    · refine ⟨0, le_rfl, by simp, fun x => ?_⟩
      exact (tail_zero _ (Or.inl ⟨Metric.ball_eq_empty.2 h0.symm.le, hk⟩)).le
    · have hp0 : 0 < p := lt_min (ballFraction_pos hv h0) one_pos
      by_cases hx1 : k / m < 1
      · refine ⟨_, (Real.exp_pos _).le, ?_, fun x => tail_kl _ measurableSet_ball ?_ hp0 hpx.le hx1 ?_⟩
        · unfold entropy2 relEntr
          rw [if_pos ⟨hp0.trans hpx, hp0⟩, if_pos ⟨by linarith, by linarith⟩, ← EReal.coe_add, ← EReal.coe_mul, ← EReal.coe_neg,
            EReal.exp_coe, hcast]
        · rw [hp, ballFraction_eq hdim hr]
          exact cond_ball_le hX hS hv hvol x r
        · rw [hcast, mul_div_assoc']
          rw [div_le_iff₀ hm0]
          nlinarith
      · refine ⟨0, le_rfl, by simp, fun x => ?_⟩
        refine (tail_zero _ (Or.inr ?_)).le
        rw [hcast]
        rw [not_lt, le_div_iff₀ hm0] at hx1
        linarith

/-- C80, Chernoff bound with relative entropy, without the union bound factor: one given sample. -/
theorem C80_chernoff_kl_one (hX : IidUniform Pr X S) (hS : MeasurableSet S) (hdim : 1 ≤ dim) {vol : ℝ} (hv : 0 < vol)
    (hvol : ENNReal.ofReal vol ≤ volume S) {m : ℕ} (hm : 2 ≤ m) {k r : ℝ} (hr : 0 ≤ r) (hk0 : 0 ≤ k) (d : ℕ) {i : ℕ} (hi : i < m) :
    Pr {ω | k ≤ neighbours X d m r ω i} ≤ EReal.exp (tailKL m k r dim vol false) := by
  obtain ⟨B, h0, h1, h2⟩ := row_kl hX hS hdim hv hvol hm hr hk0
  exact (to_ennreal h0 (iid_row_le hX d i hi h2)).trans h1

/-- C80, Chernoff bound with relative entropy: all samples. -/
theorem C80_chernoff_kl (hX : IidUniform Pr X S) (hS : MeasurableSet S) (hdim : 1 ≤ dim) {vol : ℝ} (hv : 0 < vol)
    (hvol : ENNReal.ofReal vol ≤ volume S) {m : ℕ} (hm : 2 ≤ m) {k r : ℝ} (hr : 0 ≤ r) (hk0 : 0 ≤ k) (d : ℕ) :
    Pr {ω | ∃ i < m, k ≤ neighbours X d m r ω i} ≤ EReal.exp (tailKL m k r dim vol) := by
  obtain ⟨B, h0, h1, h2⟩ := row_kl hX hS hdim hv hvol hm hr hk0
  have hm0 : (0 : ℝ) < m := by
    have : 0 < m := by omega
    exact_mod_cast this
  refine (to_ennreal (by positivity) (iid_some_row_le hX d h2)).trans ?_
  have h3 : tailKL m k r dim vol = ((Real.log m : ℝ) : EReal) + tailKL m k r dim vol false := by
    unfold tailKL
    simp [sub_eq_add_neg]
  rw [h3, EReal.exp_add, EReal.exp_coe, Real.exp_log hm0, ENNReal.ofReal_mul hm0.le]
  gcongr

/-! ### Counterexamples on the unit interval -/

theorem volume_interval (s : ℝ) (hs : 0 ≤ s) (x : Space 1) : volume (Metric.ball x s) = ENNReal.ofReal (2 * s) := by
  rw [EuclideanSpace.volume_ball]
  simp only [Fintype.card_fin, pow_one, Nat.cast_one]
  have h1 : Real.Gamma (1 / 2 + 1) = Real.sqrt Real.pi / 2 := by
    rw [Real.Gamma_add_one (by norm_num), Real.Gamma_one_half_eq]
    ring
  rw [h1, ← ENNReal.ofReal_mul hs]
  congr 1
  have := (Real.sqrt_pos.2 Real.pi_pos).ne'
  field_simp

theorem ballFraction_interval (s : ℝ) (hs : 0 ≤ s) : ballFraction s 1 1 = 2 * s := by
  rw [ballFraction_eq le_rfl hs, volume_interval s hs, ENNReal.toReal_ofReal (by positivity), div_one]

/-- There is a sampler for the unit interval. -/
theorem interval_sampler : ∃ (Pr : Measure (ℕ → Space 1)), IsProbabilityMeasure Pr ∧
    IidUniform Pr (fun i x => x i) (Metric.ball (0 : Space 1) (1 / 2)) ∧ MeasurableSet (Metric.ball (0 : Space 1) (1 / 2)) ∧
    volume (Metric.ball (0 : Space 1) (1 / 2)) = ENNReal.ofReal 1 := by
  have hvol := volume_interval (1 / 2) (by norm_num) 0
  rw [show (2 : ℝ) * (1 / 2) = 1 by norm_num] at hvol
  have hprob : IsProbabilityMeasure (cond volume (Metric.ball (0 : Space 1) (1 / 2))) :=
    cond_isProbabilityMeasure_of_finite (by rw [hvol]; simp) (by rw [hvol]; simp)
  refine ⟨Measure.infinitePi fun _ => cond volume (Metric.ball (0 : Space 1) (1 / 2)), inferInstance, ⟨fun i => measurable_pi_apply i, ?_, ?_⟩,
    measurableSet_ball, hvol⟩
  · exact iIndepFun_infinitePi (X := fun _ x => x) fun _ => measurable_id
  · intro i
    exact (measurePreserving_eval_infinitePi (fun _ => cond volume (Metric.ball (0 : Space 1) (1 / 2))) i).map_eq

/-- C80 fails for the generic Chernoff bound when fewer neighbours are asked for than are expected: 20 samples in an interval of
length 1, radius 1, one neighbour. Every sample has a neighbour, but the value is negative. -/
theorem C80_chernoff_generic_false : ∃ (Pr : Measure (ℕ → Space 1)) (S : Set (Space 1)), IsProbabilityMeasure Pr ∧
    IidUniform Pr (fun i x => x i) S ∧ MeasurableSet S ∧ volume S = ENNReal.ofReal 1 ∧
    EReal.exp (tailChernoff 20 1 1 1 1) < Pr {x | ∃ i < 20, (1 : ℝ) ≤ neighbours (fun i x => x i) 0 20 1 x i} := by
  obtain ⟨Pr, h1, h2, h3, h4⟩ := interval_sampler
  refine ⟨Pr, _, h1, h2, h3, h4, ?_⟩
  have hlt : EReal.exp (tailChernoff 20 1 1 1 1) < 1 := by
    rw [EReal.exp_lt_one_iff]
    unfold tailChernoff
    simp only
    rw [ballFraction_interval 1 (by norm_num)]
    norm_num
    have : Real.log 20 + Real.log 19 < 18 := by
      rw [← Real.log_mul (by norm_num) (by norm_num), Real.log_lt_iff_lt_exp (by norm_num)]
      have h2 : (2 : ℝ) ≤ Real.exp 1 := by linarith [Real.add_one_le_exp (1 : ℝ)]
      calc (20 * 19 : ℝ) < 2 ^ 18 := by norm_num
        _ ≤ Real.exp 1 ^ 18 := pow_le_pow_left₀ (by norm_num) h2 18
        _ = Real.exp 18 := by rw [← Real.exp_nat_mul]; norm_num
    have h3 : (((Real.log 20 - 19 + (1 + Real.log 19) : ℝ)) : EReal) < 0 := by
      exact_mod_cast (by linarith : Real.log 20 - 19 + (1 + Real.log 19) < 0)
    push_cast at h3
    exact h3
  refine lt_of_lt_of_le hlt ?_
  -- all samples are in the interval
  have hin : ∀ i : ℕ, Pr {x | x i ∈ Metric.ball (0 : Space 1) (1 / 2)} = 1 := by
    intro i
    have hu := h2.uniform i
    have h5 : {x : ℕ → Space 1 | x i ∈ Metric.ball (0 : Space 1) (1 / 2)} = (fun x => x i) ⁻¹' Metric.ball 0 (1 / 2) := rfl
    rw [h5, ← Measure.map_apply (h2.measurable i) measurableSet_ball, hu, cond_apply measurableSet_ball, Set.inter_self, h4]
    simp
  have hae : ∀ᵐ x ∂Pr, x 0 ∈ Metric.ball (0 : Space 1) (1 / 2) ∧ x 1 ∈ Metric.ball (0 : Space 1) (1 / 2) := by
    refine Filter.Eventually.and ?_ ?_
    · exact (mem_ae_iff_prob_eq_one (measurable_pi_apply 0 measurableSet_ball)).2 (hin 0)
    · exact (mem_ae_iff_prob_eq_one (measurable_pi_apply 1 measurableSet_ball)).2 (hin 1)
  have hone : Pr Set.univ ≤ Pr {x | ∃ i < 20, (1 : ℝ) ≤ neighbours (fun i x => x i) 0 20 1 x i} := by
    apply measure_mono_ae
    filter_upwards [hae] with x hx _
    refine ⟨0, by norm_num, ?_⟩
    have : 0 < neighbours (fun i (x : ℕ → Space 1) => x i) 0 20 1 x 0 := by
      unfold neighbours
      apply Finset.card_pos.2
      refine ⟨1, ?_⟩
      simp only [Finset.mem_filter, Finset.mem_range]
      refine ⟨by norm_num, by norm_num, ?_⟩
      have h6 := dist_triangle_right (x (0 + 1)) (x (0 + 0)) (0 : Space 1)
      have h7 := Metric.mem_ball.1 hx.1
      have h8 := Metric.mem_ball.1 hx.2
      simp only [zero_add] at h6 ⊢
      linarith
    exact_mod_cast this
  rwa [measure_univ] at hone

/-- C80 fails for the Hoeffding bound's "mean variant": two samples in an interval of length 1, radius 1/4, one neighbour. The
samples are that close with probability at least 1/16, but the exponential of the value is `2 exp (-8)`. -/
theorem C80_hoeffding_mean_false : ∃ (Pr : Measure (ℕ → Space 1)) (S : Set (Space 1)), IsProbabilityMeasure Pr ∧
    IidUniform Pr (fun i x => x i) S ∧ MeasurableSet S ∧ volume S = ENNReal.ofReal 1 ∧
    ENNReal.ofReal (Real.exp (tailHoeffdingMean 2 1 (1 / 4) 1 1)) <
      Pr {x | ∃ i < 2, (1 : ℝ) ≤ neighbours (fun i x => x i) 0 2 (1 / 4) x i} := by
  obtain ⟨Pr, h1, h2, h3, h4⟩ := interval_sampler
  refine ⟨Pr, _, h1, h2, h3, h4, ?_⟩
  have hval : Real.exp (tailHoeffdingMean 2 1 (1 / 4) 1 1) < 1 / 16 := by
    unfold tailHoeffdingMean
    simp only
    rw [ballFraction_interval _ (by norm_num)]
    norm_num
    rw [Real.exp_sub, Real.exp_log (by norm_num)]
    have h2 : (2 : ℝ) ≤ Real.exp 1 := by linarith [Real.add_one_le_exp (1 : ℝ)]
    have h3 : (2 : ℝ) ^ 8 ≤ Real.exp 8 := by
      calc (2 : ℝ) ^ 8 ≤ Real.exp 1 ^ 8 := pow_le_pow_left₀ (by norm_num) h2 8
        _ = Real.exp 8 := by rw [← Real.exp_nat_mul]; norm_num
    rw [div_lt_iff₀ (Real.exp_pos _)]
    linarith
  have hin : ∀ i : ℕ, Pr ((fun x => x i) ⁻¹' Metric.ball (0 : Space 1) (1 / 8)) = ENNReal.ofReal (1 / 4) := by
    intro i
    rw [← Measure.map_apply (h2.measurable i) measurableSet_ball, h2.uniform i, cond_apply measurableSet_ball, h4,
      Set.inter_eq_self_of_subset_right (Metric.ball_subset_ball (by norm_num)), volume_interval _ (by norm_num)]
    norm_num
  have hboth := (h2.indep.indepFun (show (0 : ℕ) ≠ 1 by norm_num)).measure_inter_preimage_eq_mul (Metric.ball (0 : Space 1) (1 / 8))
    (Metric.ball (0 : Space 1) (1 / 8)) measurableSet_ball measurableSet_ball
  rw [hin 0, hin 1, ← ENNReal.ofReal_mul (by norm_num)] at hboth
  refine lt_of_lt_of_le ((ENNReal.ofReal_lt_ofReal_iff (by norm_num)).2 hval) ?_
  rw [show (1 / 16 : ℝ) = 1 / 4 * (1 / 4) by norm_num, ← hboth]
  apply measure_mono
  rintro x ⟨hx0, hx1⟩
  refine ⟨0, by norm_num, ?_⟩
  have : 0 < neighbours (fun i (x : ℕ → Space 1) => x i) 0 2 (1 / 4) x 0 := by
    unfold neighbours
    apply Finset.card_pos.2
    refine ⟨1, ?_⟩
    simp only [Finset.mem_filter, Finset.mem_range]
    refine ⟨by norm_num, by norm_num, ?_⟩
    have h6 := dist_triangle_right (x (0 + 1)) (x (0 + 0)) (0 : Space 1)
    have h7 := Metric.mem_ball.1 hx0
    have h8 := Metric.mem_ball.1 hx1
    simp only [zero_add] at h6 ⊢
    linarith
  exact_mod_cast this

/-- C80's hypotheses can be met: a sampler for the unit interval, 100 samples, radius 1/20, 40 neighbours. -/
theorem C80_nonvacuous : ∃ (Pr : Measure (ℕ → Space 1)) (_ : IsProbabilityMeasure Pr) (S : Set (Space 1)),
    IidUniform Pr (fun i x => x i) S ∧ MeasurableSet S ∧ ENNReal.ofReal 1 ≤ volume S ∧
    ((100 : ℕ) - 1 : ℝ) * min (ballFraction (1 / 20) 1 1) 1 ≤ 40 ∧
    Real.exp (tailHoeffding 100 40 (1 / 20) 1 1) < 1 := by
  obtain ⟨Pr, h1, h2, h3, h4⟩ := interval_sampler
  refine ⟨Pr, h1, _, h2, h3, h4.ge, ?_, ?_⟩
  · rw [ballFraction_interval _ (by norm_num)]
    norm_num
  · rw [Real.exp_lt_one_iff]
    unfold tailHoeffding
    simp only
    rw [ballFraction_interval _ (by norm_num)]
    norm_num
    rw [Real.log_lt_iff_lt_exp (by norm_num)]
    have h2 : (2 : ℝ) ≤ Real.exp 1 := by linarith [Real.add_one_le_exp (1 : ℝ)]
    have h3 : (2 : ℝ) ^ 10 ≤ Real.exp 10 := by
      calc (2 : ℝ) ^ 10 ≤ Real.exp 1 ^ 10 := pow_le_pow_left₀ (by norm_num) h2 10
        _ = Real.exp 10 := by rw [← Real.exp_nat_mul]; norm_num
    refine lt_of_lt_of_le (by norm_num) (h3.trans (Real.exp_le_exp.2 (by norm_num)))

end Verif.Props
