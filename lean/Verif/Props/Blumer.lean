import Verif.Lemmas.Blumer
import Verif.Props.NetGuarantee

/-!
C135: the closed-form number of samples of `compute_blumer_bound`, measured against the failure bound that `compute_numerical_bound` searches,
and against planners on independent uniform samples.
-/

namespace Verif.Props

open MeasureTheory ProbabilityTheory Verif.Bound Verif.Spec Verif.Prm Verif.Net

/-- C135. The returned number in terms of the fraction of the volume that one ball of the net takes. -/
theorem C135_value {dim : ℕ} (hdim : 1 ≤ dim) {rad : ℝ} (hrad : 0 ≤ rad) (γ vol : ℝ) :
    blumerBound rad dim γ vol = max (4 / netMeasure rad none dim vol * Real.logb 2 (2 / γ))
      (8 * ((dim : ℝ) + 1) / netMeasure rad none dim vol * Real.logb 2 (13 / netMeasure rad none dim vol)) := by
  have h : volUnitSphere dim * rad ^ dim / vol = netMeasure rad none dim vol := by
    rw [← rho_eq_netMeasure hdim hrad (tol := none) trivial]
    simp only [rho, epsilonNetRadius, alpha, one_mul]
    ring
  simp only [blumerBound, h]
  push_cast
  rfl

theorem netMeasure_pos {dim : ℕ} (hdim : 1 ≤ dim) {rad vol : ℝ} (hrad : 0 < rad) (hvol : 0 < vol) : 0 < netMeasure rad none dim vol := by
  have : Nonempty (Fin dim) := ⟨⟨0, hdim⟩⟩
  unfold netMeasure
  refine div_pos (ENNReal.toReal_pos ?_ ?_) hvol
  · exact (Metric.measure_ball_pos volume _ hrad).ne'
  · exact measure_ball_lt_top.ne

theorem netMeasure_netRadius (δ : ℝ) (tol : Option ℝ) (dim : ℕ) (vol : ℝ) :
    netMeasure (netRadius δ tol) none dim vol = netMeasure δ tol dim vol := rfl

/-- C135. If a ball of the net takes no more than the whole volume, any number of samples of at least the returned one meets the failure
bound for failure probability `γ`. -/
theorem C135_sufficient {dim : ℕ} (hdim : 1 ≤ dim) {rad γ vol : ℝ} (hrad : 0 < rad) (hvol : 0 < vol) (hγ : 0 < γ)
    (hone : netMeasure rad none dim vol ≤ 1) {m : ℕ} (hm : blumerBound rad dim γ vol ≤ m) :
    failureBound m (netMeasure rad none dim vol) (dim + 1) ≤ γ := by
  rw [C135_value hdim hrad.le, max_le_iff] at hm
  refine blumer_failure (by omega) (netMeasure_pos hdim hrad hvol) hone hγ hm.1 ?_
  push_cast
  exact hm.2

/-- C135 needs that condition: here the ball is larger than the environment, 4 samples are what is returned, and they do not meet the
bound. -/
theorem C135_measure_needed : ∃ rad γ vol : ℝ, 0 < rad ∧ 0 < vol ∧ 0 < γ ∧ γ < 1 ∧ blumerBound rad 2 γ vol = 4 ∧
    γ < failureBound 4 (netMeasure rad none 2 vol) (2 + 1) := by
  have hpi := Real.pi_pos
  have hμ : netMeasure 1 none 2 (2 * Real.pi / 13) = 13 / 2 := by
    unfold netMeasure netRadius
    have := volume_disc 1 (by norm_num)
    unfold Space at this
    rw [this, ENNReal.toReal_ofReal (by positivity)]
    field_simp
  have hx0 : (0 : ℝ) < 2 ^ (13 / 2 : ℝ) := by positivity
  have hx : ((2 : ℝ) ^ (13 / 2 : ℝ)) * 2 ^ (13 / 2 : ℝ) = 8192 := by
    rw [← Real.rpow_add (by norm_num)]
    norm_num
  refine ⟨1, 2 / 2 ^ (13 / 2 : ℝ), 2 * Real.pi / 13, one_pos, by positivity, by positivity, ?_, ?_, ?_⟩
  · rw [div_lt_one hx0]
    nlinarith
  · rw [C135_value (by norm_num) zero_le_one, hμ, show (2 : ℝ) / (2 / 2 ^ (13 / 2 : ℝ)) = 2 ^ (13 / 2 : ℝ) by field_simp,
      Real.logb_rpow (by norm_num) (by norm_num), show (13 : ℝ) / (13 / 2) = 2 by norm_num, Real.logb_self_eq_one (by norm_num)]
    norm_num
  · rw [hμ]
    unfold failureBound
    have : -((13 / 2 : ℝ) * ((4 : ℕ) : ℝ)) / 2 = -((13 : ℕ) : ℝ) := by norm_num
    rw [this, Real.rpow_neg (by norm_num), Real.rpow_natCast, div_lt_iff₀ hx0]
    norm_num [Finset.sum_range_succ, Nat.choose]
    nlinarith

/-- At least two samples are asked for. -/
theorem blumer_two {dim : ℕ} (hdim : 1 ≤ dim) {rad γ vol : ℝ} (hrad : 0 < rad) (hvol : 0 < vol)
    (hone : netMeasure rad none dim vol ≤ 1) {m : ℕ} (hm : blumerBound rad dim γ vol ≤ m) : 2 ≤ m := by
  rw [C135_value hdim hrad.le, max_le_iff] at hm
  have h0 := netMeasure_pos hdim hrad hvol
  generalize netMeasure rad none dim vol = ε at *
  have hd : (1 : ℝ) ≤ dim := by exact_mod_cast hdim
  have hl : 1 ≤ Real.logb 2 (13 / ε) := by
    rw [Real.le_logb_iff_rpow_le (by norm_num) (by positivity), Real.rpow_one, le_div_iff₀ h0]
    linarith
  have h1 : (16 : ℝ) ≤ 8 * ((dim : ℝ) + 1) / ε := by
    rw [le_div_iff₀ h0]
    nlinarith
  have h2 : (2 : ℝ) ≤ m := by nlinarith [hm.2]
  exact_mod_cast h2

/-- C135. `compute_numerical_bound` never asks for more samples than the closed form with the same net radius and failure probability,
rounded up. -/
theorem C135_count {dim : ℕ} (hdim : 1 ≤ dim) {δ p vol : ℝ} {tol : Option ℝ} {fuel N : ℕ} {r : ℝ} (hδ : 0 < δ) (ht : TolNonneg tol)
    (hvol : 0 < vol) (hrad : 0 < epsilonNetRadius δ tol) (hone : netMeasure δ tol dim vol ≤ 1)
    (h : numericalBound δ p vol dim tol fuel = some (.ok (N, r))) :
    N ≤ ⌈blumerBound (epsilonNetRadius δ tol) dim (1 - p) vol⌉₊ := by
  obtain ⟨-, h1, -, -⟩ := numericalBound_ok h
  have hr : epsilonNetRadius δ tol = netRadius δ tol := by
    cases tol <;> simp [epsilonNetRadius, netRadius, alpha, mul_comm]
  rw [hr] at hrad ⊢
  rw [← netMeasure_netRadius] at hone
  by_contra hlt
  rw [not_le] at hlt
  have hm := Nat.le_ceil (blumerBound (netRadius δ tol) dim (1 - p) vol)
  have := (C02_least hdim hδ.le ht h).2 _ (blumer_two hdim hrad hvol hone hm) hlt
  rw [← netMeasure_netRadius] at this
  exact absurd (C135_sufficient hdim hrad hvol (by linarith) hone hm) (not_le.2 this)

/-- C135. When the closed form is at most `2^53`, `compute_numerical_bound` answers. -/
theorem C135_answers {dim : ℕ} (hdim : 1 ≤ dim) {δ p vol : ℝ} {tol : Option ℝ} (hδ : 0 < δ) (ht : TolNonneg tol) (h0 : 0 < p) (h1 : p < 1)
    (hvol : 0 < vol) (hrad : 0 < epsilonNetRadius δ tol) (hone : netMeasure δ tol dim vol ≤ 1)
    (hm : blumerBound (epsilonNetRadius δ tol) dim (1 - p) vol ≤ 2 ^ 53) :
    ∃ fuel N r, numericalBound δ p vol dim tol fuel = some (.ok (N, r)) := by
  have hr : epsilonNetRadius δ tol = netRadius δ tol := by
    cases tol <;> simp [epsilonNetRadius, netRadius, alpha, mul_comm]
  rw [hr] at hrad hm
  refine C03_answers_partial hdim hδ.le ht h0 h1 ⟨2 ^ 53, by norm_num, le_rfl, ?_⟩
  rw [← netMeasure_netRadius] at hone ⊢
  exact C135_sufficient hdim hrad hvol (by linarith) hone (hm.trans (by norm_num))

variable {Ω : Type*} [MeasurableSpace Ω] {Pr : Measure Ω} [IsProbabilityMeasure Pr] {dim : ℕ} {X : ℕ → Ω → Space dim}
  {S : Set (Space dim)}

/-- C135. Draw at least the returned number of independent samples, uniform in a region of at most the given volume. The probability that
some ball of the net's radius inside the region contains none of them is at most `γ`. (A ball larger than the region is not inside it.) -/
theorem C135_net (hX : IidUniform Pr X S) (hS : MeasurableSet S) (hdim : 1 ≤ dim) {rad γ vol : ℝ}
    (hvol : volume S ≤ ENNReal.ofReal vol) (hrad : 0 < rad) (hγ : 0 < γ) {m : ℕ} (hm : blumerBound rad dim γ vol ≤ m) (d : ℕ) :
    Pr.real {ω | ∃ c, Metric.ball c rad ⊆ S ∧ ∀ i < m, rad ≤ dist (X (d + i) ω) c} ≤ γ := by
  have : Nonempty (Fin dim) := ⟨⟨0, hdim⟩⟩
  have hnt : Nontrivial (Space dim) := inferInstance
  by_cases hb : ∃ c, Metric.ball c rad ⊆ S
  · obtain ⟨c, hc⟩ := hb
    have h1 : volume (Metric.ball (0 : Space dim) rad) ≤ ENNReal.ofReal vol := by
      have e : volume (Metric.ball (0 : Space dim) rad) = volume (Metric.ball c rad) := by
        rw [Measure.addHaar_ball_center volume c]
      rw [e]
      exact (measure_mono hc).trans hvol
    have hpos : 0 < volume (Metric.ball (0 : Space dim) rad) := Metric.measure_ball_pos volume _ hrad
    have hv : 0 < vol := ENNReal.ofReal_pos.1 (lt_of_lt_of_le hpos h1)
    have hone : netMeasure rad none dim vol ≤ 1 := by
      unfold netMeasure netRadius
      rw [div_le_one hv]
      exact ENNReal.toReal_le_of_le_ofReal hv.le h1
    exact (iid_net hX hS hdim hrad.le hvol (blumer_two hdim hrad hv hone hm) d).trans (C135_sufficient hdim hrad hv hγ hone hm)
  · have : {ω | ∃ c, Metric.ball c rad ⊆ S ∧ ∀ i < m, rad ≤ dist (X (d + i) ω) c} = ∅ := by
      ext ω
      simp only [Set.mem_ofPred_eq, Set.mem_empty_iff_false, iff_false]
      rintro ⟨c, hc, -⟩
      exact hb ⟨c, hc⟩
    rw [this]
    simpa using hγ.le

/-- C135. With probability at least `1 - γ` over the sampler, a full radius PRM with at least the returned number of samples for net radius
`δ` and a connection radius of at least `2δ` answers every query between two points joined by a path of clearance `δ`. -/
theorem C135_complete (hX : IidUniform Pr X S) (hS : MeasurableSet S) (hdim : 1 ≤ dim) {δ fail vol r : ℝ}
    (hvol : volume S ≤ ENNReal.ofReal vol) (hδ : 0 < δ) (hfail : 0 < fail) {F : Set (Space dim)} (hF : F ⊆ S) (d : ℕ) :
    Pr.real {ω | ¬ ∀ (w : World (Space dim) ℝ) (ops : List (Full.Op (Space dim) ℝ)) (T : List (Space dim)) (a b : Space dim)
        (γ : ℝ → Space dim), EuclideanWorld w F (fun i => X i ω) → (∀ o ∈ ops, o ≠ .reset) →
        ((Full.init r d).run w ops).samples = some T → blumerBound δ dim fail vol ≤ T.length → 2 * δ ≤ lastRadius r ops →
        ClearPath F δ a b γ →
        ∃ len pts, (((Full.init r d).run w ops).query w a b).2 = .ok (len, pts) ∧ pts ≠ []} ≤ fail := by
  refine le_trans (measureReal_mono (fun ω hω => ?_) (measure_ne_top _ _))
    (C135_net hX hS hdim hvol hδ hfail (Nat.le_ceil (blumerBound δ dim fail vol)) (d + 1))
  by_contra hnot
  apply hω
  intro w ops T a b γ hw hops hT hN hr hγ
  have hfresh := samples_of_run hops hT
  obtain ⟨pts, hpts, -⟩ := clearPath_chain hw (S := T) (r := lastRadius r ops) hγ (netRadius_le hδ.le none)
    hr (net_of_not_mem (tol := none) hF hδ.le hnot hw.draw hfresh (Nat.ceil_le.2 hN))
  obtain ⟨len, pts', h1, h2, -, -⟩ := C29_full hw.sound r d ops hT a b
  exact ⟨len, pts', h1, fun h0 => h2.1 h0 ⟨pts, hpts⟩⟩

/-- C135. The same with lengths: net radius `compute_epsilon_net_radius(δ, t)` and at least the radius `compute_connection_radius(δ, t)`. -/
theorem C135_length (hX : IidUniform Pr X S) (hS : MeasurableSet S) (hdim : 1 ≤ dim) {δ fail vol r t : ℝ}
    (hvol : volume S ≤ ENNReal.ofReal vol) (hδ : 0 < δ) (ht : 0 < t) (hfail : 0 < fail) {F : Set (Space dim)} (hF : F ⊆ S) (d : ℕ) :
    Pr.real {ω | ¬ ∀ (w : World (Space dim) ℝ) (ops : List (Full.Op (Space dim) ℝ)) (T : List (Space dim)) (a b : Space dim)
        (γ : ℝ → Space dim) (L : ℝ), EuclideanWorld w F (fun i => X i ω) → (∀ o ∈ ops, o ≠ .reset) →
        ((Full.init r d).run w ops).samples = some T → blumerBound (epsilonNetRadius δ (some t)) dim fail vol ≤ T.length →
        connectionRadius δ t ≤ lastRadius r ops → ClearPath F δ a b γ → LengthAtMost γ L → 0 ≤ L →
        ∃ (len : ℝ) (pts : List (Space dim)), (((Full.init r d).run w ops).query w a b).2 = .ok ((len : WithTop ℝ), pts) ∧ pts ≠ [] ∧
          len ≤ L + t * max L (2 * δ / Real.sqrt (1 + t ^ 2))} ≤ fail := by
  have hr0 : epsilonNetRadius δ (some t) = netRadius δ (some t) := by simp [epsilonNetRadius, netRadius, alpha, mul_comm]
  have hrad : 0 < netRadius δ (some t) := by
    simp only [netRadius]
    positivity
  rw [hr0]
  refine le_trans (measureReal_mono (fun ω hω => ?_) (measure_ne_top _ _))
    (C135_net hX hS hdim hvol hrad hfail (Nat.le_ceil (blumerBound (netRadius δ (some t)) dim fail vol)) (d + 1))
  by_contra hnot
  apply hω
  intro w ops T a b γ L hw hops hT hN hr hγ hL hL0
  have hfresh := samples_of_run hops hT
  obtain ⟨f1, f2, f3, f4⟩ := spacing_facts (t := t) hδ
  obtain ⟨pts, ⟨hpts, -⟩, hlen⟩ := clearPath_short hw (S := T) (r := lastRadius r ops) hγ hL hL0 hδ f1
    (by rw [f2]; exact hr) f3.le (net_of_not_mem hF hδ.le hnot hw.draw hfresh (Nat.ceil_le.2 hN))
  rw [f4] at hlen
  obtain ⟨len, pts', h1, h2, h3, h4⟩ := C29_full hw.sound r d ops hT a b
  have hne : pts' ≠ [] := fun h0 => h2.1 h0 ⟨pts, hpts⟩
  have hle := h4 pts hpts
  cases len with
  | top => exact absurd (h3.2 rfl) hne
  | coe len => exact ⟨len, pts', h1, hne, (WithTop.coe_le_coe.1 hle).trans hlen⟩

/-- The hypotheses are met by the disc of radius 2 with net radius 1 and failure probability 1/2: the closed form is between 500 and 600,
`compute_numerical_bound` answers, and there are a sampler, a planner with 600 samples and a path of clearance 1. -/
theorem C135_nonvacuous : netMeasure 1 none 2 (4 * Real.pi) ≤ 1 ∧ 500 ≤ blumerBound 1 2 (1 / 2) (4 * Real.pi) ∧
    blumerBound 1 2 (1 / 2) (4 * Real.pi) ≤ 600 ∧ (∃ fuel N r, numericalBound 1 (1 / 2) (4 * Real.pi) 2 none fuel = some (.ok (N, r))) ∧
    ∃ (Pr : Measure (ℕ → Space 2)), IsProbabilityMeasure Pr ∧
      IidUniform Pr (fun i x => x i) (Metric.ball (0 : Space 2) 2) ∧ MeasurableSet (Metric.ball (0 : Space 2) 2) ∧
      volume (Metric.ball (0 : Space 2) 2) ≤ ENNReal.ofReal (4 * Real.pi) ∧
      ∀ x : ℕ → Space 2, ∃ w : World (Space 2) ℝ, EuclideanWorld w (Metric.ball 0 2) x ∧
        (((Full.init 2 0).run w [.grow 600]).samples.map List.length = some 600) ∧
        ∃ (a b : Space 2) (γ : ℝ → Space 2), a ≠ b ∧ ClearPath (Metric.ball 0 2) 1 a b γ ∧ LengthAtMost γ 2 := by
  have hpi := Real.pi_pos
  have h4 : Real.logb 2 (2 / (1 / 2)) = 2 := by
    rw [show (2 : ℝ) / (1 / 2) = 2 ^ (2 : ℝ) by norm_num, Real.logb_rpow (by norm_num) (by norm_num)]
  have h52 : Real.logb 2 (13 / (1 / 4)) ≤ 6 := by
    rw [Real.logb_le_iff_le_rpow (by norm_num) (by norm_num)]
    norm_num
  have h52' : 11 / 2 ≤ Real.logb 2 (13 / (1 / 4)) := by
    have : Real.logb 2 (2 ^ 11) ≤ Real.logb 2 ((13 / (1 / 4)) ^ 2) :=
      Real.logb_le_logb_of_le (by norm_num) (by norm_num) (by norm_num)
    rw [Real.logb_pow, Real.logb_pow, Real.logb_self_eq_one (by norm_num)] at this
    push_cast at this
    linarith
  have hv := C135_value (dim := 2) (by norm_num) zero_le_one (1 / 2) (4 * Real.pi)
  rw [netMeasure_disc, h4] at hv
  have hlo : 500 ≤ blumerBound 1 2 (1 / 2) (4 * Real.pi) := by
    rw [hv]
    refine le_max_of_le_right ?_
    push_cast
    linarith
  have hhi : blumerBound 1 2 (1 / 2) (4 * Real.pi) ≤ 600 := by
    rw [hv]
    refine max_le (by norm_num) ?_
    push_cast
    linarith
  have hone : netMeasure 1 none 2 (4 * Real.pi) ≤ 1 := by rw [netMeasure_disc]; norm_num
  have hr : epsilonNetRadius 1 none = 1 := by simp [epsilonNetRadius, alpha]
  refine ⟨hone, hlo, hhi, ?_, ?_⟩
  · refine C135_answers (by norm_num) one_pos trivial (by norm_num) (by norm_num) (by positivity) (by rw [hr]; exact one_pos) hone ?_
    rw [hr, show (1 : ℝ) - 1 / 2 = 1 / 2 by norm_num]
    exact hhi.trans (by norm_num)
  · obtain ⟨Pr, h1, h2, h3, h4⟩ := disc_sampler
    obtain ⟨a, b, γ, h5, h6, h7⟩ := disc_path
    refine ⟨Pr, h1, h2, h3, h4, fun x => ⟨discWorld _ x, discWorld_euclidean _ x, ?_, a, b, γ, h5, h6, h7⟩⟩
    simp [Full.run, Full.step, Full.grow, Full.init, Full.rebuild, World.fresh]

end Verif.Props
