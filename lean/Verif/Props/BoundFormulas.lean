import Verif.Props.BoundSearch

/-!
Properties C06, C07: radii computed by `bound.py`.
-/

namespace Verif.Props

open Verif.Bound Verif.Spec

theorem alpha_sum (t : ℝ) :
    alpha (some t) + Real.sqrt (1 - alpha (some t) ^ 2) = (t + 1) / Real.sqrt (1 + t ^ 2) := by
  have hp : 0 < 1 + t ^ 2 := by positivity
  have hs : 0 < Real.sqrt (1 + t ^ 2) := Real.sqrt_pos.2 hp
  have h1 : 1 - alpha (some t) ^ 2 = (1 / Real.sqrt (1 + t ^ 2)) ^ 2 := by
    simp only [alpha]
    rw [div_pow, div_pow, Real.sq_sqrt hp.le]
    field_simp; ring
  rw [h1, Real.sqrt_sq (by positivity)]
  simp only [alpha]
  field_simp

/-- C06. The radius returned beside the count is `compute_connection_radius(clearance, tol)`. -/
theorem C06_radius_consistent {δ p vol t : ℝ} {dim : ℕ} {fuel N : ℕ} {r : ℝ}
    (h : numericalBound δ p vol dim (some t) fuel = some (.ok (N, r))) :
    r = connectionRadius δ t := by
  obtain ⟨-, -, hr, -⟩ := numericalBound_ok h
  rw [hr, alpha_sum]
  unfold connectionRadius
  ring

/-- C06. For existence queries the returned radius is twice the clearance. -/
theorem C06_radius_existence {δ p vol : ℝ} {dim : ℕ} {fuel N : ℕ} {r : ℝ}
    (h : numericalBound δ p vol dim none fuel = some (.ok (N, r))) : r = 2 * δ := by
  obtain ⟨-, -, hr, -⟩ := numericalBound_ok h
  rw [hr]; simp [alpha]

/-- C06. For every stretch factor the connection radius is between `2 δ` and `2 sqrt 2 δ`. -/
theorem C06_radius_range {δ t : ℝ} (hδ : 0 ≤ δ) (ht : 0 ≤ t) :
    2 * δ ≤ connectionRadius δ t ∧ connectionRadius δ t ≤ 2 * Real.sqrt 2 * δ := by
  have hp : 0 < 1 + t ^ 2 := by positivity
  have hs : 0 < Real.sqrt (1 + t ^ 2) := Real.sqrt_pos.2 hp
  have hge : Real.sqrt (1 + t ^ 2) ≤ t + 1 := by
    rw [Real.sqrt_le_left (by linarith)]; nlinarith
  have hle : t + 1 ≤ Real.sqrt 2 * Real.sqrt (1 + t ^ 2) := by
    rw [← Real.sqrt_mul (by norm_num)]
    apply Real.le_sqrt_of_sq_le
    nlinarith [sq_nonneg (t - 1)]
  unfold connectionRadius
  constructor
  · rw [le_div_iff₀ hs]
    exact mul_le_mul_of_nonneg_left hge (by linarith)
  · rw [div_le_iff₀ hs]
    nlinarith [mul_le_mul_of_nonneg_left hle (by linarith : (0 : ℝ) ≤ 2 * δ)]

/-- C06. The net radius is strictly below the clearance for every stretch factor, and equal to it for existence. -/
theorem C06_net_radius {δ : ℝ} (hδ : 0 < δ) (t : ℝ) :
    epsilonNetRadius δ (some t) < δ ∧ epsilonNetRadius δ none = δ := by
  refine ⟨?_, by simp [epsilonNetRadius, alpha]⟩
  have hp : 0 < 1 + t ^ 2 := by positivity
  have hlt : alpha (some t) < 1 := by
    simp only [alpha]
    rw [div_lt_one (Real.sqrt_pos.2 hp)]
    exact Real.lt_sqrt_of_sq_lt (by linarith)
  unfold epsilonNetRadius
  nlinarith

/-- C06 covers non-trivial cases: clearance 1 and stretch factor `1 + 3/4` give radius `14/5`. -/
example : connectionRadius 1 (3 / 4) = 14 / 5 := by
  unfold connectionRadius
  have : Real.sqrt (1 + (3 / 4) ^ 2) = 5 / 4 := by
    rw [show (1 : ℝ) + (3 / 4) ^ 2 = (5 / 4) ^ 2 by norm_num, Real.sqrt_sq (by norm_num)]
  rw [this]; norm_num

theorem netRadius_pow {dim n : ℕ} (hd : 1 ≤ dim) {γ vol : ℝ} (hγ : 0 < γ) (hγ1 : γ ≤ 1) (hv : 0 < vol) :
    0 ≤ netRadiusFromProb dim n γ vol ∧
    netRadiusFromProb dim n γ vol ^ dim = (2 / n / (volUnitSphere dim / vol)) *
      (Real.logb 2 (ssCombSum n (dim + 1)) - Real.logb 2 γ) := by
  have hs := volUnitSphere_pos dim
  have hS : (1 : ℝ) ≤ ssCombSum n (dim + 1) := by
    rw [ssCombSum_eq]; exact_mod_cast partialRow_pos _ _
  have hbase : 0 ≤ (2 / n / (volUnitSphere dim / vol)) *
      (Real.logb 2 (ssCombSum n (dim + 1)) - Real.logb 2 γ) := by
    have h1 : 0 ≤ Real.logb 2 (ssCombSum n (dim + 1)) := Real.logb_nonneg (by norm_num) hS
    have h2 : Real.logb 2 γ ≤ 0 := Real.logb_nonpos (by norm_num) hγ.le hγ1
    have h3 : (0 : ℝ) ≤ 2 / n / (volUnitSphere dim / vol) := by positivity
    exact mul_nonneg h3 (by linarith)
  unfold netRadiusFromProb
  refine ⟨Real.rpow_nonneg hbase _, ?_⟩
  rw [← Real.rpow_natCast, ← Real.rpow_mul hbase]
  have : (1 / (dim : ℝ)) * dim = 1 := by
    have : (dim : ℝ) ≠ 0 := by positivity
    field_simp
  rw [this, Real.rpow_one]

/-- C07 (part). With the radius returned by `compute_net_radius_from_prob` as net radius and the same number of samples,
the failure bound is exactly twice the requested failure probability. The property asks for at most once. -/
theorem C07_net_radius_partial {dim n : ℕ} (hd : 1 ≤ dim) (hn : 1 ≤ n) {γ vol : ℝ} (hγ : 0 < γ) (hγ1 : γ ≤ 1)
    (hv : 0 < vol) :
    failureBound n (netMeasure (netRadiusFromProb dim n γ vol) none dim vol) (dim + 1) = 2 * γ := by
  obtain ⟨h0, hpow⟩ := netRadius_pow (n := n) hd hγ hγ1 hv
  rw [← rho_eq_netMeasure (tol := none) hd h0 trivial]
  have hs := volUnitSphere_pos dim
  have hn0 : (0 : ℝ) < n := by exact_mod_cast hn
  have hrho : rho (netRadiusFromProb dim n γ vol) none dim vol * n / 2
      = Real.logb 2 (ssCombSum n (dim + 1)) - Real.logb 2 γ := by
    unfold rho epsilonNetRadius alpha
    rw [one_mul, hpow]
    field_simp
  rw [failureBound_eq]
  have : sauerShelahLog2 n (rho (netRadiusFromProb dim n γ vol) none dim vol) (dim + 1) = Real.logb 2 (2 * γ) := by
    unfold sauerShelahLog2
    have e : -rho (netRadiusFromProb dim n γ vol) none dim vol * n / 2
      = -(rho (netRadiusFromProb dim n γ vol) none dim vol * n / 2) := by ring
    rw [e, hrho, Real.logb_mul (by norm_num) hγ.ne', Real.logb_self_eq_one (by norm_num)]
    ring
  rw [this, Real.rpow_logb (by norm_num) (by norm_num) (by linarith)]

/-- C07 fails for every input: the requested failure probability is never met. -/
theorem C07_net_radius_false {dim n : ℕ} (hd : 1 ≤ dim) (hn : 1 ≤ n) {γ vol : ℝ} (hγ : 0 < γ) (hγ1 : γ ≤ 1)
    (hv : 0 < vol) :
    ¬ failureBound n (netMeasure (netRadiusFromProb dim n γ vol) none dim vol) (dim + 1) ≤ γ := by
  rw [C07_net_radius_partial hd hn hγ hγ1 hv]
  linarith

/-- The hypotheses of C07 are met, for example, by 100 samples in the plane with failure probability 1/100. -/
example : failureBound 100 (netMeasure (netRadiusFromProb 2 100 (1 / 100) 1) none 2 1) (2 + 1) = 2 * (1 / 100) :=
  C07_net_radius_partial (by norm_num) (by norm_num) (by norm_num) (by norm_num) (by norm_num)

end Verif.Props
