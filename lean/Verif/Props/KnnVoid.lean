import Verif.Props.HallwaySampling

/-! The two bounds of the package and the neighbour count of the experiments: C124. -/

namespace Verif.Props

open MeasureTheory Verif.Spec Verif.Prm Verif.Bound Verif.Net Verif.Anytime

theorem entropy2_self {p : ℝ} (h0 : 0 ≤ p) (h1 : p ≤ 1) : entropy2 p p = 0 := by
  have h : ∀ x : ℝ, 0 ≤ x → relEntr x x = 0 := by
    intro x hx
    unfold relEntr
    rcases hx.eq_or_lt with rfl | hx
    · simp
    · rw [if_pos ⟨hx, hx⟩, div_self hx.ne', Real.log_one, mul_zero]
      rfl
  rw [entropy2, h p h0, h (1 - p) (by linarith), add_zero]

/-- C124: take count and radius that `compute_numerical_bound` returns (any clearance, success probability and tolerance). For this radius, at least this many samples and at most `2 ^ (dim + 3)` neighbours (32 in the plane, which is
what the experiments use) the bound on the probability that the k-NN roadmap has all edges of this length, Chernoff-KL, is at least one. So the success probability asked for is not guaranteed for the k-NN planner by the bounds of the package. -/
theorem C124_void {dim : ℕ} (hdim : 1 ≤ dim) {δ p vol₁ vol₂ : ℝ} (hδ : 0 ≤ δ) {tol : Option ℝ} (ht : TolNonneg tol) {fuel N : ℕ} {r : ℝ}
    (h : numericalBound δ p vol₁ dim tol fuel = some (.ok (N, r))) (hv : 0 < vol₂) (hvol : vol₂ ≤ vol₁) {m k : ℕ} (hN : N ≤ m) (hk : k ≤ 2 ^ (dim + 3)) (hkm : k ≤ m) :
    1 ≤ EReal.exp (tailKL m k r dim vol₂) := by
  have hN2 := (C02_least hdim hδ ht h).1
  have hb := C01_sufficient hdim hδ ht h m hN
  obtain ⟨hp0, hp1, -, -⟩ := numericalBound_ok h
  have hv1 : 0 < vol₁ := hv.trans_le hvol
  set ρ := netMeasure δ tol dim vol₁ with hρ
  have hm0 : (0 : ℝ) < m := by
    have : 0 < m := by omega
    exact_mod_cast this
  have hsum : (11 : ℝ) ≤ ∑ i ∈ Finset.range (dim + 1 + 1), (Nat.choose (2 * m) i : ℝ) := by
    have h1 : ∑ i ∈ Finset.range 3, (Nat.choose (2 * m) i : ℝ) ≤ ∑ i ∈ Finset.range (dim + 1 + 1), (Nat.choose (2 * m) i : ℝ) :=
      Finset.sum_le_sum_of_subset_of_nonneg (Finset.range_subset_range.2 (by omega)) fun _ _ _ => Nat.cast_nonneg _
    refine le_trans ?_ h1
    have h3 : Nat.choose (2 * 2) 2 ≤ Nat.choose (2 * m) 2 := Nat.choose_le_choose 2 (by omega)
    have h4 : (6 : ℝ) ≤ Nat.choose (2 * m) 2 := by exact_mod_cast h3
    have h5 : (2 : ℝ) ≤ m := by exact_mod_cast hN2.trans hN
    simp only [Finset.sum_range_succ, Finset.sum_range_zero, Nat.choose_zero_right, Nat.choose_one_right]
    push_cast
    linarith
  have hpow : (2 : ℝ) ^ (-(ρ * m) / 2) < 2 ^ (-4 : ℝ) := by
    have h16 : (2 : ℝ) ^ (-4 : ℝ) = 1 / 16 := by
      rw [Real.rpow_neg (by norm_num)]
      norm_num
    rw [h16]
    unfold failureBound at hb
    have h0 : (0 : ℝ) ≤ 2 ^ (-(ρ * m) / 2) := by positivity
    nlinarith
  have hρm : 8 < ρ * m := by
    rw [Real.rpow_lt_rpow_left_iff (by norm_num)] at hpow
    linarith
  have hr := radius_ge hδ h
  have hnr : netRadius δ tol = alpha tol * δ := by
    cases tol <;> simp [netRadius, alpha, mul_comm]
  have hn0 := netRadius_nonneg hδ ht
  have hV : 0 ≤ volUnitSphere dim := by
    unfold volUnitSphere
    have : 0 < Real.Gamma ((dim : ℝ) / 2 + 1) := Real.Gamma_pos_of_pos (by positivity)
    positivity
  have hfrac : 2 ^ dim * ρ ≤ ballFraction r dim vol₂ := by
    rw [hρ, ← rho_eq_netMeasure hdim hδ ht]
    unfold rho ballFraction epsilonNetRadius
    rw [← hnr]
    calc 2 ^ dim * (volUnitSphere dim / vol₁ * netRadius δ tol ^ dim) = volUnitSphere dim / vol₁ * (2 * netRadius δ tol) ^ dim := by rw [mul_pow]; ring
      _ ≤ volUnitSphere dim / vol₂ * r ^ dim := by gcongr
  have hle : (k : ℝ) / m ≤ min (ballFraction r dim vol₂) 1 := by
    by_cases h1 : 1 ≤ ballFraction r dim vol₂
    · rw [min_eq_right h1, div_le_one hm0]
      exact_mod_cast hkm
    · rw [min_eq_left (not_le.1 h1).le, div_le_iff₀ hm0]
      have hk' : (k : ℝ) ≤ 2 ^ dim * 8 := by
        have : (k : ℝ) ≤ ((2 ^ (dim + 3) : ℕ) : ℝ) := by exact_mod_cast hk
        rw [pow_add] at this
        push_cast at this
        linarith
      calc (k : ℝ) ≤ 2 ^ dim * 8 := hk'
        _ ≤ 2 ^ dim * (ρ * m) := by gcongr
        _ = 2 ^ dim * ρ * m := by ring
        _ ≤ ballFraction r dim vol₂ * m := by gcongr
  have h0 : 0 ≤ min (ballFraction r dim vol₂) 1 := le_trans (by positivity) hle
  have hlog : tailKL m k r dim vol₂ = ((Real.log m : ℝ) : EReal) := by
    unfold tailKL
    simp only [if_true]
    rw [max_eq_right (by linarith), add_zero, entropy2_self h0 (min_le_right _ _), zero_mul, sub_zero]
  rw [hlog, ← EReal.exp_zero]
  apply EReal.exp_monotone
  have : 0 ≤ Real.log m := Real.log_nonneg (by exact_mod_cast (by omega : 1 ≤ m))
  exact_mod_cast this

/-- For the planning calls of the turtlebot experiment (volume 16, `sample_from_env` over an area of 9.92, 32 neighbours): the failure probability of C93 is at least one, whatever clearance and success probability are asked for. -/
theorem C124_hallway {δ p : ℝ} (hδ : 0 ≤ δ) {tol : Option ℝ} (ht : TolNonneg tol) {fuel N : ℕ} {r : ℝ} (h : numericalBound δ p 16 2 tol fuel = some (.ok (N, r))) {m : ℕ} (hN : N ≤ m)
    (hm : 32 + 1 ≤ m) : 1 ≤ ENNReal.ofReal (1 - p) + EReal.exp (tailKL m (32 : ℕ) r 2 9.92) :=
  (C124_void (by norm_num) hδ ht h (by norm_num) (by norm_num) hN (by norm_num) (by omega)).trans le_add_self

/-- The hypotheses are met: for clearance 1/5 and success probability 1/2 a count is returned. With all samples as neighbours the bound is below one. -/
theorem C124_nonvacuous : ∃ fuel N r m, numericalBound (1 / 5) (1 / 2) 16 2 none fuel = some (.ok (N, r)) ∧ N ≤ m ∧ 32 + 1 ≤ m ∧
    ENNReal.ofReal (1 - 1 / 2) + EReal.exp (tailKL m (m - 1 : ℕ) r 2 9.92) ≤ ENNReal.ofReal (3 / 4) := by
  obtain ⟨P, -, -, -, -, -, -, -, fuel, N, r, m, h, -, hN, -, -, -, -, -, hle⟩ := C93_nonvacuous
  refine ⟨fuel, N, r, m, h, hN, ?_, hle⟩
  by_contra hm
  have h1 := C124_void (tol := none) (m := m) (k := m - 1) (vol₂ := 9.92) (by norm_num) (by norm_num) trivial h (by norm_num) (by norm_num) hN (by norm_num; omega) (by omega)
  have h2 : (1 : ENNReal) ≤ ENNReal.ofReal (3 / 4) := (h1.trans le_add_self).trans hle
  rw [← ENNReal.ofReal_one, ENNReal.ofReal_le_ofReal_iff (by norm_num)] at h2
  norm_num at h2

end Verif.Props
