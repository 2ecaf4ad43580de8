import Mathlib.Analysis.Real.Pi.Bounds
import Verif.Lemmas.FloatBound

/-! Rounding errors of `compute_rho` and of the connection radius. -/

namespace Verif.Spec.Within

open Verif.Float64

variable {μ k l x y z x' y' : ℝ}

theorem of_rel (h0 : 0 ≤ μ) (h1 : μ ≤ 1 / 4) (hy : 0 < y) (h : |x - y| ≤ μ * y) : Within μ 1 x y := by
  have k1 := abs_le.1 h
  have hx : 0 < x := by nlinarith
  refine ⟨hx, hy, ?_, ?_⟩ <;> rw [Real.rpow_one] <;> nlinarith

theorem mono (h0 : 0 ≤ μ) (hk : k ≤ l) (h : Within μ k x y) : Within μ l x y := by
  obtain ⟨hx, hy, h1, h2⟩ := h
  have := Real.rpow_le_rpow_of_exponent_le (by linarith : 1 ≤ 1 + 2 * μ) hk
  exact ⟨hx, hy, h1.trans (mul_le_mul_of_nonneg_right this hy.le), h2.trans (mul_le_mul_of_nonneg_right this hx.le)⟩

theorem trans (h0 : 0 ≤ μ) (h : Within μ k x y) (h' : Within μ l y z) : Within μ (k + l) x z := by
  obtain ⟨hx, hy, h1, h2⟩ := h
  obtain ⟨-, hz, h3, h4⟩ := h'
  have w : 0 < 1 + 2 * μ := by linarith
  refine ⟨hx, hz, ?_, ?_⟩ <;> rw [Real.rpow_add w]
  · calc x ≤ _ := h1
      _ ≤ (1 + 2 * μ) ^ k * ((1 + 2 * μ) ^ l * z) := mul_le_mul_of_nonneg_left h3 (by positivity)
      _ = _ := by ring
  · calc z ≤ _ := h4
      _ ≤ (1 + 2 * μ) ^ l * ((1 + 2 * μ) ^ k * x) := mul_le_mul_of_nonneg_left h2 (by positivity)
      _ = _ := by ring

theorem mul (h0 : 0 ≤ μ) (h : Within μ k x y) (h' : Within μ l x' y') : Within μ (k + l) (x * x') (y * y') := by
  obtain ⟨hx, hy, h1, h2⟩ := h
  obtain ⟨hx', hy', h3, h4⟩ := h'
  have w : 0 < 1 + 2 * μ := by linarith
  refine ⟨by positivity, by positivity, ?_, ?_⟩ <;> rw [Real.rpow_add w]
  · calc x * x' ≤ _ := mul_le_mul h1 h3 hx'.le (by positivity)
      _ = _ := by ring
  · calc y * y' ≤ _ := mul_le_mul h2 h4 hy'.le (by positivity)
      _ = _ := by ring

theorem inv (h : Within μ k x y) : Within μ k x⁻¹ y⁻¹ := by
  obtain ⟨hx, hy, h1, h2⟩ := h
  refine ⟨by positivity, by positivity, ?_, ?_⟩
  · rw [← div_eq_mul_inv, le_div_iff₀ hy, inv_mul_le_iff₀ hx, mul_comm]; exact h2
  · rw [← div_eq_mul_inv, le_div_iff₀ hx, inv_mul_le_iff₀ hy, mul_comm]; exact h1

theorem div (h0 : 0 ≤ μ) (h : Within μ k x y) (h' : Within μ l x' y') : Within μ (k + l) (x / x') (y / y') := by
  rw [div_eq_mul_inv, div_eq_mul_inv]
  exact mul h0 h (inv h')

theorem refl (hx : 0 < x) : Within μ 0 x x := by
  refine ⟨hx, hx, ?_, ?_⟩ <;> simp

theorem rpow (h0 : 0 ≤ μ) {s : ℝ} (hs : 0 ≤ s) (h : Within μ k x y) : Within μ (k * s) (x ^ s) (y ^ s) := by
  obtain ⟨hx, hy, h1, h2⟩ := h
  have w : 0 < 1 + 2 * μ := by linarith
  refine ⟨Real.rpow_pos_of_pos hx _, Real.rpow_pos_of_pos hy _, ?_, ?_⟩
  all_goals
    rw [Real.rpow_mul w.le, ← Real.mul_rpow (by positivity) (by positivity)]
    exact Real.rpow_le_rpow (by positivity) (by assumption) hs

theorem sqrt (h0 : 0 ≤ μ) (h : Within μ k x y) : Within μ (k / 2) (Real.sqrt x) (Real.sqrt y) := by
  rw [Real.sqrt_eq_rpow, Real.sqrt_eq_rpow, div_eq_mul_one_div]
  exact rpow h0 (by norm_num) h

theorem one_add (h0 : 0 ≤ μ) (hk : 0 ≤ k) (h : Within μ k x y) : Within μ k (1 + x) (1 + y) := by
  obtain ⟨hx, hy, h1, h2⟩ := h
  have := Real.one_le_rpow (by linarith : 1 ≤ 1 + 2 * μ) hk
  refine ⟨by positivity, by positivity, ?_, ?_⟩ <;> rw [mul_add] <;> linarith

theorem rnd (h0 : eps ≤ μ) (h1 : μ ≤ 1 / 4) (hx : (2 : ℝ) ^ (-1000 : ℤ) ≤ x) : Within μ 1 (fl x) x := by
  have x0 : 0 < x := lt_of_lt_of_le (by positivity) hx
  have := fl_rel (x := x) (.inr (by rwa [abs_of_pos x0]))
  rw [abs_of_pos x0] at this
  exact of_rel (eps_pos.le.trans h0) h1 x0 (this.trans (mul_le_mul_of_nonneg_right h0 x0.le))

theorem ge (h0 : 0 ≤ μ) (hk : k * μ ≤ 1 / 4) (h : Within μ k x y) (hy : (2 : ℝ) ^ (-900 : ℤ) ≤ y) : (2 : ℝ) ^ (-1000 : ℤ) ≤ x := by
  obtain ⟨hx, -, -, h2⟩ := h
  have w : (1 + 2 * μ) ^ k ≤ 8 := by
    have e1 : 1 + 2 * μ ≤ Real.exp (2 * μ) := by linarith [Real.add_one_le_exp (2 * μ)]
    rcases le_total 0 k with hk0 | hk0
    · calc (1 + 2 * μ) ^ k ≤ Real.exp (2 * μ) ^ k := Real.rpow_le_rpow (by linarith) e1 hk0
        _ = Real.exp (2 * (k * μ)) := by rw [← Real.exp_mul]; ring_nf
        _ ≤ Real.exp 1 := Real.exp_le_exp.2 (by linarith)
        _ ≤ 8 := by linarith [Real.exp_one_lt_d9]
    · exact (Real.rpow_le_one_of_one_le_of_nonpos (by linarith) hk0).trans (by norm_num)
  have k1 : (2 : ℝ) ^ (-900 : ℤ) ≤ 8 * x := hy.trans (h2.trans (mul_le_mul_of_nonneg_right w hx.le))
  have k2 : (8 : ℝ) * 2 ^ (-1000 : ℤ) ≤ 2 ^ (-900 : ℤ) := by
    rw [show (8 : ℝ) = 2 ^ (3 : ℤ) by norm_num, ← zpow_add₀ (by norm_num)]
    exact zpow_le_zpow_right₀ (by norm_num) (by norm_num)
  linarith

end Verif.Spec.Within

namespace Verif.Bound

open Verif.Spec Verif.Float64 Finset

variable {lib : Libm} {μ : ℝ}

theorem alphaR_within (hl : Accurate lib μ) (h0 : eps ≤ μ) (h1 : μ ≤ 1 / 40) {tol : Option ℝ} (ht : ∀ t, tol = some t → (2 : ℝ) ^ (-400 : ℤ) ≤ t) :
    Within μ 3 (alphaR fl lib tol) (alpha tol) := by
  have m0 : 0 ≤ μ := eps_pos.le.trans h0
  cases tol with
  | none => exact (Within.refl one_pos).mono m0 (by norm_num)
  | some t =>
    have ht := ht t rfl
    have t0 : 0 < t := lt_of_lt_of_le (by positivity) ht
    have a1 : (2 : ℝ) ^ (-800 : ℤ) ≤ t ^ (2 : ℝ) := by
      rw [show (t : ℝ) ^ (2 : ℝ) = t ^ 2 by norm_cast, show (-800 : ℤ) = -400 + -400 by norm_num, zpow_add₀ (by norm_num), sq]
      exact mul_le_mul ht ht (by positivity) t0.le
    have w1 : Within μ 1 (lib.pow t 2) (t ^ (2 : ℝ)) := Within.of_rel m0 (by linarith) (by positivity)
      (hl.pow t 2 t0 (by norm_num) (le_trans (zpow_le_zpow_right₀ (by norm_num) (by norm_num)) a1))
    have w2 := w1.one_add m0 (by norm_num)
    have small : (2 : ℝ) ^ (-1000 : ℤ) ≤ 1 := zpow_le_one_of_nonpos₀ (by norm_num) (by norm_num)
    have w3 := (Within.rnd h0 (by linarith) (x := 1 + lib.pow t 2) (by linarith [w1.1])).trans m0 w2
    have w4 := w3.sqrt m0
    have n5 : (2 : ℝ) ^ (-1000 : ℤ) ≤ Real.sqrt (fl (1 + lib.pow t 2)) := by
      refine small.trans (Real.one_le_sqrt.2 ?_)
      exact float_le_fl one_isFloat (by linarith [w1.1])
    have w5 := (Within.rnd h0 (by linarith) n5).trans m0 w4
    have w6 := (Within.refl (μ := μ) t0).div m0 w5
    have ea : Real.sqrt (1 + t ^ (2 : ℝ)) = Real.sqrt (1 + t ^ 2) := by norm_cast
    have n7 : (2 : ℝ) ^ (-900 : ℤ) ≤ t / Real.sqrt (1 + t ^ (2 : ℝ)) := by
      rw [ea, le_div_iff₀ (by positivity)]
      have s1 : Real.sqrt (1 + t ^ 2) ≤ 1 + t := by
        rw [Real.sqrt_le_left (by linarith)]
        nlinarith
      have b1 : (2 : ℝ) ^ (-900 : ℤ) ≤ 1 / 2 * 2 ^ (-400 : ℤ) := by
        rw [show (1 / 2 : ℝ) = 2 ^ (-1 : ℤ) by norm_num, ← zpow_add₀ (by norm_num)]
        exact zpow_le_zpow_right₀ (by norm_num) (by norm_num)
      have b2 : (2 : ℝ) ^ (-900 : ℤ) ≤ 1 / 2 := by
        rw [show (1 / 2 : ℝ) = 2 ^ (-1 : ℤ) by norm_num]
        exact zpow_le_zpow_right₀ (by norm_num) (by norm_num)
      have b0 : (0 : ℝ) < 2 ^ (-900 : ℤ) := by positivity
      have b3 := mul_le_mul_of_nonneg_left s1 b0.le
      have b4 : (2 : ℝ) ^ (-900 : ℤ) * t ≤ 1 / 2 * t := mul_le_mul_of_nonneg_right b2 t0.le
      rw [mul_add, mul_one] at b3
      linarith
    have w7 := (Within.rnd h0 (by linarith) (w6.ge m0 (by linarith) n7)).trans m0 w6
    rw [ea] at w7
    exact w7.mono m0 (by norm_num)

theorem netRadius_eq (δ : ℝ) (tol : Option ℝ) : netRadius δ tol = alpha tol * δ := by
  cases tol <;> simp [netRadius, alpha, mul_comm]

/-- The computed measure of the net's balls. -/
theorem rhoR_within (hl : Accurate lib μ) (h0 : eps ≤ μ) {dim : ℕ} (hd : 1 ≤ dim) (h1 : (5 * dim + 6) * μ ≤ 1 / 4) {δ vol : ℝ} {tol : Option ℝ}
    (hδ : 0 < δ) (hv : 0 < vol) (hn : NoUnderflow δ vol dim tol) (ht : TolNonneg tol) :
    Within μ (5 * dim + 6) (rhoR fl lib δ tol dim vol) (netMeasure δ tol dim vol) := by
  have m0 : 0 ≤ μ := eps_pos.le.trans h0
  have d1 : (1 : ℝ) ≤ dim := by exact_mod_cast hd
  have h11 : 11 * μ ≤ 1 / 4 := le_trans (mul_le_mul_of_nonneg_right (by linarith) m0) h1
  have hsm : ∀ k : ℝ, k ≤ 5 * dim + 6 → k * μ ≤ 1 / 4 := fun k hk => (mul_le_mul_of_nonneg_right hk m0).trans h1
  have q4 : μ ≤ 1 / 4 := by linarith
  have small : (2 : ℝ) ^ (-1000 : ℤ) ≤ 1 := zpow_le_one_of_nonpos₀ (by norm_num) (by norm_num)
  rw [← rho_eq_netMeasure hd hδ.le ht]
  -- the volume of the unit ball
  have p1 : Within μ 1 lib.pi Real.pi := Within.of_rel m0 q4 Real.pi_pos hl.pi
  have pi1 : 1 ≤ lib.pi := by
    have := abs_le.1 hl.pi
    nlinarith [Real.pi_gt_three]
  have p2 : Within μ 1 (lib.pow lib.pi ((dim : ℝ) / 2)) (lib.pi ^ ((dim : ℝ) / 2)) := Within.of_rel m0 q4 (Real.rpow_pos_of_pos p1.1 _)
    (hl.pow _ _ p1.1 (by linarith) (small.trans (Real.one_le_rpow pi1 (by linarith))))
  have p3 := p2.trans m0 (p1.rpow m0 (s := (dim : ℝ) / 2) (by linarith))
  have p4 : Within μ 1 (lib.gamma ((dim : ℝ) / 2 + 1)) (Real.Gamma ((dim : ℝ) / 2 + 1)) :=
    Within.of_rel m0 q4 (Real.Gamma_pos_of_pos (by linarith)) (hl.gamma _ (by linarith))
  have p5 := p3.div m0 p4
  change Within μ _ _ (volUnitSphere dim) at p5
  have p6 := (Within.rnd h0 q4 (p5.ge m0 (hsm _ (by linarith)) hn.sphere)).trans m0 p5
  change Within μ _ (volUnitSphereR fl lib dim) _ at p6
  have p7 := p6.div m0 (Within.refl (μ := μ) hv)
  have p8 := (Within.rnd h0 q4 (p7.ge m0 (hsm _ (by linarith)) hn.measure)).trans m0 p7
  -- the radius
  have h100 : μ ≤ 1 / 40 := by linarith
  have hra := hn.radius
  have hpo := hn.power
  rw [netRadius_eq] at hra hpo
  have hrho := hn.rho
  rw [← rho_eq_netMeasure hd hδ.le ht] at hrho
  have r1 := (alphaR_within hl h0 h100 hn.stretch).mul m0 (Within.refl (μ := μ) hδ)
  have r2 := (Within.rnd h0 q4 (r1.ge m0 (by linarith) hra)).trans m0 r1
  change Within μ _ (epsilonNetRadiusR fl lib δ tol) _ at r2
  have r3 := r2.rpow m0 (s := dim) (by linarith)
  have r4 : Within μ 1 (lib.pow (epsilonNetRadiusR fl lib δ tol) dim) (epsilonNetRadiusR fl lib δ tol ^ (dim : ℝ)) :=
    Within.of_rel m0 q4 r3.1 (hl.pow _ _ r2.1 (by linarith) (r3.ge m0 (hsm _ (by linarith)) (by rw [Real.rpow_natCast]; exact hpo)))
  have r5 := p8.mul m0 (r4.trans m0 r3)
  rw [Real.rpow_natCast] at r5
  change Within μ _ _ (rho δ tol dim vol) at r5
  have r6 := (Within.rnd h0 q4 (r5.ge m0 (hsm _ (by linarith)) hrho)).trans m0 r5
  exact r6.mono m0 (by linarith)

end Verif.Bound
