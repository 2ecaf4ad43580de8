import Verif.Lemmas.FloatSample

/-! `rng.uniform` in floats stays between its bounds. -/

namespace Verif.Float64

open Verif.Envs

/-- A draw of `rng.random()` is at most `1 - 2 ^ -53`. -/
theorem random53_lt {u : ℝ} (h : u < 1) : random53 u ≤ 1 - eps := by
  have he : eps = 1 / 2 ^ 53 := by unfold eps; norm_num
  have h1 : ⌊u * 2 ^ 53⌋ ≤ 2 ^ 53 - 1 := by
    have : ⌊u * 2 ^ 53⌋ < 2 ^ 53 := by
      rw [Int.floor_lt]
      have : u * 2 ^ 53 < 1 * 2 ^ 53 := mul_lt_mul_of_pos_right h (by positivity)
      rw [one_mul] at this
      refine this.trans_eq ?_
      push_cast
      norm_num
    omega
  unfold random53
  rw [he, div_le_iff₀ (by positivity)]
  have h2 : ((⌊u * 2 ^ 53⌋ : ℤ) : ℝ) ≤ ((2 ^ 53 - 1 : ℤ) : ℝ) := Int.cast_le.2 h1
  refine h2.trans (le_of_eq ?_)
  push_cast
  norm_num

/-- The error of numbers that are not subnormal. -/
theorem fl_rel_normal {x : ℝ} (h : (2 : ℝ) ^ (-1022 : ℤ) ≤ |x|) : |fl x - x| ≤ eps * |x| := by
  by_cases hp : place x = -1074
  · refine (fl_near x).trans ?_
    have h1 : ulp x / 2 = eps * 2 ^ (-1022 : ℤ) := by
      unfold ulp eps
      rw [hp, ← zpow_add₀ (by norm_num), show (-53 : ℤ) + -1022 = -1074 - 1 by norm_num, zpow_sub_one₀ (by norm_num)]
      ring
    rw [h1]
    exact mul_le_mul_of_nonneg_left h eps_pos.le
  · have hx : 0 < |x| := lt_of_lt_of_le (by positivity) h
    refine (fl_near x).trans ?_
    have hpl : place |x| = place x := by
      rcases abs_choice x with h | h <;> rw [h]
      exact place_neg x
    have h1 := place_le hx (by rwa [hpl])
    rw [hpl] at h1
    have h2 : ulp x / 2 = eps * 2 ^ (place x + 52) := by
      unfold ulp eps
      rw [← zpow_add₀ (by norm_num), show (-53 : ℤ) + (place x + 52) = place x - 1 by ring, zpow_sub_one₀ (by norm_num)]
      ring
    rw [h2]
    exact mul_le_mul_of_nonneg_left h1 eps_pos.le

/-- Small differences of floats are floats. -/
theorem sub_isFloat {l h : ℝ} (fl' : IsFloat l) (fh : IsFloat h) (hs : |h - l| ≤ 2 ^ (-1021 : ℤ)) : IsFloat (h - l) := by
  obtain ⟨a, rfl⟩ := fl'.int
  obtain ⟨b, rfl⟩ := fh.int
  have e : (b : ℝ) * 2 ^ (-1074 : ℤ) - a * 2 ^ (-1074 : ℤ) = ((b - a : ℤ) : ℝ) * 2 ^ (-1074 : ℤ) := by push_cast; ring
  rw [e] at hs ⊢
  refine mul_isFloat ?_ le_rfl
  rw [abs_mul, abs_of_pos (by positivity : (0 : ℝ) < 2 ^ (-1074 : ℤ)), show (-1021 : ℤ) = 53 + -1074 by norm_num, zpow_add₀ (by norm_num)] at hs
  have := le_of_mul_le_mul_right hs (by positivity)
  have h2 : ((|b - a| : ℤ) : ℝ) ≤ ((2 ^ 53 : ℤ) : ℝ) := by
    rw [Int.cast_abs]
    refine this.trans (le_of_eq ?_)
    push_cast
    norm_num
  exact Int.cast_le.1 h2

/-- The rounded width times a draw is at most the width. -/
theorem width_mul_le {l h r : ℝ} (hl : IsFloat l) (hh : IsFloat h) (hlh : l ≤ h) (hr : r ≤ 1 - eps) : fl (fl (h - l) * r) ≤ h - l := by
  have W0 : 0 ≤ h - l := sub_nonneg.2 hlh
  have W0' : 0 ≤ fl (h - l) := fl_nonneg W0
  by_cases hW : IsFloat (h - l)
  · rw [fl_float hW]
    exact fl_le_float hW (mul_le_of_le_one_right W0 (by linarith [eps_pos]))
  · have big : (2 : ℝ) ^ (-1021 : ℤ) ≤ h - l := by
      by_contra hn
      exact hW (sub_isFloat hl hh (by rw [abs_of_nonneg W0]; exact (not_le.1 hn).le))
    have big' : (2 : ℝ) ^ (-1021 : ℤ) ≤ fl (h - l) := float_le_fl (zpow_isFloat (by norm_num)) big
    generalize hW' : fl (h - l) = W' at *
    have pos : 0 < W' := lt_of_lt_of_le (by positivity) big'
    have e1 := eps_le
    have e0 := eps_pos
    have hx : (2 : ℝ) ^ (-1022 : ℤ) ≤ W' * (1 - eps) := by
      have h1 : (2 : ℝ) ^ (-1022 : ℤ) = 2 ^ (-1021 : ℤ) * (1 / 2) := by
        rw [show (-1022 : ℤ) = -1021 - 1 by norm_num, zpow_sub_one₀ (by norm_num)]; norm_num
      rw [h1]
      exact mul_le_mul big' (by linarith) (by norm_num) pos.le
    have hxpos : 0 < W' * (1 - eps) := lt_of_lt_of_le (by positivity) hx
    have herr := fl_rel_normal (x := W' * (1 - eps)) (by rwa [abs_of_pos hxpos])
    rw [abs_of_pos hxpos] at herr
    have herr := (abs_le.1 herr).2
    have hlt : fl (W' * (1 - eps)) < W' := by
      have h3 : 0 < eps * (eps * W') := by positivity
      have h4 : eps * (W' * (1 - eps)) = eps * W' - eps * (eps * W') := by ring
      have h5 : W' * (1 - eps) = W' - eps * W' := by ring
      linarith
    refine (fl_mono (mul_le_mul_of_nonneg_left hr pos.le)).trans ?_
    by_contra hn
    have := fl_le_float (isFloat_fl (W' * (1 - eps))) (not_le.1 hn).le
    rw [hW'] at this
    linarith

/-- `rng.uniform(l, h)` in floats is between `l` and `h`, for all floats. -/
theorem uniform_mem {l h r : ℝ} (hl : IsFloat l) (hh : IsFloat h) (hlh : l ≤ h) (h0 : 0 ≤ r) (hr : r ≤ 1 - eps) :
    l ≤ fl (l + fl (fl (h - l) * r)) ∧ fl (l + fl (fl (h - l) * r)) ≤ h := by
  have h1 := width_mul_le hl hh hlh hr
  have h2 : 0 ≤ fl (fl (h - l) * r) := fl_nonneg (mul_nonneg (fl_nonneg (sub_nonneg.2 hlh)) h0)
  exact ⟨float_le_fl hl (by linarith), fl_le_float hh (by linarith)⟩

/-- The error of `rng.uniform(l, h)` for `l ≤ 0 ≤ h`. -/
theorem coordR_err_zero {l h u : ℝ} (hl : IsFloat l) (hh : IsFloat h) (hl0 : l ≤ 0) (hh0 : 0 ≤ h) (hW : 2 ^ (-100 : ℤ) ≤ h - l) (h0 : 0 ≤ u)
    (h1 : u < 1) : |coordR l h u - (l + (h - l) * u)| ≤ 8 * eps * (h - l) := by
  have ht := tiny_le hW
  have k0 := random53_nonneg h0
  have k1 := random53_lt h1
  have k2 := random53_le (u := u)
  have k3 := random53_near (u := u)
  have W0 : 0 < h - l := lt_of_lt_of_le (by positivity) hW
  have e0 := eps_pos
  have e1 := eps_le
  have m1 := width_mul_le hl hh (hl0.trans hh0) k1
  have m2 : 0 ≤ fl (fl (h - l) * random53 u) := fl_nonneg (mul_nonneg (fl_nonneg W0.le) k0)
  have w1 := fl_rel_pos W0.le (.inr ((zpow_le_zpow_right₀ (by norm_num) (by norm_num)).trans hW))
  unfold coordR
  have E1 := fl_err (fl (h - l) * random53 u)
  have E2 := fl_err (l + fl (fl (h - l) * random53 u))
  generalize hW' : fl (h - l) = W' at *
  generalize fl (W' * random53 u) = y at *
  have hfold : (2 : ℝ) ^ (-53 : ℤ) = eps := rfl
  rw [hfold] at E1 E2
  have a2 : |l + y| ≤ h - l := by
    rw [abs_le]
    constructor <;> linarith
  have W'0 : 0 ≤ W' := le_trans (mul_nonneg (by linarith) W0.le) w1.1
  have a1 : |W' * random53 u| ≤ 2 * (h - l) := by
    rw [abs_of_nonneg (mul_nonneg W'0 k0)]
    have := mul_le_of_le_one_right W'0 (by linarith : random53 u ≤ 1)
    have h3 : (1 + eps) * (h - l) ≤ 2 * (h - l) := mul_le_mul_of_nonneg_right (by linarith) W0.le
    linarith [w1.2]
  have c1 := mul_le_mul_of_nonneg_left a1 e0.le
  have c2 := mul_le_mul_of_nonneg_left a2 e0.le
  rw [mul_left_comm] at c1
  -- the width and the draw
  have d1 : |W' * random53 u - (h - l) * random53 u| ≤ eps * (h - l) := by
    rw [← sub_mul, abs_mul, abs_of_nonneg k0]
    have : |W' - (h - l)| ≤ eps * (h - l) := by
      rw [abs_le]
      constructor <;> linarith [w1.1, w1.2]
    exact (mul_le_of_le_one_right (abs_nonneg _) (by linarith)).trans this
  have d2 : (h - l) * random53 u ≤ (h - l) * u := mul_le_mul_of_nonneg_left k2 W0.le
  have d3 : (h - l) * u - eps * (h - l) ≤ (h - l) * random53 u := by
    have := mul_le_mul_of_nonneg_left k3 W0.le
    rw [mul_sub, mul_comm _ eps] at this
    exact this
  have pos := mul_pos e0 W0
  generalize (2 : ℝ) ^ (-1075 : ℤ) = τ at *
  rw [mul_assoc]
  generalize eps * (h - l) = E at *
  rw [abs_le] at E1 E2 d1 ⊢
  constructor <;> linarith [E1.1, E1.2, E2.1, E2.2, d1.1, d1.2]

end Verif.Float64
