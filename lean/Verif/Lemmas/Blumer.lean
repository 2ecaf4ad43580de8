import Verif.Spec.Bound
import Mathlib.Analysis.SpecialFunctions.Log.Base
import Mathlib.Analysis.SpecialFunctions.Exp
import Mathlib.Analysis.Complex.ExponentialBounds
import Mathlib.Data.Nat.Choose.Sum

/-! The estimate behind Blumer's bound on the number of samples. -/

namespace Verif.Bound

open Verif.Spec Finset

/-- Sums of binomial coefficients: `C(n,0) + ... + C(n,d) ≤ (e n / d) ^ d`. -/
theorem sum_choose_le {n d : ℕ} (hd : 1 ≤ d) (h : d ≤ n) :
    ∑ i ∈ range (d + 1), (Nat.choose n i : ℝ) ≤ (Real.exp 1 * n / d) ^ d := by
  have d0 : (0 : ℝ) < d := by exact_mod_cast hd
  have n0 : (0 : ℝ) < n := by exact_mod_cast lt_of_lt_of_le hd h
  have x0 : (0 : ℝ) < d / n := div_pos d0 n0
  have x1 : (d : ℝ) / n ≤ 1 := (div_le_one n0).2 (by exact_mod_cast h)
  have key : ((d : ℝ) / n) ^ d * ∑ i ∈ range (d + 1), (Nat.choose n i : ℝ) ≤ Real.exp 1 ^ d := by
    calc ((d : ℝ) / n) ^ d * ∑ i ∈ range (d + 1), (Nat.choose n i : ℝ)
        = ∑ i ∈ range (d + 1), ((d : ℝ) / n) ^ d * (Nat.choose n i : ℝ) := Finset.mul_sum _ _ _
      _ ≤ ∑ i ∈ range (d + 1), ((d : ℝ) / n) ^ i * (Nat.choose n i : ℝ) := by
          refine Finset.sum_le_sum fun i hi => mul_le_mul_of_nonneg_right ?_ (Nat.cast_nonneg _)
          exact pow_le_pow_of_le_one x0.le x1 (Nat.lt_succ_iff.1 (Finset.mem_range.1 hi))
      _ ≤ ∑ i ∈ range (n + 1), ((d : ℝ) / n) ^ i * (Nat.choose n i : ℝ) := by
          refine Finset.sum_le_sum_of_subset_of_nonneg (Finset.range_mono (by omega)) fun i _ _ => by positivity
      _ = ((d : ℝ) / n + 1) ^ n := by
          rw [add_pow]
          simp
      _ ≤ Real.exp ((d : ℝ) / n) ^ n := pow_le_pow_left₀ (by positivity) (Real.add_one_le_exp _) n
      _ = Real.exp 1 ^ d := by
          rw [← Real.exp_nat_mul, ← Real.exp_nat_mul]
          congr 1
          field_simp
  rw [show Real.exp 1 * n / d = Real.exp 1 / ((d : ℝ) / n) by field_simp, div_pow, le_div_iff₀ (pow_pos x0 d), mul_comm]
  exact key

theorem logb_thirteen : Real.logb 2 13 ≤ 15 / 4 := by
  have : Real.logb 2 (13 ^ 4) ≤ Real.logb 2 (2 ^ 15) := Real.logb_le_logb_of_le (by norm_num) (by norm_num) (by norm_num)
  rw [Real.logb_pow, Real.logb_pow, Real.logb_self_eq_one (by norm_num)] at this
  norm_num at this
  linarith

/-- The exponential wins from `log2 13` on. -/
theorem blumer_growth {t : ℝ} (ht : Real.logb 2 13 ≤ t) : 16 * Real.exp 1 * t ≤ 13 * 2 ^ t := by
  have e1 := Real.exp_one_lt_d9
  have e0 : 0 < Real.exp 1 := Real.exp_pos 1
  have l2 := Real.log_two_gt_d9
  obtain ⟨s, hs, rfl⟩ : ∃ s, 0 ≤ s ∧ t = Real.logb 2 13 + s := ⟨t - Real.logb 2 13, by linarith, by ring⟩
  have h1 : (2 : ℝ) ^ (Real.logb 2 13 + s) = 13 * 2 ^ s := by
    rw [Real.rpow_add (by norm_num), Real.rpow_logb (by norm_num) (by norm_num) (by norm_num)]
  have h2 : 1 + s * Real.log 2 ≤ 2 ^ s := by
    rw [Real.rpow_def_of_pos (by norm_num)]
    have := Real.add_one_le_exp (Real.log 2 * s)
    linarith
  have h3 : s * (69 / 100) ≤ s * Real.log 2 := mul_le_mul_of_nonneg_left (by linarith) hs
  have h4 := logb_thirteen
  have h5 : 16 * Real.exp 1 * (Real.logb 2 13 + s) ≤ 16 * (272 / 100) * (15 / 4 + s) := by
    have : 0 ≤ Real.logb 2 13 := Real.logb_nonneg (by norm_num) (by norm_num)
    gcongr
    linarith
  rw [h1]
  linarith

/-- Half of the exponent pays for the binomial coefficients. -/
theorem blumer_sum {ε : ℝ} {d m : ℕ} (hd : 1 ≤ d) (hε : 0 < ε) (hε1 : ε ≤ 1) (hm : 8 * d / ε * Real.logb 2 (13 / ε) ≤ m) :
    ∑ i ∈ range (d + 1), (Nat.choose (2 * m) i : ℝ) ≤ 2 ^ (ε * m / 4) := by
  have d1 : (1 : ℝ) ≤ d := by exact_mod_cast hd
  have d0 : (0 : ℝ) < d := by linarith
  have hl : Real.logb 2 13 ≤ Real.logb 2 (13 / ε) :=
    Real.logb_le_logb_of_le (by norm_num) (by norm_num) ((le_div_iff₀ hε).2 (by linarith))
  have h13 : 1 ≤ Real.logb 2 13 := by
    rw [Real.le_logb_iff_rpow_le (by norm_num) (by norm_num)]
    norm_num
  set t := ε * m / (8 * d) with htd
  have hmt : (m : ℝ) = 8 * d / ε * t := by rw [htd]; field_simp
  have ht : Real.logb 2 (13 / ε) ≤ t := by
    rw [hmt] at hm
    exact le_of_mul_le_mul_left hm (by positivity)
  have t1 : 1 ≤ t := by linarith
  have hdm : d ≤ 2 * m := by
    have : (d : ℝ) ≤ 2 * m := by
      have a : (d : ℝ) ≤ d / ε := (le_div_iff₀ hε).2 (mul_le_of_le_one_right d0.le hε1)
      have b : d / ε ≤ d / ε * t := le_mul_of_one_le_right (by positivity) t1
      have c : (m : ℝ) = 8 * (d / ε * t) := by rw [hmt]; ring
      linarith
    exact_mod_cast this
  refine (sum_choose_le hd hdm).trans ?_
  have hbase : Real.exp 1 * (2 * m : ℕ) / d ≤ 2 ^ (2 * t) := by
    have e1 : Real.exp 1 * (2 * m : ℕ) / d = (16 * Real.exp 1 * t) * (1 / ε) := by
      push_cast
      rw [hmt]
      field_simp
      ring
    have e2 : (2 : ℝ) ^ (2 * t) = 2 ^ t * 2 ^ t := by rw [← Real.rpow_add (by norm_num)]; congr 1; ring
    have e3 : 13 / ε ≤ 2 ^ t := by
      rw [← Real.logb_le_iff_le_rpow (by norm_num) (by positivity)]
      exact ht
    rw [e1, e2]
    calc 16 * Real.exp 1 * t * (1 / ε) ≤ 13 * 2 ^ t * (1 / ε) := mul_le_mul_of_nonneg_right (blumer_growth (hl.trans ht)) (by positivity)
      _ = 2 ^ t * (13 / ε) := by ring
      _ ≤ 2 ^ t * 2 ^ t := mul_le_mul_of_nonneg_left e3 (by positivity)
  refine (pow_le_pow_left₀ (by positivity) hbase d).trans (le_of_eq ?_)
  rw [← Real.rpow_natCast, ← Real.rpow_mul (by norm_num)]
  congr 1
  rw [htd]
  field_simp
  ring

/-- With at least as many samples as Blumer's bound, the failure bound is met. -/
theorem blumer_failure {ε γ : ℝ} {d m : ℕ} (hd : 1 ≤ d) (hε : 0 < ε) (hε1 : ε ≤ 1) (hγ : 0 < γ)
    (h1 : 4 / ε * Real.logb 2 (2 / γ) ≤ m) (h2 : 8 * d / ε * Real.logb 2 (13 / ε) ≤ m) : failureBound m ε d ≤ γ := by
  unfold failureBound
  have a : 2 / γ ≤ 2 ^ (ε * m / 4) := by
    rw [← Real.logb_le_iff_le_rpow (by norm_num) (by positivity)]
    have : ε / 4 * (4 / ε * Real.logb 2 (2 / γ)) ≤ ε / 4 * m := mul_le_mul_of_nonneg_left h1 (by positivity)
    have e : ε / 4 * (4 / ε * Real.logb 2 (2 / γ)) = Real.logb 2 (2 / γ) := by field_simp
    linarith
  have b := blumer_sum hd hε hε1 h2
  have c : (2 : ℝ) ^ (-(ε * m) / 2) = (2 ^ (ε * m / 4) * 2 ^ (ε * m / 4))⁻¹ := by
    rw [← Real.rpow_add (by norm_num), ← Real.rpow_neg (by norm_num)]
    congr 1
    ring
  rw [c]
  generalize (2 : ℝ) ^ (ε * m / 4) = x at a b
  have x0 : 0 < x := lt_of_lt_of_le (by positivity) a
  rw [← div_eq_mul_inv, div_le_iff₀ (by positivity)]
  have e : 2 ≤ γ * x := by rw [div_le_iff₀ hγ] at a; linarith
  calc 2 * ∑ i ∈ range (d + 1), (Nat.choose (2 * m) i : ℝ) ≤ 2 * x := by linarith
    _ ≤ γ * x * x := mul_le_mul_of_nonneg_right e x0.le
    _ = γ * (x * x) := by ring

end Verif.Bound
