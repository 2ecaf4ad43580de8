import Mathlib.Analysis.Complex.ExponentialBounds
import Verif.Lemmas.FloatClear
import Verif.Lemmas.NumericalBound
import Verif.Spec.FloatBound

/-! Rounding errors of `compute_numerical_bound`. -/

namespace Verif.Bound

open Verif.Spec Verif.Float64 Finset

variable {lib : Libm} {μ ρ p : ℝ} {m vc : ℕ}

/-- The logarithm in `bits`. -/
theorem logRow_eq (m vc : ℕ) : Real.logb 2 (∑ i ∈ range (vc + 1), (Nat.choose (2 * m) i : ℝ)) = logRow vc (2 * m) := by
  unfold logRow partialRow
  push_cast
  rfl

theorem logRow_nonneg (m vc : ℕ) : 0 ≤ logRow vc m := by
  unfold logRow
  refine Real.logb_nonneg (by norm_num) ?_
  have := partialRow_pos vc m
  exact_mod_cast this

theorem tau_le : (2 : ℝ) ^ (-1075 : ℤ) ≤ eps / 100 := by
  unfold eps
  have : (2 : ℝ) ^ (-1075 : ℤ) ≤ 2 ^ (-60 : ℤ) := zpow_le_zpow_right₀ (by norm_num) (by norm_num)
  refine this.trans ?_
  rw [show (-60 : ℤ) = -53 + -7 by norm_num, zpow_add₀ (by norm_num)]
  norm_num

theorem eps_small : eps ≤ 1 / 10 ^ 15 := by
  unfold eps; norm_num

theorem err_core {u τ μ A B a P q b c f : ℝ} (e0 : 0 < u) (e1 : u ≤ 1 / 10 ^ 15) (t0 : 0 < τ) (t1 : τ ≤ u / 100) (h0 : 0 ≤ μ) (h1 : μ ≤ 1 / 100)
    (A0 : 0 ≤ A) (B0 : 0 ≤ B) (ha : |a - A| ≤ μ * A) (hP : |P - -(2 * B)| ≤ u * (2 * B)) (hq : |q - P| ≤ u * |P| + τ)
    (hb : |b - q / 2| ≤ u * |q / 2| + τ) (hc : |c - (a + b)| ≤ u * |a + b| + τ) (hf : |f - (c + 1)| ≤ u * |c + 1| + τ) :
    |f - (A - B + 1)| ≤ (μ + 8 * u) * (A + B + 1) := by
  have uB : u * B ≤ B / 100 := by nlinarith
  have uB0 : 0 ≤ u * B := by positivity
  have uA0 : 0 ≤ u * A := by positivity
  have hP' : |P| ≤ 5 / 2 * B := by
    have := abs_le.1 hP
    rw [abs_le]; constructor <;> linarith
  have hq1 : |q - -(2 * B)| ≤ 5 * (u * B) + τ := by
    have k1 := mul_le_mul_of_nonneg_left hP' e0.le
    have k2 := abs_le.1 hP
    have k3 := abs_le.1 hq
    rw [abs_le]; constructor <;> linarith
  have hq' : |q / 2| ≤ 5 / 4 * B + τ := by
    have := abs_le.1 hq1
    rw [abs_le]; constructor <;> linarith
  have hb1 : |b - -B| ≤ 4 * (u * B) + 2 * τ := by
    have k1 := mul_le_mul_of_nonneg_left hq' e0.le
    have k2 := abs_le.1 hq1
    have k3 := abs_le.1 hb
    have k4 : u * τ ≤ τ / 2 := by nlinarith
    rw [abs_le]; constructor <;> linarith
  have hab : |a + b| ≤ 5 / 4 * A + 5 / 4 * B + 1 / 8 := by
    have k1 := abs_le.1 ha
    have k2 := abs_le.1 hb1
    have k3 : μ * A ≤ A / 10 := by nlinarith
    rw [abs_le]; constructor <;> linarith
  have hc := hc.trans (add_le_add_left (mul_le_mul_of_nonneg_left hab e0.le) τ)
  have hc' : |c + 1| ≤ 3 / 2 * A + 3 / 2 * B + 3 / 2 := by
    have k1 := abs_le.1 hc
    have k2 := abs_le.1 hab
    have k3 : u * (5 / 4 * A + 5 / 4 * B + 1 / 8) ≤ 1 / 10 * (5 / 4 * A + 5 / 4 * B + 1 / 8) :=
      mul_le_mul_of_nonneg_right (by linarith) (by linarith)
    rw [abs_le]; constructor <;> linarith
  have hf := hf.trans (add_le_add_left (mul_le_mul_of_nonneg_left hc' e0.le) τ)
  have hμ0 : 0 ≤ μ * B := by positivity
  have k1 := abs_le.1 ha
  have k2 := abs_le.1 hb1
  have k3 := abs_le.1 hc
  have k4 := abs_le.1 hf
  have e : (μ + 8 * u) * (A + B + 1) = μ * A + μ * B + μ + 8 * (u * A) + 8 * (u * B) + 8 * u := by ring
  rw [e, abs_le]
  constructor <;> linarith

/-- The error of the bound that the search evaluates. -/
theorem sauerShelahR_err (hl : Accurate lib μ) (h0 : 0 ≤ μ) (h1 : μ ≤ 1 / 100) (hρ : 0 ≤ ρ) (m vc : ℕ) :
    |sauerShelahLog2R fl lib m ρ vc - sauerShelahLog2 m ρ vc| ≤ (μ + 8 * eps) * (logRow vc (2 * m) + ρ * m / 2 + 1) := by
  rw [sauerShelah_eq]
  unfold sauerShelahLog2R
  have m0 : (0 : ℝ) ≤ m := Nat.cast_nonneg m
  have A0 : 0 ≤ logRow vc (2 * m) := logRow_nonneg _ _
  refine err_core (τ := 2 ^ (-1075 : ℤ)) eps_pos eps_small (by positivity) tau_le h0 h1 A0 (by positivity) ?_ ?_ (fl_err (-ρ * fl m))
    (fl_err _) (fl_err _) (fl_err _)
  · have hk : 0 < ssCombSum m vc := by rw [ssCombSum_eq]; exact partialRow_pos _ _
    have := hl.log2Int _ hk
    have e : Real.logb 2 (ssCombSum m vc) = logRow vc (2 * m) := by rw [ssCombSum_eq]; rfl
    rwa [e, abs_of_nonneg A0] at this
  · have hm : |fl m - m| ≤ eps * m := by
      have := fl_rel (x := (m : ℝ)) (by
        rcases Nat.eq_zero_or_pos m with rfl | h
        · left; simp
        · right
          rw [abs_of_nonneg m0]
          have : (1 : ℝ) ≤ m := by exact_mod_cast h
          exact (zpow_le_one_of_nonpos₀ (by norm_num) (by norm_num)).trans this)
      rwa [abs_of_nonneg m0] at this
    have e : -ρ * fl m - -(2 * (ρ * m / 2)) = -(ρ * (fl m - m)) := by ring
    rw [e, abs_neg, abs_mul, abs_of_nonneg hρ]
    calc _ ≤ ρ * (eps * m) := mul_le_mul_of_nonneg_left hm hρ
      _ = _ := by ring

theorem one_sub_float (hp1 : p < 1) (hp0 : 0 < p) (fp : IsFloat p) : (2 : ℝ) ^ (-53 : ℤ) ≤ 1 - p := by
  rcases le_total p (1 / 2) with h | h
  · have : (2 : ℝ) ^ (-53 : ℤ) ≤ 2 ^ (-1 : ℤ) := zpow_le_zpow_right₀ (by norm_num) (by norm_num)
    norm_num at this ⊢
    linarith
  · have h1 := add_ulp_le fp one_isFloat hp0.le hp1
    have h2 := ulp_mono (by norm_num) h
    have h3 : (2 : ℝ) ^ (-53 : ℤ) ≤ ulp (1 / 2) := by
      unfold ulp
      refine zpow_le_zpow_right₀ (by norm_num) ?_
      have h4 := lt_place (x := 1 / 2) (by norm_num)
      rw [show (1 / 2 : ℝ) = 2 ^ (-1 : ℤ) by norm_num] at h4
      have h5 := (zpow_lt_zpow_iff_right₀ (by norm_num : (1 : ℝ) < 2)).1 h4
      rw [show (1 / 2 : ℝ) = 2 ^ (-1 : ℤ) by norm_num]
      omega
    exact (h3.trans h2).trans (by linarith)

/-- Logarithms of numbers that are close together. -/
theorem logb_near {u x y : ℝ} (hu0 : 0 ≤ u) (hu : u ≤ 1 / 100) (hx : 0 < x) (h1 : (1 - u) * x ≤ y) (h2 : y ≤ (1 + u) * x) :
    |Real.logb 2 y - Real.logb 2 x| ≤ 2 * u := by
  have hy : 0 < y := lt_of_lt_of_le (mul_pos (by linarith) hx) h1
  have l2 := Real.log_two_gt_d9
  rw [Real.logb, Real.logb, ← sub_div, ← Real.log_div hy.ne' hx.ne', abs_div, abs_of_pos (by linarith : 0 < Real.log 2),
    div_le_iff₀ (by linarith)]
  have k1 := Real.log_le_sub_one_of_pos (div_pos hy hx)
  have k2 := Real.one_sub_inv_le_log_of_pos (div_pos hy hx)
  have k3 : y / x ≤ 1 + u := by rwa [div_le_iff₀ hx]
  have k4 : (y / x)⁻¹ ≤ 1 + 5 / 4 * u := by
    rw [inv_div, div_le_iff₀ hy]
    have : (1 + 5 / 4 * u) * ((1 - u) * x) ≤ (1 + 5 / 4 * u) * y := mul_le_mul_of_nonneg_left h1 (by linarith)
    have k5 : x ≤ (1 + 5 / 4 * u) * ((1 - u) * x) := by
      rw [← mul_assoc]
      refine le_mul_of_one_le_left hx.le ?_
      nlinarith
    linarith
  have k6 : 5 / 4 * u ≤ 2 * u * Real.log 2 := by nlinarith
  rw [abs_le]; constructor <;> linarith

theorem logb_nonpos' (hp0 : 0 < p) (hp1 : p < 1) : Real.logb 2 (1 - p) ≤ 0 :=
  Real.logb_nonpos (by norm_num) (by linarith) (by linarith)

/-- The error of the logarithm of the failure probability. -/
theorem log_err (hl : Accurate lib μ) (h0 : 0 ≤ μ) (hp0 : 0 < p) (hp1 : p < 1) (fp : IsFloat p) :
    |lib.log2 (fl (1 - p)) - Real.logb 2 (1 - p)| ≤ (μ + 8 * eps) * (1 - Real.logb 2 (1 - p)) := by
  have e0 := eps_pos
  have e1 := eps_small
  have hx := one_sub_float hp1 hp0 fp
  have x0 : 0 < 1 - p := by linarith
  obtain ⟨k1, k2⟩ := fl_rel_pos x0.le (.inr (le_trans (zpow_le_zpow_right₀ (by norm_num) (by norm_num)) hx))
  have hy : 0 < fl (1 - p) := lt_of_lt_of_le (mul_pos (by linarith) x0) k1
  have k3 := logb_near e0.le (by linarith) x0 k1 k2
  have k4 := hl.log2 _ (isFloat_fl _) hy
  have hL := logb_nonpos' hp0 hp1
  set L := Real.logb 2 (1 - p)
  have k5 : |Real.logb 2 (fl (1 - p))| ≤ 2 * eps - L := by
    have := abs_le.1 k3
    rw [abs_le]; constructor <;> linarith
  have k6 := mul_le_mul_of_nonneg_left k5 h0
  have k7 : 0 ≤ eps * (-L) := mul_nonneg e0.le (by linarith)
  have k8 : μ * (2 * eps) ≤ μ := mul_le_of_le_one_right h0 (by linarith)
  have := abs_le.1 k3
  have := abs_le.1 k4
  rw [abs_le]; constructor <;> nlinarith

/-- A count that passes the test of the search in floats. -/
theorem passes_sufficient (hl : Accurate lib μ) (h0 : 0 ≤ μ) (h1 : μ ≤ 1 / 100) (hρ : 0 ≤ ρ) (hp0 : 0 < p) (hp1 : p < 1) (fp : IsFloat p)
    (h : sauerShelahLog2R fl lib m ρ vc ≤ lib.log2 (fl (1 - p))) :
    (1 - 3 * (μ + 8 * eps)) * (logRow vc (2 * m) + 1 - Real.logb 2 (1 - p)) ≤ ρ * m / 2 := by
  have k1 := abs_le.1 (sauerShelahR_err hl h0 h1 hρ m vc)
  have k2 := abs_le.1 (log_err hl h0 hp0 hp1 fp)
  have hL := logb_nonpos' hp0 hp1
  rw [sauerShelah_eq] at k1
  have A0 : 0 ≤ logRow vc (2 * m) := logRow_nonneg _ _
  have e0 := eps_pos
  have e1 := eps_small
  have B0 : 0 ≤ ρ * m / 2 := by positivity
  set ε := μ + 8 * eps
  set A := logRow vc (2 * m)
  set L := Real.logb 2 (1 - p)
  set B := ρ * m / 2
  have ε0 : 0 ≤ ε := by positivity
  have ε1 : ε ≤ 1 / 50 := by linarith
  -- M ≤ B + ε (A + B + 1) + ε (1 - L)
  have k3 : A + 1 - L ≤ B + ε * (A + B + 1) + ε * (1 - L) := by linarith [k1.1, k2.2]
  have M1 : 1 ≤ A + 1 - L := by linarith
  have k4 : (1 - 2 * ε) * (A + 1 - L) ≤ (1 + ε) * B := by nlinarith
  have k5 : (1 + ε) * ((1 - 3 * ε) * (A + 1 - L)) ≤ (1 - 2 * ε) * (A + 1 - L) := by
    rw [← mul_assoc]
    exact mul_le_mul_of_nonneg_right (by nlinarith) (by linarith)
  exact le_of_mul_le_mul_left (k5.trans k4) (by linarith)

/-- A count that fails the first test of the search in floats. -/
theorem fails_necessary (hl : Accurate lib μ) (h0 : 0 ≤ μ) (h1 : μ ≤ 1 / 100) (hρ : 0 ≤ ρ) (hp0 : 0 < p) (hp1 : p < 1) (fp : IsFloat p)
    (h : lib.log2 (fl (1 - p)) < sauerShelahLog2R fl lib m ρ vc) :
    ρ * m / 2 ≤ (1 + 4 * (μ + 8 * eps)) * (logRow vc (2 * m) + 1 - Real.logb 2 (1 - p)) := by
  have k1 := abs_le.1 (sauerShelahR_err hl h0 h1 hρ m vc)
  have k2 := abs_le.1 (log_err hl h0 hp0 hp1 fp)
  have hL := logb_nonpos' hp0 hp1
  rw [sauerShelah_eq] at k1
  have A0 : 0 ≤ logRow vc (2 * m) := logRow_nonneg _ _
  have e0 := eps_pos
  have e1 := eps_small
  have B0 : 0 ≤ ρ * m / 2 := by positivity
  set ε := μ + 8 * eps
  set A := logRow vc (2 * m)
  set L := Real.logb 2 (1 - p)
  set B := ρ * m / 2
  have ε0 : 0 ≤ ε := by positivity
  have ε1 : ε ≤ 1 / 50 := by linarith
  have k3 : B ≤ A + 1 - L + ε * (A + B + 1) + ε * (1 - L) := by linarith [k1.2, k2.1]
  have M1 : 1 ≤ A + 1 - L := by linarith
  have k4 : (1 - ε) * B ≤ (1 + 2 * ε) * (A + 1 - L) := by nlinarith
  have k5 : (1 + 2 * ε) * (A + 1 - L) ≤ (1 - ε) * ((1 + 4 * ε) * (A + 1 - L)) := by
    rw [← mul_assoc]
    exact mul_le_mul_of_nonneg_right (by nlinarith) (by linarith)
  exact le_of_mul_le_mul_left (k4.trans k5) (by linarith)

/-- The logarithm of the number of subsets grows by at most its average. -/
theorem logRow_step (m vc : ℕ) : m * (logRow vc (2 * (m + 1)) - logRow vc (2 * m)) ≤ logRow vc (2 * m) := by
  have hc : ∀ i, logRow vc (2 * i) + logRow vc (2 * (i + 2)) ≤ 2 * logRow vc (2 * (i + 1)) := fun i => logRow_concave_two vc i
  have h0 : logRow vc (2 * 0) = 0 := by simp [logRow, partialRow_zero]
  have key : ∀ k ≤ m, k * (logRow vc (2 * (m + 1)) - logRow vc (2 * m)) ≤ logRow vc (2 * k) := by
    intro k
    induction k with
    | zero => intro _; rw [h0]; simp
    | succ k ih =>
      intro hk
      have k1 := ih (by omega)
      have k2 := concave_slope (f := fun i => logRow vc (2 * i)) hc (show k ≤ m by omega)
      push_cast
      linarith
  exact key m le_rfl

/-- A count at which the bound in floats rises. -/
theorem rises_necessary (hl : Accurate lib μ) (h0 : 0 ≤ μ) (h1 : μ ≤ 1 / 100) (hρ : 0 ≤ ρ) (hm : 1 ≤ m)
    (hs : 32 * (μ + 8 * eps) * m * (logRow vc (2 * m) + 1) ≤ 1)
    (h : sauerShelahLog2R fl lib m ρ vc < sauerShelahLog2R fl lib (m + 1) ρ vc) :
    ρ * m / 2 ≤ logRow vc (2 * m) + 1 := by
  have k1 := abs_le.1 (sauerShelahR_err hl h0 h1 hρ m vc)
  have k2 := abs_le.1 (sauerShelahR_err hl h0 h1 hρ (m + 1) vc)
  rw [sauerShelah_eq] at k1 k2
  have A0 : 0 ≤ logRow vc (2 * m) := logRow_nonneg _ _
  have e0 := eps_pos
  have e1 := eps_small
  have m1 : (1 : ℝ) ≤ m := by exact_mod_cast hm
  have st := logRow_step m vc
  push_cast at k2
  set ε := μ + 8 * eps
  set A := logRow vc (2 * m)
  set A' := logRow vc (2 * (m + 1))
  have ε0 : 0 < ε := by positivity
  have ε1 : ε ≤ 1 / 50 := by linarith
  have B0 : 0 ≤ ρ * m := by positivity
  have hA' : A' ≤ 2 * A := by
    rcases le_total A' A with k | k
    · linarith
    · have := le_mul_of_one_le_left (sub_nonneg.2 k) m1
      linarith
  have A0' : 0 ≤ A' := logRow_nonneg _ _
  have hBm : ρ ≤ ρ * m := le_mul_of_one_le_right hρ m1
  -- ρ/2 ≤ A' - A + ε (3 A + 2 + 3 B)
  have k3 : ρ / 2 ≤ A' - A + ε * (3 * A + 2 + 3 / 2 * (ρ * m)) := by
    have : ε * (A + ρ * m / 2 + 1) + ε * (A' + ρ * (m + 1) / 2 + 1) ≤ ε * (3 * A + 2 + 3 / 2 * (ρ * m)) := by
      rw [← mul_add]
      exact mul_le_mul_of_nonneg_left (by linarith) ε0.le
    linarith [k1.1, k2.2]
  have k4 : ρ * m / 2 ≤ A + ε * m * (3 * A + 2 + 3 / 2 * (ρ * m)) := by
    have := mul_le_mul_of_nonneg_left k3 (by linarith : (0 : ℝ) ≤ m)
    calc ρ * m / 2 = m * (ρ / 2) := by ring
      _ ≤ _ := this
      _ = m * (A' - A) + ε * m * (3 * A + 2 + 3 / 2 * (ρ * m)) := by ring
      _ ≤ _ := by linarith
  have εm : 0 ≤ ε * m := by positivity
  have k5 : ε * m ≤ 1 / 32 := by
    have : ε * m * 1 ≤ ε * m * (A + 1) := mul_le_mul_of_nonneg_left (by linarith) εm
    linarith
  have k6 : ε * m * (A + 1) ≤ 1 / 32 := by linarith
  have k7 : ε * m * (ρ * m) ≤ 1 / 32 * (ρ * m) := mul_le_mul_of_nonneg_right k5 B0
  have k8 : ρ * m / 2 ≤ 2 * A + 1 := by nlinarith
  have k9 : ε * m * (ρ * m) ≤ ε * m * (4 * A + 2) := mul_le_mul_of_nonneg_left (by linarith) εm
  nlinarith

end Verif.Bound
