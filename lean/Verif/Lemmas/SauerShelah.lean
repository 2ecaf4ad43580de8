import Mathlib.Data.Nat.Choose.Sum
import Mathlib.Analysis.SpecialFunctions.Log.Base
import Mathlib.Tactic.Linarith
import Mathlib.Tactic.Positivity
import Mathlib.Tactic.Ring

/-! Partial sums of a row of Pascal's triangle are log-concave in the row. -/

namespace Verif.Bound

open Finset

/-- `C(n,0) + ... + C(n,v)`. -/
def partialRow (v n : ℕ) : ℕ := ∑ i ∈ range (v + 1), Nat.choose n i

theorem partialRow_pos (v n : ℕ) : 0 < partialRow v n := by
  unfold partialRow
  rw [sum_range_succ']
  simp

theorem partialRow_succ (v n : ℕ) : partialRow v (n + 1) + Nat.choose n v = 2 * partialRow v n := by
  unfold partialRow
  rw [sum_range_succ' (fun i => Nat.choose (n + 1) i)]
  simp only [Nat.choose_succ_succ, Nat.choose_zero_right, sum_add_distrib]
  have h1 : ∑ i ∈ range v, Nat.choose n (i + 1) + 1 = ∑ i ∈ range (v + 1), Nat.choose n i := by
    rw [sum_range_succ' (fun i => Nat.choose n i)]; simp
  have h2 : ∑ i ∈ range v, Nat.choose n i + Nat.choose n v = ∑ i ∈ range (v + 1), Nat.choose n i := by
    rw [sum_range_succ]
  simp only [Nat.succ_eq_add_one] at *
  omega

theorem choose_ratio (n d v : ℕ) (h : d ≤ v) :
    Nat.choose n v * Nat.choose (n + 1) d ≤ Nat.choose (n + 1) v * Nat.choose n d := by
  rcases Nat.lt_or_ge n v with hv | hv
  · simp [Nat.choose_eq_zero_of_lt hv]
  · have e1 := Nat.choose_mul_succ_eq n v
    have e2 := Nat.choose_mul_succ_eq n d
    have hp1 : 0 < n + 1 - v := by omega
    have hp2 : 0 < n + 1 - d := by omega
    have hle : n + 1 - v ≤ n + 1 - d := by omega
    have key : (Nat.choose n v * Nat.choose (n + 1) d) * ((n + 1 - v) * (n + 1 - d)) ≤
        (Nat.choose (n + 1) v * Nat.choose n d) * ((n + 1 - v) * (n + 1 - d)) := by
      calc (Nat.choose n v * Nat.choose (n + 1) d) * ((n + 1 - v) * (n + 1 - d))
          = Nat.choose n v * (n + 1 - v) * (Nat.choose (n + 1) d * (n + 1 - d)) := by ring
        _ = Nat.choose n v * (n + 1 - v) * (Nat.choose n d * (n + 1)) := by rw [e2]
        _ = (Nat.choose n v * (n + 1) * Nat.choose n d) * (n + 1 - v) := by ring
        _ ≤ (Nat.choose n v * (n + 1) * Nat.choose n d) * (n + 1 - d) := Nat.mul_le_mul_left _ hle
        _ = (Nat.choose (n + 1) v * (n + 1 - v) * Nat.choose n d) * (n + 1 - d) := by rw [e1]
        _ = _ := by ring
    exact Nat.le_of_mul_le_mul_right key (Nat.mul_pos hp1 hp2)

theorem partialRow_ratio (v n : ℕ) :
    Nat.choose n v * partialRow v (n + 1) ≤ Nat.choose (n + 1) v * partialRow v n := by
  unfold partialRow
  rw [mul_sum, mul_sum]
  exact sum_le_sum fun i hi => choose_ratio n i v (by simpa [Nat.lt_succ_iff] using hi)

theorem partialRow_logconcave (v n : ℕ) :
    partialRow v n * partialRow v (n + 2) ≤ partialRow v (n + 1) ^ 2 := by
  have h0 := partialRow_succ v n
  have h1 := partialRow_succ v (n + 1)
  have hr := partialRow_ratio v n
  zify at *
  nlinarith

/-- `log2 (C(n,0)+...+C(n,v))`. -/
noncomputable def logRow (v n : ℕ) : ℝ := Real.logb 2 (partialRow v n)

theorem logRow_concave (v n : ℕ) : logRow v n + logRow v (n + 2) ≤ 2 * logRow v (n + 1) := by
  have p0 : (0 : ℝ) < partialRow v n := by exact_mod_cast partialRow_pos v n
  have p1 : (0 : ℝ) < partialRow v (n + 1) := by exact_mod_cast partialRow_pos v (n + 1)
  have p2 : (0 : ℝ) < partialRow v (n + 2) := by exact_mod_cast partialRow_pos v (n + 2)
  have h : (partialRow v n : ℝ) * partialRow v (n + 2) ≤ (partialRow v (n + 1) : ℝ) ^ 2 := by
    exact_mod_cast partialRow_logconcave v n
  unfold logRow
  rw [← Real.logb_mul p0.ne' p2.ne']
  have : (2 : ℝ) * Real.logb 2 (partialRow v (n + 1)) = Real.logb 2 ((partialRow v (n + 1) : ℝ) ^ 2) := by
    rw [Real.logb_pow]; norm_num
  rw [this]
  exact Real.logb_le_logb_of_le (by norm_num) (by positivity) h

theorem logRow_concave_two (v m : ℕ) :
    logRow v (2 * m) + logRow v (2 * (m + 2)) ≤ 2 * logRow v (2 * (m + 1)) := by
  have a := logRow_concave v (2 * m)
  have b := logRow_concave v (2 * m + 1)
  have c := logRow_concave v (2 * m + 2)
  have e1 : 2 * (m + 2) = 2 * m + 2 + 2 := by ring
  have e2 : 2 * (m + 1) = 2 * m + 2 := by ring
  rw [e1, e2]
  have e3 : 2 * m + 1 + 1 = 2 * m + 2 := rfl
  have e4 : 2 * m + 1 + 2 = 2 * m + 2 + 1 := rfl
  rw [e3, e4] at b
  linarith

theorem partialRow_zero (v : ℕ) : partialRow v 0 = 1 := by
  unfold partialRow
  rw [sum_range_succ']
  simp

theorem partialRow_le_pow (v n : ℕ) : partialRow v n ≤ (n + 1) ^ v := by
  rw [add_pow]
  unfold partialRow
  refine sum_le_sum fun i hi => ?_
  have hi' : i ≤ v := by simpa [Nat.lt_succ_iff] using hi
  calc Nat.choose n i ≤ n ^ i := Nat.choose_le_pow n i
    _ ≤ n ^ i * 1 ^ (v - i) * Nat.choose v i := by
      have : 1 ≤ Nat.choose v i := Nat.choose_pos hi'
      simp only [one_pow, mul_one]
      exact Nat.le_mul_of_pos_right _ this

/-! ### Concave sequences -/

/-- Slopes of a concave sequence do not increase. -/
theorem concave_slope {f : ℕ → ℝ} (hf : ∀ m, f m + f (m + 2) ≤ 2 * f (m + 1)) {i j : ℕ} (h : i ≤ j) :
    f (j + 1) - f j ≤ f (i + 1) - f i := by
  induction j, h using Nat.le_induction with
  | base => rfl
  | succ j _ ih => have := hf j; linarith

/-- A concave sequence that is at `m` below its initial value is decreasing from `m - 1` on. -/
theorem concave_decreasing {f : ℕ → ℝ} (hf : ∀ m, f m + f (m + 2) ≤ 2 * f (m + 1)) {m : ℕ}
    (h : f m < f 0) : ∀ j, m ≤ j + 1 → f (j + 1) < f j := by
  intro j hj
  by_contra hcon
  have hcon' : f j ≤ f (j + 1) := not_lt.mp hcon
  have up : ∀ k, k ≤ j + 1 → f 0 ≤ f k := by
    intro k
    induction k with
    | zero => intro _; rfl
    | succ k ih =>
      intro hk
      have h1 := ih (by omega)
      have h2 := concave_slope hf (show k ≤ j by omega)
      linarith
  exact absurd (up m hj) (not_le.mpr h)

theorem concave_antitone_from {f : ℕ → ℝ} (hf : ∀ m, f m + f (m + 2) ≤ 2 * f (m + 1)) {m : ℕ}
    (h : f m < f 0) : ∀ j, m ≤ j → f j ≤ f m := by
  intro j hj
  induction j, hj using Nat.le_induction with
  | base => rfl
  | succ j hj ih => exact le_trans (concave_decreasing hf h j (by omega)).le ih

end Verif.Bound
