import Mathlib.MeasureTheory.Constructions.BorelSpace.Order
import Verif.Lemmas.FloatClear
import Verif.Model.FloatIntersect

/-! One coordinate of a sample in floats: its error, and how often a value is hit. -/

namespace Verif.Float64

open Verif.Envs

theorem random53_le {u : ℝ} : random53 u ≤ u := by
  unfold random53
  rw [div_le_iff₀ (by positivity)]
  exact Int.floor_le _

theorem random53_nonneg {u : ℝ} (h : 0 ≤ u) : 0 ≤ random53 u := by
  unfold random53
  have : (0 : ℤ) ≤ ⌊u * 2 ^ 53⌋ := Int.floor_nonneg.2 (by positivity)
  have : (0 : ℝ) ≤ ⌊u * 2 ^ 53⌋ := by exact_mod_cast this
  positivity

theorem random53_near {u : ℝ} : u - eps ≤ random53 u := by
  have h : eps = 1 / 2 ^ 53 := by unfold eps; norm_num
  unfold random53
  rw [h, le_div_iff₀ (by positivity)]
  have := Int.lt_floor_add_one (u * 2 ^ 53)
  have e : (u - 1 / 2 ^ 53) * 2 ^ 53 = u * 2 ^ 53 - 1 := by field_simp
  rw [e]
  exact (sub_lt_iff_lt_add.2 this).le

theorem random53_mono {u v : ℝ} (h : u ≤ v) : random53 u ≤ random53 v := by
  unfold random53
  refine div_le_div_of_nonneg_right ?_ (by positivity)
  exact_mod_cast Int.floor_mono (mul_le_mul_of_nonneg_right h (by positivity))

/-- One coordinate of `uniformR`. -/
noncomputable def coordR (l r u : ℝ) : ℝ := fl (l + fl (fl (r - l) * random53 u))

theorem coordR_mono {l r : ℝ} (h : l ≤ r) : Monotone (coordR l r) := by
  intro u v huv
  refine fl_mono (add_le_add_right (fl_mono ?_) _)
  exact mul_le_mul_of_nonneg_left (random53_mono huv) (fl_nonneg (by linarith))

theorem coordR_mem {l r u : ℝ} (hl : IsFloat l) (hr : IsFloat r) (hd : IsFloat (r - l)) (hlr : l ≤ r) (h0 : 0 ≤ u) (h1 : u ≤ 1) :
    l ≤ coordR l r u ∧ coordR l r u ≤ r := by
  have k0 := random53_nonneg h0
  have k1 : random53 u ≤ 1 := random53_le.trans h1
  unfold coordR
  rw [fl_float hd]
  have h2 : 0 ≤ fl ((r - l) * random53 u) := fl_nonneg (mul_nonneg (by linarith) k0)
  have h3 : fl ((r - l) * random53 u) ≤ r - l := fl_le_float hd (mul_le_of_le_one_right (by linarith) k1)
  exact ⟨float_le_fl hl (by linarith), fl_le_float hr (by linarith)⟩

theorem tiny_le {W : ℝ} (hW : 2 ^ (-100 : ℤ) ≤ W) : (2 : ℝ) ^ (-1075 : ℤ) ≤ 1 / 8 * (eps * W) := by
  have : (2 : ℝ) ^ (-1075 : ℤ) ≤ 1 / 8 * (eps * 2 ^ (-100 : ℤ)) := by
    have e : (1 : ℝ) / 8 = 2 ^ (-3 : ℤ) := by norm_num
    unfold eps
    rw [e, ← zpow_add₀ (by norm_num), ← zpow_add₀ (by norm_num)]
    exact zpow_le_zpow_right₀ (by norm_num) (by norm_num)
  refine this.trans ?_
  exact mul_le_mul_of_nonneg_left (mul_le_mul_of_nonneg_left hW eps_pos.le) (by norm_num)

/-- The error of one coordinate is below `4 eps` times the width. -/
theorem coordR_err {l r u : ℝ} (hd : IsFloat (r - l)) (hW : 2 ^ (-100 : ℤ) ≤ r - l) (hlW : |l| ≤ 3 / 2 * (r - l))
    (hrW : |r| ≤ 3 / 2 * (r - l)) (h0 : 0 ≤ u) (h1 : u ≤ 1) :
    |coordR l r u - (l + (r - l) * u)| ≤ 4 * eps * (r - l) := by
  have ht := tiny_le hW
  have k0 := random53_nonneg h0
  have k1 : random53 u ≤ 1 := random53_le.trans h1
  have k2 := random53_le (u := u)
  have k3 := random53_near (u := u)
  have W0 : 0 < r - l := lt_of_lt_of_le (by positivity) hW
  unfold coordR
  rw [fl_float hd]
  have h2 : 0 ≤ fl ((r - l) * random53 u) := fl_nonneg (mul_nonneg W0.le k0)
  have h3 : fl ((r - l) * random53 u) ≤ r - l := fl_le_float hd (mul_le_of_le_one_right W0.le k1)
  have e1 := fl_err ((r - l) * random53 u)
  have e2 := fl_err (l + fl ((r - l) * random53 u))
  have a1 : |(r - l) * random53 u| ≤ r - l := by
    rw [abs_of_nonneg (mul_nonneg W0.le k0)]
    exact mul_le_of_le_one_right W0.le k1
  have a2 : |l + fl ((r - l) * random53 u)| ≤ 3 / 2 * (r - l) := by
    rw [abs_le] at hlW hrW ⊢
    constructor <;> linarith [hlW.1, hlW.2, hrW.1, hrW.2]
  have c1 := mul_le_mul_of_nonneg_left a1 eps_pos.le
  have c2 := mul_le_mul_of_nonneg_left a2 eps_pos.le
  rw [mul_left_comm] at c2
  have d1 : (r - l) * random53 u ≤ (r - l) * u := mul_le_mul_of_nonneg_left k2 W0.le
  have d2 : (r - l) * u - eps * (r - l) ≤ (r - l) * random53 u := by
    have := mul_le_mul_of_nonneg_left k3 W0.le
    rw [mul_sub, mul_comm _ eps] at this
    exact this
  have hfold : (2 : ℝ) ^ (-53 : ℤ) = eps := rfl
  rw [hfold] at e1 e2
  have pos := mul_pos eps_pos W0
  generalize (2 : ℝ) ^ (-1075 : ℤ) = τ at *
  rw [mul_assoc]
  generalize eps * (r - l) = E at *
  rw [abs_le] at e1 e2 ⊢
  constructor <;> linarith [e1.1, e1.2, e2.1, e2.2]

/-- The draws for which a coordinate takes a given value. -/
theorem coordR_hits {l r v u : ℝ} (hd : IsFloat (r - l)) (hW : 2 ^ (-100 : ℤ) ≤ r - l) (hlW : |l| ≤ 3 / 2 * (r - l))
    (hrW : |r| ≤ 3 / 2 * (r - l)) (h0 : 0 ≤ u) (h1 : u ≤ 1) (h : coordR l r u = v) :
    u ∈ Set.Icc ((v - l) / (r - l) - 4 * eps) ((v - l) / (r - l) + 4 * eps) := by
  have W0 : 0 < r - l := lt_of_lt_of_le (by positivity) hW
  have e := coordR_err hd hW hlW hrW h0 h1
  rw [h] at e
  have e' : |(v - l) / (r - l) - u| ≤ 4 * eps := by
    have : (v - l) / (r - l) - u = (v - (l + (r - l) * u)) / (r - l) := by field_simp; ring
    rw [this, abs_div, abs_of_pos W0, div_le_iff₀ W0]
    exact e
  rw [abs_le] at e'
  exact ⟨by linarith [e'.2], by linarith [e'.1]⟩

/-! ### Multiples of a power of two -/

/-- A multiple of `2 ^ -900`. -/
def Grid (x : ℝ) : Prop := ∃ n : ℤ, x = n * 2 ^ (-900 : ℤ)

theorem Grid.sub {x y : ℝ} (hx : Grid x) (hy : Grid y) : Grid (x - y) := by
  obtain ⟨m, rfl⟩ := hx
  obtain ⟨k, rfl⟩ := hy
  exact ⟨m - k, by push_cast; ring⟩

theorem Grid.add {x y : ℝ} (hx : Grid x) (hy : Grid y) : Grid (x + y) := by
  obtain ⟨m, rfl⟩ := hx
  obtain ⟨k, rfl⟩ := hy
  exact ⟨m + k, by push_cast; ring⟩

theorem Grid.gap {x y : ℝ} (hx : Grid x) (hy : Grid y) : y = x ∨ 2 ^ (-900 : ℤ) ≤ |y - x| := by
  obtain ⟨m, hm⟩ := hy.sub hx
  by_cases h : m = 0
  · left
    rw [h] at hm
    simp only [Int.cast_zero, zero_mul] at hm
    linarith
  · right
    rw [hm, abs_mul, abs_of_pos (by positivity : (0 : ℝ) < 2 ^ (-900 : ℤ))]
    have : (1 : ℝ) ≤ |(m : ℝ)| := by exact_mod_cast Int.one_le_abs h
    exact le_mul_of_one_le_left (by positivity) this

theorem grid_zpow {e : ℤ} (he : -900 ≤ e) (n : ℤ) : Grid (n * 2 ^ e) := by
  obtain ⟨k, hk, -⟩ := zpow_split he
  exact ⟨n * 2 ^ k, by rw [hk]; push_cast; ring⟩

theorem Grid.fl {x : ℝ} (hx : Grid x) : Grid (fl x) := by
  by_cases h : -900 ≤ place x
  · exact grid_zpow h _
  · obtain ⟨n, rfl⟩ := hx
    obtain ⟨k, hk, -⟩ := zpow_split (a := place (n * 2 ^ (-900 : ℤ))) (b := -900) (by omega)
    have : Float64.fl (n * 2 ^ (-900 : ℤ)) = n * 2 ^ (-900 : ℤ) := by
      have hu := ulp_pos (n * 2 ^ (-900 : ℤ))
      have e : ((n : ℝ) * 2 ^ (-900 : ℤ)) / ulp (n * 2 ^ (-900 : ℤ)) = ((n * 2 ^ k : ℤ) : ℝ) := by
        rw [div_eq_iff hu.ne']
        conv_lhs => rw [hk]
        unfold ulp
        push_cast; ring
      unfold Float64.fl
      rw [e, roundEven_int, ← e, div_mul_cancel₀ _ hu.ne']
    rw [this]
    exact ⟨n, rfl⟩

/-- Floats that are not tiny are on the grid. -/
theorem float_exp {x : ℝ} (hx : IsFloat x) {k : ℤ} (h : 2 ^ k ≤ |x|) : ∃ m e : ℤ, k - 53 ≤ e ∧ x = m * 2 ^ e := by
  obtain ⟨m, e, hm, he, rfl⟩ := hx
  refine ⟨m, e, ?_, rfl⟩
  by_contra hlt
  push Not at hlt
  rw [abs_mul, abs_of_pos (by positivity : (0 : ℝ) < 2 ^ e)] at h
  have h1 : |(m : ℝ)| < 2 ^ (53 : ℤ) := by
    have : |m| < 2 ^ 53 := hm
    exact_mod_cast this
  have h2 : |(m : ℝ)| * 2 ^ e < 2 ^ (53 : ℤ) * 2 ^ e := mul_lt_mul_of_pos_right h1 (by positivity)
  rw [← zpow_add₀ (by norm_num)] at h2
  have h3 : (2 : ℝ) ^ (53 + e) ≤ 2 ^ k := zpow_le_zpow_right₀ (by norm_num) (by omega)
  linarith

theorem grid_float {x : ℝ} (hx : IsFloat x) (h : x = 0 ∨ 2 ^ (-800 : ℤ) ≤ |x|) : Grid x := by
  rcases h with rfl | h
  · exact ⟨0, by simp⟩
  · obtain ⟨m, e, he, rfl⟩ := float_exp hx h
    exact grid_zpow (by omega) _

theorem grid_coordR {l r u : ℝ} (hl : Grid l) (hd : IsFloat (r - l)) (hW : 2 ^ (-100 : ℤ) ≤ r - l) : Grid (coordR l r u) := by
  unfold coordR
  rw [fl_float hd]
  refine (hl.add (Grid.fl ?_)).fl
  obtain ⟨m, e, he, hm⟩ := float_exp hd (hW.trans (le_abs_self _))
  rw [hm]
  have : (m : ℝ) * 2 ^ e * random53 u = ((m * ⌊u * 2 ^ 53⌋ : ℤ) : ℝ) * 2 ^ (e + -53) := by
    unfold random53
    rw [zpow_add₀ (by norm_num), show (2 : ℝ) ^ (-53 : ℤ) = 1 / 2 ^ 53 by norm_num]
    push_cast
    generalize (⌊u * 2 ^ 53⌋ : ℝ) = z
    ring
  rw [this]
  exact grid_zpow (by omega) _

end Verif.Float64
