import Verif.Model.Float32
import Verif.Lemmas.FloatSigned

/-! Facts about rounding to binary32, as in `Verif.Lemmas.Float64`. -/

namespace Verif.Float32

open Verif.Float64 (roundEven roundEven_mem roundEven_near le_roundEven roundEven_le roundEven_int roundEven_neg zpow_split)

theorem ulp_pos (x : ℝ) : 0 < ulp x := by unfold ulp; positivity

theorem place_ge (x : ℝ) : -149 ≤ place x := by
  unfold place; split_ifs <;> simp

theorem lt_place {x : ℝ} (h : 0 ≤ x) : x < 2 ^ (place x + 24) := by
  unfold place
  split_ifs with h0
  · rw [h0]; positivity
  · have hx : 0 < x := lt_of_le_of_ne h (Ne.symm h0)
    rw [abs_of_pos hx]
    refine (Int.lt_zpow_succ_log_self (by norm_num : 1 < 2) x).trans_le ?_
    exact_mod_cast zpow_le_zpow_right₀ (by norm_num : (1 : ℝ) ≤ 2) (by omega)

/-- Above the subnormal numbers the last place is the 24th bit. -/
theorem place_le {x : ℝ} (h : 0 < x) (hp : place x ≠ -149) : (2 : ℝ) ^ (place x + 23) ≤ x := by
  unfold place at hp ⊢
  rw [if_neg h.ne'] at hp ⊢
  rw [abs_of_pos h] at hp ⊢
  rcases max_choice (Int.log 2 x - 23) (-149) with hm | hm
  · rw [hm, show Int.log 2 x - 23 + 23 = Int.log 2 x by ring]
    exact_mod_cast Int.zpow_log_le_self (by norm_num : 1 < 2) h
  · exact absurd hm hp

theorem mul_isFloat {n e : ℤ} (h : |n| ≤ 2 ^ 24) (he : -149 ≤ e) : IsFloat (n * 2 ^ e) := by
  rcases h.lt_or_eq with h | h
  · exact ⟨n, e, h, he, rfl⟩
  · have : n = 2 ^ 24 ∨ n = -2 ^ 24 := by
      rcases abs_eq (by norm_num : (0 : ℤ) ≤ 2 ^ 24) |>.1 h with h | h <;> simp [h]
    rcases this with rfl | rfl
    · refine ⟨2 ^ 23, e + 1, by norm_num, by omega, ?_⟩
      rw [zpow_add₀ (by norm_num)]; push_cast; ring
    · refine ⟨-2 ^ 23, e + 1, by norm_num, by omega, ?_⟩
      rw [zpow_add₀ (by norm_num)]; push_cast; ring

/-- Floats of a size not below that of `x` are multiples of `ulp x`; smaller ones are below `x`. -/
theorem float_cases {f x : ℝ} (hf : IsFloat f) (hx : 0 ≤ x) :
    (∃ n : ℤ, f = n * ulp x) ∨ (∃ n : ℤ, f < n * ulp x ∧ n * ulp x ≤ x) := by
  obtain ⟨m, e, hm, he, rfl⟩ := hf
  by_cases h : place x ≤ e
  · obtain ⟨k, hk, -⟩ := zpow_split h
    exact Or.inl ⟨m * 2 ^ k, by rw [hk, ulp]; push_cast; ring⟩
  · right
    push Not at h
    have hp : place x ≠ -149 := by omega
    have hx0 : 0 < x := by
      rcases hx.eq_or_lt with rfl | h0
      · simp [place] at hp
      · exact h0
    refine ⟨2 ^ 23, ?_, ?_⟩
    · have hm' : (m : ℝ) < 2 ^ 24 := by exact_mod_cast (abs_lt.1 hm).2
      calc (m : ℝ) * 2 ^ e < 2 ^ 24 * 2 ^ e := by gcongr
        _ = 2 ^ 23 * 2 ^ (e + 1) := by rw [zpow_add₀ (by norm_num)]; ring
        _ ≤ ((2 ^ 23 : ℤ) : ℝ) * ulp x := by
          push_cast
          rw [ulp]
          have h3 : (2 : ℝ) ^ (e + 1) ≤ 2 ^ place x := zpow_le_zpow_right₀ (by norm_num) (by omega)
          linarith
    · have := place_le hx0 hp
      rw [zpow_add₀ (by norm_num)] at this
      rw [ulp]
      push_cast
      have h2 : (2 : ℝ) ^ (23 : ℤ) = 2 ^ 23 := by norm_num
      rw [h2] at this
      linarith

theorem fl_isFloat {x : ℝ} (hx : 0 ≤ x) : IsFloat (fl x) := by
  unfold fl
  rw [ulp]
  apply mul_isFloat _ (place_ge x)
  have h1 : x / ulp x < 2 ^ 24 := by
    rw [div_lt_iff₀ (ulp_pos x), ulp]
    have := lt_place hx
    rw [zpow_add₀ (by norm_num)] at this
    have h2 : (2 : ℝ) ^ (24 : ℤ) = 2 ^ 24 := by norm_num
    rw [h2] at this
    linarith
  have h0 : 0 ≤ x / ulp x := div_nonneg hx (ulp_pos x).le
  rw [abs_le, ← ulp]
  constructor
  · have : (0 : ℤ) ≤ roundEven (x / ulp x) := le_roundEven (by exact_mod_cast h0)
    have h3 : (0 : ℤ) ≤ 2 ^ 24 := by norm_num
    omega
  · exact roundEven_le (by push_cast; linarith)

theorem le_fl {f x : ℝ} (hf : IsFloat f) (hx : 0 ≤ x) (h : f ≤ x) : f ≤ fl x := by
  have hu := ulp_pos x
  rcases float_cases hf hx with ⟨n, rfl⟩ | ⟨n, h1, h2⟩
  · unfold fl
    have : n ≤ roundEven (x / ulp x) := le_roundEven (by rw [le_div_iff₀ hu]; exact h)
    have : (n : ℝ) ≤ roundEven (x / ulp x) := by exact_mod_cast this
    gcongr
  · unfold fl
    have : n ≤ roundEven (x / ulp x) := le_roundEven (by rw [le_div_iff₀ hu]; exact h2)
    have : (n : ℝ) ≤ roundEven (x / ulp x) := by exact_mod_cast this
    refine h1.le.trans ?_
    gcongr

theorem fl_le {f x : ℝ} (hf : IsFloat f) (hx : 0 ≤ x) (h : x ≤ f) : fl x ≤ f := by
  have hu := ulp_pos x
  rcases float_cases hf hx with ⟨n, rfl⟩ | ⟨n, h1, h2⟩
  · unfold fl
    have : roundEven (x / ulp x) ≤ n := roundEven_le (by rw [div_le_iff₀ hu]; exact h)
    have : (roundEven (x / ulp x) : ℝ) ≤ n := by exact_mod_cast this
    gcongr
  · linarith

theorem fl_eq {x : ℝ} (hf : IsFloat x) (hx : 0 ≤ x) : fl x = x := le_antisymm (fl_le hf hx le_rfl) (le_fl hf hx le_rfl)

theorem fl_near (x : ℝ) : |fl x - x| ≤ ulp x / 2 := by
  have hu := ulp_pos x
  have h := roundEven_near (x / ulp x)
  have : fl x - x = (roundEven (x / ulp x) - x / ulp x) * ulp x := by
    unfold fl; field_simp
  rw [this, abs_mul, abs_of_pos hu]
  calc _ ≤ 1 / 2 * ulp x := by gcongr
    _ = _ := by ring

theorem fl_nonneg {x : ℝ} (hx : 0 ≤ x) : 0 ≤ fl x := le_fl ⟨0, 0, by norm_num, by norm_num, by norm_num⟩ hx hx

theorem IsFloat.double {x : ℝ} (h : IsFloat x) : IsFloat (2 * x) := by
  obtain ⟨m, e, hm, he, rfl⟩ := h
  refine ⟨m, e + 1, hm, by omega, ?_⟩
  rw [zpow_add₀ (by norm_num)]; ring

theorem zero_isFloat : IsFloat 0 := ⟨0, 0, by norm_num, by norm_num, by norm_num⟩

theorem IsFloat.neg {x : ℝ} (h : IsFloat x) : IsFloat (-x) := by
  obtain ⟨m, e, hm, he, rfl⟩ := h
  exact ⟨-m, e, by rwa [abs_neg], he, by push_cast; ring⟩

theorem place_neg (x : ℝ) : place (-x) = place x := by simp [place]

theorem ulp_neg (x : ℝ) : ulp (-x) = ulp x := by simp [ulp, place_neg]

theorem fl_neg (x : ℝ) : fl (-x) = -fl x := by
  unfold fl
  rw [ulp_neg, neg_div, roundEven_neg]
  push_cast; ring

theorem fl_zero : fl 0 = 0 := fl_eq zero_isFloat le_rfl

theorem fl_float {x : ℝ} (h : IsFloat x) : fl x = x := by
  rcases le_total 0 x with h0 | h0
  · exact fl_eq h h0
  · have := fl_eq h.neg (by linarith)
    rw [fl_neg] at this
    linarith

theorem isFloat_fl (x : ℝ) : IsFloat (fl x) := by
  rcases le_total 0 x with h0 | h0
  · exact fl_isFloat h0
  · have := (fl_isFloat (x := -x) (by linarith)).neg
    rwa [fl_neg, neg_neg] at this

theorem fl_fl (x : ℝ) : fl (fl x) = fl x := fl_float (isFloat_fl x)

/-- The rounding error: half a unit in the 24th bit, or half the smallest positive number. -/
theorem fl_err (x : ℝ) : |fl x - x| ≤ 2 ^ (-24 : ℤ) * |x| + 2 ^ (-150 : ℤ) := by
  refine (fl_near x).trans ?_
  have hpos : (0 : ℝ) < 2 ^ (-150 : ℤ) := by positivity
  have hn : (0 : ℝ) ≤ 2 ^ (-24 : ℤ) * |x| := by positivity
  by_cases hp : place x = -149
  · unfold ulp
    rw [hp]
    have : (2 : ℝ) ^ (-149 : ℤ) / 2 = 2 ^ (-150 : ℤ) := by
      rw [show (-149 : ℤ) = -150 + 1 by norm_num, zpow_add₀ (by norm_num)]; ring
    rw [this]; linarith
  · have hx : 0 < |x| := by
      rw [abs_pos]; rintro rfl; exact hp (by simp [place])
    have hpl : place |x| = place x := by
      rcases abs_choice x with h | h <;> rw [h]
      exact place_neg x
    have h1 := place_le hx (by rwa [hpl])
    rw [hpl] at h1
    have h2 : ulp x / 2 = 2 ^ (-24 : ℤ) * 2 ^ (place x + 23) := by
      unfold ulp
      rw [← zpow_add₀ (by norm_num), show (-24 : ℤ) + (place x + 23) = place x - 1 by ring, zpow_sub_one₀ (by norm_num)]
      ring
    rw [h2]
    have := mul_le_mul_of_nonneg_left h1 (by positivity : (0 : ℝ) ≤ 2 ^ (-24 : ℤ))
    linarith

end Verif.Float32
