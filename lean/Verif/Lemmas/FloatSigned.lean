import Verif.Lemmas.Float64
import Mathlib.Tactic.Push

/-! Facts about rounding, for all numbers: it is odd and monotone, and the size of its error. -/

namespace Verif.Float64

theorem zero_isFloat : IsFloat 0 := ⟨0, 0, by norm_num, by norm_num, by norm_num⟩

theorem one_isFloat : IsFloat 1 := ⟨1, 0, by norm_num, by norm_num, by norm_num⟩

theorem IsFloat.neg {x : ℝ} (h : IsFloat x) : IsFloat (-x) := by
  obtain ⟨m, e, hm, he, rfl⟩ := h
  exact ⟨-m, e, by rwa [abs_neg], he, by push_cast; ring⟩

theorem place_neg (x : ℝ) : place (-x) = place x := by simp [place]

theorem ulp_neg (x : ℝ) : ulp (-x) = ulp x := by simp [ulp, place_neg]

theorem roundEven_neg (x : ℝ) : roundEven (-x) = -roundEven x := by
  by_cases hx : Int.fract x = 0
  · have : x = (⌊x⌋ : ℤ) := by have := Int.floor_add_fract x; linarith
    rw [this, ← Int.cast_neg, roundEven_int, roundEven_int]
  · have h1 : Int.fract (-x) = 1 - Int.fract x := Int.fract_neg hx
    have h2 : ⌊-x⌋ = -⌊x⌋ - 1 := by
      have e1 := Int.floor_add_fract x
      have e2 := Int.floor_add_fract (-x)
      rw [h1] at e2
      have : (⌊-x⌋ : ℝ) = -⌊x⌋ - 1 := by linarith
      exact_mod_cast this
    unfold roundEven
    rw [h1, h2]
    rcases lt_trichotomy (Int.fract x) (1 / 2) with h | h | h
    · rw [if_neg (by linarith), if_pos (by linarith), if_pos h]; ring
    · rw [h, if_neg (show ¬ (1 - 1 / 2 : ℝ) < 1 / 2 by norm_num), if_neg (show ¬ (1 / 2 : ℝ) < 1 - 1 / 2 by norm_num),
        if_neg (lt_irrefl (1 / 2 : ℝ)), if_neg (lt_irrefl (1 / 2 : ℝ))]
      split_ifs <;> omega
    · rw [if_pos (by linarith), if_neg (by linarith), if_pos h]; ring

theorem fl_neg (x : ℝ) : fl (-x) = -fl x := by
  unfold fl
  rw [ulp_neg, neg_div, roundEven_neg]
  push_cast; ring

theorem fl_zero : fl 0 = 0 := fl_eq zero_isFloat le_rfl

theorem fl_float {x : ℝ} (h : IsFloat x) : fl x = x := by
  rcases le_total 0 x with h0 | h0
  · exact fl_eq h h0
  · have := fl_eq h.neg (by linarith)
    rw [fl_neg] at this
    linarith

theorem isFloat_fl (x : ℝ) : IsFloat (fl x) := by
  rcases le_total 0 x with h0 | h0
  · exact fl_isFloat h0
  · have := (fl_isFloat (x := -x) (by linarith)).neg
    rwa [fl_neg, neg_neg] at this

theorem fl_fl (x : ℝ) : fl (fl x) = fl x := fl_float (isFloat_fl x)

theorem roundEven_mono {x y : ℝ} (h : x ≤ y) : roundEven x ≤ roundEven y := by
  have hf := Int.floor_mono h
  rcases hf.lt_or_eq with h1 | h1
  · have hx := roundEven_mem x
    have hy := roundEven_mem y
    omega
  · have e1 := Int.floor_add_fract x
    have e2 := Int.floor_add_fract y
    rw [← h1] at e2
    have h2 : Int.fract x ≤ Int.fract y := by linarith
    unfold roundEven
    rw [← h1]
    split_ifs <;> first | omega | (exfalso; linarith)

theorem fl_mono_nonneg {x y : ℝ} (hx : 0 ≤ x) (h : x ≤ y) : fl x ≤ fl y := by
  have hp := place_mono hx h
  rcases hp.lt_or_eq with h1 | h1
  · have hy : 0 < y := by
      rcases (hx.trans h).lt_or_eq with h' | h'
      · exact h'
      · exfalso
        have : x = 0 := le_antisymm (h'.symm ▸ h) hx
        rw [this, ← h'] at h1; omega
    have h2 : place y ≠ -1074 := by have := place_ge x; omega
    have h3 := place_le hy h2
    have h4 : x ≤ 2 ^ (place y + 52) :=
      (lt_place hx).le.trans (zpow_le_zpow_right₀ (by norm_num) (by omega))
    have h5 : IsFloat ((2 : ℝ) ^ (place y + 52)) := zpow_isFloat (by have := place_ge x; omega)
    exact (fl_le h5 hx h4).trans (le_fl h5 (hx.trans h) h3)
  · unfold fl ulp
    rw [← h1]
    have hU : (0 : ℝ) < 2 ^ place x := by positivity
    have : roundEven (x / 2 ^ place x) ≤ roundEven (y / 2 ^ place x) := roundEven_mono (by gcongr)
    have : (roundEven (x / 2 ^ place x) : ℝ) ≤ roundEven (y / 2 ^ place x) := by exact_mod_cast this
    gcongr

theorem fl_mono {x y : ℝ} (h : x ≤ y) : fl x ≤ fl y := by
  rcases le_total 0 x with hx | hx
  · exact fl_mono_nonneg hx h
  · rcases le_total 0 y with hy | hy
    · have h1 := fl_nonneg hy
      have h2 := fl_nonneg (x := -x) (by linarith)
      rw [fl_neg] at h2
      linarith
    · have := fl_mono_nonneg (x := -y) (y := -x) (by linarith) (by linarith)
      rw [fl_neg, fl_neg] at this
      linarith

theorem float_le_fl {f x : ℝ} (hf : IsFloat f) (h : f ≤ x) : f ≤ fl x := by
  have := fl_mono h
  rwa [fl_float hf] at this

theorem fl_le_float {f x : ℝ} (hf : IsFloat f) (h : x ≤ f) : fl x ≤ f := by
  have := fl_mono h
  rwa [fl_float hf] at this

/-- The rounding error: half a unit in the 53rd bit, or half the smallest positive number. -/
theorem fl_err (x : ℝ) : |fl x - x| ≤ 2 ^ (-53 : ℤ) * |x| + 2 ^ (-1075 : ℤ) := by
  refine (fl_near x).trans ?_
  have hpos : (0 : ℝ) < 2 ^ (-1075 : ℤ) := by positivity
  have hn : (0 : ℝ) ≤ 2 ^ (-53 : ℤ) * |x| := by positivity
  by_cases hp : place x = -1074
  · unfold ulp
    rw [hp]
    have : (2 : ℝ) ^ (-1074 : ℤ) / 2 = 2 ^ (-1075 : ℤ) := by
      rw [show (-1074 : ℤ) = -1075 + 1 by norm_num, zpow_add₀ (by norm_num)]; ring
    rw [this]; linarith
  · have hx : 0 < |x| := by
      rw [abs_pos]; rintro rfl; exact hp (by simp [place])
    have hpl : place |x| = place x := by
      rcases abs_choice x with h | h <;> rw [h]
      exact place_neg x
    have h1 := place_le hx (by rwa [hpl])
    rw [hpl] at h1
    have h2 : ulp x / 2 = 2 ^ (-53 : ℤ) * 2 ^ (place x + 52) := by
      unfold ulp
      rw [← zpow_add₀ (by norm_num), show (-53 : ℤ) + (place x + 52) = place x - 1 by ring, zpow_sub_one₀ (by norm_num)]
      ring
    rw [h2]
    have := mul_le_mul_of_nonneg_left h1 (by positivity : (0 : ℝ) ≤ 2 ^ (-53 : ℤ))
    linarith

theorem roundEven_val {x : ℝ} {m : ℤ} (h : |x - m| < 1 / 2 ∨ (|x - m| = 1 / 2 ∧ m % 2 = 0)) : roundEven x = m := by
  rcases h with h3 | ⟨h3, hm⟩
  · have h4 := roundEven_near x
    rw [abs_le] at h4
    rw [abs_lt] at h3
    have a1 : (roundEven x : ℝ) < m + 1 := by linarith
    have a2 : (m : ℝ) < roundEven x + 1 := by linarith
    have b1 : roundEven x < m + 1 := by exact_mod_cast a1
    have b2 : m < roundEven x + 1 := by exact_mod_cast a2
    omega
  · unfold roundEven
    rcases (abs_eq (by norm_num)).1 h3 with h | h
    · have hf : ⌊x⌋ = m := Int.floor_eq_iff.2 ⟨by linarith, by linarith⟩
      have hr : Int.fract x = 1 / 2 := by unfold Int.fract; rw [hf]; linarith
      rw [hr, hf, if_neg (lt_irrefl _), if_neg (lt_irrefl _), if_pos hm]
    · have hf : ⌊x⌋ = m - 1 := Int.floor_eq_iff.2 ⟨by push_cast; linarith, by push_cast; linarith⟩
      have hr : Int.fract x = 1 / 2 := by unfold Int.fract; rw [hf]; push_cast; linarith
      rw [hr, hf, if_neg (lt_irrefl _), if_neg (lt_irrefl _), if_neg (by omega)]
      ring

/-- The value of a rounding, by its 53 bits. -/
theorem fl_val {x : ℝ} {m e : ℤ} (he : -1074 ≤ e) (h1 : (2 : ℝ) ^ 52 * 2 ^ e ≤ x) (h2 : x < 2 ^ 53 * 2 ^ e)
    (h3 : |x / 2 ^ e - m| < 1 / 2 ∨ (|x / 2 ^ e - m| = 1 / 2 ∧ m % 2 = 0)) : fl x = m * 2 ^ e := by
  have hx : 0 < x := lt_of_lt_of_le (by positivity) h1
  have hp : place x = e := by
    apply le_antisymm
    · apply place_le_of_lt hx.le he
      rw [zpow_add₀ (by norm_num)]; rw [mul_comm]; exact_mod_cast h2
    · have := lt_place hx.le
      have h5 : (2 : ℝ) ^ (52 + e) < 2 ^ (place x + 53) := by
        refine lt_of_le_of_lt ?_ this
        rw [zpow_add₀ (by norm_num)]; exact_mod_cast h1
      have := (zpow_lt_zpow_iff_right₀ (by norm_num : (1 : ℝ) < 2)).1 h5
      omega
  unfold fl ulp
  rw [hp, roundEven_val h3]

/-- The same with a denominator. -/
theorem fl_rat {x : ℝ} {m : ℤ} {k : ℕ} (hk : k ≤ 1074) (h1 : (2 : ℝ) ^ 52 ≤ x * 2 ^ k) (h2 : x * 2 ^ k < 2 ^ 53)
    (h3 : |x * 2 ^ k - m| < 1 / 2 ∨ (|x * 2 ^ k - m| = 1 / 2 ∧ m % 2 = 0)) : fl x = m / 2 ^ k := by
  have hp : (0 : ℝ) < 2 ^ k := by positivity
  have e1 : (2 : ℝ) ^ (-(k : ℤ)) = 1 / 2 ^ k := by rw [zpow_neg, zpow_natCast]; simp
  rw [fl_val (m := m) (e := -(k : ℤ)) (by omega) (by rw [e1, mul_one_div, div_le_iff₀ hp]; exact h1)
    (by rw [e1, mul_one_div, lt_div_iff₀ hp]; exact h2) (by rw [e1, div_div_eq_mul_div, div_one]; exact h3), e1, mul_one_div]

theorem fl_rat_neg {x : ℝ} {m : ℤ} {k : ℕ} (hk : k ≤ 1074) (h1 : (2 : ℝ) ^ 52 ≤ -x * 2 ^ k) (h2 : -x * 2 ^ k < 2 ^ 53)
    (h3 : |-x * 2 ^ k - m| < 1 / 2 ∨ (|-x * 2 ^ k - m| = 1 / 2 ∧ m % 2 = 0)) : fl x = -(m / 2 ^ k) := by
  rw [← fl_rat hk h1 h2 h3, fl_neg, neg_neg]

end Verif.Float64
