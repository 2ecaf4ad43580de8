import Verif.Model.Float64
import Mathlib.Algebra.Order.Field.Power
import Mathlib.Tactic.Linarith
import Mathlib.Tactic.Positivity
import Mathlib.Tactic.NormNum
import Mathlib.Tactic.FieldSimp
import Mathlib.Tactic.Ring

/-! Facts about rounding. Nonnegative numbers only. -/

namespace Verif.Float64

theorem roundEven_mem (x : ℝ) : roundEven x = ⌊x⌋ ∨ roundEven x = ⌊x⌋ + 1 := by
  unfold roundEven; split_ifs <;> simp

theorem roundEven_near (x : ℝ) : |(roundEven x : ℝ) - x| ≤ 1 / 2 := by
  have h := Int.floor_add_fract x
  have h0 := Int.fract_nonneg x
  have h1 := Int.fract_lt_one x
  unfold roundEven
  split_ifs <;> push_cast <;> rw [abs_le] <;> constructor <;> linarith

theorem le_roundEven {n : ℤ} {x : ℝ} (h : (n : ℝ) ≤ x) : n ≤ roundEven x := by
  have : n ≤ ⌊x⌋ := Int.le_floor.2 h
  rcases roundEven_mem x with h' | h' <;> omega

theorem roundEven_le {n : ℤ} {x : ℝ} (h : x ≤ n) : roundEven x ≤ n := by
  have := roundEven_near x
  rw [abs_le] at this
  have h2 : (roundEven x : ℝ) < n + 1 := by linarith
  have : roundEven x < n + 1 := by exact_mod_cast h2
  omega

theorem roundEven_int (n : ℤ) : roundEven n = n := le_antisymm (roundEven_le le_rfl) (le_roundEven le_rfl)

theorem ulp_pos (x : ℝ) : 0 < ulp x := by unfold ulp; positivity

theorem place_ge (x : ℝ) : -1074 ≤ place x := by
  unfold place; split_ifs <;> simp

theorem lt_place {x : ℝ} (h : 0 ≤ x) : x < 2 ^ (place x + 53) := by
  unfold place
  split_ifs with h0
  · rw [h0]; positivity
  · have hx : 0 < x := lt_of_le_of_ne h (Ne.symm h0)
    rw [abs_of_pos hx]
    refine (Int.lt_zpow_succ_log_self (by norm_num : 1 < 2) x).trans_le ?_
    exact_mod_cast zpow_le_zpow_right₀ (by norm_num : (1 : ℝ) ≤ 2) (by omega)

/-- Above the subnormal numbers the last place is the 53rd bit. -/
theorem place_le {x : ℝ} (h : 0 < x) (hp : place x ≠ -1074) : (2 : ℝ) ^ (place x + 52) ≤ x := by
  unfold place at hp ⊢
  rw [if_neg h.ne'] at hp ⊢
  rw [abs_of_pos h] at hp ⊢
  rcases max_choice (Int.log 2 x - 52) (-1074) with hm | hm
  · rw [hm, show Int.log 2 x - 52 + 52 = Int.log 2 x by ring]
    exact_mod_cast Int.zpow_log_le_self (by norm_num : 1 < 2) h
  · exact absurd hm hp

theorem place_mono {x y : ℝ} (h : 0 ≤ x) (hxy : x ≤ y) : place x ≤ place y := by
  rcases h.eq_or_lt with rfl | hx
  · simp [place, apply_ite]
  · unfold place
    rw [if_neg hx.ne', if_neg (hx.trans_le hxy).ne', abs_of_pos hx, abs_of_pos (hx.trans_le hxy)]
    exact max_le_max (by have := Int.log_mono_right (b := 2) hx hxy; omega) le_rfl

theorem ulp_mono {x y : ℝ} (h : 0 ≤ x) (hxy : x ≤ y) : ulp x ≤ ulp y :=
  zpow_le_zpow_right₀ (by norm_num) (place_mono h hxy)

theorem mul_isFloat {n e : ℤ} (h : |n| ≤ 2 ^ 53) (he : -1074 ≤ e) : IsFloat (n * 2 ^ e) := by
  rcases h.lt_or_eq with h | h
  · exact ⟨n, e, h, he, rfl⟩
  · have : n = 2 ^ 53 ∨ n = -2 ^ 53 := by
      rcases abs_eq (by norm_num : (0 : ℤ) ≤ 2 ^ 53) |>.1 h with h | h <;> simp [h]
    rcases this with rfl | rfl
    · refine ⟨2 ^ 52, e + 1, by norm_num, by omega, ?_⟩
      rw [zpow_add₀ (by norm_num)]; push_cast; ring
    · refine ⟨-2 ^ 52, e + 1, by norm_num, by omega, ?_⟩
      rw [zpow_add₀ (by norm_num)]; push_cast; ring

/-- A multiple of the last place below the next power. -/
theorem zpow_split {a b : ℤ} (h : a ≤ b) : ∃ k : ℕ, (2 : ℝ) ^ b = (2 ^ k : ℤ) * 2 ^ a ∧ (k : ℤ) = b - a := by
  refine ⟨(b - a).toNat, ?_, by omega⟩
  push_cast
  rw [← zpow_natCast, ← zpow_add₀ (by norm_num)]
  congr 1
  omega

/-- Floats of a size not below that of `x` are multiples of `ulp x`; smaller ones are below `x`. -/
theorem float_cases {f x : ℝ} (hf : IsFloat f) (hx : 0 ≤ x) :
    (∃ n : ℤ, f = n * ulp x) ∨ (∃ n : ℤ, f < n * ulp x ∧ n * ulp x ≤ x) := by
  obtain ⟨m, e, hm, he, rfl⟩ := hf
  by_cases h : place x ≤ e
  · obtain ⟨k, hk, -⟩ := zpow_split h
    exact Or.inl ⟨m * 2 ^ k, by rw [hk, ulp]; push_cast; ring⟩
  · right
    push Not at h
    have hp : place x ≠ -1074 := by omega
    have hx0 : 0 < x := by
      rcases hx.eq_or_lt with rfl | h0
      · simp [place] at hp
      · exact h0
    refine ⟨2 ^ 52, ?_, ?_⟩
    · have hm' : (m : ℝ) < 2 ^ 53 := by exact_mod_cast (abs_lt.1 hm).2
      calc (m : ℝ) * 2 ^ e < 2 ^ 53 * 2 ^ e := by gcongr
        _ = 2 ^ 52 * 2 ^ (e + 1) := by rw [zpow_add₀ (by norm_num)]; ring
        _ ≤ ((2 ^ 52 : ℤ) : ℝ) * ulp x := by
          push_cast
          rw [ulp]
          have h3 : (2 : ℝ) ^ (e + 1) ≤ 2 ^ place x := zpow_le_zpow_right₀ (by norm_num) (by omega)
          linarith
    · have := place_le hx0 hp
      rw [zpow_add₀ (by norm_num)] at this
      rw [ulp]
      push_cast
      have h2 : (2 : ℝ) ^ (52 : ℤ) = 2 ^ 52 := by norm_num
      rw [h2] at this
      linarith

theorem fl_isFloat {x : ℝ} (hx : 0 ≤ x) : IsFloat (fl x) := by
  unfold fl
  rw [ulp]
  apply mul_isFloat _ (place_ge x)
  have h1 : x / ulp x < 2 ^ 53 := by
    rw [div_lt_iff₀ (ulp_pos x), ulp]
    have := lt_place hx
    rw [zpow_add₀ (by norm_num)] at this
    have h2 : (2 : ℝ) ^ (53 : ℤ) = 2 ^ 53 := by norm_num
    rw [h2] at this
    linarith
  have h0 : 0 ≤ x / ulp x := div_nonneg hx (ulp_pos x).le
  rw [abs_le, ← ulp]
  constructor
  · have : (0 : ℤ) ≤ roundEven (x / ulp x) := le_roundEven (by exact_mod_cast h0)
    have h3 : (0 : ℤ) ≤ 2 ^ 53 := by norm_num
    omega
  · exact roundEven_le (by push_cast; linarith)

theorem le_fl {f x : ℝ} (hf : IsFloat f) (hx : 0 ≤ x) (h : f ≤ x) : f ≤ fl x := by
  have hu := ulp_pos x
  rcases float_cases hf hx with ⟨n, rfl⟩ | ⟨n, h1, h2⟩
  · unfold fl
    have : n ≤ roundEven (x / ulp x) := le_roundEven (by rw [le_div_iff₀ hu]; exact h)
    have : (n : ℝ) ≤ roundEven (x / ulp x) := by exact_mod_cast this
    gcongr
  · unfold fl
    have : n ≤ roundEven (x / ulp x) := le_roundEven (by rw [le_div_iff₀ hu]; exact h2)
    have : (n : ℝ) ≤ roundEven (x / ulp x) := by exact_mod_cast this
    refine h1.le.trans ?_
    gcongr

theorem fl_le {f x : ℝ} (hf : IsFloat f) (hx : 0 ≤ x) (h : x ≤ f) : fl x ≤ f := by
  have hu := ulp_pos x
  rcases float_cases hf hx with ⟨n, rfl⟩ | ⟨n, h1, h2⟩
  · unfold fl
    have : roundEven (x / ulp x) ≤ n := roundEven_le (by rw [div_le_iff₀ hu]; exact h)
    have : (roundEven (x / ulp x) : ℝ) ≤ n := by exact_mod_cast this
    gcongr
  · linarith

theorem fl_eq {x : ℝ} (hf : IsFloat x) (hx : 0 ≤ x) : fl x = x := le_antisymm (fl_le hf hx le_rfl) (le_fl hf hx le_rfl)

theorem fl_near (x : ℝ) : |fl x - x| ≤ ulp x / 2 := by
  have hu := ulp_pos x
  have h := roundEven_near (x / ulp x)
  have : fl x - x = (roundEven (x / ulp x) - x / ulp x) * ulp x := by
    unfold fl; field_simp
  rw [this, abs_mul, abs_of_pos hu]
  calc _ ≤ 1 / 2 * ulp x := by gcongr
    _ = _ := by ring

theorem fl_nonneg {x : ℝ} (hx : 0 ≤ x) : 0 ≤ fl x := le_fl ⟨0, 0, by norm_num, by norm_num, by norm_num⟩ hx hx

/-- Floats are integers in units of the smallest one. -/
theorem IsFloat.int {x : ℝ} (h : IsFloat x) : ∃ n : ℤ, x = n * 2 ^ (-1074 : ℤ) := by
  obtain ⟨m, e, -, he, rfl⟩ := h
  obtain ⟨k, hk, -⟩ := zpow_split he
  exact ⟨m * 2 ^ k, by rw [hk]; push_cast; ring⟩

theorem IsFloat.double {x : ℝ} (h : IsFloat x) : IsFloat (2 * x) := by
  obtain ⟨m, e, hm, he, rfl⟩ := h
  refine ⟨m, e + 1, hm, by omega, ?_⟩
  rw [zpow_add₀ (by norm_num)]; ring

/-- A larger float is at least one place larger. -/
theorem add_ulp_le {a b : ℝ} (ha : IsFloat a) (hb : IsFloat b) (h0 : 0 ≤ a) (h : a < b) : a + ulp a ≤ b := by
  have hu := ulp_pos a
  rcases float_cases ha h0 with ⟨n, hn⟩ | ⟨n, h1, h2⟩
  · rcases float_cases hb h0 with ⟨m, hm⟩ | ⟨m, h1, h2⟩
    · have : (n : ℝ) < m := by
        by_contra hc
        push Not at hc
        have : (m : ℝ) * ulp a ≤ n * ulp a := by gcongr
        linarith
      have : (n : ℝ) + 1 ≤ m := by exact_mod_cast this
      have : ((n : ℝ) + 1) * ulp a ≤ m * ulp a := by gcongr
      linarith
    · linarith
  · linarith

theorem add_ulp_isFloat {a : ℝ} (ha : IsFloat a) (h0 : 0 ≤ a) : IsFloat (a + ulp a) := by
  have hu := ulp_pos a
  rcases float_cases ha h0 with ⟨n, hn⟩ | ⟨n, h1, h2⟩
  · have e : a + ulp a = ((n + 1 : ℤ) : ℝ) * 2 ^ place a := by
      push_cast
      rw [← ulp]
      linarith
    rw [e]
    apply mul_isFloat _ (place_ge a)
    have h3 := lt_place h0
    rw [zpow_add₀ (by norm_num), ← ulp] at h3
    have h2 : (2 : ℝ) ^ (53 : ℤ) = ((2 ^ 53 : ℤ) : ℝ) := by norm_num
    rw [h2] at h3
    have h4 : n < 2 ^ 53 := by
      have : (n : ℝ) * ulp a < ((2 ^ 53 : ℤ) : ℝ) * ulp a := by linarith
      exact_mod_cast lt_of_mul_lt_mul_right this hu.le
    have h5 : 0 ≤ n := by
      have : (0 : ℝ) ≤ n := by
        by_contra hc
        push Not at hc
        have := mul_neg_of_neg_of_pos hc hu
        linarith
      exact_mod_cast this
    rw [abs_of_nonneg (by omega)]
    omega
  · linarith

theorem zpow_isFloat {e : ℤ} (h : -1074 ≤ e) : IsFloat (2 ^ e) := ⟨1, e, by norm_num, h, by simp⟩

theorem place_le_of_lt {x : ℝ} {e : ℤ} (h : 0 ≤ x) (he : -1074 ≤ e) (hx : x < 2 ^ (e + 53)) : place x ≤ e := by
  by_cases hp : place x = -1074
  · omega
  · have h0 : 0 < x := by
      rcases h.eq_or_lt with rfl | h0
      · simp [place] at hp
      · exact h0
    have h1 := (place_le h0 hp).trans_lt hx
    have := (zpow_lt_zpow_iff_right₀ (by norm_num : (1 : ℝ) < 2)).1 h1
    omega

theorem IsFloat.nonneg_int {x : ℝ} (h : IsFloat x) (h0 : 0 ≤ x) : ∃ n : ℕ, x = n * 2 ^ (-1074 : ℤ) := by
  obtain ⟨n, hn⟩ := h.int
  have hu : (0 : ℝ) < 2 ^ (-1074 : ℤ) := by positivity
  have : (0 : ℝ) ≤ n := by
    by_contra hc
    push Not at hc
    have := mul_neg_of_neg_of_pos hc hu
    linarith
  have : 0 ≤ n := by exact_mod_cast this
  refine ⟨n.toNat, ?_⟩
  rw [hn]
  congr 1
  exact_mod_cast (Int.toNat_of_nonneg this).symm

/-- Below a float there is a next one. -/
theorem exists_pred {a b : ℝ} (ha : IsFloat a) (hb : IsFloat b) (h0 : 0 ≤ a) (h : a < b) : ∃ p, IsFloat p ∧ a ≤ p ∧ p + ulp p = b := by
  have hu : (0 : ℝ) < 2 ^ (-1074 : ℤ) := by positivity
  obtain ⟨m, hm⟩ := hb.int
  obtain ⟨n, hn⟩ := ha.int
  obtain ⟨k, ⟨hk, hka⟩, hmax⟩ := Int.exists_greatest_of_bdd (P := fun k : ℤ => IsFloat (k * 2 ^ (-1074 : ℤ)) ∧ (k : ℝ) * 2 ^ (-1074 : ℤ) < b)
    ⟨m, fun z hz => by
      have := hz.2
      rw [hm] at this
      exact_mod_cast (lt_of_mul_lt_mul_right this hu.le).le⟩ ⟨n, by rw [← hn]; exact ⟨ha, h⟩⟩
  have hak : a ≤ k * 2 ^ (-1074 : ℤ) := by
    rw [hn]
    have : (n : ℝ) ≤ k := by exact_mod_cast hmax n (by rw [← hn]; exact ⟨ha, h⟩)
    gcongr
  refine ⟨_, hk, hak, le_antisymm (add_ulp_le hk hb (h0.trans hak) hka) ?_⟩
  by_contra hc
  push Not at hc
  have hf := add_ulp_isFloat hk (h0.trans hak)
  obtain ⟨l, hl⟩ := hf.int
  have h1 := hmax l (by rw [← hl]; exact ⟨hf, hc⟩)
  have h2 : (l : ℝ) ≤ k := by exact_mod_cast h1
  have h3 : (l : ℝ) * 2 ^ (-1074 : ℤ) ≤ k * 2 ^ (-1074 : ℤ) := by gcongr
  have := ulp_pos (k * 2 ^ (-1074 : ℤ))
  linarith

/-- The computed midpoint of two floats that are no neighbours is strictly between them. -/
theorem mid_between {a b : ℝ} (ha : IsFloat a) (hb : IsFloat b) (h0 : 0 ≤ a) (h : a + ulp a < b) :
    IsFloat (fl (fl (a + b) / 2)) ∧ a < fl (fl (a + b) / 2) ∧ fl (fl (a + b) / 2) < b := by
  have hu := ulp_pos a
  have hab : a < b := by linarith
  have hS : 0 ≤ a + b := by linarith
  have hF := fl_nonneg hS
  refine ⟨fl_isFloat (by positivity), ?_, ?_⟩
  · have hc := add_ulp_isFloat ha h0
    have h1 := add_ulp_le hc hb (by linarith) h
    have h2 := ulp_mono h0 (by linarith : a ≤ a + ulp a)
    have h3 := le_fl hc.double hS (by linarith)
    have h4 := le_fl hc (by positivity : 0 ≤ fl (a + b) / 2) (by linarith)
    linarith
  · obtain ⟨p, hp, hap, hpb⟩ := exists_pred ha hb h0 hab
    have hup := ulp_pos p
    have hp0 : 0 ≤ p := h0.trans hap
    have hap' : a < p := by
      rcases hap.eq_or_lt with rfl | h'
      · linarith
      · exact h'
    have key : fl (a + b) ≤ 2 * p := by
      by_cases hS2 : a + b ≤ 2 * p
      · exact fl_le hp.double hS hS2
      · push Not at hS2
        by_cases hpl : place p = -1074
        · exfalso
          obtain ⟨x, hx⟩ := ha.int
          obtain ⟨y, hy⟩ := hb.int
          obtain ⟨z, hz⟩ := hp.int
          have hul : ulp p = 2 ^ (-1074 : ℤ) := by rw [ulp, hpl]
          have hU : (0 : ℝ) < 2 ^ (-1074 : ℤ) := by positivity
          rw [hul] at hpb
          generalize (2 : ℝ) ^ (-1074 : ℤ) = U at *
          have e1 : (2 * z : ℝ) * U < (x + y) * U := by rw [add_mul, ← hx, ← hy]; linarith
          have e2 : ((x + y : ℝ)) * U < (2 * z + 1) * U := by rw [add_mul, add_mul, mul_assoc, ← hx, ← hy, ← hz]; linarith
          have e3 := lt_of_mul_lt_mul_right e1 hU.le
          have e4 := lt_of_mul_lt_mul_right e2 hU.le
          have e5 : 2 * z < x + y := by exact_mod_cast e3
          have e6 : x + y < 2 * z + 1 := by exact_mod_cast e4
          omega
        · have hppos : 0 < p := by linarith
          have hpp := place_le hppos hpl
          have hb53 : b ≤ 2 ^ (place p + 53) := by
            rw [← hpb]
            exact add_ulp_le hp (zpow_isFloat (by have := place_ge p; omega)) hp0 (lt_place hp0)
          have hplS : place (a + b) ≤ place p + 1 := by
            apply place_le_of_lt hS (by have := place_ge p; omega)
            have : (2 : ℝ) ^ (place p + 1 + 53) = 2 * 2 ^ (place p + 53) := by
              rw [show place p + 1 + 53 = (place p + 53) + 1 by ring, zpow_add_one₀ (by norm_num)]; ring
            rw [this]; linarith
          have hulS : ulp (a + b) ≤ 2 * ulp p := by
            have : (2 : ℝ) * ulp p = 2 ^ (place p + 1) := by rw [ulp, zpow_add_one₀ (by norm_num)]; ring
            rw [this]
            exact zpow_le_zpow_right₀ (by norm_num) hplS
          have hul2 : 2 * ulp p ≤ ulp (2 * p) := by
            have e : (2 : ℝ) * ulp p = 2 ^ (place p + 1) := by rw [ulp, zpow_add_one₀ (by norm_num)]; ring
            rw [e]
            refine zpow_le_zpow_right₀ (by norm_num) ?_
            have e1 : (2 : ℝ) ^ (place p + 53) ≤ 2 * p := by
              rw [show place p + 53 = (place p + 52) + 1 by ring, zpow_add_one₀ (by norm_num)]; linarith
            have e2 := e1.trans_lt (lt_place (by linarith : 0 ≤ 2 * p))
            have := (zpow_lt_zpow_iff_right₀ (by norm_num : (1 : ℝ) < 2)).1 e2
            omega
          have hnear := fl_near (a + b)
          rw [abs_le] at hnear
          by_contra hc
          push Not at hc
          have := add_ulp_le hp.double (fl_isFloat hS) (by linarith) hc
          linarith
    have := fl_le hp (by positivity : 0 ≤ fl (a + b) / 2) (by linarith)
    linarith

end Verif.Float64
