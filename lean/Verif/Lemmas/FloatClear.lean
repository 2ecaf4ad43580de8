import Verif.Lemmas.FloatWall

/-! The intersection test in floats: what it reports is a crossing up to rounding errors. -/

namespace Verif.Float64

/-- The unit of the rounding error. -/
noncomputable def eps : ℝ := 2 ^ (-53 : ℤ)

theorem eps_pos : 0 < eps := by unfold eps; positivity

theorem eps_le : eps ≤ 1 / 1000 := by
  unfold eps
  calc (2 : ℝ) ^ (-53 : ℤ) ≤ 2 ^ (-10 : ℤ) := zpow_le_zpow_right₀ (by norm_num) (by norm_num)
    _ ≤ 1 / 1000 := by norm_num

/-- The error above the subnormal numbers. -/
theorem fl_rel {x : ℝ} (h : x = 0 ∨ (2 : ℝ) ^ (-1000 : ℤ) ≤ |x|) : |fl x - x| ≤ eps * |x| := by
  rcases h with rfl | h
  · simp [fl_zero]
  · have hx : 0 < |x| := lt_of_lt_of_le (by positivity) h
    refine (fl_near x).trans ?_
    have hpl : place |x| = place x := by
      rcases abs_choice x with h | h <;> rw [h]
      exact place_neg x
    have hp : place x ≠ -1074 := by
      intro hp
      have := lt_place (abs_nonneg x)
      rw [hpl, hp] at this
      have h2 := (zpow_lt_zpow_iff_right₀ (by norm_num : (1 : ℝ) < 2)).1 (lt_of_le_of_lt h this)
      norm_num at h2
    have h1 := place_le hx (by rwa [hpl])
    rw [hpl] at h1
    have h2 : ulp x / 2 = eps * 2 ^ (place x + 52) := by
      unfold ulp eps
      rw [← zpow_add₀ (by norm_num), show (-53 : ℤ) + (place x + 52) = place x - 1 by ring, zpow_sub_one₀ (by norm_num)]
      ring
    rw [h2]
    exact mul_le_mul_of_nonneg_left h1 eps_pos.le

theorem fl_rel_pos {x : ℝ} (h0 : 0 ≤ x) (h : x = 0 ∨ (2 : ℝ) ^ (-1000 : ℤ) ≤ x) : (1 - eps) * x ≤ fl x ∧ fl x ≤ (1 + eps) * x := by
  have := fl_rel (x := x) (by rw [abs_of_nonneg h0]; exact h)
  rw [abs_of_nonneg h0, abs_le] at this
  constructor <;> linarith [this.1, this.2]

/-- A quotient that is rounded to a nonnegative number. -/
theorem quot_lo {N D : ℝ} (h : 0 ≤ fl (N / D)) (hD : 0 < D) (hD4 : D ≤ 4) : -(2 : ℝ) ^ (-1072 : ℤ) ≤ N := by
  have h1 : -(2 : ℝ) ^ (-1074 : ℤ) ≤ N / D := by
    by_contra hc
    push Not at hc
    have := fl_le_float (zpow_isFloat (e := -1074) le_rfl).neg hc.le
    have hp : (0 : ℝ) < 2 ^ (-1074 : ℤ) := by positivity
    linarith
  rw [le_div_iff₀ hD] at h1
  have hp : (0 : ℝ) < 2 ^ (-1074 : ℤ) := by positivity
  have e : (2 : ℝ) ^ (-1072 : ℤ) = 2 ^ (-1074 : ℤ) * 4 := by
    rw [show (-1072 : ℤ) = -1074 + 2 by norm_num, zpow_add₀ (by norm_num)]; norm_num
  rw [e]
  have := mul_le_mul_of_nonneg_left hD4 hp.le
  linarith

/-- A quotient that is rounded to a number of at most one. -/
theorem quot_hi {N D : ℝ} (h : fl (N / D) ≤ 1) (hD : 0 < D) : N ≤ (1 + 2 * eps) * D := by
  have h1 : N / D ≤ 1 + 2 * eps := by
    by_contra hc
    push Not at hc
    have hf : IsFloat (1 + 2 * eps) := by
      refine ⟨2 ^ 52 + 1, -52, by norm_num, by norm_num, ?_⟩
      unfold eps
      rw [show (-52 : ℤ) = -53 + 1 by norm_num, zpow_add₀ (by norm_num)]
      push_cast
      have : (2 : ℝ) ^ 52 * 2 ^ (-53 : ℤ) * 2 = 1 := by norm_num
      rw [zpow_one]; linarith
    have := float_le_fl hf hc.le
    have := eps_pos
    linarith
  rwa [div_le_iff₀ hD] at h1

/-- A rounded number that is hardly negative. -/
theorem fl_lo {z : ℝ} (h : -(2 : ℝ) ^ (-1072 : ℤ) ≤ fl z) : -(2 : ℝ) ^ (-1071 : ℤ) ≤ z := by
  by_contra hc
  push Not at hc
  have := fl_le_float (zpow_isFloat (e := -1071) (by norm_num)).neg hc.le
  have e : (2 : ℝ) ^ (-1071 : ℤ) = 2 ^ (-1072 : ℤ) * 2 := by
    rw [show (-1071 : ℤ) = -1072 + 1 by norm_num, zpow_add₀ (by norm_num)]; norm_num
  have hp : (0 : ℝ) < 2 ^ (-1072 : ℤ) := by positivity
  rw [e] at this
  linarith

end Verif.Float64

namespace Verif.Util

open Verif.Float64

theorem detectR_true_iff {a b c d : ℝ × ℝ} (hD : cross2dR fl (subR fl b a) (subR fl d c) ≠ 0) (h : detectIntersectR fl a b c d = true) :
    (0 ≤ fl (cross2dR fl (subR fl c a) (subR fl d c) / cross2dR fl (subR fl b a) (subR fl d c)) ∧
      fl (cross2dR fl (subR fl c a) (subR fl d c) / cross2dR fl (subR fl b a) (subR fl d c)) ≤ 1) ∧
    0 ≤ fl (cross2dR fl (subR fl c a) (subR fl b a) / cross2dR fl (subR fl b a) (subR fl d c)) ∧
      fl (cross2dR fl (subR fl c a) (subR fl b a) / cross2dR fl (subR fl b a) (subR fl d c)) ≤ 1 := by
  simp only [detectIntersectR] at h
  rw [if_neg hD, decide_eq_false hD] at h
  simp only [Bool.false_and, Bool.or_false, Bool.and_eq_true, decide_eq_true_eq] at h
  exact ⟨⟨h.1.1.1, h.1.1.2⟩, h.1.2, h.2⟩

theorem quot_aux {u d P X : ℝ} (u0 : 0 < u) (u1 : u ≤ 1 / 1000) (hd : 0 < d) (hP0 : 0 < P) (hP : P ≤ d)
    (h4 : (1 - u) * X ≤ (1 + 2 * u) * ((1 + 4 * u) * P) + u * (u * d)) : X ≤ P + 9 * u * d := by
  by_contra hc
  push Not at hc
  have ud : 0 < u * d := mul_pos u0 hd
  have h6 := mul_lt_mul_of_pos_left hc (by linarith : (0 : ℝ) < 1 - u)
  have h7 : u * P ≤ u * d := mul_le_mul_of_nonneg_left hP u0.le
  have h8 : u * (u * P) ≤ u * (u * d) := mul_le_mul_of_nonneg_left h7 u0.le
  have h9 : u * (u * d) ≤ 1 / 1000 * (u * d) := mul_le_mul_of_nonneg_right u1 ud.le
  linarith

theorem cube_aux {u : ℝ} (u0 : 0 ≤ u) (u1 : u ≤ 1 / 1000) : (1 + u) * ((1 + u) * (1 + u)) ≤ 1 + 4 * u := by
  have a : u * u ≤ 1 / 1000 * u := mul_le_mul_of_nonneg_right u1 u0
  have b : u * (u * u) ≤ 1 / 1000 * (u * u) := mul_le_mul_of_nonneg_right u1 (mul_nonneg u0 u0)
  linarith [show (1 + u) * ((1 + u) * (1 + u)) = 1 + 3 * u + 3 * (u * u) + u * (u * u) by ring]

theorem four_aux {u P : ℝ} (u0 : 0 ≤ u) (u1 : u ≤ 1 / 1000) (h : P ≤ 3) : (1 + 4 * u) * P ≤ 4 := by
  have := mul_le_mul_of_nonneg_left h (by linarith : (0 : ℝ) ≤ 1 + 4 * u)
  linarith

/-- From the two tests to the coefficients, abstractly: `A - B` is the computed second numerator, `Q` the denominator (positive), `num` the
exact numerator, of which the computed one is `k * eps * d` away, and the exact denominator is `d * w`. -/
theorem second_coeff {A B Q d w num k : ℝ} (hd : 0 < d) (hd900 : (2 : ℝ) ^ (-900 : ℤ) ≤ d) (hw : 0 < w) (hw1 : w ≤ 1) (hk : 0 ≤ k)
    (hQ : 0 < Q) (hQ4 : Q ≤ 4) (hQd : Q ≤ (1 + 4 * eps) * (d * w)) (hAB : |A - B - num| ≤ k * eps * d)
    (h0 : 0 ≤ fl (fl (A - B) / Q)) (h1 : fl (fl (A - B) / Q) ≤ 1) :
    -(k + 1) * eps * d ≤ num ∧ num ≤ d * w + (k + 9) * eps * d := by
  have u0 := eps_pos
  have u1 := eps_le
  have ud : 0 < eps * d := mul_pos u0 hd
  have small : (2 : ℝ) ^ (-1071 : ℤ) ≤ eps * d := by
    have : (2 : ℝ) ^ (-953 : ℤ) ≤ eps * d := by
      have := mul_le_mul_of_nonneg_left hd900 u0.le
      unfold eps at *
      rw [← zpow_add₀ (by norm_num)] at this
      norm_num at this ⊢
      exact this
    exact (zpow_le_zpow_right₀ (by norm_num) (by norm_num)).trans this
  have small' : (2 : ℝ) ^ (-1075 : ℤ) ≤ eps * (eps * d) := by
    have h1006 : (2 : ℝ) ^ (-1006 : ℤ) ≤ eps * (eps * d) := by
      have := mul_le_mul_of_nonneg_left (mul_le_mul_of_nonneg_left hd900 u0.le) u0.le
      unfold eps at *
      rw [← zpow_add₀ (by norm_num), ← zpow_add₀ (by norm_num)] at this
      norm_num at this ⊢
      exact this
    exact (zpow_le_zpow_right₀ (by norm_num) (by norm_num)).trans h1006
  rw [abs_le] at hAB
  constructor
  · have := fl_lo (quot_lo h0 hQ hQ4)
    linarith [hAB.2]
  · have h2 := quot_hi h1 hQ
    have h3 := fl_err (A - B)
    change _ ≤ eps * _ + _ at h3
    rw [abs_le] at h3
    rcases le_total (A - B) 0 with h | h
    · have : 0 ≤ d * w := (mul_pos hd hw).le
      linarith [hAB.1]
    · rw [abs_of_nonneg h] at h3
      have hdw : d * w ≤ d := by nlinarith
      have hdw0 : 0 < d * w := mul_pos hd hw
      -- `A - B` is at most `(1 + 8 eps) d w`, up to the smallest numbers
      have h4 : (1 - eps) * (A - B) ≤ (1 + 2 * eps) * ((1 + 4 * eps) * (d * w)) + eps * (eps * d) := by
        have := mul_le_mul_of_nonneg_left hQd (by linarith : (0 : ℝ) ≤ 1 + 2 * eps)
        linarith [h3.1]
      have h5 := quot_aux u0 u1 hd hdw0 hdw h4
      linarith [hAB.1]

theorem half_dist {a x0 : ℝ} (ha : IsFloat a) (hx0 : x0 = -1 / 2 ∨ x0 = 1 / 2) : x0 - a = 0 ∨ (2 : ℝ) ^ (-54 : ℤ) ≤ |x0 - a| := by
  have half : IsFloat (1 / 2 : ℝ) := ⟨1, -1, by norm_num, by norm_num, by norm_num⟩
  have key : ∀ {a : ℝ}, IsFloat a → 1 / 2 - a = 0 ∨ (2 : ℝ) ^ (-54 : ℤ) ≤ |1 / 2 - a| := by
    intro a ha
    rcases lt_trichotomy a (1 / 2) with h | h | h
    · right
      rw [abs_of_pos (by linarith)]
      exact half_gap ha half h h.le le_rfl
    · left; linarith
    · right
      rw [abs_of_neg (by linarith)]
      have := half_gap half ha h le_rfl h.le
      exact this.trans (by linarith)
  rcases hx0 with rfl | rfl
  · rcases key ha.neg with h | h
    · left; linarith
    · right
      rwa [show (1 / 2 - -a : ℝ) = -(-1 / 2 - a) by ring, abs_neg] at h
  · exact key ha

theorem first_aux {u px dx px' dx' w' N D : ℝ} (u0 : 0 < u) (u1 : u ≤ 1 / 1000) (hw : 0 < w') (hdx : 0 < dx) (hpx : 0 ≤ px)
    (h1 : (1 - u) * px ≤ px') (h2 : dx' ≤ (1 + u) * dx) (h3 : (1 - u) * (px' * w') ≤ N) (h4 : D ≤ (1 + u) * (dx' * w'))
    (h5 : N ≤ (1 + 2 * u) * D) : px ≤ (1 + 8 * u) * dx := by
  have a1 : (1 - u) * ((1 - u) * px) * w' ≤ N := by
    refine le_trans ?_ h3
    have := mul_le_mul_of_nonneg_right (mul_le_mul_of_nonneg_left h1 (by linarith : (0 : ℝ) ≤ 1 - u)) hw.le
    linarith
  have a2 : D ≤ (1 + u) * ((1 + u) * dx) * w' := by
    refine h4.trans ?_
    have := mul_le_mul_of_nonneg_right (mul_le_mul_of_nonneg_left h2 (by linarith : (0 : ℝ) ≤ 1 + u)) hw.le
    linarith
  have a3 : (1 - u) * ((1 - u) * px) * w' ≤ (1 + 2 * u) * ((1 + u) * ((1 + u) * dx)) * w' := by
    have := mul_le_mul_of_nonneg_left a2 (by linarith : (0 : ℝ) ≤ 1 + 2 * u)
    linarith
  have a4 := le_of_mul_le_mul_right a3 hw
  by_contra hc
  push Not at hc
  have a5 := mul_lt_mul_of_pos_left hc (by nlinarith : (0 : ℝ) < (1 - u) * (1 - u))
  have ud : 0 < u * dx := mul_pos u0 hdx
  have h7 : u * (u * dx) ≤ 1 / 1000 * (u * dx) := mul_le_mul_of_nonneg_right u1 ud.le
  have h8 : 0 ≤ u * (u * dx) := by positivity
  have h9 : u * (u * (u * dx)) ≤ 1 / 1000 * (u * (u * dx)) := mul_le_mul_of_nonneg_right u1 h8
  have h10 : 0 ≤ u * (u * (u * dx)) := by positivity
  linarith

theorem pow_facts : (2 : ℝ) ^ (-1075 : ℤ) ≤ eps ^ 2 * 2 ^ (-900 : ℤ) ∧ (2 : ℝ) ^ (-1075 : ℤ) ≤ eps ^ 2 ∧ (0 : ℝ) < 2 ^ (-1075 : ℤ) ∧
    (0 : ℝ) < 2 ^ (-900 : ℤ) := by
  unfold eps
  refine ⟨?_, ?_, by positivity, by positivity⟩
  · rw [sq, ← zpow_add₀ (by norm_num), ← zpow_add₀ (by norm_num)]
    exact zpow_le_zpow_right₀ (by norm_num) (by norm_num)
  · rw [sq, ← zpow_add₀ (by norm_num)]
    exact zpow_le_zpow_right₀ (by norm_num) (by norm_num)

theorem mul_bound {s d e M : ℝ} (h : |s| ≤ e) (hd : |d| ≤ M) : -(e * M) ≤ s * d ∧ s * d ≤ e * M := by
  rw [← abs_le, abs_mul]
  exact mul_le_mul h hd (abs_nonneg _) ((abs_nonneg _).trans h)

theorem clamp_param {u d p q e lo hi M : ℝ} (u0 : 0 < u) (hd : 0 < d) (hd3 : d ≤ 3) (h1 : -(u * d) ≤ p)
    (h2 : p ≤ (1 + 8 * u) * d) (he : |e| ≤ M) (hlo : lo ≤ q + p / d * e) (hhi : q + p / d * e ≤ hi) :
    ∃ t, 0 ≤ t ∧ t ≤ 1 ∧ |t * d - p| ≤ 24 * u ∧ lo - 8 * u * M ≤ q + t * e ∧ q + t * e ≤ hi + 8 * u * M := by
  have M0 : 0 ≤ u * M := mul_nonneg u0.le ((abs_nonneg e).trans he)
  have ht0 : -u ≤ p / d := by rw [le_div_iff₀ hd]; linarith
  have ht1 : p / d ≤ 1 + 8 * u := by rw [div_le_iff₀ hd]; exact h2
  have htp : p / d * d = p := div_mul_cancel₀ _ hd.ne'
  have ud : u * d ≤ u * 3 := mul_le_mul_of_nonneg_left hd3 u0.le
  rcases le_total (p / d) 0 with h3 | h3
  · obtain ⟨g2, g1⟩ := mul_bound (s := p / d) (e := u) (abs_le.2 ⟨ht0, by linarith⟩) he
    have : p ≤ 0 := by rwa [div_le_iff₀ hd, zero_mul] at h3
    exact ⟨0, le_rfl, zero_le_one, by rw [abs_le]; constructor <;> linarith, by linarith, by linarith⟩
  rcases le_total (p / d) 1 with h4 | h4
  · exact ⟨p / d, h3, h4, by rw [htp, sub_self, abs_zero]; linarith, by linarith, by linarith⟩
  · obtain ⟨g2, g1⟩ := mul_bound (s := p / d - 1) (e := 8 * u) (abs_le.2 ⟨by linarith, by linarith⟩) he
    have : d ≤ p := by rwa [le_div_iff₀ hd, one_mul] at h4
    exact ⟨1, zero_le_one, le_rfl, by rw [abs_le]; constructor <;> linarith, by linarith, by linarith⟩

theorem fl_err' (x : ℝ) : |fl x - x| ≤ eps * |x| + 2 ^ (-1075 : ℤ) := fl_err x

/-- Upwards wall, motion to the right: what is reported is near. -/
theorem wall_near_core {ax ay bx by' x0 y0 y1 : ℝ} (fax : IsFloat ax) (hx0 : x0 = -1 / 2 ∨ x0 = 1 / 2)
    (hdx : (2 : ℝ) ^ (-900 : ℤ) ≤ bx - ax) (hdx3 : bx - ax ≤ 3) (hdy : |by' - ay| ≤ 1) (hpy : |y0 - ay| ≤ 1)
    (hw54 : (2 : ℝ) ^ (-54 : ℤ) ≤ y1 - y0) (hw : y1 - y0 ≤ 1)
    (h : detectIntersectR fl (ax, ay) (bx, by') (x0, y0) (x0, y1) = true) :
    ∃ t, 0 ≤ t ∧ t ≤ 1 ∧ |ax + t * (bx - ax) - x0| ≤ 100 * eps ∧ y0 - 100 * eps ≤ ay + t * (by' - ay) ∧
      ay + t * (by' - ay) ≤ y1 + 100 * eps := by
  have u0 := eps_pos
  have u1 := eps_le
  obtain ⟨v1, v2, v0, p900⟩ := pow_facts
  have p54 : (0 : ℝ) < 2 ^ (-54 : ℤ) := by positivity
  have hd := half_dist fax hx0
  have le1 : ∀ {a b : ℤ}, a ≤ b → (2 : ℝ) ^ a ≤ 2 ^ b := fun h => zpow_le_zpow_right₀ (by norm_num) h
  have f54 : IsFloat ((2 : ℝ) ^ (-54 : ℤ)) := zpow_isFloat (by norm_num)
  set dx := bx - ax with hdxe
  set dy := by' - ay with hdye
  set py := y0 - ay with hpye
  set px := x0 - ax with hpxe
  set w := y1 - y0 with hwe
  have dx0 : 0 < dx := p900.trans_le hdx
  have w0 : 0 < w := p54.trans_le hw54
  have rdx := fl_rel_pos dx0.le (.inr ((le1 (by norm_num)).trans hdx))
  have rw' := fl_rel_pos w0.le (.inr ((le1 (by norm_num)).trans hw54))
  have w'54 : (2 : ℝ) ^ (-54 : ℤ) ≤ fl w := float_le_fl f54 hw54
  have w'0 : 0 < fl w := p54.trans_le w'54
  have dx'900 : (2 : ℝ) ^ (-900 : ℤ) ≤ fl dx := float_le_fl (zpow_isFloat (by norm_num)) hdx
  have dx'0 : 0 < fl dx := p900.trans_le dx'900
  have hq : (2 : ℝ) ^ (-1000 : ℤ) ≤ fl dx * fl w := by
    have := mul_le_mul dx'900 w'54 p54.le dx'0.le
    rw [← zpow_add₀ (by norm_num)] at this
    exact (le1 (by norm_num)).trans this
  have rD := fl_rel_pos (mul_pos dx'0 w'0).le (.inr hq)
  have D0 : 0 < fl (fl dx * fl w) := lt_of_lt_of_le (mul_pos (by linarith) (mul_pos dx'0 w'0)) rD.1
  have es : subR fl (x0, y1) (x0, y0) = (0, fl w) := by simp [subR, fl_zero, hwe]
  have ed : subR fl (bx, by') (ax, ay) = (fl dx, fl dy) := rfl
  have ep : subR fl (x0, y0) (ax, ay) = (fl px, fl py) := rfl
  have h' := detectR_true_iff (by rw [ed, es, cross_axis]; exact D0.ne') h
  rw [ed, es, ep, cross_axis, cross_axis] at h'
  have e2 : cross2dR fl (fl px, fl py) (fl dx, fl dy) = fl (fl (fl px * fl dy) - fl (fl py * fl dx)) := rfl
  rw [e2] at h'
  obtain ⟨⟨c1, c2⟩, c3, c4⟩ := h'
  have hprod : fl dx * fl w ≤ (1 + eps) * dx * ((1 + eps) * w) := mul_le_mul rdx.2 rw'.2 w'0.le (by positivity)
  have dw0 : 0 < dx * w := mul_pos dx0 w0
  have hQd : fl (fl dx * fl w) ≤ (1 + 4 * eps) * (dx * w) := by
    refine rD.2.trans ?_
    have := mul_le_mul_of_nonneg_left hprod (by linarith : (0 : ℝ) ≤ 1 + eps)
    refine this.trans ?_
    have k := cube_aux u0.le u1
    have := mul_le_mul_of_nonneg_right k dw0.le
    linarith
  have hQ4 : fl (fl dx * fl w) ≤ 4 := by
    refine hQd.trans ?_
    have : dx * w ≤ 3 * 1 := mul_le_mul hdx3 hw w0.le (by norm_num)
    exact four_aux u0.le u1 (by linarith)
  -- the parameter on the motion
  have px0 : 0 ≤ px := by
    by_contra hc
    push Not at hc
    rcases hd with h0 | h0
    · linarith
    · rw [abs_of_neg hc] at h0
      have a1 : fl px ≤ -2 ^ (-54 : ℤ) := fl_le_float f54.neg (by linarith)
      have a2 : fl px * fl w ≤ -2 ^ (-108 : ℤ) := by
        have e : (2 : ℝ) ^ (-108 : ℤ) = 2 ^ (-54 : ℤ) * 2 ^ (-54 : ℤ) := by rw [← zpow_add₀ (by norm_num)]; norm_num
        rw [e]
        have := mul_le_mul_of_nonneg_right a1 w'0.le
        have := mul_le_mul_of_nonneg_left w'54 p54.le
        linarith
      have a3 := fl_le_float (zpow_isFloat (e := -108) (by norm_num)).neg a2
      have a4 := quot_lo c1 D0 hQ4
      have a5 : (2 : ℝ) ^ (-1072 : ℤ) < 2 ^ (-108 : ℤ) := zpow_lt_zpow_right₀ (by norm_num) (by norm_num)
      linarith
  have pxd : px ≤ (1 + 8 * eps) * dx := by
    rcases px0.eq_or_lt with h0 | h0
    · rw [← h0]; positivity
    · have h54 : (2 : ℝ) ^ (-54 : ℤ) ≤ px := by
        rcases hd with h1 | h1
        · linarith
        · rwa [abs_of_pos h0] at h1
      have rpx := fl_rel_pos px0 (.inr ((le1 (by norm_num)).trans h54))
      have px'54 : (2 : ℝ) ^ (-54 : ℤ) ≤ fl px := float_le_fl f54 h54
      have hN : (2 : ℝ) ^ (-1000 : ℤ) ≤ fl px * fl w := by
        have := mul_le_mul px'54 w'54 p54.le (p54.le.trans px'54)
        rw [← zpow_add₀ (by norm_num)] at this
        exact (le1 (by norm_num)).trans this
      have rN := fl_rel_pos (mul_nonneg (p54.le.trans px'54) w'0.le) (.inr hN)
      exact first_aux u0 u1 w'0 dx0 px0 rpx.1 rdx.2 rN.1 rD.2 (quot_hi c2 D0)
  have px2 : px ≤ 2 * dx := pxd.trans (mul_le_mul_of_nonneg_right (by linarith) dx0.le)
  -- the parameter on the wall
  have vd : (2 : ℝ) ^ (-1075 : ℤ) ≤ eps ^ 2 * dx := v1.trans (mul_le_mul_of_nonneg_left hdx (sq_nonneg _))
  have ed0 : 0 < eps ^ 2 * dx := by positivity
  have A := prod_err (X := 2 * dx) (Y := 1) u0.le (by linarith) v0.le (abs_le.2 ⟨by linarith, px2⟩) hdy (by linarith) (by linarith) (by linarith)
    (fl_err' px) (fl_err' dy) (fl_err' _)
  have B := prod_err (X := 1) (Y := dx) u0.le (by linarith) v0.le hpy (abs_of_pos dx0).le (by linarith) vd (by linarith)
    (fl_err' py) (fl_err' dx) (fl_err' _)
  have A1 := abs_le.1 A.1
  have B1 := abs_le.1 B.1
  have hAB : |fl (fl px * fl dy) - fl (fl py * fl dx) - (px * dy - py * dx)| ≤ 12 * eps * dx := by
    rw [abs_le]
    constructor <;> linarith [A1.1, A1.2, B1.1, B1.2]
  have hs := second_coeff dx0 hdx w0 hw (by norm_num) D0 hQ4 hQd hAB c3 c4
  -- the point
  have hy : ay + px / dx * dy = y0 + (px * dy - py * dx) / dx := by
    rw [hpye]; field_simp; ring
  have hy1 : -(13 * eps) ≤ (px * dy - py * dx) / dx := by rw [le_div_iff₀ dx0]; linarith [hs.1]
  have hy2 : (px * dy - py * dx) / dx ≤ w + 21 * eps := by rw [div_le_iff₀ dx0]; linarith [hs.2]
  obtain ⟨t, t0, t1, tx, ty1, ty2⟩ := clamp_param (lo := y0 - 13 * eps) (hi := y1 + 21 * eps) u0 dx0 hdx3 (by linarith [mul_pos u0 dx0])
    pxd hdy (by rw [hy]; linarith) (by rw [hy]; linarith)
  refine ⟨t, t0, t1, ?_, by linarith, by linarith⟩
  rw [show ax + t * dx - x0 = t * dx - px by rw [hpxe]; ring]
  linarith

/-- A wall along the passage, motion upwards: what is reported is near. -/
theorem low_near_core {ax ay bx by' y0 : ℝ} (hax : |ax| ≤ 3 / 2) (hbx : |bx| ≤ 3 / 2)
    (hdy : (2 : ℝ) ^ (-900 : ℤ) ≤ by' - ay) (hdy1 : by' - ay ≤ 1)
    (h : detectIntersectR fl (ax, ay) (bx, by') (-1 / 2, y0) (1 / 2, y0) = true) :
    ∃ t, 0 ≤ t ∧ t ≤ 1 ∧ |ay + t * (by' - ay) - y0| ≤ 100 * eps ∧ -1 / 2 - 100 * eps ≤ ax + t * (bx - ax) ∧
      ax + t * (bx - ax) ≤ 1 / 2 + 100 * eps := by
  have u0 := eps_pos
  have u1 := eps_le
  obtain ⟨v1, v2, v0, p900⟩ := pow_facts
  have le1 : ∀ {a b : ℤ}, a ≤ b → (2 : ℝ) ^ a ≤ 2 ^ b := fun h => zpow_le_zpow_right₀ (by norm_num) h
  rw [abs_le] at hax hbx
  have hdx : |bx - ax| ≤ 3 := by rw [abs_le]; constructor <;> linarith
  have hpx : |-1 / 2 - ax| ≤ 2 := by rw [abs_le]; constructor <;> linarith
  have one : fl (1 / 2 - -1 / 2) = 1 := by
    rw [show (1 / 2 - -1 / 2 : ℝ) = 1 by norm_num]; exact fl_float one_isFloat
  set dx := bx - ax with hdxe
  set dy := by' - ay with hdye
  set py := y0 - ay with hpye
  set px := -1 / 2 - ax with hpxe
  have dy0 : 0 < dy := p900.trans_le hdy
  have rdy := fl_rel_pos dy0.le (.inr ((le1 (by norm_num)).trans hdy))
  have dy'900 : (2 : ℝ) ^ (-900 : ℤ) ≤ fl dy := float_le_fl (zpow_isFloat (by norm_num)) hdy
  have dy'0 : 0 < fl dy := p900.trans_le dy'900
  have es : subR fl (1 / 2, y0) (-1 / 2, y0) = (1, 0) := by simp only [subR, one, sub_self, fl_zero]
  have ed : subR fl (bx, by') (ax, ay) = (fl dx, fl dy) := rfl
  have ep : subR fl (-1 / 2, y0) (ax, ay) = (fl px, fl py) := rfl
  have ec : ∀ x y : ℝ, cross2dR fl (x, fl y) (1, 0) = -fl y := by
    intro x y
    simp only [cross2dR, mul_zero, fl_zero, mul_one, fl_fl, zero_sub, fl_neg]
  have h' := detectR_true_iff (by rw [ed, es, ec]; exact neg_ne_zero.2 dy'0.ne') h
  rw [ed, es, ep, ec, ec] at h'
  have e2 : cross2dR fl (fl px, fl py) (fl dx, fl dy) = -fl (fl (fl py * fl dx) - fl (fl px * fl dy)) := by
    rw [← fl_neg, neg_sub]; rfl
  rw [e2, neg_div_neg_eq, neg_div_neg_eq] at h'
  obtain ⟨⟨c1, c2⟩, c3, c4⟩ := h'
  have hQd : fl dy ≤ (1 + 4 * eps) * (dy * 1) := by
    refine rdy.2.trans ?_
    rw [mul_one]
    exact mul_le_mul_of_nonneg_right (by linarith) dy0.le
  have hQ4 : fl dy ≤ 4 := by
    exact hQd.trans (four_aux u0.le u1 (by linarith))
  have udy : 0 < eps * dy := mul_pos u0 dy0
  -- the parameter on the motion
  have py0 : -(eps * dy) ≤ py := by
    have h1 := fl_lo (quot_lo c1 dy'0 hQ4)
    have h2 : (2 : ℝ) ^ (-1071 : ℤ) ≤ eps * dy := by
      have h3 := mul_le_mul_of_nonneg_left hdy u0.le
      have h4 : (2 : ℝ) ^ (-1071 : ℤ) ≤ eps * 2 ^ (-900 : ℤ) := by
        unfold eps
        rw [← zpow_add₀ (by norm_num)]
        exact le1 (by norm_num)
      exact h4.trans h3
    linarith
  have pyd : py ≤ (1 + 8 * eps) * dy := by
    rcases le_total py (2 ^ (-1000 : ℤ)) with h0 | h0
    · have : (2 : ℝ) ^ (-1000 : ℤ) ≤ 2 ^ (-900 : ℤ) := le1 (by norm_num)
      linarith
    · have p0 : 0 ≤ py := le_trans (by positivity) h0
      have rpy := fl_rel_pos p0 (.inr h0)
      have p'0 : 0 ≤ fl py := fl_nonneg p0
      have hq := quot_hi c2 dy'0
      exact first_aux (w' := 1) u0 u1 one_pos dy0 p0 rpy.1 rdy.2 (by rw [mul_one, sub_mul]; linarith [mul_nonneg u0.le p'0])
        (by rw [mul_one, add_mul]; linarith [mul_pos u0 dy'0]) hq
  have py2 : |py| ≤ 2 * dy := by
    rw [abs_le]
    have : eps * dy ≤ 1 / 1000 * dy := mul_le_mul_of_nonneg_right u1 dy0.le
    constructor <;> linarith
  -- the parameter on the wall
  have vd : (2 : ℝ) ^ (-1075 : ℤ) ≤ eps ^ 2 * dy := v1.trans (mul_le_mul_of_nonneg_left hdy (sq_nonneg _))
  have ed0 : 0 < eps ^ 2 * dy := by positivity
  have A := prod_err (X := 2) (Y := dy) u0.le (by linarith) v0.le hpx (abs_of_pos dy0).le (by linarith) vd (by linarith)
    (fl_err' px) (fl_err' dy) (fl_err' _)
  have B := prod_err (X := 2 * dy) (Y := 3) u0.le (by linarith) v0.le py2 hdx (by linarith) (by linarith) (by linarith)
    (fl_err' py) (fl_err' dx) (fl_err' _)
  have A1 := abs_le.1 A.1
  have B1 := abs_le.1 B.1
  have hAB : |fl (fl py * fl dx) - fl (fl px * fl dy) - (py * dx - px * dy)| ≤ 32 * eps * dy := by
    rw [abs_le]
    constructor <;> linarith [A1.1, A1.2, B1.1, B1.2]
  have hs := second_coeff dy0 hdy one_pos le_rfl (by norm_num) dy'0 hQ4 hQd hAB c3 c4
  have hx : ax + py / dy * dx = -1 / 2 + (py * dx - px * dy) / dy := by
    rw [hpxe]; field_simp; ring
  have hx1 : -(33 * eps) ≤ (py * dx - px * dy) / dy := by rw [le_div_iff₀ dy0]; linarith [hs.1]
  have hx2 : (py * dx - px * dy) / dy ≤ 1 + 41 * eps := by rw [div_le_iff₀ dy0]; linarith [hs.2]
  obtain ⟨t, t0, t1, ty, tx1, tx2⟩ := clamp_param (lo := -1 / 2 - 33 * eps) (hi := 1 / 2 + 41 * eps) u0 dy0 (by linarith) py0
    pyd hdx (by rw [hx]; linarith) (by rw [hx]; linarith)
  refine ⟨t, t0, t1, ?_, by linarith, by linarith⟩
  rw [show ay + t * dy - y0 = t * dy - py by rw [hpye]; ring]
  linarith

/-! ### All directions, and motions along an axis -/

theorem zpow_mul_ne {x y : ℝ} {a b : ℤ} (hx : (2 : ℝ) ^ a ≤ |x|) (hy : (2 : ℝ) ^ b ≤ |y|) (hab : -1074 ≤ a + b) : fl (x * y) ≠ 0 := by
  have h1 : (2 : ℝ) ^ (a + b) ≤ |x * y| := by
    rw [zpow_add₀ (by norm_num), abs_mul]
    exact mul_le_mul hx hy (by positivity) (abs_nonneg _)
  have hp : (0 : ℝ) < 2 ^ (a + b) := by positivity
  have hf := zpow_isFloat hab
  rcases abs_choice (x * y) with h | h
  · rw [h] at h1
    have := float_le_fl hf h1
    linarith
  · rw [h] at h1
    have := fl_le_float hf.neg (by linarith : x * y ≤ -2 ^ (a + b))
    linarith

theorem fl_abs_ge {x : ℝ} {a : ℤ} (ha : -1074 ≤ a) (hx : (2 : ℝ) ^ a ≤ |x|) : (2 : ℝ) ^ a ≤ |fl x| := by
  have hf := zpow_isFloat ha
  rcases abs_choice x with h | h
  · rw [h] at hx
    exact (float_le_fl hf hx).trans (le_abs_self _)
  · rw [h] at hx
    have := fl_le_float hf.neg (by linarith : x ≤ -2 ^ a)
    exact le_trans (by linarith) (neg_le_abs _)

/-- A motion along a side wall's direction is not reported unless it is on the wall's line. -/
theorem side_parallel {ax ay by' x0 y0 y1 : ℝ} (fax : IsFloat ax) (hx0 : x0 = -1 / 2 ∨ x0 = 1 / 2) (hne : ax ≠ x0)
    (hdy : (2 : ℝ) ^ (-900 : ℤ) ≤ |by' - ay|) : detectIntersectR fl (ax, ay) (ax, by') (x0, y0) (x0, y1) = false := by
  have hd : (2 : ℝ) ^ (-54 : ℤ) ≤ |x0 - ax| := (half_dist fax hx0).resolve_left (sub_ne_zero.2 (Ne.symm hne))
  have h2 := zpow_mul_ne (fl_abs_ge (by norm_num) hd) (fl_abs_ge (by norm_num) hdy) (by norm_num)
  have e1 : cross2dR fl (subR fl (ax, by') (ax, ay)) (subR fl (x0, y1) (x0, y0)) = 0 := by
    simp [cross2dR, subR, fl_zero]
  have e2 : cross2dR fl (subR fl (x0, y0) (ax, ay)) (subR fl (ax, by') (ax, ay)) = fl (fl (x0 - ax) * fl (by' - ay)) := by
    simp [cross2dR, subR, fl_zero, fl_fl]
  simp only [detectIntersectR, e1, e2]
  simp [h2]

/-- A motion along the passage is not reported by the walls along it unless it is on their line. -/
theorem low_parallel {ax ay bx y0 : ℝ} (hpy : (2 : ℝ) ^ (-160 : ℤ) ≤ |y0 - ay|)
    (hdx : (2 : ℝ) ^ (-900 : ℤ) ≤ |bx - ax|) : detectIntersectR fl (ax, ay) (bx, ay) (-1 / 2, y0) (1 / 2, y0) = false := by
  have h2 := zpow_mul_ne (fl_abs_ge (by norm_num) hpy) (fl_abs_ge (by norm_num) hdx) (by norm_num)
  have e1 : cross2dR fl (subR fl (bx, ay) (ax, ay)) (subR fl (1 / 2, y0) (-1 / 2, y0)) = 0 := by
    simp [cross2dR, subR, fl_zero]
  have e2 : cross2dR fl (subR fl (-1 / 2, y0) (ax, ay)) (subR fl (bx, ay) (ax, ay)) = -fl (fl (y0 - ay) * fl (bx - ax)) := by
    simp [cross2dR, subR, fl_zero, fl_fl, fl_neg]
  simp only [detectIntersectR, e1, e2]
  simp [h2]

/-- Different floats, one of them at least `2 ^ -100`. -/
theorem float_gap {a c : ℝ} (ha : IsFloat a) (hc : IsFloat c) (h : (2 : ℝ) ^ (-100 : ℤ) ≤ c) (hne : a ≠ c) :
    (2 : ℝ) ^ (-160 : ℤ) ≤ |c - a| := by
  have le1 : ∀ {a b : ℤ}, a ≤ b → (2 : ℝ) ^ a ≤ 2 ^ b := fun h => zpow_le_zpow_right₀ (by norm_num) h
  have e101 : (2 : ℝ) ^ (-100 : ℤ) = 2 * 2 ^ (-101 : ℤ) := by
    rw [show (-100 : ℤ) = 1 + -101 by norm_num, zpow_add₀ (by norm_num)]; norm_num
  have p101 : (0 : ℝ) < 2 ^ (-101 : ℤ) := by positivity
  have big : ∀ x : ℝ, (2 : ℝ) ^ (-101 : ℤ) ≤ x → (2 : ℝ) ^ (-160 : ℤ) ≤ ulp x := by
    intro x hx
    have hl := lt_place (p101.le.trans hx)
    have := (zpow_lt_zpow_iff_right₀ (by norm_num : (1 : ℝ) < 2)).1 (lt_of_le_of_lt hx hl)
    exact le1 (by omega)
  have h160 : (2 : ℝ) ^ (-160 : ℤ) ≤ 2 ^ (-101 : ℤ) := le1 (by norm_num)
  rcases lt_or_gt_of_ne hne with h1 | h1
  · rw [abs_of_pos (by linarith)]
    rcases le_total a (2 ^ (-101 : ℤ)) with h2 | h2
    · exact h160.trans (by linarith)
    · have := add_ulp_le ha hc (p101.le.trans h2) h1
      exact (big a h2).trans (by linarith)
  · rw [abs_of_neg (by linarith)]
    have := add_ulp_le hc ha (by linarith) h1
    exact (big c (by linarith)).trans (by linarith)

/-- A motion reported at a side wall comes near it. -/
theorem side_near {ax ay bx by' x0 c : ℝ} (fax : IsFloat ax) (hax : |ax| ≤ 3 / 2) (hbx : |bx| ≤ 3 / 2) (hx0 : x0 = -1 / 2 ∨ x0 = 1 / 2)
    (hdx : (2 : ℝ) ^ (-900 : ℤ) ≤ |bx - ax|) (hay : |ay| ≤ 1 / 2) (hby : |by'| ≤ 1 / 2) (hc : 0 ≤ c) (hw : (2 : ℝ) ^ (-54 : ℤ) ≤ 1 / 2 - c)
    (h : detectIntersectR fl (ax, ay) (bx, by') (x0, c) (x0, 1 / 2) = true) :
    ∃ t, 0 ≤ t ∧ t ≤ 1 ∧ |ax + t * (bx - ax) - x0| ≤ 100 * eps ∧ c - 100 * eps ≤ ay + t * (by' - ay) ∧
      ay + t * (by' - ay) ≤ 1 / 2 + 100 * eps := by
  rw [abs_le] at hax hbx hay hby
  have hc2 : c < 1 / 2 := by
    have : (0 : ℝ) < 2 ^ (-54 : ℤ) := by positivity
    linarith
  have hdy : |by' - ay| ≤ 1 := by rw [abs_le]; constructor <;> linarith
  have hpy : |c - ay| ≤ 1 := by rw [abs_le]; constructor <;> linarith
  rcases abs_choice (bx - ax) with h1 | h1
  · rw [h1] at hdx
    exact wall_near_core fax hx0 hdx (by linarith) hdy hpy hw (by linarith) h
  · rw [h1] at hdx
    have h2 := (detectR_refl1 (ax, ay) (bx, by') (x0, c) (x0, 1 / 2)).trans h
    obtain ⟨t, t0, t1, tx, ty⟩ := wall_near_core (ax := -ax) (bx := -bx) (x0 := -x0) fax.neg
      (by rcases hx0 with rfl | rfl; exacts [.inr (by norm_num), .inl (by norm_num)]) (by linarith) (by linarith) hdy hpy hw (by linarith) h2
    refine ⟨t, t0, t1, ?_, ty⟩
    rw [show -ax + t * (-bx - -ax) - -x0 = -(ax + t * (bx - ax) - x0) by ring, abs_neg] at tx
    exact tx

/-- A motion reported at a wall along the passage comes near it. -/
theorem low_near {ax ay bx by' y0 : ℝ} (hax : |ax| ≤ 3 / 2) (hbx : |bx| ≤ 3 / 2)
    (hdy : (2 : ℝ) ^ (-900 : ℤ) ≤ |by' - ay|) (hay : |ay| ≤ 1 / 2) (hby : |by'| ≤ 1 / 2)
    (h : detectIntersectR fl (ax, ay) (bx, by') (-1 / 2, y0) (1 / 2, y0) = true) :
    ∃ t, 0 ≤ t ∧ t ≤ 1 ∧ |ay + t * (by' - ay) - y0| ≤ 100 * eps ∧ -1 / 2 - 100 * eps ≤ ax + t * (bx - ax) ∧
      ax + t * (bx - ax) ≤ 1 / 2 + 100 * eps := by
  have hay' := abs_le.1 hay
  have hby' := abs_le.1 hby
  rcases abs_choice (by' - ay) with h1 | h1
  · rw [h1] at hdy
    exact low_near_core hax hbx hdy (by linarith) h
  · rw [h1] at hdy
    have h2 := (detectR_refl2 (ax, ay) (bx, by') (-1 / 2, y0) (1 / 2, y0)).trans h
    obtain ⟨t, t0, t1, ty, tx⟩ := low_near_core (ay := -ay) (by' := -by') (y0 := -y0) hax hbx (by linarith) (by linarith) h2
    refine ⟨t, t0, t1, ?_, tx⟩
    rw [show -ay + t * (-by' - -ay) - -y0 = -(ay + t * (by' - ay) - y0) by ring, abs_neg] at ty
    exact ty

end Verif.Util
