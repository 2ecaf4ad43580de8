import Verif.Lemmas.FloatSigned
import Verif.Model.FloatIntersect

/-! The intersection test in floats against a vertical wall: it misses no crossing that is well between the ends of the wall. -/

namespace Verif.Util

open Verif.Float64

/-! ### Reflections -/

theorem detectR_refl1 (a b c d : ℝ × ℝ) :
    detectIntersectR fl (-a.1, a.2) (-b.1, b.2) (-c.1, c.2) (-d.1, d.2) = detectIntersectR fl a b c d := by
  have hs : ∀ v w : ℝ × ℝ, subR fl (-v.1, v.2) (-w.1, w.2) = (-(subR fl v w).1, (subR fl v w).2) := by
    intro v w
    simp only [subR]
    rw [show -v.1 - -w.1 = -(v.1 - w.1) by ring, fl_neg]
  have hc : ∀ v w : ℝ × ℝ, cross2dR fl (-v.1, v.2) (-w.1, w.2) = -cross2dR fl v w := by
    intro v w
    simp only [cross2dR]
    rw [show -v.1 * w.2 = -(v.1 * w.2) by ring, show v.2 * -w.1 = -(v.2 * w.1) by ring, fl_neg, fl_neg,
      show -fl (v.1 * w.2) - -fl (v.2 * w.1) = -(fl (v.1 * w.2) - fl (v.2 * w.1)) by ring, fl_neg]
  simp only [detectIntersectR, hs, hc, neg_eq_zero, neg_div_neg_eq]

theorem detectR_refl2 (a b c d : ℝ × ℝ) :
    detectIntersectR fl (a.1, -a.2) (b.1, -b.2) (c.1, -c.2) (d.1, -d.2) = detectIntersectR fl a b c d := by
  have hs : ∀ v w : ℝ × ℝ, subR fl (v.1, -v.2) (w.1, -w.2) = ((subR fl v w).1, -(subR fl v w).2) := by
    intro v w
    simp only [subR]
    rw [show -v.2 - -w.2 = -(v.2 - w.2) by ring, fl_neg]
  have hc : ∀ v w : ℝ × ℝ, cross2dR fl (v.1, -v.2) (w.1, -w.2) = -cross2dR fl v w := by
    intro v w
    simp only [cross2dR]
    rw [show v.1 * -w.2 = -(v.1 * w.2) by ring, show -v.2 * w.1 = -(v.2 * w.1) by ring, fl_neg, fl_neg,
      show -fl (v.1 * w.2) - -fl (v.2 * w.1) = -(fl (v.1 * w.2) - fl (v.2 * w.1)) by ring, fl_neg]
  simp only [detectIntersectR, hs, hc, neg_eq_zero, neg_div_neg_eq]

/-! ### The error of a product -/

/-- A product of rounded factors, rounded. `X` and `Y` bound the factors. -/
theorem prod_err {u v x y x' y' X Y A : ℝ} (hu : 0 ≤ u) (hu1 : u ≤ 1 / 100) (hv : 0 ≤ v) (hX : |x| ≤ X) (hY : |y| ≤ Y)
    (vX : v ≤ u ^ 2 * X) (vY : v ≤ u ^ 2 * Y) (vXY : v ≤ u ^ 2 * (X * Y))
    (hx : |x' - x| ≤ u * |x| + v) (hy : |y' - y| ≤ u * |y| + v) (hA : |A - x' * y'| ≤ u * |x' * y'| + v) :
    |A - x * y| ≤ 4 * u * (X * Y) ∧ |x' * y' - x * y| ≤ 3 * u * (X * Y) := by
  have X0 : 0 ≤ X := (abs_nonneg x).trans hX
  have Y0 : 0 ≤ Y := (abs_nonneg y).trans hY
  have XY0 : 0 ≤ X * Y := mul_nonneg X0 Y0
  have ex : |x' - x| ≤ (u + u ^ 2) * X := by
    refine hx.trans ?_
    have := mul_le_mul_of_nonneg_left hX hu
    nlinarith
  have ey : |y' - y| ≤ (u + u ^ 2) * Y := by
    refine hy.trans ?_
    have := mul_le_mul_of_nonneg_left hY hu
    nlinarith
  have hy' : |y'| ≤ (1 + u + u ^ 2) * Y := by
    have : |y'| ≤ |y' - y| + |y| := by
      have := abs_add_le (y' - y) y
      simpa using this
    nlinarith
  have hd : |x' * y' - x * y| ≤ (u + u ^ 2) * (2 + u + u ^ 2) * (X * Y) := by
    have e : x' * y' - x * y = (x' - x) * y' + x * (y' - y) := by ring
    rw [e]
    refine (abs_add_le _ _).trans ?_
    rw [abs_mul, abs_mul]
    have h1 := mul_le_mul ex hy' (abs_nonneg _) (by positivity)
    have h2 := mul_le_mul hX ey (abs_nonneg _) X0
    calc _ ≤ (u + u ^ 2) * X * ((1 + u + u ^ 2) * Y) + X * ((u + u ^ 2) * Y) := add_le_add h1 h2
      _ = _ := by ring
  have k1 : (u + u ^ 2) * (2 + u + u ^ 2) ≤ 2.1 * u := by nlinarith [mul_nonneg hu hu, mul_nonneg hu (mul_nonneg hu hu)]
  have hd' : |x' * y' - x * y| ≤ 2.1 * u * (X * Y) := hd.trans (mul_le_mul_of_nonneg_right k1 XY0)
  have hxy : |x * y| ≤ X * Y := by rw [abs_mul]; exact mul_le_mul hX hY (abs_nonneg _) X0
  have hp : |x' * y'| ≤ (1 + 2.1 * u) * (X * Y) := by
    have : |x' * y'| ≤ |x' * y' - x * y| + |x * y| := by
      have := abs_add_le (x' * y' - x * y) (x * y)
      simpa using this
    nlinarith
  refine ⟨?_, hd'.trans (mul_le_mul_of_nonneg_right (by linarith) XY0)⟩
  have e : A - x * y = (A - x' * y') + (x' * y' - x * y) := by ring
  rw [e]
  refine (abs_add_le _ _).trans ?_
  have h3 : u * |x' * y'| ≤ u * ((1 + 2.1 * u) * (X * Y)) := mul_le_mul_of_nonneg_left hp hu
  have h4 : u * (1 + 2.1 * u) + u ^ 2 + 2.1 * u ≤ 4 * u := by nlinarith
  have h5 := mul_le_mul_of_nonneg_right h4 XY0
  nlinarith

/-! ### The wall -/

theorem quot_unit {N D : ℝ} (hN : 0 ≤ N) (hD : 0 < D) (h : N ≤ D) : 0 ≤ fl (N / D) ∧ fl (N / D) ≤ 1 :=
  ⟨fl_nonneg (div_nonneg hN hD.le), fl_le_float one_isFloat ((div_le_one hD).2 h)⟩

theorem cross_axis {x y w : ℝ} : cross2dR fl (x, y) (0, w) = fl (x * w) := by
  simp only [cross2dR, mul_zero, fl_zero, sub_zero, fl_fl]

/-- Upwards wall, motion to the right. -/
theorem wall_core {ax ay bx by' x0 y0 y1 t : ℝ} (hdx : (2 : ℝ) ^ (-54 : ℤ) ≤ bx - ax) (ht0 : 0 ≤ t) (ht1 : t ≤ 1)
    (hx : ax + t * (bx - ax) = x0) (hdy : |by' - ay| ≤ 1) (hpy : |y0 - ay| ≤ 1) (hw : y1 - y0 ≤ 1)
    (h1 : y0 + 2 ^ (-48 : ℤ) ≤ ay + t * (by' - ay)) (h2 : ay + t * (by' - ay) ≤ y1 - 2 ^ (-48 : ℤ)) :
    detectIntersectR fl (ax, ay) (bx, by') (x0, y0) (x0, y1) = true := by
  have hu : (0 : ℝ) < 2 ^ (-53 : ℤ) := by positivity
  have hv : (0 : ℝ) < 2 ^ (-1075 : ℤ) := by positivity
  have h48 : (2 : ℝ) ^ (-48 : ℤ) = 32 * 2 ^ (-53 : ℤ) := by
    rw [show (-48 : ℤ) = 5 + -53 by norm_num, zpow_add₀ (by norm_num)]; norm_num
  have h54 : (0 : ℝ) < 2 ^ (-54 : ℤ) := by positivity
  have hu1 : (2 : ℝ) ^ (-53 : ℤ) ≤ 1 / 100 := by
    calc (2 : ℝ) ^ (-53 : ℤ) ≤ 2 ^ (-7 : ℤ) := zpow_le_zpow_right₀ (by norm_num) (by norm_num)
      _ ≤ 1 / 100 := by norm_num
  have hvu1 : (2 : ℝ) ^ (-1075 : ℤ) ≤ (2 ^ (-53 : ℤ)) ^ 2 * 2 ^ (-54 : ℤ) := by
    rw [sq, ← zpow_add₀ (by norm_num), ← zpow_add₀ (by norm_num)]
    exact zpow_le_zpow_right₀ (by norm_num) (by norm_num)
  have hvu2 : (2 : ℝ) ^ (-1075 : ℤ) ≤ (2 ^ (-53 : ℤ)) ^ 2 := by
    rw [sq, ← zpow_add₀ (by norm_num)]
    exact zpow_le_zpow_right₀ (by norm_num) (by norm_num)
  have h54' : IsFloat ((2 : ℝ) ^ (-54 : ℤ)) := zpow_isFloat (by norm_num)
  have err := fl_err
  generalize (2 : ℝ) ^ (-48 : ℤ) = η at *
  generalize hue : (2 : ℝ) ^ (-53 : ℤ) = u at *
  generalize (2 : ℝ) ^ (-1075 : ℤ) = v at *
  set dx := bx - ax with hdxe
  set dy := by' - ay with hdye
  set py := y0 - ay with hpye
  have dx0 : 0 < dx := h54.trans_le hdx
  have px0 : 0 ≤ x0 - ax := by rw [← hx]; nlinarith
  have pxd : x0 - ax ≤ dx := by rw [← hx]; nlinarith
  set px := x0 - ax with hpxe
  have hpxt : px = t * dx := by rw [hpxe, ← hx]; ring
  set w := y1 - y0 with hwe
  have hw0 : 64 * u ≤ w := by linarith
  have hvd : v ≤ u ^ 2 * dx := hvu1.trans (mul_le_mul_of_nonneg_left hdx (sq_nonneg u))
  have hvd1 : v ≤ u ^ 2 * (dx * 1) := by rwa [mul_one]
  have hvd2 : v ≤ u ^ 2 * (1 * dx) := by rwa [one_mul]
  have hv1 : v ≤ u ^ 2 * 1 := by rwa [mul_one]
  -- the two products of the second coefficient
  have A := prod_err hu.le hu1 hv.le (abs_le.2 ⟨by linarith, pxd⟩) hdy hvd hv1 hvd1 (err px) (err dy) (err _)
  have B := prod_err hu.le hu1 hv.le hpy (abs_of_pos dx0).le hv1 hvd hvd2 (err py) (err dx) (err _)
  have W := prod_err hu.le hu1 hv.le (abs_of_pos dx0).le (abs_le.2 ⟨by linarith, hw⟩) hvd hv1 hvd1 (err dx) (err w) (err _)
  have A1 := abs_le.1 A.1
  have B1 := abs_le.1 B.1
  have W1 := abs_le.1 W.2
  rw [mul_one] at A1 W1
  rw [one_mul] at B1
  have key : px * dy - py * dx = (ay + t * dy - y0) * dx := by rw [hpxt, hpye]; ring
  have k0 : 32 * u * dx ≤ px * dy - py * dx := by
    rw [key]; exact mul_le_mul_of_nonneg_right (by linarith) dx0.le
  have k1 : px * dy - py * dx ≤ (w - 32 * u) * dx := by
    rw [key]; exact mul_le_mul_of_nonneg_right (by linarith) dx0.le
  have udx : 0 ≤ u * dx := mul_nonneg hu.le dx0.le
  have n0 : 0 ≤ fl (fl px * fl dy) - fl (fl py * fl dx) := by linarith [A1.1, B1.2]
  have n1 : fl (fl px * fl dy) - fl (fl py * fl dx) ≤ fl dx * fl w := by linarith [A1.2, B1.1, W1.1]
  -- the other values
  have dx' : (2 : ℝ) ^ (-54 : ℤ) ≤ fl dx := float_le_fl h54' hdx
  have w54 : (2 : ℝ) ^ (-54 : ℤ) ≤ w := by
    refine le_trans ?_ hw0
    rw [← hue]
    calc (2 : ℝ) ^ (-54 : ℤ) ≤ 2 ^ (-53 : ℤ) := zpow_le_zpow_right₀ (by norm_num) (by norm_num)
      _ ≤ 64 * 2 ^ (-53 : ℤ) := by have : (0 : ℝ) < 2 ^ (-53 : ℤ) := by positivity
                                   linarith
  have w' : (2 : ℝ) ^ (-54 : ℤ) ≤ fl w := float_le_fl h54' w54
  have hD : 0 < fl (fl dx * fl w) := by
    have h108 : (2 : ℝ) ^ (-108 : ℤ) ≤ fl dx * fl w := by
      have := mul_le_mul dx' w' h54.le (h54.le.trans dx')
      rw [← zpow_add₀ (by norm_num)] at this
      exact_mod_cast this
    have := float_le_fl (zpow_isFloat (e := -108) (by norm_num)) h108
    exact lt_of_lt_of_le (by positivity) this
  have px' : 0 ≤ fl px := fl_nonneg px0
  have pd' : fl px ≤ fl dx := fl_mono pxd
  have w'0 : 0 ≤ fl w := h54.le.trans w'
  have q1 := quot_unit (fl_nonneg (mul_nonneg px' w'0)) hD (fl_mono (mul_le_mul_of_nonneg_right pd' w'0))
  have q2 := quot_unit (fl_nonneg n0) hD (fl_mono n1)
  have es : subR fl (x0, y1) (x0, y0) = (0, fl w) := by simp [subR, fl_zero, hwe]
  have ed : subR fl (bx, by') (ax, ay) = (fl dx, fl dy) := rfl
  have ep : subR fl (x0, y0) (ax, ay) = (fl px, fl py) := rfl
  simp only [detectIntersectR, es, ed, ep, cross_axis]
  rw [if_neg hD.ne']
  have e2 : cross2dR fl (fl px, fl py) (fl dx, fl dy) = fl (fl (fl px * fl dy) - fl (fl py * fl dx)) := rfl
  rw [e2]
  simp [q1.1, q1.2, q2.1, q2.2]

/-- Different floats on the two sides of 1/2 are at least `2 ^ -54` apart. -/
theorem half_gap {a b : ℝ} (ha : IsFloat a) (hb : IsFloat b) (hab : a < b) (h1 : a ≤ 1 / 2) (h2 : 1 / 2 ≤ b) :
    (2 : ℝ) ^ (-54 : ℤ) ≤ b - a := by
  have e4 : (2 : ℝ) ^ (-2 : ℤ) = 1 / 4 := by norm_num
  rcases le_total a (1 / 4) with h | h
  · have : (2 : ℝ) ^ (-54 : ℤ) ≤ 2 ^ (-2 : ℤ) := zpow_le_zpow_right₀ (by norm_num) (by norm_num)
    rw [e4] at this
    exact this.trans (by linarith)
  · have h0 : 0 ≤ a := by linarith
    have := add_ulp_le ha hb h0 hab
    have hp : -54 ≤ place a := by
      have hl := lt_place h0
      have h3 : (2 : ℝ) ^ (-2 : ℤ) < 2 ^ (place a + 53) := by rw [e4]; linarith
      have := (zpow_lt_zpow_iff_right₀ (by norm_num : (1 : ℝ) < 2)).1 h3
      omega
    have : (2 : ℝ) ^ (-54 : ℤ) ≤ ulp a := zpow_le_zpow_right₀ (by norm_num) hp
    linarith

/-- Any motion that passes a side wall of the passage well between its ends is detected. -/
theorem wall_hit {ax ay bx by' x0 c t : ℝ} (hax : IsFloat ax) (hbx : IsFloat bx) (hx0 : x0 = -1 / 2 ∨ x0 = 1 / 2) (hne : ax ≠ bx)
    (ht0 : 0 ≤ t) (ht1 : t ≤ 1) (hx : ax + t * (bx - ax) = x0) (hc : 0 ≤ c) (hay : |ay| ≤ 1 / 2) (hby : |by'| ≤ 1 / 2)
    (h1 : c + 2 ^ (-48 : ℤ) ≤ ay + t * (by' - ay)) (h2 : ay + t * (by' - ay) ≤ 1 / 2 - 2 ^ (-48 : ℤ)) :
    detectIntersectR fl (ax, ay) (bx, by') (x0, c) (x0, 1 / 2) = true := by
  rw [abs_le] at hay hby
  have h48 : (0 : ℝ) < 2 ^ (-48 : ℤ) := by positivity
  have hdy : |by' - ay| ≤ 1 := by rw [abs_le]; constructor <;> linarith
  have hpy : |c - ay| ≤ 1 := by rw [abs_le]; constructor <;> linarith
  have gap : ∀ {p q x : ℝ}, IsFloat p → IsFloat q → p < q → x = -1 / 2 ∨ x = 1 / 2 → p ≤ x → x ≤ q → (2 : ℝ) ^ (-54 : ℤ) ≤ q - p := by
    intro p q x hp hq h hxx h1 h2
    rcases hxx with rfl | rfl
    · have := half_gap hq.neg hp.neg (by linarith) (by linarith) (by linarith)
      linarith
    · exact half_gap hp hq h h1 h2
  rcases lt_or_gt_of_ne hne with h | h
  · have a1 : ax ≤ x0 := by rw [← hx]; nlinarith
    have a2 : x0 ≤ bx := by rw [← hx]; nlinarith
    exact wall_core (gap hax hbx h hx0 a1 a2) ht0 ht1 hx hdy hpy (by linarith) h1 h2
  · have a1 : x0 ≤ ax := by rw [← hx]; nlinarith
    have a2 : bx ≤ x0 := by rw [← hx]; nlinarith
    have hg := gap hbx hax h hx0 a2 a1
    have := wall_core (ax := -ax) (bx := -bx) (x0 := -x0) (ay := ay) (by' := by') (y0 := c) (y1 := 1 / 2) (t := t) (by linarith) ht0 ht1
      (by rw [← hx]; ring) hdy hpy (by linarith) h1 h2
    rw [← this]
    exact (detectR_refl1 (ax, ay) (bx, by') (x0, c) (x0, 1 / 2)).symm

/-- Where a straight motion meets a line that separates one of its ends from a point of it. -/
theorem cross_param {a d t τ s x0 : ℝ} (h0 : 0 ≤ τ) (h1 : τ ≤ 1) (hs : s = 0 ∨ s = 1) (hd : d ≠ 0) (hxt : a + t * d = x0)
    (hcr : a + s * d ≤ x0 ∧ x0 < a + τ * d ∨ x0 ≤ a + s * d ∧ a + τ * d < x0) :
    0 ≤ t ∧ t ≤ 1 ∧ (s = 0 → t ≤ τ) ∧ (s = 1 → τ ≤ t) := by
  subst hxt
  have key : (s ≤ t ∧ t < τ) ∨ (τ < t ∧ t ≤ s) := by
    rcases lt_or_gt_of_ne hd with hn | hp
    · rcases hcr with h | h
      · exact .inr ⟨(mul_lt_mul_right_of_neg hn).1 (by linarith), (mul_le_mul_right_of_neg hn).1 (by linarith)⟩
      · exact .inl ⟨(mul_le_mul_right_of_neg hn).1 (by linarith), (mul_lt_mul_right_of_neg hn).1 (by linarith)⟩
    · rcases hcr with h | h
      · exact .inl ⟨(mul_le_mul_iff_left₀ hp).1 (by linarith), (mul_lt_mul_iff_left₀ hp).1 (by linarith)⟩
      · exact .inr ⟨(mul_lt_mul_iff_left₀ hp).1 (by linarith), (mul_le_mul_iff_left₀ hp).1 (by linarith)⟩
  rcases hs with rfl | rfl <;> rcases key with ⟨k1, k2⟩ | ⟨k1, k2⟩
  · exact ⟨k1, by linarith, fun _ => k2.le, fun h => by norm_num at h⟩
  · exact ⟨by linarith, by linarith, fun _ => by linarith, fun h => by norm_num at h⟩
  · exact ⟨by linarith, by linarith, fun h => by norm_num at h, fun _ => by linarith⟩
  · exact ⟨by linarith, k2, fun h => by norm_num at h, fun _ => k1.le⟩

/-- In the plane: if no crossing of a side wall is reported, the motion does not rise above the passage beside it. -/
theorem plane_near {ax ay bx by' c : ℝ} (hax : IsFloat ax) (hbx : IsFloat bx) (hc : 0 ≤ c)
    (hay : |ay| ≤ 1 / 2 - 2 ^ (-48 : ℤ)) (hby : |by'| ≤ 1 / 2 - 2 ^ (-48 : ℤ))
    (ha : ax ≤ -1 / 2 ∨ 1 / 2 ≤ ax ∨ ay ≤ c) (hb : bx ≤ -1 / 2 ∨ 1 / 2 ≤ bx ∨ by' ≤ c)
    (hl : detectIntersectR fl (ax, ay) (bx, by') (-1 / 2, c) (-1 / 2, 1 / 2) = false)
    (hr : detectIntersectR fl (ax, ay) (bx, by') (1 / 2, c) (1 / 2, 1 / 2) = false)
    {τ : ℝ} (h0 : 0 ≤ τ) (h1 : τ ≤ 1) (hx1 : -1 / 2 < ax + τ * (bx - ax)) (hx2 : ax + τ * (bx - ax) < 1 / 2) :
    ay + τ * (by' - ay) ≤ c + 2 ^ (-48 : ℤ) := by
  have h48 : (0 : ℝ) < 2 ^ (-48 : ℤ) := by positivity
  by_contra hcon
  push Not at hcon
  generalize hη : (2 : ℝ) ^ (-48 : ℤ) = η at *
  have hay' : |ay| ≤ 1 / 2 := by linarith
  have hby' : |by'| ≤ 1 / 2 := by linarith
  rw [abs_le] at hay hby
  -- at a crossing of a side wall the motion is low
  have low : ∀ t, 0 ≤ t → t ≤ 1 → ∀ x0, x0 = -1 / 2 ∨ x0 = 1 / 2 → ax ≠ bx → ax + t * (bx - ax) = x0 → ay + t * (by' - ay) ≤ c + η := by
    intro t ht0 ht1 x0 hx0 hne hx
    by_contra hh
    push Not at hh
    have hy : ay + t * (by' - ay) ≤ 1 / 2 - η := by nlinarith
    have := wall_hit hax hbx hx0 hne ht0 ht1 hx hc hay' hby' (by rw [hη]; exact hh.le) (by rw [hη]; exact hy)
    rcases hx0 with rfl | rfl
    · rw [hl] at this; exact absurd this (by decide)
    · rw [hr] at this; exact absurd this (by decide)
  -- before the point the motion is low somewhere, and after it
  have cross : ∀ (s x0 : ℝ), (s = 0 ∨ s = 1) → (x0 = -1 / 2 ∨ x0 = 1 / 2) →
      (ax + s * (bx - ax) ≤ x0 ∧ x0 < ax + τ * (bx - ax) ∨ x0 ≤ ax + s * (bx - ax) ∧ ax + τ * (bx - ax) < x0) →
      ∃ t, 0 ≤ t ∧ t ≤ 1 ∧ (s = 0 → t ≤ τ) ∧ (s = 1 → τ ≤ t) ∧ ay + t * (by' - ay) ≤ c + η := by
    intro s x0 hs hx0 hcr
    have hne : ax ≠ bx := by
      rintro rfl
      rcases hcr with h | h <;> (simp only [sub_self, mul_zero] at h; linarith [h.1, h.2])
    have hd : bx - ax ≠ 0 := sub_ne_zero.2 (Ne.symm hne)
    have hxt : ax + (x0 - ax) / (bx - ax) * (bx - ax) = x0 := by rw [div_mul_cancel₀ _ hd]; ring
    set t := (x0 - ax) / (bx - ax) with htd
    have ht := cross_param h0 h1 hs hd hxt hcr
    exact ⟨t, ht.1, ht.2.1, ht.2.2.1, ht.2.2.2, low t ht.1 ht.2.1 x0 hx0 hne hxt⟩
  obtain ⟨t, _, _, ht, _, hty⟩ : ∃ t, 0 ≤ t ∧ t ≤ 1 ∧ ((0 : ℝ) = 0 → t ≤ τ) ∧ ((0 : ℝ) = 1 → τ ≤ t) ∧ ay + t * (by' - ay) ≤ c + η := by
    rcases ha with h | h | h
    · exact cross 0 (-1 / 2) (.inl rfl) (.inl rfl) (.inl ⟨by linarith, hx1⟩)
    · exact cross 0 (1 / 2) (.inl rfl) (.inr rfl) (.inr ⟨by linarith, hx2⟩)
    · exact ⟨0, le_rfl, zero_le_one, fun _ => h0, fun h => by norm_num at h, by linarith⟩
  obtain ⟨r, _, _, _, hr', hry⟩ : ∃ t, 0 ≤ t ∧ t ≤ 1 ∧ ((1 : ℝ) = 0 → t ≤ τ) ∧ ((1 : ℝ) = 1 → τ ≤ t) ∧ ay + t * (by' - ay) ≤ c + η := by
    rcases hb with h | h | h
    · exact cross 1 (-1 / 2) (.inr rfl) (.inl rfl) (.inl ⟨by linarith, hx1⟩)
    · exact cross 1 (1 / 2) (.inr rfl) (.inr rfl) (.inr ⟨by linarith, hx2⟩)
    · exact ⟨1, zero_le_one, le_rfl, fun h => by norm_num at h, fun _ => h1, by linarith⟩
  have h2 := ht rfl
  have h3 := hr' rfl
  rcases le_total 0 (by' - ay) with h | h
  · have := mul_le_mul_of_nonneg_right h3 h; linarith
  · have := mul_le_mul_of_nonpos_right h2 h; linarith

end Verif.Util
