import Verif.Lemmas.FloatSigned
import Verif.Model.FloatIntersect

/-! A motion through an obstacle that the intersection test in floats accepts: the values of all intermediate results. -/

namespace Verif.Util

open Verif.Float64

/-- The test says no, from the values of its intermediate results. -/
theorem detectR_false {ax ay bx by' cx cy ex ey dx dy sx sy px py d1 d2 D f1 f2 N1 g1 g2 N2 : ℝ}
    (hdx : fl (bx - ax) = dx) (hdy : fl (by' - ay) = dy) (hsx : fl (ex - cx) = sx) (hsy : fl (ey - cy) = sy)
    (hpx : fl (cx - ax) = px) (hpy : fl (cy - ay) = py)
    (hd1 : fl (dx * sy) = d1) (hd2 : fl (dy * sx) = d2) (hD : fl (d1 - d2) = D)
    (hf1 : fl (px * sy) = f1) (hf2 : fl (py * sx) = f2) (hN1 : fl (f1 - f2) = N1)
    (hg1 : fl (px * dy) = g1) (hg2 : fl (py * dx) = g2) (hN2 : fl (g1 - g2) = N2) (hD0 : D ≠ 0)
    (h : fl (N1 / D) < 0 ∨ 1 < fl (N1 / D) ∨ fl (N2 / D) < 0 ∨ 1 < fl (N2 / D)) :
    detectIntersectR fl (ax, ay) (bx, by') (cx, cy) (ex, ey) = false := by
  simp only [detectIntersectR, subR, cross2dR, hdx, hdy, hsx, hsy, hpx, hpy, hd1, hd2, hD, hf1, hf2, hN1, hg1, hg2, hN2]
  rw [if_neg hD0]
  simp only [hD0, decide_false, Bool.false_and, Bool.or_false]
  rcases h with h | h | h | h <;> simp [not_le.2 h]

/-- The test says yes, from the values of its intermediate results. -/
theorem detectR_true {ax ay bx by' cx cy ex ey dx dy sx sy px py d1 d2 D f1 f2 N1 g1 g2 N2 : ℝ}
    (hdx : fl (bx - ax) = dx) (hdy : fl (by' - ay) = dy) (hsx : fl (ex - cx) = sx) (hsy : fl (ey - cy) = sy)
    (hpx : fl (cx - ax) = px) (hpy : fl (cy - ay) = py)
    (hd1 : fl (dx * sy) = d1) (hd2 : fl (dy * sx) = d2) (hD : fl (d1 - d2) = D)
    (hf1 : fl (px * sy) = f1) (hf2 : fl (py * sx) = f2) (hN1 : fl (f1 - f2) = N1)
    (hg1 : fl (px * dy) = g1) (hg2 : fl (py * dx) = g2) (hN2 : fl (g1 - g2) = N2) (hD0 : D ≠ 0)
    (h1 : 0 ≤ fl (N1 / D)) (h2 : fl (N1 / D) ≤ 1) (h3 : 0 ≤ fl (N2 / D)) (h4 : fl (N2 / D) ≤ 1) :
    detectIntersectR fl (ax, ay) (bx, by') (cx, cy) (ex, ey) = true := by
  simp only [detectIntersectR, subR, cross2dR, hdx, hdy, hsx, hsy, hpx, hpy, hd1, hd2, hD, hf1, hf2, hN1, hg1, hg2, hN2]
  rw [if_neg hD0]
  simp [h1, h2, h3, h4]

/-- The motion from (0.7, 0.08) to (-0.5, 0.5) with clearance 0.15. -/
theorem six_walls :
    detectIntersectR fl (fl (7 / 10), fl (8 / 100)) (-1 / 2, 1 / 2) (-1 / 2, fl (15 / 100)) (-1 / 2, 1 / 2) = false ∧
    detectIntersectR fl (fl (7 / 10), fl (8 / 100)) (-1 / 2, 1 / 2) (-1 / 2, -fl (15 / 100)) (-1 / 2, -1 / 2) = false ∧
    detectIntersectR fl (fl (7 / 10), fl (8 / 100)) (-1 / 2, 1 / 2) (-1 / 2, fl (15 / 100)) (1 / 2, fl (15 / 100)) = false ∧
    detectIntersectR fl (fl (7 / 10), fl (8 / 100)) (-1 / 2, 1 / 2) (-1 / 2, -fl (15 / 100)) (1 / 2, -fl (15 / 100)) = false ∧
    detectIntersectR fl (fl (7 / 10), fl (8 / 100)) (-1 / 2, 1 / 2) (1 / 2, fl (15 / 100)) (1 / 2, 1 / 2) = false ∧
    detectIntersectR fl (fl (7 / 10), fl (8 / 100)) (-1 / 2, 1 / 2) (1 / 2, -fl (15 / 100)) (1 / 2, -1 / 2) = false := by
  have e1 : fl (15 / 100) = (5404319552844595 / 36028797018963968) := by
    rw [fl_rat (m := 5404319552844595) (k := 55) (by norm_num) (by norm_num) (by norm_num) (.inl (by rw [abs_lt]; norm_num))]; norm_num
  have e2 : fl (7 / 10) = (3152519739159347 / 4503599627370496) := by
    rw [fl_rat (m := 6305039478318694) (k := 53) (by norm_num) (by norm_num) (by norm_num) (.inl (by rw [abs_lt]; norm_num))]; norm_num
  have e3 : fl (8 / 100) = (5764607523034235 / 72057594037927936) := by
    rw [fl_rat (m := 5764607523034235) (k := 56) (by norm_num) (by norm_num) (by norm_num) (.inl (by rw [abs_lt]; norm_num))]; norm_num
  have e4 : fl (-1 / 2 - (3152519739159347 / 4503599627370496)) = (-(5404319552844595 / 4503599627370496)) := by
    rw [fl_rat_neg (m := 5404319552844595) (k := 52) (by norm_num) (by norm_num) (by norm_num) (.inl (by rw [abs_lt]; norm_num))]; norm_num
  have e5 : fl (1 / 2 - (5764607523034235 / 72057594037927936)) = (7566047373982433 / 18014398509481984) := by
    rw [fl_rat (m := 7566047373982433) (k := 54) (by norm_num) (by norm_num) (by norm_num) (.inl (by rw [abs_lt]; norm_num))]; norm_num
  have e6 : fl ((-1 / 2) - (-1 / 2)) = (0) := by rw [show ((-1 / 2) - (-1 / 2) : ℝ) = 0 by norm_num]; exact fl_zero
  have e7 : fl ((1 / 2) - (5404319552844595 / 36028797018963968)) = (3152519739159347 / 9007199254740992) := by
    rw [fl_rat (m := 6305039478318694) (k := 54) (by norm_num) (by norm_num) (by norm_num) (.inr ⟨by norm_num [abs_of_pos, abs_of_neg], by norm_num⟩)]; norm_num
  have e8 : fl ((-1 / 2) - (3152519739159347 / 4503599627370496)) = (-(5404319552844595 / 4503599627370496)) := by
    rw [fl_rat_neg (m := 5404319552844595) (k := 52) (by norm_num) (by norm_num) (by norm_num) (.inl (by rw [abs_lt]; norm_num))]; norm_num
  have e9 : fl ((5404319552844595 / 36028797018963968) - (5764607523034235 / 72057594037927936)) = (5044031582654955 / 72057594037927936) := by
    rw [fl_rat (m := 5044031582654955) (k := 56) (by norm_num) (by norm_num) (by norm_num) (.inl (by rw [abs_lt]; norm_num))]; norm_num
  have e10 : fl ((-(5404319552844595 / 4503599627370496)) * (3152519739159347 / 9007199254740992)) = (-(7566047373982433 / 18014398509481984)) := by
    rw [fl_rat_neg (m := 7566047373982433) (k := 54) (by norm_num) (by norm_num) (by norm_num) (.inl (by rw [abs_lt]; norm_num))]; norm_num
  have e11 : fl ((7566047373982433 / 18014398509481984) * (0)) = (0) := by rw [show ((7566047373982433 / 18014398509481984) * (0) : ℝ) = 0 by norm_num]; exact fl_zero
  have e12 : fl ((-(7566047373982433 / 18014398509481984)) - (0)) = (-(7566047373982433 / 18014398509481984)) := by
    rw [fl_rat_neg (m := 7566047373982433) (k := 54) (by norm_num) (by norm_num) (by norm_num) (.inl (by rw [abs_lt]; norm_num))]; norm_num
  have e13 : fl ((-(5404319552844595 / 4503599627370496)) * (3152519739159347 / 9007199254740992)) = (-(7566047373982433 / 18014398509481984)) := by
    rw [fl_rat_neg (m := 7566047373982433) (k := 54) (by norm_num) (by norm_num) (by norm_num) (.inl (by rw [abs_lt]; norm_num))]; norm_num
  have e14 : fl ((5044031582654955 / 72057594037927936) * (0)) = (0) := by rw [show ((5044031582654955 / 72057594037927936) * (0) : ℝ) = 0 by norm_num]; exact fl_zero
  have e15 : fl ((-(7566047373982433 / 18014398509481984)) - (0)) = (-(7566047373982433 / 18014398509481984)) := by
    rw [fl_rat_neg (m := 7566047373982433) (k := 54) (by norm_num) (by norm_num) (by norm_num) (.inl (by rw [abs_lt]; norm_num))]; norm_num
  have e16 : fl ((-(5404319552844595 / 4503599627370496)) * (7566047373982433 / 18014398509481984)) = (-(1134907106097365 / 2251799813685248)) := by
    rw [fl_rat_neg (m := 4539628424389460) (k := 53) (by norm_num) (by norm_num) (by norm_num) (.inl (by rw [abs_lt]; norm_num))]; norm_num
  have e17 : fl ((5044031582654955 / 72057594037927936) * (-(5404319552844595 / 4503599627370496))) = (-(3026418949592973 / 36028797018963968)) := by
    rw [fl_rat_neg (m := 6052837899185946) (k := 56) (by norm_num) (by norm_num) (by norm_num) (.inl (by rw [abs_lt]; norm_num))]; norm_num
  have e18 : fl ((-(1134907106097365 / 2251799813685248)) - (-(3026418949592973 / 36028797018963968))) = (-(3783023686991217 / 9007199254740992)) := by
    rw [fl_rat_neg (m := 7566047373982434) (k := 54) (by norm_num) (by norm_num) (by norm_num) (.inr ⟨by norm_num [abs_of_pos, abs_of_neg], by norm_num⟩)]; norm_num
  have e19 : fl ((-(3783023686991217 / 9007199254740992)) / (-(7566047373982433 / 18014398509481984))) = (4503599627370497 / 4503599627370496) := by
    rw [fl_rat (m := 4503599627370497) (k := 52) (by norm_num) (by norm_num) (by norm_num) (.inl (by rw [abs_lt]; norm_num))]; norm_num
  have e20 : fl ((-1 / 2) - (-1 / 2)) = (0) := by rw [show ((-1 / 2) - (-1 / 2) : ℝ) = 0 by norm_num]; exact fl_zero
  have e21 : fl ((-1 / 2) - (-(5404319552844595 / 36028797018963968))) = (-(3152519739159347 / 9007199254740992)) := by
    rw [fl_rat_neg (m := 6305039478318694) (k := 54) (by norm_num) (by norm_num) (by norm_num) (.inr ⟨by norm_num [abs_of_pos, abs_of_neg], by norm_num⟩)]; norm_num
  have e22 : fl ((-1 / 2) - (3152519739159347 / 4503599627370496)) = (-(5404319552844595 / 4503599627370496)) := by
    rw [fl_rat_neg (m := 5404319552844595) (k := 52) (by norm_num) (by norm_num) (by norm_num) (.inl (by rw [abs_lt]; norm_num))]; norm_num
  have e23 : fl ((-(5404319552844595 / 36028797018963968)) - (5764607523034235 / 72057594037927936)) = (-(517913957147607 / 2251799813685248)) := by
    rw [fl_rat_neg (m := 8286623314361712) (k := 55) (by norm_num) (by norm_num) (by norm_num) (.inr ⟨by norm_num [abs_of_pos, abs_of_neg], by norm_num⟩)]; norm_num
  have e24 : fl ((-(5404319552844595 / 4503599627370496)) * (-(3152519739159347 / 9007199254740992))) = (7566047373982433 / 18014398509481984) := by
    rw [fl_rat (m := 7566047373982433) (k := 54) (by norm_num) (by norm_num) (by norm_num) (.inl (by rw [abs_lt]; norm_num))]; norm_num
  have e25 : fl ((7566047373982433 / 18014398509481984) * (0)) = (0) := by rw [show ((7566047373982433 / 18014398509481984) * (0) : ℝ) = 0 by norm_num]; exact fl_zero
  have e26 : fl ((7566047373982433 / 18014398509481984) - (0)) = (7566047373982433 / 18014398509481984) := by
    rw [fl_rat (m := 7566047373982433) (k := 54) (by norm_num) (by norm_num) (by norm_num) (.inl (by rw [abs_lt]; norm_num))]; norm_num
  have e27 : fl ((-(5404319552844595 / 4503599627370496)) * (-(3152519739159347 / 9007199254740992))) = (7566047373982433 / 18014398509481984) := by
    rw [fl_rat (m := 7566047373982433) (k := 54) (by norm_num) (by norm_num) (by norm_num) (.inl (by rw [abs_lt]; norm_num))]; norm_num
  have e28 : fl ((-(517913957147607 / 2251799813685248)) * (0)) = (0) := by rw [show ((-(517913957147607 / 2251799813685248)) * (0) : ℝ) = 0 by norm_num]; exact fl_zero
  have e29 : fl ((7566047373982433 / 18014398509481984) - (0)) = (7566047373982433 / 18014398509481984) := by
    rw [fl_rat (m := 7566047373982433) (k := 54) (by norm_num) (by norm_num) (by norm_num) (.inl (by rw [abs_lt]; norm_num))]; norm_num
  have e30 : fl ((-(5404319552844595 / 4503599627370496)) * (7566047373982433 / 18014398509481984)) = (-(1134907106097365 / 2251799813685248)) := by
    rw [fl_rat_neg (m := 4539628424389460) (k := 53) (by norm_num) (by norm_num) (by norm_num) (.inl (by rw [abs_lt]; norm_num))]; norm_num
  have e31 : fl ((-(517913957147607 / 2251799813685248)) * (-(5404319552844595 / 4503599627370496))) = (4971973988617027 / 18014398509481984) := by
    rw [fl_rat (m := 4971973988617027) (k := 54) (by norm_num) (by norm_num) (by norm_num) (.inl (by rw [abs_lt]; norm_num))]; norm_num
  have e32 : fl ((-(1134907106097365 / 2251799813685248)) - (4971973988617027 / 18014398509481984)) = (-(3512807709348987 / 4503599627370496)) := by
    rw [fl_rat_neg (m := 7025615418697974) (k := 53) (by norm_num) (by norm_num) (by norm_num) (.inr ⟨by norm_num [abs_of_pos, abs_of_neg], by norm_num⟩)]; norm_num
  have e33 : fl ((-(3512807709348987 / 4503599627370496)) / (7566047373982433 / 18014398509481984)) = (-(4181913939701175 / 2251799813685248)) := by
    rw [fl_rat_neg (m := 8363827879402350) (k := 52) (by norm_num) (by norm_num) (by norm_num) (.inl (by rw [abs_lt]; norm_num))]; norm_num
  have e34 : fl ((1 / 2) - (-1 / 2)) = (1) := by
    rw [fl_rat (m := 4503599627370496) (k := 52) (by norm_num) (by norm_num) (by norm_num) (.inl (by rw [abs_lt]; norm_num))]; norm_num
  have e35 : fl ((5404319552844595 / 36028797018963968) - (5404319552844595 / 36028797018963968)) = (0) := by rw [show ((5404319552844595 / 36028797018963968) - (5404319552844595 / 36028797018963968) : ℝ) = 0 by norm_num]; exact fl_zero
  have e36 : fl ((-1 / 2) - (3152519739159347 / 4503599627370496)) = (-(5404319552844595 / 4503599627370496)) := by
    rw [fl_rat_neg (m := 5404319552844595) (k := 52) (by norm_num) (by norm_num) (by norm_num) (.inl (by rw [abs_lt]; norm_num))]; norm_num
  have e37 : fl ((5404319552844595 / 36028797018963968) - (5764607523034235 / 72057594037927936)) = (5044031582654955 / 72057594037927936) := by
    rw [fl_rat (m := 5044031582654955) (k := 56) (by norm_num) (by norm_num) (by norm_num) (.inl (by rw [abs_lt]; norm_num))]; norm_num
  have e38 : fl ((-(5404319552844595 / 4503599627370496)) * (0)) = (0) := by rw [show ((-(5404319552844595 / 4503599627370496)) * (0) : ℝ) = 0 by norm_num]; exact fl_zero
  have e39 : fl ((7566047373982433 / 18014398509481984) * (1)) = (7566047373982433 / 18014398509481984) := by
    rw [fl_rat (m := 7566047373982433) (k := 54) (by norm_num) (by norm_num) (by norm_num) (.inl (by rw [abs_lt]; norm_num))]; norm_num
  have e40 : fl ((0) - (7566047373982433 / 18014398509481984)) = (-(7566047373982433 / 18014398509481984)) := by
    rw [fl_rat_neg (m := 7566047373982433) (k := 54) (by norm_num) (by norm_num) (by norm_num) (.inl (by rw [abs_lt]; norm_num))]; norm_num
  have e41 : fl ((-(5404319552844595 / 4503599627370496)) * (0)) = (0) := by rw [show ((-(5404319552844595 / 4503599627370496)) * (0) : ℝ) = 0 by norm_num]; exact fl_zero
  have e42 : fl ((5044031582654955 / 72057594037927936) * (1)) = (5044031582654955 / 72057594037927936) := by
    rw [fl_rat (m := 5044031582654955) (k := 56) (by norm_num) (by norm_num) (by norm_num) (.inl (by rw [abs_lt]; norm_num))]; norm_num
  have e43 : fl ((0) - (5044031582654955 / 72057594037927936)) = (-(5044031582654955 / 72057594037927936)) := by
    rw [fl_rat_neg (m := 5044031582654955) (k := 56) (by norm_num) (by norm_num) (by norm_num) (.inl (by rw [abs_lt]; norm_num))]; norm_num
  have e44 : fl ((-(5404319552844595 / 4503599627370496)) * (7566047373982433 / 18014398509481984)) = (-(1134907106097365 / 2251799813685248)) := by
    rw [fl_rat_neg (m := 4539628424389460) (k := 53) (by norm_num) (by norm_num) (by norm_num) (.inl (by rw [abs_lt]; norm_num))]; norm_num
  have e45 : fl ((5044031582654955 / 72057594037927936) * (-(5404319552844595 / 4503599627370496))) = (-(3026418949592973 / 36028797018963968)) := by
    rw [fl_rat_neg (m := 6052837899185946) (k := 56) (by norm_num) (by norm_num) (by norm_num) (.inl (by rw [abs_lt]; norm_num))]; norm_num
  have e46 : fl ((-(1134907106097365 / 2251799813685248)) - (-(3026418949592973 / 36028797018963968))) = (-(3783023686991217 / 9007199254740992)) := by
    rw [fl_rat_neg (m := 7566047373982434) (k := 54) (by norm_num) (by norm_num) (by norm_num) (.inr ⟨by norm_num [abs_of_pos, abs_of_neg], by norm_num⟩)]; norm_num
  have e47 : fl ((-(3783023686991217 / 9007199254740992)) / (-(7566047373982433 / 18014398509481984))) = (4503599627370497 / 4503599627370496) := by
    rw [fl_rat (m := 4503599627370497) (k := 52) (by norm_num) (by norm_num) (by norm_num) (.inl (by rw [abs_lt]; norm_num))]; norm_num
  have e48 : fl ((1 / 2) - (-1 / 2)) = (1) := by
    rw [fl_rat (m := 4503599627370496) (k := 52) (by norm_num) (by norm_num) (by norm_num) (.inl (by rw [abs_lt]; norm_num))]; norm_num
  have e49 : fl ((-(5404319552844595 / 36028797018963968)) - (-(5404319552844595 / 36028797018963968))) = (0) := by rw [show ((-(5404319552844595 / 36028797018963968)) - (-(5404319552844595 / 36028797018963968)) : ℝ) = 0 by norm_num]; exact fl_zero
  have e50 : fl ((-1 / 2) - (3152519739159347 / 4503599627370496)) = (-(5404319552844595 / 4503599627370496)) := by
    rw [fl_rat_neg (m := 5404319552844595) (k := 52) (by norm_num) (by norm_num) (by norm_num) (.inl (by rw [abs_lt]; norm_num))]; norm_num
  have e51 : fl ((-(5404319552844595 / 36028797018963968)) - (5764607523034235 / 72057594037927936)) = (-(517913957147607 / 2251799813685248)) := by
    rw [fl_rat_neg (m := 8286623314361712) (k := 55) (by norm_num) (by norm_num) (by norm_num) (.inr ⟨by norm_num [abs_of_pos, abs_of_neg], by norm_num⟩)]; norm_num
  have e52 : fl ((-(5404319552844595 / 4503599627370496)) * (0)) = (0) := by rw [show ((-(5404319552844595 / 4503599627370496)) * (0) : ℝ) = 0 by norm_num]; exact fl_zero
  have e53 : fl ((7566047373982433 / 18014398509481984) * (1)) = (7566047373982433 / 18014398509481984) := by
    rw [fl_rat (m := 7566047373982433) (k := 54) (by norm_num) (by norm_num) (by norm_num) (.inl (by rw [abs_lt]; norm_num))]; norm_num
  have e54 : fl ((0) - (7566047373982433 / 18014398509481984)) = (-(7566047373982433 / 18014398509481984)) := by
    rw [fl_rat_neg (m := 7566047373982433) (k := 54) (by norm_num) (by norm_num) (by norm_num) (.inl (by rw [abs_lt]; norm_num))]; norm_num
  have e55 : fl ((-(5404319552844595 / 4503599627370496)) * (0)) = (0) := by rw [show ((-(5404319552844595 / 4503599627370496)) * (0) : ℝ) = 0 by norm_num]; exact fl_zero
  have e56 : fl ((-(517913957147607 / 2251799813685248)) * (1)) = (-(517913957147607 / 2251799813685248)) := by
    rw [fl_rat_neg (m := 8286623314361712) (k := 55) (by norm_num) (by norm_num) (by norm_num) (.inl (by rw [abs_lt]; norm_num))]; norm_num
  have e57 : fl ((0) - (-(517913957147607 / 2251799813685248))) = (517913957147607 / 2251799813685248) := by
    rw [fl_rat (m := 8286623314361712) (k := 55) (by norm_num) (by norm_num) (by norm_num) (.inl (by rw [abs_lt]; norm_num))]; norm_num
  have e58 : fl ((-(5404319552844595 / 4503599627370496)) * (7566047373982433 / 18014398509481984)) = (-(1134907106097365 / 2251799813685248)) := by
    rw [fl_rat_neg (m := 4539628424389460) (k := 53) (by norm_num) (by norm_num) (by norm_num) (.inl (by rw [abs_lt]; norm_num))]; norm_num
  have e59 : fl ((-(517913957147607 / 2251799813685248)) * (-(5404319552844595 / 4503599627370496))) = (4971973988617027 / 18014398509481984) := by
    rw [fl_rat (m := 4971973988617027) (k := 54) (by norm_num) (by norm_num) (by norm_num) (.inl (by rw [abs_lt]; norm_num))]; norm_num
  have e60 : fl ((-(1134907106097365 / 2251799813685248)) - (4971973988617027 / 18014398509481984)) = (-(3512807709348987 / 4503599627370496)) := by
    rw [fl_rat_neg (m := 7025615418697974) (k := 53) (by norm_num) (by norm_num) (by norm_num) (.inr ⟨by norm_num [abs_of_pos, abs_of_neg], by norm_num⟩)]; norm_num
  have e61 : fl ((517913957147607 / 2251799813685248) / (-(7566047373982433 / 18014398509481984))) = (-(4932513877596257 / 9007199254740992)) := by
    rw [fl_rat_neg (m := 4932513877596257) (k := 53) (by norm_num) (by norm_num) (by norm_num) (.inl (by rw [abs_lt]; norm_num))]; norm_num
  have e62 : fl ((1 / 2) - (1 / 2)) = (0) := by rw [show ((1 / 2) - (1 / 2) : ℝ) = 0 by norm_num]; exact fl_zero
  have e63 : fl ((1 / 2) - (5404319552844595 / 36028797018963968)) = (3152519739159347 / 9007199254740992) := by
    rw [fl_rat (m := 6305039478318694) (k := 54) (by norm_num) (by norm_num) (by norm_num) (.inr ⟨by norm_num [abs_of_pos, abs_of_neg], by norm_num⟩)]; norm_num
  have e64 : fl ((1 / 2) - (3152519739159347 / 4503599627370496)) = (-(900719925474099 / 4503599627370496)) := by
    rw [fl_rat_neg (m := 7205759403792792) (k := 55) (by norm_num) (by norm_num) (by norm_num) (.inl (by rw [abs_lt]; norm_num))]; norm_num
  have e65 : fl ((5404319552844595 / 36028797018963968) - (5764607523034235 / 72057594037927936)) = (5044031582654955 / 72057594037927936) := by
    rw [fl_rat (m := 5044031582654955) (k := 56) (by norm_num) (by norm_num) (by norm_num) (.inl (by rw [abs_lt]; norm_num))]; norm_num
  have e66 : fl ((-(5404319552844595 / 4503599627370496)) * (3152519739159347 / 9007199254740992)) = (-(7566047373982433 / 18014398509481984)) := by
    rw [fl_rat_neg (m := 7566047373982433) (k := 54) (by norm_num) (by norm_num) (by norm_num) (.inl (by rw [abs_lt]; norm_num))]; norm_num
  have e67 : fl ((7566047373982433 / 18014398509481984) * (0)) = (0) := by rw [show ((7566047373982433 / 18014398509481984) * (0) : ℝ) = 0 by norm_num]; exact fl_zero
  have e68 : fl ((-(7566047373982433 / 18014398509481984)) - (0)) = (-(7566047373982433 / 18014398509481984)) := by
    rw [fl_rat_neg (m := 7566047373982433) (k := 54) (by norm_num) (by norm_num) (by norm_num) (.inl (by rw [abs_lt]; norm_num))]; norm_num
  have e69 : fl ((-(900719925474099 / 4503599627370496)) * (3152519739159347 / 9007199254740992)) = (-(2522015791327477 / 36028797018963968)) := by
    rw [fl_rat_neg (m := 5044031582654954) (k := 56) (by norm_num) (by norm_num) (by norm_num) (.inl (by rw [abs_lt]; norm_num))]; norm_num
  have e70 : fl ((5044031582654955 / 72057594037927936) * (0)) = (0) := by rw [show ((5044031582654955 / 72057594037927936) * (0) : ℝ) = 0 by norm_num]; exact fl_zero
  have e71 : fl ((-(2522015791327477 / 36028797018963968)) - (0)) = (-(2522015791327477 / 36028797018963968)) := by
    rw [fl_rat_neg (m := 5044031582654954) (k := 56) (by norm_num) (by norm_num) (by norm_num) (.inl (by rw [abs_lt]; norm_num))]; norm_num
  have e72 : fl ((-(900719925474099 / 4503599627370496)) * (7566047373982433 / 18014398509481984)) = (-(6052837899185945 / 72057594037927936)) := by
    rw [fl_rat_neg (m := 6052837899185945) (k := 56) (by norm_num) (by norm_num) (by norm_num) (.inl (by rw [abs_lt]; norm_num))]; norm_num
  have e73 : fl ((5044031582654955 / 72057594037927936) * (-(5404319552844595 / 4503599627370496))) = (-(3026418949592973 / 36028797018963968)) := by
    rw [fl_rat_neg (m := 6052837899185946) (k := 56) (by norm_num) (by norm_num) (by norm_num) (.inl (by rw [abs_lt]; norm_num))]; norm_num
  have e74 : fl ((-(6052837899185945 / 72057594037927936)) - (-(3026418949592973 / 36028797018963968))) = (1 / 72057594037927936) := by
    rw [fl_rat (m := 4503599627370496) (k := 108) (by norm_num) (by norm_num) (by norm_num) (.inl (by rw [abs_lt]; norm_num))]; norm_num
  have e75 : fl ((1 / 72057594037927936) / (-(7566047373982433 / 18014398509481984))) = (-(5361428127822019 / 162259276829213363391578010288128)) := by
    rw [fl_rat_neg (m := 5361428127822019) (k := 107) (by norm_num) (by norm_num) (by norm_num) (.inl (by rw [abs_lt]; norm_num))]; norm_num
  have e76 : fl ((1 / 2) - (1 / 2)) = (0) := by rw [show ((1 / 2) - (1 / 2) : ℝ) = 0 by norm_num]; exact fl_zero
  have e77 : fl ((-1 / 2) - (-(5404319552844595 / 36028797018963968))) = (-(3152519739159347 / 9007199254740992)) := by
    rw [fl_rat_neg (m := 6305039478318694) (k := 54) (by norm_num) (by norm_num) (by norm_num) (.inr ⟨by norm_num [abs_of_pos, abs_of_neg], by norm_num⟩)]; norm_num
  have e78 : fl ((1 / 2) - (3152519739159347 / 4503599627370496)) = (-(900719925474099 / 4503599627370496)) := by
    rw [fl_rat_neg (m := 7205759403792792) (k := 55) (by norm_num) (by norm_num) (by norm_num) (.inl (by rw [abs_lt]; norm_num))]; norm_num
  have e79 : fl ((-(5404319552844595 / 36028797018963968)) - (5764607523034235 / 72057594037927936)) = (-(517913957147607 / 2251799813685248)) := by
    rw [fl_rat_neg (m := 8286623314361712) (k := 55) (by norm_num) (by norm_num) (by norm_num) (.inr ⟨by norm_num [abs_of_pos, abs_of_neg], by norm_num⟩)]; norm_num
  have e80 : fl ((-(5404319552844595 / 4503599627370496)) * (-(3152519739159347 / 9007199254740992))) = (7566047373982433 / 18014398509481984) := by
    rw [fl_rat (m := 7566047373982433) (k := 54) (by norm_num) (by norm_num) (by norm_num) (.inl (by rw [abs_lt]; norm_num))]; norm_num
  have e81 : fl ((7566047373982433 / 18014398509481984) * (0)) = (0) := by rw [show ((7566047373982433 / 18014398509481984) * (0) : ℝ) = 0 by norm_num]; exact fl_zero
  have e82 : fl ((7566047373982433 / 18014398509481984) - (0)) = (7566047373982433 / 18014398509481984) := by
    rw [fl_rat (m := 7566047373982433) (k := 54) (by norm_num) (by norm_num) (by norm_num) (.inl (by rw [abs_lt]; norm_num))]; norm_num
  have e83 : fl ((-(900719925474099 / 4503599627370496)) * (-(3152519739159347 / 9007199254740992))) = (2522015791327477 / 36028797018963968) := by
    rw [fl_rat (m := 5044031582654954) (k := 56) (by norm_num) (by norm_num) (by norm_num) (.inl (by rw [abs_lt]; norm_num))]; norm_num
  have e84 : fl ((-(517913957147607 / 2251799813685248)) * (0)) = (0) := by rw [show ((-(517913957147607 / 2251799813685248)) * (0) : ℝ) = 0 by norm_num]; exact fl_zero
  have e85 : fl ((2522015791327477 / 36028797018963968) - (0)) = (2522015791327477 / 36028797018963968) := by
    rw [fl_rat (m := 5044031582654954) (k := 56) (by norm_num) (by norm_num) (by norm_num) (.inl (by rw [abs_lt]; norm_num))]; norm_num
  have e86 : fl ((-(900719925474099 / 4503599627370496)) * (7566047373982433 / 18014398509481984)) = (-(6052837899185945 / 72057594037927936)) := by
    rw [fl_rat_neg (m := 6052837899185945) (k := 56) (by norm_num) (by norm_num) (by norm_num) (.inl (by rw [abs_lt]; norm_num))]; norm_num
  have e87 : fl ((-(517913957147607 / 2251799813685248)) * (-(5404319552844595 / 4503599627370496))) = (4971973988617027 / 18014398509481984) := by
    rw [fl_rat (m := 4971973988617027) (k := 54) (by norm_num) (by norm_num) (by norm_num) (.inl (by rw [abs_lt]; norm_num))]; norm_num
  have e88 : fl ((-(6052837899185945 / 72057594037927936)) - (4971973988617027 / 18014398509481984)) = (-(6485183463413513 / 18014398509481984)) := by
    rw [fl_rat_neg (m := 6485183463413513) (k := 54) (by norm_num) (by norm_num) (by norm_num) (.inl (by rw [abs_lt]; norm_num))]; norm_num
  have e89 : fl ((-(6485183463413513 / 18014398509481984)) / (7566047373982433 / 18014398509481984)) = (-(3860228252031853 / 4503599627370496)) := by
    rw [fl_rat_neg (m := 7720456504063706) (k := 53) (by norm_num) (by norm_num) (by norm_num) (.inl (by rw [abs_lt]; norm_num))]; norm_num
  have w0 : detectIntersectR fl ((3152519739159347 / 4503599627370496), (5764607523034235 / 72057594037927936)) (-1 / 2, 1 / 2) ((-1 / 2), (5404319552844595 / 36028797018963968)) ((-1 / 2), (1 / 2)) = false :=
    detectR_false e4 e5 e6 e7 e8 e9 e10 e11 e12 e13 e14 e15 e16 e17 e18 (by norm_num) (.inr (.inr (.inr (by rw [e19]; norm_num))))
  have w1 : detectIntersectR fl ((3152519739159347 / 4503599627370496), (5764607523034235 / 72057594037927936)) (-1 / 2, 1 / 2) ((-1 / 2), (-(5404319552844595 / 36028797018963968))) ((-1 / 2), (-1 / 2)) = false :=
    detectR_false e4 e5 e20 e21 e22 e23 e24 e25 e26 e27 e28 e29 e30 e31 e32 (by norm_num) (.inr (.inr (.inl (by rw [e33]; norm_num))))
  have w2 : detectIntersectR fl ((3152519739159347 / 4503599627370496), (5764607523034235 / 72057594037927936)) (-1 / 2, 1 / 2) ((-1 / 2), (5404319552844595 / 36028797018963968)) ((1 / 2), (5404319552844595 / 36028797018963968)) = false :=
    detectR_false e4 e5 e34 e35 e36 e37 e38 e39 e40 e41 e42 e43 e44 e45 e46 (by norm_num) (.inr (.inr (.inr (by rw [e47]; norm_num))))
  have w3 : detectIntersectR fl ((3152519739159347 / 4503599627370496), (5764607523034235 / 72057594037927936)) (-1 / 2, 1 / 2) ((-1 / 2), (-(5404319552844595 / 36028797018963968))) ((1 / 2), (-(5404319552844595 / 36028797018963968))) = false :=
    detectR_false e4 e5 e48 e49 e50 e51 e52 e53 e54 e55 e56 e57 e58 e59 e60 (by norm_num) (.inl (by rw [e61]; norm_num))
  have w4 : detectIntersectR fl ((3152519739159347 / 4503599627370496), (5764607523034235 / 72057594037927936)) (-1 / 2, 1 / 2) ((1 / 2), (5404319552844595 / 36028797018963968)) ((1 / 2), (1 / 2)) = false :=
    detectR_false e4 e5 e62 e63 e64 e65 e66 e67 e68 e69 e70 e71 e72 e73 e74 (by norm_num) (.inr (.inr (.inl (by rw [e75]; norm_num))))
  have w5 : detectIntersectR fl ((3152519739159347 / 4503599627370496), (5764607523034235 / 72057594037927936)) (-1 / 2, 1 / 2) ((1 / 2), (-(5404319552844595 / 36028797018963968))) ((1 / 2), (-1 / 2)) = false :=
    detectR_false e4 e5 e76 e77 e78 e79 e80 e81 e82 e83 e84 e85 e86 e87 e88 (by norm_num) (.inr (.inr (.inl (by rw [e89]; norm_num))))
  rw [e1, e2, e3]
  exact ⟨w0, w1, w2, w3, w4, w5⟩

/-- The way back. -/
theorem left_wall_back :
    detectIntersectR fl (-1 / 2, 1 / 2) (fl (7 / 10), fl (8 / 100)) (-1 / 2, fl (15 / 100)) (-1 / 2, 1 / 2) = true := by
  have e1 : fl (15 / 100) = (5404319552844595 / 36028797018963968) := by
    rw [fl_rat (m := 5404319552844595) (k := 55) (by norm_num) (by norm_num) (by norm_num) (.inl (by rw [abs_lt]; norm_num))]; norm_num
  have e2 : fl (7 / 10) = (3152519739159347 / 4503599627370496) := by
    rw [fl_rat (m := 6305039478318694) (k := 53) (by norm_num) (by norm_num) (by norm_num) (.inl (by rw [abs_lt]; norm_num))]; norm_num
  have e3 : fl (8 / 100) = (5764607523034235 / 72057594037927936) := by
    rw [fl_rat (m := 5764607523034235) (k := 56) (by norm_num) (by norm_num) (by norm_num) (.inl (by rw [abs_lt]; norm_num))]; norm_num
  have e4 : fl ((3152519739159347 / 4503599627370496) - (-1 / 2)) = (5404319552844595 / 4503599627370496) := by
    rw [fl_rat (m := 5404319552844595) (k := 52) (by norm_num) (by norm_num) (by norm_num) (.inl (by rw [abs_lt]; norm_num))]; norm_num
  have e5 : fl ((5764607523034235 / 72057594037927936) - 1 / 2) = (-(7566047373982433 / 18014398509481984)) := by
    rw [fl_rat_neg (m := 7566047373982433) (k := 54) (by norm_num) (by norm_num) (by norm_num) (.inl (by rw [abs_lt]; norm_num))]; norm_num
  have e6 : fl ((-1 / 2) - (-1 / 2)) = (0) := by rw [show ((-1 / 2) - (-1 / 2) : ℝ) = 0 by norm_num]; exact fl_zero
  have e7 : fl ((1 / 2) - (5404319552844595 / 36028797018963968)) = (3152519739159347 / 9007199254740992) := by
    rw [fl_rat (m := 6305039478318694) (k := 54) (by norm_num) (by norm_num) (by norm_num) (.inr ⟨by norm_num [abs_of_pos, abs_of_neg], by norm_num⟩)]; norm_num
  have e8 : fl ((-1 / 2) - (-1 / 2)) = (0) := by rw [show ((-1 / 2) - (-1 / 2) : ℝ) = 0 by norm_num]; exact fl_zero
  have e9 : fl ((5404319552844595 / 36028797018963968) - 1 / 2) = (-(3152519739159347 / 9007199254740992)) := by
    rw [fl_rat_neg (m := 6305039478318694) (k := 54) (by norm_num) (by norm_num) (by norm_num) (.inr ⟨by norm_num [abs_of_pos, abs_of_neg], by norm_num⟩)]; norm_num
  have e10 : fl ((5404319552844595 / 4503599627370496) * (3152519739159347 / 9007199254740992)) = (7566047373982433 / 18014398509481984) := by
    rw [fl_rat (m := 7566047373982433) (k := 54) (by norm_num) (by norm_num) (by norm_num) (.inl (by rw [abs_lt]; norm_num))]; norm_num
  have e11 : fl ((-(7566047373982433 / 18014398509481984)) * (0)) = (0) := by rw [show ((-(7566047373982433 / 18014398509481984)) * (0) : ℝ) = 0 by norm_num]; exact fl_zero
  have e12 : fl ((7566047373982433 / 18014398509481984) - (0)) = (7566047373982433 / 18014398509481984) := by
    rw [fl_rat (m := 7566047373982433) (k := 54) (by norm_num) (by norm_num) (by norm_num) (.inl (by rw [abs_lt]; norm_num))]; norm_num
  have e13 : fl ((0) * (3152519739159347 / 9007199254740992)) = (0) := by rw [show ((0) * (3152519739159347 / 9007199254740992) : ℝ) = 0 by norm_num]; exact fl_zero
  have e14 : fl ((-(3152519739159347 / 9007199254740992)) * (0)) = (0) := by rw [show ((-(3152519739159347 / 9007199254740992)) * (0) : ℝ) = 0 by norm_num]; exact fl_zero
  have e15 : fl ((0) - (0)) = (0) := by rw [show ((0) - (0) : ℝ) = 0 by norm_num]; exact fl_zero
  have e16 : fl ((0) * (-(7566047373982433 / 18014398509481984))) = (0) := by rw [show ((0) * (-(7566047373982433 / 18014398509481984)) : ℝ) = 0 by norm_num]; exact fl_zero
  have e17 : fl ((-(3152519739159347 / 9007199254740992)) * (5404319552844595 / 4503599627370496)) = (-(7566047373982433 / 18014398509481984)) := by
    rw [fl_rat_neg (m := 7566047373982433) (k := 54) (by norm_num) (by norm_num) (by norm_num) (.inl (by rw [abs_lt]; norm_num))]; norm_num
  have e18 : fl ((0) - (-(7566047373982433 / 18014398509481984))) = (7566047373982433 / 18014398509481984) := by
    rw [fl_rat (m := 7566047373982433) (k := 54) (by norm_num) (by norm_num) (by norm_num) (.inl (by rw [abs_lt]; norm_num))]; norm_num
  have e19 : fl ((0) / (7566047373982433 / 18014398509481984)) = (0) := by rw [show ((0) / (7566047373982433 / 18014398509481984) : ℝ) = 0 by norm_num]; exact fl_zero
  have e20 : fl ((7566047373982433 / 18014398509481984) / (7566047373982433 / 18014398509481984)) = (1) := by
    rw [fl_rat (m := 4503599627370496) (k := 52) (by norm_num) (by norm_num) (by norm_num) (.inl (by rw [abs_lt]; norm_num))]; norm_num
  rw [e1, e2, e3]
  exact detectR_true e4 e5 e6 e7 e8 e9 e10 e11 e12 e13 e14 e15 e16 e17 e18 (by norm_num) (by rw [e19] <;> norm_num) (by rw [e19] <;> norm_num) (by rw [e20] <;> norm_num) (by rw [e20] <;> norm_num)

/-- A motion through the passage. -/
theorem six_walls_clear :
    detectIntersectR fl (-1, 1 / 16) (1, -1 / 16) (-1 / 2, 1 / 8) (-1 / 2, 1 / 2) = false ∧
    detectIntersectR fl (-1, 1 / 16) (1, -1 / 16) (-1 / 2, -(1 / 8)) (-1 / 2, -1 / 2) = false ∧
    detectIntersectR fl (-1, 1 / 16) (1, -1 / 16) (-1 / 2, 1 / 8) (1 / 2, 1 / 8) = false ∧
    detectIntersectR fl (-1, 1 / 16) (1, -1 / 16) (-1 / 2, -(1 / 8)) (1 / 2, -(1 / 8)) = false ∧
    detectIntersectR fl (-1, 1 / 16) (1, -1 / 16) (1 / 2, 1 / 8) (1 / 2, 1 / 2) = false ∧
    detectIntersectR fl (-1, 1 / 16) (1, -1 / 16) (1 / 2, -(1 / 8)) (1 / 2, -1 / 2) = false := by
  have e1 : fl (1 - (-1)) = (2) := by
    rw [fl_rat (m := 4503599627370496) (k := 51) (by norm_num) (by norm_num) (by norm_num) (.inl (by rw [abs_lt]; norm_num))]; norm_num
  have e2 : fl (-1 / 16 - (1 / 16)) = (-(1 / 8)) := by
    rw [fl_rat_neg (m := 4503599627370496) (k := 55) (by norm_num) (by norm_num) (by norm_num) (.inl (by rw [abs_lt]; norm_num))]; norm_num
  have e3 : fl ((-1 / 2) - (-1 / 2)) = (0) := by rw [show ((-1 / 2) - (-1 / 2) : ℝ) = 0 by norm_num]; exact fl_zero
  have e4 : fl ((1 / 2) - (1 / 8)) = (3 / 8) := by
    rw [fl_rat (m := 6755399441055744) (k := 54) (by norm_num) (by norm_num) (by norm_num) (.inl (by rw [abs_lt]; norm_num))]; norm_num
  have e5 : fl ((-1 / 2) - (-1)) = (1 / 2) := by
    rw [fl_rat (m := 4503599627370496) (k := 53) (by norm_num) (by norm_num) (by norm_num) (.inl (by rw [abs_lt]; norm_num))]; norm_num
  have e6 : fl ((1 / 8) - (1 / 16)) = (1 / 16) := by
    rw [fl_rat (m := 4503599627370496) (k := 56) (by norm_num) (by norm_num) (by norm_num) (.inl (by rw [abs_lt]; norm_num))]; norm_num
  have e7 : fl ((2) * (3 / 8)) = (3 / 4) := by
    rw [fl_rat (m := 6755399441055744) (k := 53) (by norm_num) (by norm_num) (by norm_num) (.inl (by rw [abs_lt]; norm_num))]; norm_num
  have e8 : fl ((-(1 / 8)) * (0)) = (0) := by rw [show ((-(1 / 8)) * (0) : ℝ) = 0 by norm_num]; exact fl_zero
  have e9 : fl ((3 / 4) - (0)) = (3 / 4) := by
    rw [fl_rat (m := 6755399441055744) (k := 53) (by norm_num) (by norm_num) (by norm_num) (.inl (by rw [abs_lt]; norm_num))]; norm_num
  have e10 : fl ((1 / 2) * (3 / 8)) = (3 / 16) := by
    rw [fl_rat (m := 6755399441055744) (k := 55) (by norm_num) (by norm_num) (by norm_num) (.inl (by rw [abs_lt]; norm_num))]; norm_num
  have e11 : fl ((1 / 16) * (0)) = (0) := by rw [show ((1 / 16) * (0) : ℝ) = 0 by norm_num]; exact fl_zero
  have e12 : fl ((3 / 16) - (0)) = (3 / 16) := by
    rw [fl_rat (m := 6755399441055744) (k := 55) (by norm_num) (by norm_num) (by norm_num) (.inl (by rw [abs_lt]; norm_num))]; norm_num
  have e13 : fl ((1 / 2) * (-(1 / 8))) = (-(1 / 16)) := by
    rw [fl_rat_neg (m := 4503599627370496) (k := 56) (by norm_num) (by norm_num) (by norm_num) (.inl (by rw [abs_lt]; norm_num))]; norm_num
  have e14 : fl ((1 / 16) * (2)) = (1 / 8) := by
    rw [fl_rat (m := 4503599627370496) (k := 55) (by norm_num) (by norm_num) (by norm_num) (.inl (by rw [abs_lt]; norm_num))]; norm_num
  have e15 : fl ((-(1 / 16)) - (1 / 8)) = (-(3 / 16)) := by
    rw [fl_rat_neg (m := 6755399441055744) (k := 55) (by norm_num) (by norm_num) (by norm_num) (.inl (by rw [abs_lt]; norm_num))]; norm_num
  have e16 : fl ((-(3 / 16)) / (3 / 4)) = (-(1 / 4)) := by
    rw [fl_rat_neg (m := 4503599627370496) (k := 54) (by norm_num) (by norm_num) (by norm_num) (.inl (by rw [abs_lt]; norm_num))]; norm_num
  have e17 : fl ((-1 / 2) - (-1 / 2)) = (0) := by rw [show ((-1 / 2) - (-1 / 2) : ℝ) = 0 by norm_num]; exact fl_zero
  have e18 : fl ((-1 / 2) - (-(1 / 8))) = (-(3 / 8)) := by
    rw [fl_rat_neg (m := 6755399441055744) (k := 54) (by norm_num) (by norm_num) (by norm_num) (.inl (by rw [abs_lt]; norm_num))]; norm_num
  have e19 : fl ((-1 / 2) - (-1)) = (1 / 2) := by
    rw [fl_rat (m := 4503599627370496) (k := 53) (by norm_num) (by norm_num) (by norm_num) (.inl (by rw [abs_lt]; norm_num))]; norm_num
  have e20 : fl ((-(1 / 8)) - (1 / 16)) = (-(3 / 16)) := by
    rw [fl_rat_neg (m := 6755399441055744) (k := 55) (by norm_num) (by norm_num) (by norm_num) (.inl (by rw [abs_lt]; norm_num))]; norm_num
  have e21 : fl ((2) * (-(3 / 8))) = (-(3 / 4)) := by
    rw [fl_rat_neg (m := 6755399441055744) (k := 53) (by norm_num) (by norm_num) (by norm_num) (.inl (by rw [abs_lt]; norm_num))]; norm_num
  have e22 : fl ((-(1 / 8)) * (0)) = (0) := by rw [show ((-(1 / 8)) * (0) : ℝ) = 0 by norm_num]; exact fl_zero
  have e23 : fl ((-(3 / 4)) - (0)) = (-(3 / 4)) := by
    rw [fl_rat_neg (m := 6755399441055744) (k := 53) (by norm_num) (by norm_num) (by norm_num) (.inl (by rw [abs_lt]; norm_num))]; norm_num
  have e24 : fl ((1 / 2) * (-(3 / 8))) = (-(3 / 16)) := by
    rw [fl_rat_neg (m := 6755399441055744) (k := 55) (by norm_num) (by norm_num) (by norm_num) (.inl (by rw [abs_lt]; norm_num))]; norm_num
  have e25 : fl ((-(3 / 16)) * (0)) = (0) := by rw [show ((-(3 / 16)) * (0) : ℝ) = 0 by norm_num]; exact fl_zero
  have e26 : fl ((-(3 / 16)) - (0)) = (-(3 / 16)) := by
    rw [fl_rat_neg (m := 6755399441055744) (k := 55) (by norm_num) (by norm_num) (by norm_num) (.inl (by rw [abs_lt]; norm_num))]; norm_num
  have e27 : fl ((1 / 2) * (-(1 / 8))) = (-(1 / 16)) := by
    rw [fl_rat_neg (m := 4503599627370496) (k := 56) (by norm_num) (by norm_num) (by norm_num) (.inl (by rw [abs_lt]; norm_num))]; norm_num
  have e28 : fl ((-(3 / 16)) * (2)) = (-(3 / 8)) := by
    rw [fl_rat_neg (m := 6755399441055744) (k := 54) (by norm_num) (by norm_num) (by norm_num) (.inl (by rw [abs_lt]; norm_num))]; norm_num
  have e29 : fl ((-(1 / 16)) - (-(3 / 8))) = (5 / 16) := by
    rw [fl_rat (m := 5629499534213120) (k := 54) (by norm_num) (by norm_num) (by norm_num) (.inl (by rw [abs_lt]; norm_num))]; norm_num
  have e30 : fl ((5 / 16) / (-(3 / 4))) = (-(7505999378950827 / 18014398509481984)) := by
    rw [fl_rat_neg (m := 7505999378950827) (k := 54) (by norm_num) (by norm_num) (by norm_num) (.inl (by rw [abs_lt]; norm_num))]; norm_num
  have e31 : fl ((1 / 2) - (-1 / 2)) = (1) := by
    rw [fl_rat (m := 4503599627370496) (k := 52) (by norm_num) (by norm_num) (by norm_num) (.inl (by rw [abs_lt]; norm_num))]; norm_num
  have e32 : fl ((1 / 8) - (1 / 8)) = (0) := by rw [show ((1 / 8) - (1 / 8) : ℝ) = 0 by norm_num]; exact fl_zero
  have e33 : fl ((-1 / 2) - (-1)) = (1 / 2) := by
    rw [fl_rat (m := 4503599627370496) (k := 53) (by norm_num) (by norm_num) (by norm_num) (.inl (by rw [abs_lt]; norm_num))]; norm_num
  have e34 : fl ((1 / 8) - (1 / 16)) = (1 / 16) := by
    rw [fl_rat (m := 4503599627370496) (k := 56) (by norm_num) (by norm_num) (by norm_num) (.inl (by rw [abs_lt]; norm_num))]; norm_num
  have e35 : fl ((2) * (0)) = (0) := by rw [show ((2) * (0) : ℝ) = 0 by norm_num]; exact fl_zero
  have e36 : fl ((-(1 / 8)) * (1)) = (-(1 / 8)) := by
    rw [fl_rat_neg (m := 4503599627370496) (k := 55) (by norm_num) (by norm_num) (by norm_num) (.inl (by rw [abs_lt]; norm_num))]; norm_num
  have e37 : fl ((0) - (-(1 / 8))) = (1 / 8) := by
    rw [fl_rat (m := 4503599627370496) (k := 55) (by norm_num) (by norm_num) (by norm_num) (.inl (by rw [abs_lt]; norm_num))]; norm_num
  have e38 : fl ((1 / 2) * (0)) = (0) := by rw [show ((1 / 2) * (0) : ℝ) = 0 by norm_num]; exact fl_zero
  have e39 : fl ((1 / 16) * (1)) = (1 / 16) := by
    rw [fl_rat (m := 4503599627370496) (k := 56) (by norm_num) (by norm_num) (by norm_num) (.inl (by rw [abs_lt]; norm_num))]; norm_num
  have e40 : fl ((0) - (1 / 16)) = (-(1 / 16)) := by
    rw [fl_rat_neg (m := 4503599627370496) (k := 56) (by norm_num) (by norm_num) (by norm_num) (.inl (by rw [abs_lt]; norm_num))]; norm_num
  have e41 : fl ((1 / 2) * (-(1 / 8))) = (-(1 / 16)) := by
    rw [fl_rat_neg (m := 4503599627370496) (k := 56) (by norm_num) (by norm_num) (by norm_num) (.inl (by rw [abs_lt]; norm_num))]; norm_num
  have e42 : fl ((1 / 16) * (2)) = (1 / 8) := by
    rw [fl_rat (m := 4503599627370496) (k := 55) (by norm_num) (by norm_num) (by norm_num) (.inl (by rw [abs_lt]; norm_num))]; norm_num
  have e43 : fl ((-(1 / 16)) - (1 / 8)) = (-(3 / 16)) := by
    rw [fl_rat_neg (m := 6755399441055744) (k := 55) (by norm_num) (by norm_num) (by norm_num) (.inl (by rw [abs_lt]; norm_num))]; norm_num
  have e44 : fl ((-(1 / 16)) / (1 / 8)) = (-1 / 2) := by
    rw [fl_rat_neg (m := 4503599627370496) (k := 53) (by norm_num) (by norm_num) (by norm_num) (.inl (by rw [abs_lt]; norm_num))]; norm_num
  have e45 : fl ((1 / 2) - (-1 / 2)) = (1) := by
    rw [fl_rat (m := 4503599627370496) (k := 52) (by norm_num) (by norm_num) (by norm_num) (.inl (by rw [abs_lt]; norm_num))]; norm_num
  have e46 : fl ((-(1 / 8)) - (-(1 / 8))) = (0) := by rw [show ((-(1 / 8)) - (-(1 / 8)) : ℝ) = 0 by norm_num]; exact fl_zero
  have e47 : fl ((-1 / 2) - (-1)) = (1 / 2) := by
    rw [fl_rat (m := 4503599627370496) (k := 53) (by norm_num) (by norm_num) (by norm_num) (.inl (by rw [abs_lt]; norm_num))]; norm_num
  have e48 : fl ((-(1 / 8)) - (1 / 16)) = (-(3 / 16)) := by
    rw [fl_rat_neg (m := 6755399441055744) (k := 55) (by norm_num) (by norm_num) (by norm_num) (.inl (by rw [abs_lt]; norm_num))]; norm_num
  have e49 : fl ((2) * (0)) = (0) := by rw [show ((2) * (0) : ℝ) = 0 by norm_num]; exact fl_zero
  have e50 : fl ((-(1 / 8)) * (1)) = (-(1 / 8)) := by
    rw [fl_rat_neg (m := 4503599627370496) (k := 55) (by norm_num) (by norm_num) (by norm_num) (.inl (by rw [abs_lt]; norm_num))]; norm_num
  have e51 : fl ((0) - (-(1 / 8))) = (1 / 8) := by
    rw [fl_rat (m := 4503599627370496) (k := 55) (by norm_num) (by norm_num) (by norm_num) (.inl (by rw [abs_lt]; norm_num))]; norm_num
  have e52 : fl ((1 / 2) * (0)) = (0) := by rw [show ((1 / 2) * (0) : ℝ) = 0 by norm_num]; exact fl_zero
  have e53 : fl ((-(3 / 16)) * (1)) = (-(3 / 16)) := by
    rw [fl_rat_neg (m := 6755399441055744) (k := 55) (by norm_num) (by norm_num) (by norm_num) (.inl (by rw [abs_lt]; norm_num))]; norm_num
  have e54 : fl ((0) - (-(3 / 16))) = (3 / 16) := by
    rw [fl_rat (m := 6755399441055744) (k := 55) (by norm_num) (by norm_num) (by norm_num) (.inl (by rw [abs_lt]; norm_num))]; norm_num
  have e55 : fl ((1 / 2) * (-(1 / 8))) = (-(1 / 16)) := by
    rw [fl_rat_neg (m := 4503599627370496) (k := 56) (by norm_num) (by norm_num) (by norm_num) (.inl (by rw [abs_lt]; norm_num))]; norm_num
  have e56 : fl ((-(3 / 16)) * (2)) = (-(3 / 8)) := by
    rw [fl_rat_neg (m := 6755399441055744) (k := 54) (by norm_num) (by norm_num) (by norm_num) (.inl (by rw [abs_lt]; norm_num))]; norm_num
  have e57 : fl ((-(1 / 16)) - (-(3 / 8))) = (5 / 16) := by
    rw [fl_rat (m := 5629499534213120) (k := 54) (by norm_num) (by norm_num) (by norm_num) (.inl (by rw [abs_lt]; norm_num))]; norm_num
  have e58 : fl ((3 / 16) / (1 / 8)) = (3 / 2) := by
    rw [fl_rat (m := 6755399441055744) (k := 52) (by norm_num) (by norm_num) (by norm_num) (.inl (by rw [abs_lt]; norm_num))]; norm_num
  have e59 : fl ((1 / 2) - (1 / 2)) = (0) := by rw [show ((1 / 2) - (1 / 2) : ℝ) = 0 by norm_num]; exact fl_zero
  have e60 : fl ((1 / 2) - (1 / 8)) = (3 / 8) := by
    rw [fl_rat (m := 6755399441055744) (k := 54) (by norm_num) (by norm_num) (by norm_num) (.inl (by rw [abs_lt]; norm_num))]; norm_num
  have e61 : fl ((1 / 2) - (-1)) = (3 / 2) := by
    rw [fl_rat (m := 6755399441055744) (k := 52) (by norm_num) (by norm_num) (by norm_num) (.inl (by rw [abs_lt]; norm_num))]; norm_num
  have e62 : fl ((1 / 8) - (1 / 16)) = (1 / 16) := by
    rw [fl_rat (m := 4503599627370496) (k := 56) (by norm_num) (by norm_num) (by norm_num) (.inl (by rw [abs_lt]; norm_num))]; norm_num
  have e63 : fl ((2) * (3 / 8)) = (3 / 4) := by
    rw [fl_rat (m := 6755399441055744) (k := 53) (by norm_num) (by norm_num) (by norm_num) (.inl (by rw [abs_lt]; norm_num))]; norm_num
  have e64 : fl ((-(1 / 8)) * (0)) = (0) := by rw [show ((-(1 / 8)) * (0) : ℝ) = 0 by norm_num]; exact fl_zero
  have e65 : fl ((3 / 4) - (0)) = (3 / 4) := by
    rw [fl_rat (m := 6755399441055744) (k := 53) (by norm_num) (by norm_num) (by norm_num) (.inl (by rw [abs_lt]; norm_num))]; norm_num
  have e66 : fl ((3 / 2) * (3 / 8)) = (9 / 16) := by
    rw [fl_rat (m := 5066549580791808) (k := 53) (by norm_num) (by norm_num) (by norm_num) (.inl (by rw [abs_lt]; norm_num))]; norm_num
  have e67 : fl ((1 / 16) * (0)) = (0) := by rw [show ((1 / 16) * (0) : ℝ) = 0 by norm_num]; exact fl_zero
  have e68 : fl ((9 / 16) - (0)) = (9 / 16) := by
    rw [fl_rat (m := 5066549580791808) (k := 53) (by norm_num) (by norm_num) (by norm_num) (.inl (by rw [abs_lt]; norm_num))]; norm_num
  have e69 : fl ((3 / 2) * (-(1 / 8))) = (-(3 / 16)) := by
    rw [fl_rat_neg (m := 6755399441055744) (k := 55) (by norm_num) (by norm_num) (by norm_num) (.inl (by rw [abs_lt]; norm_num))]; norm_num
  have e70 : fl ((1 / 16) * (2)) = (1 / 8) := by
    rw [fl_rat (m := 4503599627370496) (k := 55) (by norm_num) (by norm_num) (by norm_num) (.inl (by rw [abs_lt]; norm_num))]; norm_num
  have e71 : fl ((-(3 / 16)) - (1 / 8)) = (-(5 / 16)) := by
    rw [fl_rat_neg (m := 5629499534213120) (k := 54) (by norm_num) (by norm_num) (by norm_num) (.inl (by rw [abs_lt]; norm_num))]; norm_num
  have e72 : fl ((-(5 / 16)) / (3 / 4)) = (-(7505999378950827 / 18014398509481984)) := by
    rw [fl_rat_neg (m := 7505999378950827) (k := 54) (by norm_num) (by norm_num) (by norm_num) (.inl (by rw [abs_lt]; norm_num))]; norm_num
  have e73 : fl ((1 / 2) - (1 / 2)) = (0) := by rw [show ((1 / 2) - (1 / 2) : ℝ) = 0 by norm_num]; exact fl_zero
  have e74 : fl ((-1 / 2) - (-(1 / 8))) = (-(3 / 8)) := by
    rw [fl_rat_neg (m := 6755399441055744) (k := 54) (by norm_num) (by norm_num) (by norm_num) (.inl (by rw [abs_lt]; norm_num))]; norm_num
  have e75 : fl ((1 / 2) - (-1)) = (3 / 2) := by
    rw [fl_rat (m := 6755399441055744) (k := 52) (by norm_num) (by norm_num) (by norm_num) (.inl (by rw [abs_lt]; norm_num))]; norm_num
  have e76 : fl ((-(1 / 8)) - (1 / 16)) = (-(3 / 16)) := by
    rw [fl_rat_neg (m := 6755399441055744) (k := 55) (by norm_num) (by norm_num) (by norm_num) (.inl (by rw [abs_lt]; norm_num))]; norm_num
  have e77 : fl ((2) * (-(3 / 8))) = (-(3 / 4)) := by
    rw [fl_rat_neg (m := 6755399441055744) (k := 53) (by norm_num) (by norm_num) (by norm_num) (.inl (by rw [abs_lt]; norm_num))]; norm_num
  have e78 : fl ((-(1 / 8)) * (0)) = (0) := by rw [show ((-(1 / 8)) * (0) : ℝ) = 0 by norm_num]; exact fl_zero
  have e79 : fl ((-(3 / 4)) - (0)) = (-(3 / 4)) := by
    rw [fl_rat_neg (m := 6755399441055744) (k := 53) (by norm_num) (by norm_num) (by norm_num) (.inl (by rw [abs_lt]; norm_num))]; norm_num
  have e80 : fl ((3 / 2) * (-(3 / 8))) = (-(9 / 16)) := by
    rw [fl_rat_neg (m := 5066549580791808) (k := 53) (by norm_num) (by norm_num) (by norm_num) (.inl (by rw [abs_lt]; norm_num))]; norm_num
  have e81 : fl ((-(3 / 16)) * (0)) = (0) := by rw [show ((-(3 / 16)) * (0) : ℝ) = 0 by norm_num]; exact fl_zero
  have e82 : fl ((-(9 / 16)) - (0)) = (-(9 / 16)) := by
    rw [fl_rat_neg (m := 5066549580791808) (k := 53) (by norm_num) (by norm_num) (by norm_num) (.inl (by rw [abs_lt]; norm_num))]; norm_num
  have e83 : fl ((3 / 2) * (-(1 / 8))) = (-(3 / 16)) := by
    rw [fl_rat_neg (m := 6755399441055744) (k := 55) (by norm_num) (by norm_num) (by norm_num) (.inl (by rw [abs_lt]; norm_num))]; norm_num
  have e84 : fl ((-(3 / 16)) * (2)) = (-(3 / 8)) := by
    rw [fl_rat_neg (m := 6755399441055744) (k := 54) (by norm_num) (by norm_num) (by norm_num) (.inl (by rw [abs_lt]; norm_num))]; norm_num
  have e85 : fl ((-(3 / 16)) - (-(3 / 8))) = (3 / 16) := by
    rw [fl_rat (m := 6755399441055744) (k := 55) (by norm_num) (by norm_num) (by norm_num) (.inl (by rw [abs_lt]; norm_num))]; norm_num
  have e86 : fl ((3 / 16) / (-(3 / 4))) = (-(1 / 4)) := by
    rw [fl_rat_neg (m := 4503599627370496) (k := 54) (by norm_num) (by norm_num) (by norm_num) (.inl (by rw [abs_lt]; norm_num))]; norm_num
  have w0 : detectIntersectR fl ((-1), (1 / 16)) (1, -1 / 16) ((-1 / 2), (1 / 8)) ((-1 / 2), (1 / 2)) = false :=
    detectR_false e1 e2 e3 e4 e5 e6 e7 e8 e9 e10 e11 e12 e13 e14 e15 (by norm_num) (.inr (.inr (.inl (by rw [e16]; norm_num))))
  have w1 : detectIntersectR fl ((-1), (1 / 16)) (1, -1 / 16) ((-1 / 2), (-(1 / 8))) ((-1 / 2), (-1 / 2)) = false :=
    detectR_false e1 e2 e17 e18 e19 e20 e21 e22 e23 e24 e25 e26 e27 e28 e29 (by norm_num) (.inr (.inr (.inl (by rw [e30]; norm_num))))
  have w2 : detectIntersectR fl ((-1), (1 / 16)) (1, -1 / 16) ((-1 / 2), (1 / 8)) ((1 / 2), (1 / 8)) = false :=
    detectR_false e1 e2 e31 e32 e33 e34 e35 e36 e37 e38 e39 e40 e41 e42 e43 (by norm_num) (.inl (by rw [e44]; norm_num))
  have w3 : detectIntersectR fl ((-1), (1 / 16)) (1, -1 / 16) ((-1 / 2), (-(1 / 8))) ((1 / 2), (-(1 / 8))) = false :=
    detectR_false e1 e2 e45 e46 e47 e48 e49 e50 e51 e52 e53 e54 e55 e56 e57 (by norm_num) (.inr (.inl (by rw [e58]; norm_num)))
  have w4 : detectIntersectR fl ((-1), (1 / 16)) (1, -1 / 16) ((1 / 2), (1 / 8)) ((1 / 2), (1 / 2)) = false :=
    detectR_false e1 e2 e59 e60 e61 e62 e63 e64 e65 e66 e67 e68 e69 e70 e71 (by norm_num) (.inr (.inr (.inl (by rw [e72]; norm_num))))
  have w5 : detectIntersectR fl ((-1), (1 / 16)) (1, -1 / 16) ((1 / 2), (-(1 / 8))) ((1 / 2), (-1 / 2)) = false :=
    detectR_false e1 e2 e73 e74 e75 e76 e77 e78 e79 e80 e81 e82 e83 e84 e85 (by norm_num) (.inr (.inr (.inl (by rw [e86]; norm_num))))
  exact ⟨w0, w1, w2, w3, w4, w5⟩

end Verif.Util
