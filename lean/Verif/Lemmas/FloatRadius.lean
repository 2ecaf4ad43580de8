import Mathlib.Analysis.SpecialFunctions.Gamma.BohrMollerup
import Verif.Lemmas.FloatRho

/-! The connection radius in floats, the search in floats on counts that pass with a margin, and the rounded library. -/

namespace Verif.Bound

open Verif.Spec Verif.Float64 Finset

variable {lib : Libm} {μ ρ p : ℝ} {m vc : ℕ}

theorem alphaR_isFloat (tol : Option ℝ) : IsFloat (alphaR fl lib tol) := by
  cases tol
  · exact one_isFloat
  · exact isFloat_fl _

theorem within_lo {k x y : ℝ} (h : Within μ k x y) {K : ℝ} (hK : (1 + 2 * μ) ^ k ≤ 1 + K) (hK1 : 0 ≤ K) : (1 - K) * y ≤ x ∧ x ≤ (1 + K) * y := by
  obtain ⟨hx, hy, h1, h2⟩ := h
  refine ⟨?_, h1.trans (mul_le_mul_of_nonneg_right hK hy.le)⟩
  have k1 : y ≤ (1 + K) * x := h2.trans (mul_le_mul_of_nonneg_right hK hx.le)
  have k2 : (1 + K) * ((1 - K) * y) ≤ y := by nlinarith [mul_nonneg (sq_nonneg K) hy.le]
  exact le_of_mul_le_mul_left (k2.trans k1) (by linarith)

theorem pow3_le (m0 : 0 ≤ μ) (h1 : μ ≤ 1 / 40) : (1 + 2 * μ) ^ (3 : ℝ) ≤ 1 + 7 * μ := by
  rw [show (1 + 2 * μ) ^ (3 : ℝ) = (1 + 2 * μ) ^ 3 by norm_cast]
  nlinarith [mul_nonneg m0 m0, mul_nonneg m0 (mul_nonneg m0 m0)]

/-- The connection radius in floats is, but for some rounding errors, at least twice the radius of the net. -/
theorem connRadiusR_ge (hl : Accurate lib μ) (h0 : eps ≤ μ) (h1 : μ ≤ 1 / 40) {δ : ℝ} {tol : Option ℝ} (hδ : 0 < δ)
    (hs : ∀ t, tol = some t → (2 : ℝ) ^ (-400 : ℤ) ≤ t) (hr : (2 : ℝ) ^ (-900 : ℤ) ≤ netRadius δ tol) :
    (1 - 8 * μ) * (2 * netRadius δ tol) ≤ connRadiusR fl lib δ tol := by
  have m0 : 0 ≤ μ := eps_pos.le.trans h0
  have w := alphaR_within hl h0 h1 hs
  have wd := w.mul m0 (Within.refl (μ := μ) hδ)
  rw [← netRadius_eq] at wd
  have n1 := wd.ge m0 (by linarith) hr
  have lo := (within_lo wd (K := 7 * μ) (by rw [add_zero]; exact pow3_le m0 h1) (by linarith)).1
  have a0 := w.1
  unfold connRadiusR
  have fa := alphaR_isFloat (lib := lib) tol
  set a := alphaR fl lib tol
  have s1 : a ≤ fl (a + fl (Real.sqrt (fl (1 - lib.pow a 2)))) := float_le_fl fa (by linarith [fl_nonneg (Real.sqrt_nonneg (fl (1 - lib.pow a 2)))])
  have s2 : 2 * a ≤ fl (2 * fl (a + fl (Real.sqrt (fl (1 - lib.pow a 2))))) := float_le_fl fa.double (by linarith)
  have s3 : fl (2 * (a * δ)) ≤ fl (fl (2 * fl (a + fl (Real.sqrt (fl (1 - lib.pow a 2))))) * δ) := by
    refine fl_mono ?_
    have := mul_le_mul_of_nonneg_right s2 hδ.le
    linarith
  refine le_trans ?_ s3
  have pos : 0 < a * δ := mul_pos a0 hδ
  have s4 := (fl_rel_pos (x := 2 * (a * δ)) (by linarith) (.inr (by linarith))).1
  have np : 0 < netRadius δ tol := lt_of_lt_of_le (by positivity) hr
  have s5 : (1 - μ) * (2 * ((1 - 7 * μ) * netRadius δ tol)) ≤ (1 - eps) * (2 * (a * δ)) :=
    mul_le_mul (by linarith) (by linarith) (mul_nonneg (by norm_num) (mul_nonneg (by linarith) np.le)) (by linarith [eps_small])
  refine le_trans ?_ (s5.trans s4)
  have : 1 - 8 * μ ≤ (1 - μ) * (1 - 7 * μ) := by nlinarith
  nlinarith

theorem alpha_sq_ge {tol : Option ℝ} (hs : ∀ t, tol = some t → (2 : ℝ) ^ (-400 : ℤ) ≤ t) : (2 : ℝ) ^ (-900 : ℤ) ≤ alpha tol ^ 2 := by
  cases tol with
  | none => simp only [alpha, one_pow]; exact zpow_le_one_of_nonpos₀ (by norm_num) (by norm_num)
  | some t =>
    have ht := hs t rfl
    have t0 : 0 < t := lt_of_lt_of_le (by positivity) ht
    have a1 : (2 : ℝ) ^ (-800 : ℤ) ≤ t ^ 2 := by
      rw [show (-800 : ℤ) = -400 + -400 by norm_num, zpow_add₀ (by norm_num), sq]
      exact mul_le_mul ht ht (by positivity) t0.le
    simp only [alpha]
    rw [div_pow, Real.sq_sqrt (by positivity), le_div_iff₀ (by positivity)]
    have b1 : (2 : ℝ) ^ (-900 : ℤ) ≤ 1 / 2 * 2 ^ (-800 : ℤ) := by
      rw [show (1 / 2 : ℝ) = 2 ^ (-1 : ℤ) by norm_num, ← zpow_add₀ (by norm_num)]
      exact zpow_le_zpow_right₀ (by norm_num) (by norm_num)
    have b2 : (2 : ℝ) ^ (-900 : ℤ) ≤ 1 / 2 := by
      rw [show (1 / 2 : ℝ) = 2 ^ (-1 : ℤ) by norm_num]
      exact zpow_le_zpow_right₀ (by norm_num) (by norm_num)
    have b4 : (2 : ℝ) ^ (-900 : ℤ) * t ^ 2 ≤ 1 / 2 * t ^ 2 := mul_le_mul_of_nonneg_right b2 (by positivity)
    rw [mul_add, mul_one]
    linarith

theorem alpha_range {tol : Option ℝ} (ht : TolNonneg tol) : 0 ≤ alpha tol ∧ alpha tol ≤ 1 := by
  refine ⟨alpha_nonneg ht, ?_⟩
  cases tol with
  | none => simp [alpha]
  | some t =>
    have t0 : 0 ≤ t := ht
    simp only [alpha]
    rw [div_le_one (by positivity)]
    exact Real.le_sqrt_of_sq_le (by linarith)

theorem sqrt_add_le' {y e : ℝ} (hy : 0 ≤ y) (he : 0 ≤ e) : Real.sqrt (y + e) ≤ Real.sqrt y + Real.sqrt e := by
  have h1 := Real.sqrt_nonneg y
  have h2 := Real.sqrt_nonneg e
  rw [Real.sqrt_le_left (by linarith)]
  nlinarith [Real.sq_sqrt hy, Real.sq_sqrt he, mul_nonneg h1 h2]

theorem sqrt_near {x y e : ℝ} (hy : 0 ≤ y) (he : 0 ≤ e) (h : |x - y| ≤ e) : |Real.sqrt x - Real.sqrt y| ≤ Real.sqrt e := by
  have k := abs_le.1 h
  have k1 : Real.sqrt x ≤ Real.sqrt y + Real.sqrt e := (Real.sqrt_le_sqrt (by linarith : x ≤ y + e)).trans (sqrt_add_le' hy he)
  have k2 : Real.sqrt y ≤ Real.sqrt x + Real.sqrt e := by
    rcases le_total 0 x with hx | hx
    · exact (Real.sqrt_le_sqrt (by linarith : y ≤ x + e)).trans (sqrt_add_le' hx he)
    · rw [Real.sqrt_eq_zero_of_nonpos hx, zero_add]
      exact Real.sqrt_le_sqrt (by linarith)
  rw [abs_le]; constructor <;> linarith

theorem pow7_le (m0 : 0 ≤ μ) (h1 : μ ≤ 1 / 10000) : (1 + 2 * μ) ^ (7 : ℝ) ≤ 1 + 15 * μ := by
  rw [show (1 + 2 * μ) ^ (7 : ℝ) = (1 + 2 * μ) ^ 7 by norm_cast]
  have e1 : (1 + 2 * μ) ^ 2 ≤ 1 + 4.1 * μ := by nlinarith
  have e2 : (1 + 2 * μ) ^ 4 ≤ 1 + 8.3 * μ := by
    calc (1 + 2 * μ) ^ 4 = ((1 + 2 * μ) ^ 2) ^ 2 := by ring
      _ ≤ (1 + 4.1 * μ) ^ 2 := pow_le_pow_left₀ (by positivity) e1 2
      _ ≤ _ := by nlinarith
  have e3 : (1 + 2 * μ) ^ 3 ≤ 1 + 6.2 * μ := by
    calc (1 + 2 * μ) ^ 3 = (1 + 2 * μ) ^ 2 * (1 + 2 * μ) := by ring
      _ ≤ (1 + 4.1 * μ) * (1 + 2 * μ) := mul_le_mul_of_nonneg_right e1 (by linarith)
      _ ≤ _ := by nlinarith
  calc (1 + 2 * μ) ^ 7 = (1 + 2 * μ) ^ 4 * (1 + 2 * μ) ^ 3 := by ring
    _ ≤ (1 + 8.3 * μ) * (1 + 6.2 * μ) := mul_le_mul e2 e3 (by positivity) (by linarith)
    _ ≤ _ := by nlinarith

theorem radius_core {u τ μ α a P v q qf S : ℝ} (e0 : 0 < u) (h0 : u ≤ μ) (t0 : 0 < τ) (t1 : τ ≤ u / 100) (h1 : μ ≤ 1 / 10000)
    (al0 : 0 ≤ α) (al1 : α ≤ 1) (lo : (1 - 7 * μ) * α ≤ a) (hi : a ≤ (1 + 7 * μ) * α) (lo2 : (1 - 15 * μ) * α ^ 2 ≤ P)
    (hi2 : P ≤ (1 + 15 * μ) * α ^ 2) (f1 : |v - (1 - P)| ≤ u * |1 - P| + τ) (hq : q = Real.sqrt v) (f2 : |qf - q| ≤ u * |q| + τ)
    (f3 : |S - (a + qf)| ≤ u * |a + qf| + τ) :
    |S - (α + Real.sqrt (1 - α ^ 2))| ≤ 5 * Real.sqrt μ ∧ 1 ≤ α + Real.sqrt (1 - α ^ 2) ∧ S ≤ 3 ∧ Real.sqrt μ ≤ 1 / 100 ∧ μ ≤ Real.sqrt μ / 100 := by
  subst hq
  have m0 : 0 ≤ μ := e0.le.trans h0
  set β := Real.sqrt (1 - α ^ 2)
  set q := Real.sqrt v
  have αsq : α ^ 2 ≤ 1 := by nlinarith
  have αsq0 : 0 ≤ α ^ 2 := by positivity
  have β0 : 0 ≤ β := Real.sqrt_nonneg _
  have β1 : β ≤ 1 := Real.sqrt_le_one.2 (by linarith)
  have hab1 : 1 ≤ α + β := by
    have : β ^ 2 = 1 - α ^ 2 := Real.sq_sqrt (by linarith)
    nlinarith [mul_nonneg al0 β0]
  have g1 : |1 - P - (1 - α ^ 2)| ≤ 15 * μ := by
    have : μ * α ^ 2 ≤ μ := mul_le_of_le_one_right m0 αsq
    rw [abs_le]; constructor <;> linarith
  have g2 : |1 - P| ≤ 2 := by
    have := abs_le.1 g1
    rw [abs_le]; constructor <;> linarith
  have g3 : |v - (1 - α ^ 2)| ≤ 18 * μ := by
    have k1 := abs_le.1 g1
    have k2 := abs_le.1 f1
    have k3 := mul_le_mul_of_nonneg_left g2 e0.le
    rw [abs_le]; constructor <;> linarith
  set s := Real.sqrt μ with hs'
  have s0 : 0 ≤ s := Real.sqrt_nonneg _
  have ss : s ^ 2 = μ := Real.sq_sqrt m0
  have s1 : s ≤ 1 / 100 := by
    rw [hs', Real.sqrt_le_left (by norm_num)]
    linarith
  have ms : μ ≤ s / 100 := by nlinarith
  have g4 : |q - β| ≤ 4.5 * s := by
    refine (sqrt_near (by linarith) (by linarith) g3).trans ?_
    rw [Real.sqrt_le_left (by linarith), mul_pow, ss]
    linarith
  have g5 : |q| ≤ 2 := by
    have := abs_le.1 g4
    rw [abs_le]; constructor <;> linarith
  have g6 : |qf - β| ≤ 4.6 * s := by
    have k1 := abs_le.1 g4
    have k2 := abs_le.1 f2
    have k3 := mul_le_mul_of_nonneg_left g5 e0.le
    rw [abs_le]; constructor <;> linarith
  have g7 : |a - α| ≤ 0.1 * s := by
    have : μ * α ≤ μ := mul_le_of_le_one_right m0 al1
    rw [abs_le]; constructor <;> linarith
  have g8 : |a + qf| ≤ 3 := by
    have k1 := abs_le.1 g6
    have k2 := abs_le.1 g7
    rw [abs_le]; constructor <;> linarith
  have g9 : |S - (α + β)| ≤ 5 * s := by
    have k1 := abs_le.1 g6
    have k2 := abs_le.1 g7
    have k3 := abs_le.1 f3
    have k4 := mul_le_mul_of_nonneg_left g8 e0.le
    rw [abs_le]; constructor <;> linarith
  exact ⟨g9, hab1, by linarith [(abs_le.1 g9).2], s1, ms⟩

/-- The connection radius in floats differs from the exact one by a relative error of the size of the root of the machine precision. -/
theorem connRadiusR_near (hl : Accurate lib μ) (h0 : eps ≤ μ) (h1 : μ ≤ 1 / 10000) {δ : ℝ} {tol : Option ℝ} (hδ : 0 < δ) (ht : TolNonneg tol)
    (hs : ∀ t, tol = some t → (2 : ℝ) ^ (-400 : ℤ) ≤ t) (hr : (2 : ℝ) ^ (-900 : ℤ) ≤ netRadius δ tol) :
    |connRadiusR fl lib δ tol - 2 * (alpha tol + Real.sqrt (1 - alpha tol ^ 2)) * δ| ≤
      8 * Real.sqrt μ * (2 * (alpha tol + Real.sqrt (1 - alpha tol ^ 2)) * δ) := by
  have e0 := eps_pos
  have e1 := eps_small
  have m0 : 0 ≤ μ := e0.le.trans h0
  have w := alphaR_within hl h0 (by linarith) hs
  obtain ⟨al0, al1⟩ := alpha_range ht
  have al2 := alpha_sq_ge hs
  have wd := w.mul m0 (Within.refl (μ := μ) hδ)
  rw [← netRadius_eq] at wd
  have n1 := wd.ge m0 (by linarith) hr
  obtain ⟨lo, hi⟩ := within_lo w (K := 7 * μ) (pow3_le m0 (by linarith)) (by linarith)
  have fa := alphaR_isFloat (lib := lib) tol
  have a0 := w.1
  have w2 : Within μ (3 * 2) (alphaR fl lib tol ^ (2 : ℝ)) (alpha tol ^ (2 : ℝ)) := w.rpow m0 (by norm_num)
  have c2 : alpha tol ^ (2 : ℝ) = alpha tol ^ 2 := by norm_cast
  have w3 : Within μ 1 (lib.pow (alphaR fl lib tol) 2) (alphaR fl lib tol ^ (2 : ℝ)) := Within.of_rel m0 (by linarith) w2.1
    (hl.pow _ _ a0 (by norm_num) (w2.ge m0 (by linarith) (by rw [c2]; exact al2)))
  have w4 := (w3.trans m0 w2).mono m0 (show (1 : ℝ) + 3 * 2 ≤ 7 by norm_num)
  obtain ⟨lo2, hi2⟩ := within_lo w4 (K := 15 * μ) (pow7_le m0 h1) (by linarith)
  rw [c2] at lo2 hi2
  unfold connRadiusR
  have hnn : 0 ≤ fl (Real.sqrt (fl (1 - lib.pow (alphaR fl lib tol) 2))) := fl_nonneg (Real.sqrt_nonneg _)
  have t1 := tau_le
  have t0 : (0 : ℝ) < 2 ^ (-1075 : ℤ) := by positivity
  have f1 := fl_err (1 - lib.pow (alphaR fl lib tol) 2)
  have f2 := fl_err (Real.sqrt (fl (1 - lib.pow (alphaR fl lib tol) 2)))
  have f3 := fl_err (alphaR fl lib tol + fl (Real.sqrt (fl (1 - lib.pow (alphaR fl lib tol) 2))))
  have fS := isFloat_fl (alphaR fl lib tol + fl (Real.sqrt (fl (1 - lib.pow (alphaR fl lib tol) 2))))
  have hSa : alphaR fl lib tol ≤ fl (alphaR fl lib tol + fl (Real.sqrt (fl (1 - lib.pow (alphaR fl lib tol) 2)))) := float_le_fl fa (by linarith)
  simp only [fl_float fS.double]
  obtain ⟨g9, hab1, hS, s1, ms⟩ := radius_core e0 h0 t0 t1 h1 al0 al1 lo hi lo2 hi2 f1 rfl f2 f3
  clear f1 f2 f3 lo2 hi2 w w2 w3 w4 wd hnn
  generalize fl (alphaR fl lib tol + fl (Real.sqrt (fl (1 - lib.pow (alphaR fl lib tol) 2)))) = S at *
  generalize alphaR fl lib tol = a at *
  generalize alpha tol + Real.sqrt (1 - alpha tol ^ 2) = X at *
  have S0 : 0 < S := by linarith
  have n2 : (2 : ℝ) ^ (-1000 : ℤ) ≤ 2 * S * δ := by
    have := mul_le_mul_of_nonneg_right hSa hδ.le
    have := mul_pos S0 hδ
    linarith
  have f4 := fl_rel (x := 2 * S * δ) (.inr (by rw [abs_of_pos (by positivity)]; exact n2))
  rw [abs_of_pos (by positivity : 0 < 2 * S * δ)] at f4
  generalize Real.sqrt μ = s at *
  have s0 : 0 ≤ s := by linarith
  have g10 : |2 * S * δ - 2 * (X) * δ| ≤ 2 * (5 * s) * δ := by
    rw [show 2 * S * δ - 2 * (X) * δ = 2 * δ * (S - (X)) by ring, abs_mul, abs_of_pos (by positivity : 0 < 2 * δ)]
    have := mul_le_mul_of_nonneg_left g9 (by positivity : (0 : ℝ) ≤ 2 * δ)
    linarith
  have g11 : eps * (2 * S * δ) ≤ 0.1 * s * δ := by
    have : eps * (2 * S) ≤ 0.1 * s := by
      have : eps * (2 * S) ≤ eps * 6 := mul_le_mul_of_nonneg_left (by linarith) e0.le
      linarith
    have := mul_le_mul_of_nonneg_right this hδ.le
    linarith
  have g12 : 16 * s * δ ≤ 8 * s * (2 * (X) * δ) := by
    have : 16 * s * δ * 1 ≤ 16 * s * δ * (X) := mul_le_mul_of_nonneg_left hab1 (by positivity)
    linarith
  have sd : 0 ≤ s * δ := by positivity
  have k1 := abs_le.1 f4
  have k2 := abs_le.1 g10
  rw [abs_le]; constructor <;> linarith

/-- A count that passes the test of the search in floats because it passes the exact one with a margin. -/
theorem margin_good (hl : Accurate lib μ) (h0 : 0 ≤ μ) (h1 : μ ≤ 1 / 100) (hρ : 0 ≤ ρ) (hp0 : 0 < p) (hp1 : p < 1) (fp : IsFloat p) (hm : 1 ≤ m)
    (hs : 16 * (μ + 8 * eps) * m ≤ 1) (h : 2 * (logRow vc (2 * m) + 1 - Real.logb 2 (1 - p)) ≤ ρ * m / 2) :
    Good (fun m => sauerShelahLog2R fl lib m ρ vc) (lib.log2 (fl (1 - p))) m := by
  have k1 := abs_le.1 (sauerShelahR_err hl h0 h1 hρ m vc)
  have k2 := abs_le.1 (sauerShelahR_err hl h0 h1 hρ (m + 1) vc)
  have k3 := abs_le.1 (log_err hl h0 hp0 hp1 fp)
  have hL := logb_nonpos' hp0 hp1
  rw [sauerShelah_eq] at k1 k2
  have A0 : 0 ≤ logRow vc (2 * m) := logRow_nonneg _ _
  have e0 := eps_pos
  have e1 := eps_small
  have m1 : (1 : ℝ) ≤ m := by exact_mod_cast hm
  have st := logRow_step m vc
  push_cast at k2
  set ε := μ + 8 * eps
  set A := logRow vc (2 * m)
  set A' := logRow vc (2 * (m + 1))
  set L := Real.logb 2 (1 - p)
  have ε0 : 0 < ε := by positivity
  have ε1 : ε ≤ 1 / 50 := by linarith
  have B0 : 0 ≤ ρ * m := by positivity
  constructor
  · show sauerShelahLog2R fl lib m ρ vc ≤ lib.log2 (fl (1 - p))
    have k4 : ε * (A + ρ * m / 2 + 1) + ε * (1 - L) ≤ ε * (3 / 2 * (ρ * m / 2) + ρ * m / 2) := by
      rw [← mul_add]
      exact mul_le_mul_of_nonneg_left (by linarith) ε0.le
    have k5 : ε * (3 / 2 * (ρ * m / 2) + ρ * m / 2) ≤ 1 / 50 * (3 / 2 * (ρ * m / 2) + ρ * m / 2) := mul_le_mul_of_nonneg_right ε1 (by linarith)
    linarith [k1.2, k3.1]
  · show sauerShelahLog2R fl lib (m + 1) ρ vc ≤ sauerShelahLog2R fl lib m ρ vc
    have hA' : A' ≤ 2 * A := by
      rcases le_total A' A with k | k
      · linarith
      · have := le_mul_of_one_le_left (sub_nonneg.2 k) m1
        linarith
    have hBm : ρ ≤ ρ * m := le_mul_of_one_le_right hρ m1
    have k4 : ε * (A + ρ * m / 2 + 1) + ε * (A' + ρ * (m + 1) / 2 + 1) ≤ ε * (9 / 4 * (ρ * m)) := by
      rw [← mul_add]
      exact mul_le_mul_of_nonneg_left (by linarith) ε0.le
    have k5 : ε * (9 / 4 * (ρ * m)) ≤ ρ / 4 := by
      have : ε * m * ρ ≤ 1 / 16 * ρ := mul_le_mul_of_nonneg_right (by linarith) hρ
      linarith
    have k6 : A' - A ≤ ρ / 4 := by
      have : m * (A' - A) ≤ m * (ρ / 4) := by linarith
      exact le_of_mul_le_mul_left this (by linarith)
    linarith [k1.1, k2.2]

/-- The bisection never returns more than it starts from. -/
theorem bisect_le {α : Type*} [LinearOrder α] {f : ℕ → α} {L : α} {ub n : ℕ} (hu : 2 ≤ ub) (hr : Rep ub) (hg : Good f L ub)
    (h : LoopStops (bisectBody f L) (1, ub) (.ok n)) : n ≤ ub := by
  refine LoopStops.post (fun s => BisectInv f L s ∧ s.2 ≤ ub) (fun b => ∀ n, b = .ok n → n ≤ ub) ?_ ?_
    (s := (1, ub)) ⟨⟨le_refl _, Nat.lt_of_lt_of_le Nat.one_lt_two hu, rep_of_lt (by norm_num), hr, Or.inl rfl, hg⟩, le_rfl⟩ h n rfl
  · rintro ⟨l, u⟩ b ⟨hs, hle⟩ hb n rfl
    by_cases hd : u = l + 1
    · rw [bisectBody_done f L hd] at hb
      cases hb
      exact hle
    · rcases bisectBody_mid f L hd hs.2.1 with ⟨-, he⟩ | ⟨-, he⟩ <;> rw [hb] at he <;> cases he
  · rintro ⟨l, u⟩ s' ⟨hs, hle⟩ hn
    rcases bisectInv_step f L hs with ⟨b', hb', hp⟩ | ⟨s'', hs', hi, hcase, -⟩
    · rw [hn] at hb'; cases hb'
    · rw [hn] at hs'
      cases hs'
      refine ⟨hi, ?_⟩
      have hge : pyHalf (l + u) ≤ u := pyHalf_le hs.2.2.2.1 (by have := hs.2.1; simp only at this; omega)
      rcases hcase with rfl | rfl
      · exact hge.trans hle
      · exact hle

/-- The search answers if some power of two up to `2^53` passes its test. -/
theorem search_answers {α : Type*} [LinearOrder α] {f : ℕ → α} {L : α} {k : ℕ} (hk : k ≤ 52) (h : Good f L (2 ^ (k + 1))) :
    ∃ fuel n, doublingSampleSearch f L fuel = some (.ok n) ∧ n ≤ 2 ^ (k + 1) := by
  obtain ⟨b, hb, hp⟩ := doubling_stops f L
  rcases hp with ⟨j, rfl, hg, hbad, _⟩ | ⟨rfl, hno⟩
  · have hjk : j ≤ k := by
      by_contra hcon
      exact hbad k (by omega) h
    have hj : 2 ^ (j + 1) ≤ 2 ^ 53 := Nat.pow_le_pow_right (by norm_num) (by omega)
    have hj2 : 2 ≤ 2 ^ (j + 1) := by
      have := Nat.one_le_two_pow (n := j)
      rw [pow_succ]; omega
    obtain ⟨b, hs, n, rfl, -⟩ := bisect_stops _ _ hj2 hj hg
    obtain ⟨fuel, hf⟩ := search_of_stops _ _ hb hs
    exact ⟨fuel, n, hf, (bisect_le hj2 (rep_two_pow _) hg hs).trans (Nat.pow_le_pow_right (by norm_num) (by omega))⟩
  · exfalso
    refine hno k ?_ h
    calc (2 : ℕ) ^ (k + 1) ≤ 2 ^ 53 := Nat.pow_le_pow_right (by norm_num) (by omega)
      _ ≤ 10 ^ 53 := Nat.pow_le_pow_left (by norm_num) _
      _ ≤ 10 ^ 300 := Nat.pow_le_pow_right (by norm_num) (by norm_num)

theorem numericalBoundR_ok {rd : ℝ → ℝ} {δ p vol : ℝ} {dim : ℕ} {tol : Option ℝ} {fuel N : ℕ} {r : ℝ}
    (h : numericalBoundR rd lib δ p vol dim tol fuel = some (.ok (N, r))) :
    0 < p ∧ p < 1 ∧ r = connRadiusR rd lib δ tol ∧
      doublingSampleSearch (fun m => sauerShelahLog2R rd lib m (rhoR rd lib δ tol dim vol) (dim + 1)) (lib.log2 (rd (1 - p))) fuel
        = some (.ok N) := by
  unfold numericalBoundR at h
  split at h
  · cases h
  · next hp =>
    rw [not_or, not_le, not_le] at hp
    simp only at h
    split at h
    · cases h
    · cases h
    · next n heq =>
      cases h
      exact ⟨hp.1, hp.2, rfl, heq⟩

theorem numericalBoundR_of_search {rd : ℝ → ℝ} {δ p vol : ℝ} {dim : ℕ} {tol : Option ℝ} {fuel N : ℕ} (h0 : 0 < p) (h1 : p < 1)
    (h : doublingSampleSearch (fun m => sauerShelahLog2R rd lib m (rhoR rd lib δ tol dim vol) (dim + 1)) (lib.log2 (rd (1 - p))) fuel
        = some (.ok N)) :
    numericalBoundR rd lib δ p vol dim tol fuel = some (.ok (N, connRadiusR rd lib δ tol)) := by
  unfold numericalBoundR
  rw [if_neg (by rw [not_or, not_le, not_le]; exact ⟨h0, h1⟩)]
  simp only [h]

/-- Logarithms of floats are zero or not tiny. -/
theorem logb_float {x : ℝ} (hx : IsFloat x) (h0 : 0 < x) : Real.logb 2 x = 0 ∨ (2 : ℝ) ^ (-1000 : ℤ) ≤ |Real.logb 2 x| := by
  have l1 := Real.log_two_gt_d9
  have l2 := Real.log_two_lt_d9
  have key : ∀ y : ℝ, (2 : ℝ) ^ (-60 : ℤ) ≤ |Real.log y| → (2 : ℝ) ^ (-1000 : ℤ) ≤ |Real.logb 2 y| := by
    intro y hy
    rw [Real.logb, abs_div, abs_of_pos (by linarith : 0 < Real.log 2), le_div_iff₀ (by linarith)]
    have b : (0 : ℝ) < 2 ^ (-1000 : ℤ) := by positivity
    have b2 : (2 : ℝ) ^ (-1000 : ℤ) ≤ 2 ^ (-60 : ℤ) := zpow_le_zpow_right₀ (by norm_num) (by norm_num)
    have : (2 : ℝ) ^ (-1000 : ℤ) * Real.log 2 ≤ 2 ^ (-1000 : ℤ) * 1 := mul_le_mul_of_nonneg_left (by linarith) b.le
    linarith
  rcases lt_trichotomy x 1 with h | rfl | h
  · right
    apply key
    have k1 := Real.log_le_sub_one_of_pos h0
    have k2 := one_sub_float h h0 hx
    have k3 : (2 : ℝ) ^ (-60 : ℤ) ≤ 2 ^ (-53 : ℤ) := zpow_le_zpow_right₀ (by norm_num) (by norm_num)
    rw [abs_of_nonpos (by linarith)]
    linarith
  · left; simp
  · right
    apply key
    have k1 := Real.one_sub_inv_le_log_of_pos h0
    have k2 := add_ulp_le one_isFloat hx zero_le_one h
    have k3 : (2 : ℝ) ^ (-53 : ℤ) ≤ ulp 1 := by
      unfold ulp
      refine zpow_le_zpow_right₀ (by norm_num) ?_
      have h4 := lt_place (x := 1) (by norm_num)
      have h5 : (2 : ℝ) ^ (0 : ℤ) < 2 ^ (place 1 + 53) := by simpa using h4
      have h6 := (zpow_lt_zpow_iff_right₀ (by norm_num : (1 : ℝ) < 2)).1 h5
      omega
    have k4 : 1 + (2 : ℝ) ^ (-53 : ℤ) ≤ x := by linarith
    have k5 : x⁻¹ ≤ 1 - 2 ^ (-60 : ℤ) := by
      rw [inv_le_iff_one_le_mul₀ h0]
      have : (1 - (2 : ℝ) ^ (-60 : ℤ)) * (1 + 2 ^ (-53 : ℤ)) ≤ (1 - 2 ^ (-60 : ℤ)) * x := mul_le_mul_of_nonneg_left k4 (by norm_num)
      refine le_trans ?_ this
      norm_num
    have k6 : (0 : ℝ) < 2 ^ (-60 : ℤ) := by positivity
    have k7 : (2 : ℝ) ^ (-60 : ℤ) ≤ 1 - x⁻¹ := le_sub_comm.1 k5
    rw [abs_of_nonneg (k6.le.trans (k7.trans k1))]
    exact k7.trans k1

/-- A library that rounds the exact results is accurate. -/
theorem rounded_accurate : Accurate (Libm.rounded fl) eps := by
  have small : (2 : ℝ) ^ (-1000 : ℤ) ≤ 1 := zpow_le_one_of_nonpos₀ (by norm_num) (by norm_num)
  refine ⟨fun x hx h0 => fl_rel (logb_float hx h0), fun k hk => fl_rel ?_, fun x y hx _ h => ?_, fun x hx => ?_, ?_⟩
  · rcases Nat.lt_or_ge k 2 with h | h
    · obtain rfl : k = 1 := by omega
      left; simp
    · right
      have : (1 : ℝ) ≤ Real.logb 2 k := by
        rw [Real.le_logb_iff_rpow_le (by norm_num) (by exact_mod_cast hk)]
        simpa using (by exact_mod_cast h : (2 : ℝ) ≤ k)
      rw [abs_of_nonneg (by linarith)]
      linarith
  · have := fl_rel (x := x ^ y) (.inr (h.trans (le_abs_self _)))
    rwa [abs_of_pos (Real.rpow_pos_of_pos hx _)] at this
  · have g := Real.Gamma_pos_of_pos (by linarith : 0 < x)
    have half : (2 : ℝ) ^ (-1000 : ℤ) ≤ 1 / 2 := by
      rw [show (1 / 2 : ℝ) = 2 ^ (-1 : ℤ) by norm_num]
      exact zpow_le_zpow_right₀ (by norm_num) (by norm_num)
    have g2 : Real.Gamma 2 = 1 := Real.Gamma_two
    have hg : (1 : ℝ) / 2 ≤ Real.Gamma x := by
      rcases le_total 2 x with h | h
      · have := Real.Gamma_strictMonoOn_Ici.monotoneOn (Set.mem_Ici.2 le_rfl) (Set.mem_Ici.2 h) h
        linarith
      · have k1 := Real.Gamma_strictMonoOn_Ici.monotoneOn (Set.mem_Ici.2 le_rfl) (Set.mem_Ici.2 (by linarith : 2 ≤ x + 1)) (by linarith)
        rw [Real.Gamma_add_one (by linarith), g2] at k1
        nlinarith
    have := fl_rel (x := Real.Gamma x) (.inr (by rw [abs_of_pos g]; exact half.trans hg))
    rwa [abs_of_pos g] at this
  · have := fl_rel (x := Real.pi) (.inr (by rw [abs_of_pos Real.pi_pos]; linarith [Real.pi_gt_three]))
    rwa [abs_of_pos Real.pi_pos] at this

end Verif.Bound
