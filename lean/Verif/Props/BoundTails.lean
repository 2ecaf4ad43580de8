import Mathlib.Analysis.SpecialFunctions.Log.ERealExp
import Verif.Model.Tails
import Verif.Lemmas.NumericalBound

/-!
Properties C08-C11: tail bounds and radius searches of `bound.py`.
-/

namespace Verif.Props

open Verif.Bound Verif.Spec

theorem ballFraction_mono {r r' : ℝ} {dim : ℕ} {vol : ℝ} (hv : 0 < vol) (h0 : 0 ≤ r) (h : r ≤ r') :
    0 ≤ ballFraction r dim vol ∧ ballFraction r dim vol ≤ ballFraction r' dim vol := by
  have hs := volUnitSphere_pos dim
  unfold ballFraction
  refine ⟨by positivity, ?_⟩
  exact mul_le_mul_of_nonneg_left (pow_le_pow_left₀ h0 h _) (by positivity)

/-- C08, Hoeffding. The log failure bound is at most `log m` and does not decrease with the radius. -/
theorem C08_hoeffding {m : ℕ} (hm : 2 ≤ m) {k r r' vol : ℝ} {dim : ℕ} (hv : 0 < vol) (h0 : 0 ≤ r) (h : r ≤ r') :
    tailHoeffding m k r dim vol ≤ tailHoeffding m k r' dim vol ∧ tailHoeffding m k r' dim vol ≤ Real.log m := by
  have hm1 : (0 : ℝ) < (m : ℝ) - 1 := by
    have : (2 : ℝ) ≤ m := by exact_mod_cast hm
    linarith
  have hmono := (ballFraction_mono (dim := dim) hv h0 h).2
  unfold tailHoeffding
  simp only
  constructor
  · have h1 : max (k / ((m : ℝ) - 1) - ballFraction r' dim vol) 0 ≤ max (k / ((m : ℝ) - 1) - ballFraction r dim vol) 0 :=
      max_le_max (by linarith) le_rfl
    have h2 := pow_le_pow_left₀ (le_max_right _ _) h1 2
    nlinarith
  · have := sq_nonneg (max (k / ((m : ℝ) - 1) - ballFraction r' dim vol) 0)
    nlinarith

/-- C08, Hoeffding: the bound is nontrivial exactly if the expected number of other samples in the ball is below `k`. -/
theorem C08_hoeffding_nontrivial {m : ℕ} (hm : 2 ≤ m) {k r vol : ℝ} {dim : ℕ} :
    tailHoeffding m k r dim vol < Real.log m ↔ ((m : ℝ) - 1) * ballFraction r dim vol < k := by
  have hm1 : (0 : ℝ) < (m : ℝ) - 1 := by
    have : (2 : ℝ) ≤ m := by exact_mod_cast hm
    linarith
  unfold tailHoeffding
  simp only
  have e : ((m : ℝ) - 1) * ballFraction r dim vol < k ↔ 0 < k / ((m : ℝ) - 1) - ballFraction r dim vol := by
    rw [sub_pos, lt_div_iff₀ hm1, mul_comm]
  rw [e]
  constructor
  · intro h
    by_contra hcon
    rw [max_eq_right (not_lt.mp hcon)] at h
    simp at h
  · intro h
    rw [max_eq_left h.le]
    have := pow_pos h 2
    have : 0 < 2 * ((m : ℝ) - 1) * (k / ((m : ℝ) - 1) - ballFraction r dim vol) ^ 2 := by positivity
    linarith

/-- C08, Hoeffding mean variant. -/
theorem C08_hoeffding_mean {m : ℕ} (hm : 2 ≤ m) {k r r' vol : ℝ} {dim : ℕ} (hk : 0 ≤ k) (hv : 0 < vol) (h0 : 0 < r)
    (h : r ≤ r') :
    tailHoeffdingMean m k r dim vol ≤ tailHoeffdingMean m k r' dim vol ∧
      tailHoeffdingMean m k r' dim vol ≤ Real.log m := by
  have hm1 : (0 : ℝ) < (m : ℝ) - 1 := by
    have : (2 : ℝ) ≤ m := by exact_mod_cast hm
    linarith
  have hmono := (ballFraction_mono (dim := dim) hv h0.le h).2
  have hs := volUnitSphere_pos dim
  have hp : 0 < ballFraction r dim vol := by unfold ballFraction; positivity
  have hp' : 0 < ballFraction r' dim vol := lt_of_lt_of_le hp hmono
  unfold tailHoeffdingMean
  simp only
  constructor
  · have hq : k / ((m : ℝ) - 1) / ballFraction r' dim vol ≤ k / ((m : ℝ) - 1) / ballFraction r dim vol :=
      div_le_div_of_nonneg_left (by positivity) hp hmono
    have h1 : max (k / ((m : ℝ) - 1) / ballFraction r' dim vol - 1) 0 ≤
        max (k / ((m : ℝ) - 1) / ballFraction r dim vol - 1) 0 := max_le_max (by linarith) le_rfl
    have h2 := pow_le_pow_left₀ (le_max_right _ _) h1 2
    have h3 := pow_le_pow_left₀ hp.le hmono 2
    have h4 : 2 * ((m : ℝ) - 1) * max (k / ((m : ℝ) - 1) / ballFraction r' dim vol - 1) 0 ^ 2 / ballFraction r' dim vol ^ 2
        ≤ 2 * ((m : ℝ) - 1) * max (k / ((m : ℝ) - 1) / ballFraction r dim vol - 1) 0 ^ 2 / ballFraction r dim vol ^ 2 := by
      apply div_le_div₀ (by positivity) _ (by positivity) h3
      exact mul_le_mul_of_nonneg_left h2 (by linarith)
    linarith
  · have : 0 ≤ 2 * ((m : ℝ) - 1) * max (k / ((m : ℝ) - 1) / ballFraction r' dim vol - 1) 0 ^ 2 / ballFraction r' dim vol ^ 2 := by
      positivity
    linarith

/-! ### Relative entropy -/

/-- Relative entropy of two-point distributions decreases when the reference moves towards the target. -/
theorem entropy_anti {a p q : ℝ} (ha1 : a ≤ 1) (hp : 0 < p) (hpq : p ≤ q) (hqa : q ≤ a) :
    entropy2 a q ≤ entropy2 a p := by
  have ha : 0 < a := lt_of_lt_of_le hp (le_trans hpq hqa)
  have hq : 0 < q := lt_of_lt_of_le hp hpq
  unfold entropy2
  have e1 : ∀ {y : ℝ}, 0 < y → relEntr a y = ((a * Real.log (a / y) : ℝ) : EReal) := by
    intro y hy; unfold relEntr; rw [if_pos ⟨ha, hy⟩]
  rw [e1 hp, e1 hq]
  have hlog1 : 1 - p / q ≤ Real.log (q / p) := by
    have := Real.one_sub_inv_le_log_of_pos (div_pos hq hp)
    rwa [inv_div] at this
  have hsplit : ∀ {y : ℝ}, 0 < y → Real.log (a / y) = Real.log a - Real.log y := fun hy =>
    Real.log_div ha.ne' hy.ne'
  have hsplit' : Real.log (q / p) = Real.log q - Real.log p := Real.log_div hq.ne' hp.ne'
  rcases eq_or_lt_of_le ha1 with h1 | h1
  · -- a = 1
    have e2 : ∀ {y : ℝ}, y ≤ 1 → relEntr (1 - a) (1 - y) = 0 := by
      intro y hy
      unfold relEntr
      rw [if_neg (by rw [h1]; simp), if_pos ⟨by linarith, by linarith⟩]
    rw [e2 (by linarith), e2 (by linarith), add_zero, add_zero]
    norm_cast
    rw [hsplit hp, hsplit hq]
    have : p / q ≤ 1 := (div_le_one hq).2 hpq
    nlinarith
  · have hq1 : q < 1 := by linarith
    have hp1 : p < 1 := by linarith
    have e2 : ∀ {y : ℝ}, y < 1 →
        relEntr (1 - a) (1 - y) = (((1 - a) * Real.log ((1 - a) / (1 - y)) : ℝ) : EReal) := by
      intro y hy; unfold relEntr; rw [if_pos ⟨by linarith, by linarith⟩]
    rw [e2 hp1, e2 hq1]
    norm_cast
    have h1a : 0 < 1 - a := by linarith
    have h1p : 0 < 1 - p := by linarith
    have h1q : 0 < 1 - q := by linarith
    rw [hsplit hp, hsplit hq, Real.log_div h1a.ne' h1p.ne', Real.log_div h1a.ne' h1q.ne']
    have hlog2 : 1 - (1 - p) / (1 - q) ≤ Real.log (1 - q) - Real.log (1 - p) := by
      have := Real.one_sub_inv_le_log_of_pos (div_pos h1q h1p)
      rwa [inv_div, Real.log_div h1q.ne' h1p.ne'] at this
    have key : 0 ≤ a * (1 - p / q) + (1 - a) * (1 - (1 - p) / (1 - q)) := by
      have : a * (1 - p / q) + (1 - a) * (1 - (1 - p) / (1 - q)) = (q - p) * (a - q) / (q * (1 - q)) := by
        field_simp; ring
      rw [this]
      apply div_nonneg (mul_nonneg (by linarith) (by linarith)) (by positivity)
    have m1 := mul_le_mul_of_nonneg_left hlog1 ha.le
    have m2 := mul_le_mul_of_nonneg_left hlog2 h1a.le
    rw [hsplit'] at m1
    linarith

theorem entropy_self {a : ℝ} (h0 : 0 ≤ a) (h1 : a ≤ 1) : entropy2 a a = 0 := by
  have : ∀ {x : ℝ}, 0 ≤ x → relEntr x x = 0 := by
    intro x hx
    unfold relEntr
    rcases eq_or_lt_of_le hx with h | h
    · rw [if_neg (by rw [← h]; simp), if_pos ⟨h.symm, hx⟩]
    · rw [if_pos ⟨h, h⟩, div_self h.ne', Real.log_one, mul_zero]; rfl
  unfold entropy2
  rw [this h0, this (by linarith), add_zero]

theorem relEntr_zero_right {a : ℝ} (ha : 0 < a) : relEntr a 0 = ⊤ := by
  unfold relEntr
  rw [if_neg (by simp), if_neg (by intro h; exact ha.ne' h.1)]

theorem relEntr_ne_bot (x y : ℝ) : relEntr x y ≠ ⊥ := by
  unfold relEntr
  split
  · exact EReal.coe_ne_bot _
  · split
    · simp
    · simp

theorem entropy_top_of_gt_one {a p : ℝ} (ha : 1 < a) : entropy2 a p = ⊤ := by
  unfold entropy2
  have : relEntr (1 - a) (1 - p) = ⊤ := by
    unfold relEntr
    rw [if_neg (by intro h; linarith [h.1]), if_neg (by intro h; linarith [h.1])]
  rw [this]
  exact EReal.add_top_of_ne_bot (relEntr_ne_bot _ _)

/-- The entropy term of `tailKL` as a function of the clamped ball fraction. -/
theorem entropy_max_anti {a p q : ℝ} (ha : 0 ≤ a) (hp : 0 ≤ p) (hpq : p ≤ q) (hq1 : q ≤ 1) :
    entropy2 (q + max (a - q) 0) q ≤ entropy2 (p + max (a - p) 0) p := by
  have e : ∀ y : ℝ, y + max (a - y) 0 = max a y := by
    intro y
    rcases le_total a y with h | h
    · rw [max_eq_right (by linarith), max_eq_right h]; ring
    · rw [max_eq_left (by linarith), max_eq_left h]; ring
  rw [e, e]
  rcases lt_or_ge 1 a with h1 | h1
  · rw [max_eq_left (by linarith : q ≤ a), max_eq_left (by linarith : p ≤ a), entropy_top_of_gt_one h1,
      entropy_top_of_gt_one h1]
  · have nonneg : 0 ≤ entropy2 (max a p) p := by
      rcases le_total a p with h | h
      · rw [max_eq_right h, entropy_self hp (by linarith)]
      · rw [max_eq_left h]
        rcases eq_or_lt_of_le hp with h0 | h0
        · rcases eq_or_lt_of_le ha with ha0 | ha0
          · rw [← h0, ← ha0, entropy_self le_rfl zero_le_one]
          · unfold entropy2
            rw [← h0, relEntr_zero_right ha0, EReal.top_add_of_ne_bot (relEntr_ne_bot _ _)]
            exact le_top
        · rw [← entropy_self ha h1]
          exact entropy_anti h1 h0 h le_rfl
    rcases le_total a q with h | h
    · rw [max_eq_right h, entropy_self (le_trans hp hpq) hq1]
      exact nonneg
    · rw [max_eq_left h, max_eq_left (le_trans hpq h)]
      rcases eq_or_lt_of_le hp with h0 | h0
      · rcases eq_or_lt_of_le ha with ha0 | ha0
        · have hq0 : q = 0 := by linarith
          rw [hq0, h0]
        · unfold entropy2
          rw [← h0, relEntr_zero_right ha0, EReal.top_add_of_ne_bot (relEntr_ne_bot _ _)]
          exact le_top
      · exact entropy_anti h1 h0 hpq h

/-- C08, Chernoff-KL. The log failure bound does not decrease with the radius and is at most `log m`. -/
theorem C08_chernoff_kl {m : ℕ} (hm : 2 ≤ m) {k r r' vol : ℝ} {dim : ℕ} (hk : 0 ≤ k) (hv : 0 < vol) (h0 : 0 ≤ r)
    (h : r ≤ r') :
    tailKL m k r dim vol ≤ tailKL m k r' dim vol ∧ tailKL m k r' dim vol ≤ ((Real.log m : ℝ) : EReal) := by
  have hm1 : (0 : ℝ) < (m : ℝ) - 1 := by
    have : (2 : ℝ) ≤ m := by exact_mod_cast hm
    linarith
  have hm0 : (0 : ℝ) < m := by linarith
  obtain ⟨hb0, hmono⟩ := ballFraction_mono (dim := dim) hv h0 h
  have hM : (0 : EReal) ≤ (((m : ℝ) - 1 : ℝ) : EReal) := by exact_mod_cast hm1.le
  have a0 : 0 ≤ k / m := by positivity
  unfold tailKL
  simp only [if_true]
  have p0 : 0 ≤ min (ballFraction r dim vol) 1 := le_min hb0 zero_le_one
  have hmin : min (ballFraction r dim vol) 1 ≤ min (ballFraction r' dim vol) 1 := min_le_min_right _ hmono
  constructor
  · apply EReal.sub_le_sub le_rfl
    exact mul_le_mul_of_nonneg_right (entropy_max_anti a0 p0 hmin (min_le_right _ _)) hM
  · have hnn : 0 ≤ entropy2 (min (ballFraction r' dim vol) 1 + max (k / m - min (ballFraction r' dim vol) 1) 0)
        (min (ballFraction r' dim vol) 1) := by
      have h1 := entropy_max_anti (q := 1) a0 (le_trans p0 hmin) (min_le_right (ballFraction r' dim vol) 1) le_rfl
      refine le_trans ?_ h1
      rcases le_total (k / m) 1 with hh | hh
      · rw [max_eq_right (by linarith), add_zero, entropy_self zero_le_one le_rfl]
      · rcases eq_or_lt_of_le hh with hh | hh
        · rw [max_eq_right (by linarith), add_zero, entropy_self zero_le_one le_rfl]
        · rw [max_eq_left (by linarith), show 1 + (k / m - 1) = k / m by ring, entropy_top_of_gt_one hh]
          exact le_top
    have := mul_nonneg hnn hM
    calc _ ≤ ((Real.log m : ℝ) : EReal) - 0 := EReal.sub_le_sub le_rfl this
      _ = _ := by simp

/-! ### Generic Chernoff bound -/

/-- `-mu + k log mu` increases up to `mu = k`. -/
theorem chernoff_core {k x y : ℝ} (hx : 0 < x) (hxy : x ≤ y) (hy : y ≤ k) :
    -x + k * Real.log x ≤ -y + k * Real.log y := by
  have hy0 : 0 < y := lt_of_lt_of_le hx hxy
  have h1 := Real.one_sub_inv_le_log_of_pos (div_pos hy0 hx)
  rw [inv_div, Real.log_div hy0.ne' hx.ne'] at h1
  have hk : 0 ≤ k := by linarith
  have h2 := mul_le_mul_of_nonneg_left h1 hk
  have h3 : y - x ≤ k * (1 - x / y) := by
    have : 1 - x / y = (y - x) / y := by field_simp
    rw [this, ← mul_div_assoc, le_div_iff₀ hy0]
    nlinarith
  linarith

/-- C08, generic Chernoff bound: at most `log m` for every radius, and not decreasing with the radius as long as the
expected number of neighbours is at most `k`. -/
theorem C08_chernoff_generic {m : ℕ} (hm : 2 ≤ m) {k r r' vol : ℝ} {dim : ℕ} (hk : 0 < k) (hv : 0 < vol) (h0 : 0 ≤ r)
    (h : r ≤ r') :
    tailChernoff m k r' dim vol ≤ ((Real.log m : ℝ) : EReal) ∧
    (((m : ℝ) - 1) * ballFraction r' dim vol ≤ k → tailChernoff m k r dim vol ≤ tailChernoff m k r' dim vol) := by
  have hm1 : (0 : ℝ) < (m : ℝ) - 1 := by
    have : (2 : ℝ) ≤ m := by exact_mod_cast hm
    linarith
  obtain ⟨hb0, hmono⟩ := ballFraction_mono (dim := dim) hv h0 h
  have hmin : min (ballFraction r dim vol) 1 ≤ min (ballFraction r' dim vol) 1 := min_le_min_right _ hmono
  have p0 : 0 ≤ min (ballFraction r dim vol) 1 := le_min hb0 zero_le_one
  unfold tailChernoff
  simp only
  constructor
  · split
    · exact bot_le
    · next hne =>
      have hmu : 0 < ((m : ℝ) - 1) * min (ballFraction r' dim vol) 1 :=
        lt_of_le_of_ne (mul_nonneg hm1.le (le_trans p0 hmin)) (Ne.symm hne)
      have : Real.log ((((m : ℝ) - 1) * min (ballFraction r' dim vol) 1) / k) ≤
          (((m : ℝ) - 1) * min (ballFraction r' dim vol) 1) / k - 1 := Real.log_le_sub_one_of_pos (div_pos hmu hk)
      rw [Real.log_div hmu.ne' hk.ne'] at this
      have h2 := mul_le_mul_of_nonneg_left this hk.le
      rw [mul_sub, mul_sub, mul_div_cancel₀ _ hk.ne'] at h2
      apply EReal.coe_le_coe_iff.2
      linarith
  · intro hle
    split
    · exact bot_le
    · next hne =>
      have hmu : 0 < ((m : ℝ) - 1) * min (ballFraction r dim vol) 1 :=
        lt_of_le_of_ne (mul_nonneg hm1.le p0) (Ne.symm hne)
      have hmm : ((m : ℝ) - 1) * min (ballFraction r dim vol) 1 ≤ ((m : ℝ) - 1) * min (ballFraction r' dim vol) 1 :=
        mul_le_mul_of_nonneg_left hmin hm1.le
      have hmk : ((m : ℝ) - 1) * min (ballFraction r' dim vol) 1 ≤ k :=
        le_trans (mul_le_mul_of_nonneg_left (min_le_left _ _) hm1.le) hle
      rw [if_neg (lt_of_lt_of_le hmu hmm).ne']
      apply EReal.coe_le_coe_iff.2
      have := chernoff_core hmu hmm hmk
      linarith

/-- C08 cannot be extended past `mu = k`: there a larger radius has a smaller generic Chernoff bound
(`m = 3`, `k = 1`, ball fractions 1/2 and 1 on the line, expected numbers of neighbours 1 and 2). -/
theorem C08_chernoff_generic_false :
    tailChernoff 3 1 (1 / 2) 1 (volUnitSphere 1) > tailChernoff 3 1 1 1 (volUnitSphere 1) := by
  have hs := (volUnitSphere_pos 1).ne'
  have e1 : ballFraction (1 / 2) 1 (volUnitSphere 1) = 1 / 2 := by unfold ballFraction; field_simp
  have e2 : ballFraction 1 1 (volUnitSphere 1) = 1 := by unfold ballFraction; field_simp
  unfold tailChernoff
  simp only [e1, e2]
  norm_num
  norm_cast
  have h : Real.log 2 < 1 := by
    have := Real.log_lt_sub_one_of_pos (x := 2) (by norm_num) (by norm_num)
    linarith
  linarith

/-- The tail theorems cover non-trivial cases, e.g. 1000 samples, 50 neighbours, radii 0.1 and 0.2 in a unit square. -/
example : tailKL 1000 50 (1 / 10) 2 1 ≤ tailKL 1000 50 (2 / 10) 2 1 :=
  (C08_chernoff_kl (by norm_num) (by norm_num) (by norm_num) (by norm_num) (by norm_num)).1

/-! ### Halving search -/

section halving

variable {β : Type*} [LinearOrder β] (g : ℝ → β) (L : β)

/-- The search's test: the bound is within the failure probability and still decreasing for smaller radii. -/
def Certified (tol r : ℝ) : Prop := g r ≤ L ∧ g (r - tol / 2) < g r

theorem halvingBody_cases (tol : ℝ) (h0 : 0 ≤ tol) (lb ub : ℝ) :
    (ub - lb ≤ tol ∧ halvingBody g L tol (lb, ub) = .done (.ok lb)) ∨
    (tol < ub - lb ∧ Certified g L tol ((lb + ub) / 2) ∧ halvingBody g L tol (lb, ub) = .next ((lb + ub) / 2, ub)) ∨
    (tol < ub - lb ∧ ¬ Certified g L tol ((lb + ub) / 2) ∧
      halvingBody g L tol (lb, ub) = .next (lb, (lb + ub) / 2)) := by
  unfold halvingBody
  simp only
  by_cases h : ub - lb ≤ tol
  · left; exact ⟨h, by rw [if_pos h]⟩
  · right
    have hlt : tol < ub - lb := not_le.mp h
    rw [if_neg h, if_neg (by linarith : ¬ ub < lb)]
    by_cases hc : Certified g L tol ((lb + ub) / 2)
    · left
      refine ⟨hlt, hc, ?_⟩
      rw [if_neg]
      rw [not_or, not_le, not_lt]
      exact ⟨hc.2, hc.1⟩
    · right
      refine ⟨hlt, hc, ?_⟩
      rw [if_pos]
      by_contra hcon
      rw [not_or, not_le, not_lt] at hcon
      exact hc ⟨hcon.2, hcon.1⟩

/-- Postcondition of the halving search from the interval `[lb, ub]`. -/
def HalvingPost (lb ub tol : ℝ) (b : Except PyErr ℝ) : Prop :=
  ∃ r, b = .ok r ∧ lb ≤ r ∧ r < ub ∧ (r = lb ∨ Certified g L tol r) ∧
    ∃ u, r < u ∧ u ≤ r + tol ∧ u ≤ ub ∧ (u = ub ∨ ¬ Certified g L tol u)

theorem halving_total {tol : ℝ} (h0 : 0 < tol) (lb0 ub0 : ℝ) :
    ∀ n : ℕ, ∀ lb ub, lb < ub → lb0 ≤ lb → ub ≤ ub0 → (lb = lb0 ∨ Certified g L tol lb) →
      (ub = ub0 ∨ ¬ Certified g L tol ub) → ub - lb ≤ tol * 2 ^ n →
      ∃ b, LoopStops (halvingBody g L tol) (lb, ub) b ∧ HalvingPost g L lb0 ub0 tol b := by
  intro n
  induction n with
  | zero =>
    intro lb ub hlt hl hu hL hU hgap
    have hgap : ub - lb ≤ tol := by simpa using hgap
    rcases halvingBody_cases g L tol h0.le lb ub with ⟨_, he⟩ | ⟨hc, _⟩ | ⟨hc, _⟩
    · exact ⟨_, .of_done he, lb, rfl, hl, by linarith, hL, ub, hlt, by linarith, hu, hU⟩
    · linarith
    · linarith
  | succ n ih =>
    intro lb ub hlt hl hu hL hU hgap
    have hpow : tol * 2 ^ (n + 1) = 2 * (tol * 2 ^ n) := by ring
    rcases halvingBody_cases g L tol h0.le lb ub with ⟨hc, he⟩ | ⟨hc, hg, he⟩ | ⟨hc, hg, he⟩
    · exact ⟨_, .of_done he, lb, rfl, hl, by linarith, hL, ub, hlt, by linarith, hu, hU⟩
    · obtain ⟨b, hb, hp⟩ := ih ((lb + ub) / 2) ub (by linarith) (by linarith) hu (Or.inr hg) hU (by linarith)
      exact ⟨b, .of_next he hb, hp⟩
    · obtain ⟨b, hb, hp⟩ := ih lb ((lb + ub) / 2) (by linarith) hl (by linarith) hL (Or.inr hg) (by linarith)
      exact ⟨b, .of_next he hb, hp⟩

/-- C09. For a positive tolerance and a proper interval the search stops without an exception; it returns a radius in
`[lb, ub)` that is `lb` or was checked, and a radius at most `tol` above it is `ub` or was checked to fail. -/
theorem C09_halving_search {lb ub tol : ℝ} (h0 : 0 < tol) (h : lb < ub) :
    ∃ fuel r, halvingRadiusSearch g L lb ub tol fuel = some (.ok r) ∧ lb ≤ r ∧ r < ub ∧
      (r = lb ∨ (g r ≤ L ∧ g (r - tol / 2) < g r)) ∧
      ∃ u, r < u ∧ u ≤ r + tol ∧ u ≤ ub ∧ (u = ub ∨ ¬ (g u ≤ L ∧ g (u - tol / 2) < g u)) := by
  obtain ⟨n, hn⟩ := pow_unbounded_of_one_lt ((ub - lb) / tol) (by norm_num : (1 : ℝ) < 2)
  have hgap : ub - lb ≤ tol * 2 ^ n := by
    rw [div_lt_iff₀ h0] at hn; linarith
  obtain ⟨b, ⟨fuel, hf⟩, r, rfl, hp⟩ := halving_total g L h0 lb ub n lb ub h le_rfl le_rfl (Or.inl rfl) (Or.inl rfl) hgap
  exact ⟨fuel, r, by unfold halvingRadiusSearch; rw [if_pos h]; exact hf, hp⟩

/-- C09. The assertion fails exactly for an empty interval, and `'Something wrong happened.'` is never raised. -/
theorem C09_errors {lb ub tol : ℝ} (h0 : 0 < tol) {fuel : ℕ} {e : PyErr}
    (h : halvingRadiusSearch g L lb ub tol fuel = some (.error e)) : e = .assertion ∧ ub ≤ lb := by
  by_cases hlt : lb < ub
  · exfalso
    obtain ⟨fuel', r, hr, -⟩ := C09_halving_search g L h0 hlt
    unfold halvingRadiusSearch at h hr
    rw [if_pos hlt] at h hr
    have := LoopStops.unique ⟨fuel, h⟩ ⟨fuel', hr⟩
    cases this
  · unfold halvingRadiusSearch at h
    rw [if_neg hlt] at h
    cases h
    exact ⟨rfl, not_lt.mp hlt⟩

/-- C09. If certifiability is downward closed on the interval and fails at its upper end, the answer is within `tol` of
every certifiable radius of the interval: it is the largest one up to the tolerance. -/
theorem C09_near_largest {lb ub tol : ℝ} (h0 : 0 < tol) (h : lb < ub)
    (hdown : ∀ x y, lb ≤ x → x ≤ y → y ≤ ub → (g y ≤ L ∧ g (y - tol / 2) < g y) → (g x ≤ L ∧ g (x - tol / 2) < g x))
    (hub : ¬ (g ub ≤ L ∧ g (ub - tol / 2) < g ub)) {fuel : ℕ} {r : ℝ}
    (hr : halvingRadiusSearch g L lb ub tol fuel = some (.ok r)) :
    ∀ R, lb ≤ R → R ≤ ub → (g R ≤ L ∧ g (R - tol / 2) < g R) → R < r + tol := by
  obtain ⟨fuel', r', hr', hl, -, -, u, hru, hut, huu, hu⟩ := C09_halving_search g L h0 h
  have hrr : r = r' := by
    unfold halvingRadiusSearch at hr hr'
    rw [if_pos h] at hr hr'
    have := LoopStops.unique ⟨fuel, hr⟩ ⟨fuel', hr'⟩
    cases this; rfl
  subst hrr
  intro R hR1 hR2 hcert
  have hubad : ¬ (g u ≤ L ∧ g (u - tol / 2) < g u) := by
    rcases hu with rfl | hu
    · exact hub
    · exact hu
  by_contra hcon
  exact hubad (hdown u R (by linarith) (by linarith) hR2 hcert)

end halving

/-- C09, as the experiments use it: with the Chernoff-KL bound, the returned radius and every smaller positive radius have
failure probability at most `1 - p` (or the lower end of the interval is returned). -/
theorem C09_kl_certified {m : ℕ} (hm : 2 ≤ m) {k vol lb ub p tol : ℝ} {dim : ℕ} (hk : 0 ≤ k) (hv : 0 < vol)
    (hp : p < 1) (h0 : 0 < tol) (h : lb < ub) :
    ∃ fuel r, halvingRadiusSearchProb (fun x => tailKL m k x dim vol) lb ub p tol fuel = some (.ok r) ∧ lb ≤ r ∧ r < ub ∧
      (r = lb ∨ ∀ r', 0 ≤ r' → r' ≤ r → EReal.exp (tailKL m k r' dim vol) ≤ ENNReal.ofReal (1 - p)) := by
  obtain ⟨fuel, r, hr, h1, h2, h3, -⟩ := C09_halving_search (fun x => tailKL m k x dim vol)
    ((Real.log (1 - p) : ℝ) : EReal) h0 h
  refine ⟨fuel, r, hr, h1, h2, h3.imp_right fun hc r' hr0 hr' => ?_⟩
  have := le_trans (C08_chernoff_kl (dim := dim) hm hk hv hr0 hr').1 hc.1
  have h4 := EReal.exp_monotone this
  rwa [EReal.exp_coe, Real.exp_log (by linarith)] at h4

/-- C09 is not vacuous: the search over `[0, 1]` for the identity bound and limit 1/3 returns a value. -/
example : ∃ fuel r, halvingRadiusSearch (fun x : ℝ => x) (1 / 3) 0 1 (1 / 100) fuel = some (.ok r) ∧
    r < 1 / 3 + 1 / 100 ∧ 1 / 3 - 1 / 100 ≤ r := by
  obtain ⟨fuel, r, h, h1, h2, h3, u, h4, h5, h6, h7⟩ :=
    C09_halving_search (fun x : ℝ => x) (1 / 3) (lb := 0) (ub := 1) (tol := 1 / 100) (by norm_num) (by norm_num)
  refine ⟨fuel, r, h, ?_, ?_⟩
  · rcases h3 with h3 | h3
    · rw [h3]; norm_num
    · linarith [h3.1]
  · rcases h7 with h7 | h7
    · linarith
    · by_contra hcon
      exact h7 ⟨by linarith, by linarith⟩

/-! ### Linear search -/

section linear

variable {β : Type*} [LinearOrder β] (g : ℝ → β) (γ : β)

/-- C10 (part). All outcomes of the linear search: an exception if the interval is empty, the lower end if the very first
test exceeds the failure probability, and no answer at all otherwise. The property asks for an answer in the last case. -/
theorem C10_linear_search_partial (lb ub tol : ℝ) :
    (ub < lb → ∃ fuel, linearRadiusSearch g γ lb ub tol fuel = some (.error .arithmetic)) ∧
    (lb ≤ ub → γ < g (lb + tol) → ∃ fuel, linearRadiusSearch g γ lb ub tol fuel = some (.ok lb)) ∧
    (lb ≤ ub → g (lb + tol) ≤ γ → ∀ fuel, linearRadiusSearch g γ lb ub tol fuel = none) := by
  refine ⟨fun h => ⟨1, ?_⟩, fun h hg => ⟨1, ?_⟩, fun h hg => ?_⟩
  · apply loop_done
    unfold linearBody; rw [if_pos h]
  · apply loop_done
    unfold linearBody; rw [if_neg (not_lt.mpr h)]; simp only; rw [if_pos hg]
  · apply LoopDiverges.of_fixed
    unfold linearBody; rw [if_neg (not_lt.mpr h)]; simp only; rw [if_neg (not_lt.mpr hg)]

end linear

/-- C10 fails: for the identity as probability bound and limit 1/2, the answer on `[0, 1]` is near 1/2, but the search
never returns. -/
theorem C10_linear_search_false : ∀ fuel, linearRadiusSearch (fun x : ℝ => x) (1 / 2) 0 1 (1 / 1000000) fuel = none :=
  (C10_linear_search_partial (fun x : ℝ => x) (1 / 2) 0 1 (1 / 1000000)).2.2 (by norm_num) (by norm_num)

/-! ### Effective connection radius -/

theorem log_one_sub_le {s : ℝ} (h0 : 0 ≤ s) (h1 : s < 1) : s + Real.log (1 - s) ≤ -(s ^ 2) / 2 := by
  -- f s = s + log (1 - s) + s^2/2 is antitone on [0, 1)
  rcases eq_or_lt_of_le h0 with rfl | hs
  · simp
  · have hsum := Real.hasSum_pow_div_log_of_abs_lt_one (x := s) (by rw [abs_of_pos hs]; exact h1)
    have := hsum.summable.sum_le_tsum (s := Finset.range 2) (fun i _ => by positivity)
    rw [hsum.tsum_eq] at this
    norm_num [Finset.sum_range_succ] at this
    linarith

theorem chernoff_at_numer {m : ℕ} {k γ : ℝ} (hm : 1 ≤ m) (hk : 0 < k) (hγ : 0 < γ) (hγ1 : γ ≤ 1)
    (hn : 0 < k - Real.sqrt (2 * k * (Real.log m - Real.log γ))) :
    Real.log m - (k - Real.sqrt (2 * k * (Real.log m - Real.log γ))) +
      k * (1 + Real.log (k - Real.sqrt (2 * k * (Real.log m - Real.log γ))) - Real.log k) ≤ Real.log γ := by
  have hLm : 0 ≤ Real.log m := Real.log_nonneg (by exact_mod_cast hm)
  have hLg : Real.log γ ≤ 0 := Real.log_nonpos hγ.le hγ1
  set Q := Real.log m - Real.log γ with hQ
  have hQ0 : 0 ≤ Q := by linarith
  set R := Real.sqrt (2 * k * Q) with hR
  have hR0 : 0 ≤ R := Real.sqrt_nonneg _
  have hR2 : R ^ 2 = 2 * k * Q := Real.sq_sqrt (by positivity)
  have hlog : Real.log (k - R) = Real.log k + Real.log (1 - R / k) := by
    rw [← Real.log_mul hk.ne' (by rw [sub_ne_zero]; intro h; rw [eq_div_iff hk.ne'] at h; linarith)]
    congr 1; field_simp
  have hs1 : R / k < 1 := by rw [div_lt_one hk]; linarith
  have hkey := log_one_sub_le (div_nonneg hR0 hk.le) hs1
  rw [hlog]
  have h2 := mul_le_mul_of_nonneg_left hkey hk.le
  have h3 : k * (-(R / k) ^ 2 / 2) = -Q := by
    rw [div_pow, hR2]; field_simp
  rw [h3, mul_add, mul_div_cancel₀ _ hk.ne'] at h2
  linarith

/-- C11. Where the formula gives a radius and the unit ball is no larger than the environment, the generic Chernoff bound at
that radius is at most the logarithm of the requested failure probability. (For `dim = 1` the formula may return a
negative number, which is not a radius.) -/
theorem C11_eff_radius_certified_partial {m : ℕ} {k : ℝ} {dim : ℕ} {vol γ r : ℝ} (hm : 2 ≤ m) (hk : 0 < k)
    (hd : 1 ≤ dim) (hv : 0 < vol) (hγ : 0 < γ) (hγ1 : γ ≤ 1) (hunit : volUnitSphere dim / vol ≤ 1)
    (h : effConnRadBound m k dim vol γ = .ok r) (hr : 0 ≤ r) :
    tailChernoff m k r dim vol ≤ ((Real.log γ : ℝ) : EReal) := by
  have hm1 : (0 : ℝ) < (m : ℝ) - 1 := by
    have : (2 : ℝ) ≤ m := by exact_mod_cast hm
    linarith
  have hs := volUnitSphere_pos dim
  have hmu : 0 < volUnitSphere dim / vol := div_pos hs hv
  unfold effConnRadBound at h
  simp only [min_eq_left hunit] at h
  set numer := k - Real.sqrt (2 * k * (Real.log m - Real.log γ)) with hnum
  set denom := ((m : ℝ) - 1) * (volUnitSphere dim / vol) with hden
  have hden0 : 0 < denom := mul_pos hm1 hmu
  split at h
  · cases h
  · next hcond =>
    cases h
    have hq : 0 ≤ numer / denom := by
      by_contra hneg
      by_cases hd1 : dim = 1
      · subst hd1
        norm_num at hr
        exact hneg hr
      · exact hcond ⟨not_le.mp hneg, hd1⟩
    have hpow : ((numer / denom) ^ (1 / (dim : ℝ))) ^ dim = numer / denom := by
      rw [← Real.rpow_natCast, ← Real.rpow_mul hq]
      have : (1 / (dim : ℝ)) * dim = 1 := by
        have : (dim : ℝ) ≠ 0 := by positivity
        field_simp
      rw [this, Real.rpow_one]
    have hball : ((m : ℝ) - 1) * ballFraction ((numer / denom) ^ (1 / (dim : ℝ))) dim vol = numer := by
      unfold ballFraction
      rw [hpow, hden]
      field_simp
    have hnum0 : 0 ≤ numer := by
      have := mul_nonneg hq hden0.le
      rwa [div_mul_cancel₀ _ hden0.ne'] at this
    have hnumk : numer ≤ k := by
      have := Real.sqrt_nonneg (2 * k * (Real.log m - Real.log γ))
      linarith
    unfold tailChernoff
    simp only
    split
    · exact bot_le
    · next hne =>
      set p := min (ballFraction ((numer / denom) ^ (1 / (dim : ℝ))) dim vol) 1 with hp
      have hple : ((m : ℝ) - 1) * p ≤ numer := by
        rw [← hball]; exact mul_le_mul_of_nonneg_left (min_le_left _ _) hm1.le
      have hp0 : 0 ≤ ((m : ℝ) - 1) * p := by
        apply mul_nonneg hm1.le
        apply le_min _ zero_le_one
        by_contra hneg
        have := mul_neg_of_pos_of_neg hm1 (not_le.mp hneg)
        linarith
      have hp1 : 0 < ((m : ℝ) - 1) * p := lt_of_le_of_ne hp0 (Ne.symm hne)
      have hcore := chernoff_core hp1 hple hnumk
      have hat := chernoff_at_numer (by omega : 1 ≤ m) hk hγ hγ1 (lt_of_lt_of_le hp1 hple)
      apply EReal.coe_le_coe_iff.2
      rw [← hnum] at hat
      linarith

/-- C11 fails without the restriction: whenever the formula is positive and `k < m`, there is an environment (smaller than
the unit ball) in which the certified bound is the vacuous value `log m`. -/
theorem C11_eff_radius_certified_false {m : ℕ} {k : ℝ} {dim : ℕ} {γ : ℝ} (hm : 2 ≤ m) (hk : 0 < k) (hkm : k ≤ (m : ℝ) - 1)
    (hd : 1 ≤ dim) (hγ : 0 < γ) (hγ1 : γ < 1) (hn : 0 < k - Real.sqrt (2 * k * (Real.log m - Real.log γ))) :
    ∃ vol r, 0 < vol ∧ 0 < r ∧ effConnRadBound m k dim vol γ = .ok r ∧
      tailChernoff m k r dim vol = ((Real.log m : ℝ) : EReal) ∧ Real.log γ < Real.log m := by
  have hm2 : (2 : ℝ) ≤ m := by exact_mod_cast hm
  have hm1 : (0 : ℝ) < (m : ℝ) - 1 := by linarith
  have hs := volUnitSphere_pos dim
  set numer := k - Real.sqrt (2 * k * (Real.log m - Real.log γ)) with hnum
  have hnumk : numer ≤ k := by
    have := Real.sqrt_nonneg (2 * k * (Real.log m - Real.log γ))
    linarith
  -- choose the volume so that the measure of the unit ball is k / numer
  refine ⟨volUnitSphere dim * numer / k, (numer / ((m : ℝ) - 1)) ^ (1 / (dim : ℝ)), by positivity,
    Real.rpow_pos_of_pos (by positivity) _, ?_, ?_, ?_⟩
  · unfold effConnRadBound
    have hmeas : volUnitSphere dim / (volUnitSphere dim * numer / k) = k / numer := by field_simp
    simp only [hmeas]
    rw [min_eq_right ((one_le_div hn).2 hnumk), mul_one, if_neg]
    intro hcon
    have := div_pos hn hm1
    rw [← hnum] at hcon
    linarith [hcon.1]
  · have hpow : ((numer / ((m : ℝ) - 1)) ^ (1 / (dim : ℝ))) ^ dim = numer / ((m : ℝ) - 1) := by
      rw [← Real.rpow_natCast, ← Real.rpow_mul (by positivity)]
      have : (1 / (dim : ℝ)) * dim = 1 := by
        have : (dim : ℝ) ≠ 0 := by positivity
        field_simp
      rw [this, Real.rpow_one]
    have hball : ballFraction ((numer / ((m : ℝ) - 1)) ^ (1 / (dim : ℝ))) dim (volUnitSphere dim * numer / k)
        = k / ((m : ℝ) - 1) := by
      unfold ballFraction
      rw [hpow]
      field_simp
    unfold tailChernoff
    simp only [hball]
    rw [min_eq_left ((div_le_one hm1).2 hkm), mul_div_cancel₀ _ hm1.ne', if_neg hk.ne']
    congr 1; ring
  · exact Real.log_lt_log hγ (by linarith)

/-- C11 is not vacuous: `m = 2`, `k = 100`, `γ = 1/2` in a square of area 4 gives a radius. -/
example : ∃ r, effConnRadBound 2 100 2 4 (1 / 2) = .ok r ∧ 0 ≤ r := by
  have hv2 : volUnitSphere 2 = Real.pi := by
    have h2 : Real.Gamma (1 + 1) = 1 := by rw [Real.Gamma_add_one one_ne_zero, Real.Gamma_one, one_mul]
    unfold volUnitSphere; norm_num [h2]
  have hlog : Real.log 2 - Real.log (1 / 2) = 2 * Real.log 2 := by
    rw [Real.log_div (by norm_num) (by norm_num), Real.log_one]; ring
  have hle : Real.sqrt (2 * 100 * (Real.log 2 - Real.log (1 / 2))) ≤ 20 := by
    rw [hlog, Real.sqrt_le_left (by norm_num)]
    have := Real.log_lt_sub_one_of_pos (x := 2) (by norm_num) (by norm_num)
    linarith
  unfold effConnRadBound
  simp only
  have hnum : 0 ≤ (100 - Real.sqrt (2 * 100 * (Real.log (2 : ℕ) - Real.log (1 / 2)))) /
      (((2 : ℕ) : ℝ) - 1) / min (volUnitSphere 2 / 4) 1 := by
    rw [hv2]
    have : 0 ≤ min (Real.pi / 4) 1 := le_min (by have := Real.pi_pos; positivity) zero_le_one
    apply div_nonneg _ this
    norm_num
    have := hle
    norm_num at this
    linarith
  rw [div_div] at hnum
  rw [if_neg (by intro hc; exact absurd hc.1 (not_lt.mpr hnum))]
  exact ⟨_, rfl, Real.rpow_nonneg hnum _⟩

end Verif.Props
