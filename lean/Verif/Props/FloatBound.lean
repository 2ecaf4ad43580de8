import Verif.Lemmas.FloatRadius
import Verif.Props.FloatGuarantee
import Verif.Props.FloatStraight

/-! `compute_numerical_bound` in floats, and the guarantees of C128 and C129 for the count and the radius that it returns: C133. -/

namespace Verif.Props

open MeasureTheory ProbabilityTheory Verif.Envs Verif.Bound Verif.Spec Verif.Prm Verif.Net Verif.Float64

variable {Ω : Type*} [MeasurableSpace Ω] {Pr : Measure Ω} [IsProbabilityMeasure Pr] {n : ℕ} {lib : Libm} {μ δ p vol r : ℝ} {dim fuel N : ℕ}
  {tol : Option ℝ}

/-- C133. Without rounding and with an exact library this is the function of C01. -/
theorem C133_exact : numericalBoundR id Libm.exact = numericalBound := by
  have ha : ∀ tol, alphaR id Libm.exact tol = alpha tol := by
    intro tol
    cases tol with
    | none => rfl
    | some t =>
      simp only [alphaR, alpha, Libm.exact, id]
      norm_cast
  have hr : ∀ δ tol dim vol, rhoR id Libm.exact δ tol dim vol = rho δ tol dim vol := by
    intro δ tol dim vol
    simp only [rhoR, rho, epsilonNetRadiusR, epsilonNetRadius, ha, volUnitSphereR, volUnitSphere]
    simp only [Libm.exact, id, Real.rpow_natCast]
  have hc : ∀ δ tol, connRadiusR id Libm.exact δ tol = 2 * (alpha tol + Real.sqrt (1 - alpha tol ^ 2)) * δ := by
    intro δ tol
    simp only [connRadiusR, ha]
    simp only [Libm.exact, id]
    norm_cast
  funext δ p vol dim tol fuel
  unfold numericalBoundR numericalBound
  simp only [hr, hc]
  rfl

theorem bits_eq (m vc : ℕ) (p : ℝ) : bits m vc p = logRow vc (2 * m) + 1 - Real.logb 2 (1 - p) := by
  unfold bits
  rw [logRow_eq]

theorem bits_ge (m vc : ℕ) (hp0 : 0 < p) (hp1 : p < 1) : 1 ≤ bits m vc p := by
  rw [bits_eq]
  linarith [logRow_nonneg (2 * m) vc, logb_nonpos' hp0 hp1]

theorem eps9 (h0 : eps ≤ μ) : μ + 8 * eps ≤ 9 * μ := by linarith

/-- The factors of C133 in one number. -/
theorem factor_le (m0 : 0 ≤ μ) (h1 : (5 * dim + 6) * μ ≤ 1 / 4) : (1 + 2 * μ) ^ ((5 : ℝ) * dim + 6) ≤ 1 + (15 * dim + 18) * μ := by
  have K0 : (0 : ℝ) ≤ 5 * dim + 6 := by positivity
  have e1 : 1 + 2 * μ ≤ Real.exp (2 * μ) := by linarith [Real.add_one_le_exp (2 * μ)]
  have x0 : 0 ≤ 2 * ((5 * dim + 6) * μ) := by positivity
  have e2 := abs_le.1 (Real.abs_exp_sub_one_sub_id_le (x := 2 * ((5 * dim + 6) * μ)) (by rw [abs_of_nonneg x0]; linarith))
  calc (1 + 2 * μ) ^ ((5 : ℝ) * dim + 6) ≤ Real.exp (2 * μ) ^ ((5 : ℝ) * dim + 6) := Real.rpow_le_rpow (by linarith) e1 K0
    _ = Real.exp (2 * ((5 * dim + 6) * μ)) := by rw [← Real.exp_mul]; ring_nf
    _ ≤ 1 + (15 * dim + 18) * μ := by nlinarith [e2.2]

theorem mu_small (hd : 1 ≤ dim) (m0 : 0 ≤ μ) (h1 : (5 * dim + 6) * μ ≤ 1 / 4) : μ ≤ 1 / 44 := by
  have d1 : (1 : ℝ) ≤ dim := by exact_mod_cast hd
  have : 11 * μ ≤ (5 * dim + 6) * μ := mul_le_mul_of_nonneg_right (by linarith) m0
  linarith

theorem failure_of_log {m vc : ℕ} {ρ η : ℝ} (hp1 : p < 1) (h : sauerShelahLog2 m ρ vc ≤ Real.logb 2 (1 - p) + η) :
    failureBound m ρ vc ≤ (1 - p) * 2 ^ η := by
  rw [failureBound_eq]
  calc (2 : ℝ) ^ sauerShelahLog2 m ρ vc ≤ 2 ^ (Real.logb 2 (1 - p) + η) := Real.rpow_le_rpow_of_exponent_le (by norm_num) h
    _ = _ := by rw [Real.rpow_add (by norm_num), Real.rpow_logb (by norm_num) (by norm_num) (by linarith)]

/-- The returned count passes the exact test up to rounding errors, also for a measure `ρ'` that is a little smaller than the computed one. -/
theorem count_log (hl : Accurate lib μ) (h0 : eps ≤ μ) (hμ : μ ≤ 1 / 100) (fp : IsFloat p)
    (hρ : 0 ≤ rhoR fl lib δ tol dim vol) {ρ' κ : ℝ} (hκ : 0 ≤ κ) (hle : rhoR fl lib δ tol dim vol ≤ (1 + κ) * ρ')
    (h : numericalBoundR fl lib δ p vol dim tol fuel = some (.ok (N, r))) :
    2 ≤ N ∧ sauerShelahLog2 N ρ' (dim + 1) ≤ Real.logb 2 (1 - p) + (κ + 27 * μ) * bits N (dim + 1) p := by
  obtain ⟨hp0, hp1, -, hs⟩ := numericalBoundR_ok h
  have m0 : 0 ≤ μ := eps_pos.le.trans h0
  rcases search_post _ _ hs with ⟨k, hk, h2, hg, -⟩ | ⟨he, -⟩
  · cases hk
    refine ⟨h2, ?_⟩
    have k1 := passes_sufficient hl m0 hμ hρ hp0 hp1 fp hg.1
    rw [sauerShelah_eq]
    rw [← bits_eq] at k1
    have M1 := bits_ge N (dim + 1) hp0 hp1
    have k2 : logRow (dim + 1) (2 * N) + 1 = bits N (dim + 1) p + Real.logb 2 (1 - p) := by rw [bits_eq]; ring
    set M := bits N (dim + 1) p
    have N0 : (0 : ℝ) ≤ N := Nat.cast_nonneg N
    have k3 : rhoR fl lib δ tol dim vol * N / 2 ≤ (1 + κ) * (ρ' * N / 2) := by
      have := mul_le_mul_of_nonneg_right hle N0
      linarith
    have k4 : (1 - 27 * μ) * M ≤ (1 + κ) * (ρ' * N / 2) := by
      refine le_trans ?_ (k1.trans k3)
      exact mul_le_mul_of_nonneg_right (by linarith [eps9 h0]) (by linarith)
    have k5 : (1 - 27 * μ - κ) * M ≤ ρ' * N / 2 := by
      have : (1 + κ) * ((1 - 27 * μ - κ) * M) ≤ (1 - 27 * μ) * M := by
        rw [← mul_assoc]
        refine mul_le_mul_of_nonneg_right ?_ (by linarith)
        nlinarith [mul_nonneg hκ m0, mul_nonneg hκ hκ]
      exact le_of_mul_le_mul_left (this.trans k4) (by linarith)
    linarith
  · cases he

/-- C133. The count that `compute_numerical_bound` returns in floats suffices up to rounding errors: with that many samples (or more) the
bound on the failure probability is at most `1 - p` times two to a small multiple of the relative error `μ` of the operations and of the
library. -/
theorem C133_sufficient (hl : Accurate lib μ) (h0 : eps ≤ μ) (hμ : μ ≤ 1 / 100) (hd : 1 ≤ dim) (h1 : (5 * dim + 6) * μ ≤ 1 / 4) (fp : IsFloat p)
    (hδ : 0 < δ) (hv : 0 < vol) (ht : TolNonneg tol) (hn : NoUnderflow δ vol dim tol)
    (h : numericalBoundR fl lib δ p vol dim tol fuel = some (.ok (N, r))) (hs : (15 * dim + 45) * μ * bits N (dim + 1) p < 1) :
    2 ≤ N ∧ ∀ m ≥ N, failureBound m (netMeasure δ tol dim vol) (dim + 1) ≤ (1 - p) * 2 ^ ((15 * dim + 45) * μ * bits N (dim + 1) p) := by
  have m0 : 0 ≤ μ := eps_pos.le.trans h0
  obtain ⟨hp0, hp1, -, -⟩ := numericalBoundR_ok h
  have w := rhoR_within hl h0 hd h1 hδ hv hn ht
  have hle : rhoR fl lib δ tol dim vol ≤ (1 + (15 * dim + 18) * μ) * netMeasure δ tol dim vol :=
    w.2.2.1.trans (mul_le_mul_of_nonneg_right (factor_le m0 h1) w.2.1.le)
  obtain ⟨h2, k⟩ := count_log hl h0 hμ fp w.1.le (by positivity) hle h
  have e : ((15 * dim + 18) * μ + 27 * μ) * bits N (dim + 1) p = (15 * dim + 45) * μ * bits N (dim + 1) p := by ring
  rw [e] at k
  refine ⟨h2, fun m hm => failure_of_log hp1 ?_⟩
  exact sauerShelah_upward _ _ (by linarith [logb_nonpos' hp0 hp1]) hm k

/-- C133. The returned count is not much too large: unless it is 2, one sample fewer does not suffice up to rounding errors. The hypothesis
`hs` says that the count is not so large that single samples vanish in the rounding. -/
theorem C133_least (hl : Accurate lib μ) (h0 : eps ≤ μ) (hμ : μ ≤ 1 / 100) (hd : 1 ≤ dim) (h1 : (5 * dim + 6) * μ ≤ 1 / 4) (fp : IsFloat p)
    (hδ : 0 < δ) (hv : 0 < vol) (ht : TolNonneg tol) (hn : NoUnderflow δ vol dim tol)
    (h : numericalBoundR fl lib δ p vol dim tol fuel = some (.ok (N, r))) (hN : 2 < N)
    (hs : 288 * μ * (N - 1 : ℕ) * bits (N - 1) (dim + 1) p ≤ 1) :
    (1 - p) * 2 ^ (-((30 * dim + 72) * μ * bits (N - 1) (dim + 1) p)) ≤ failureBound (N - 1) (netMeasure δ tol dim vol) (dim + 1) := by
  have m0 : 0 ≤ μ := eps_pos.le.trans h0
  obtain ⟨hp0, hp1, -, hsr⟩ := numericalBoundR_ok h
  have w := rhoR_within hl h0 hd h1 hδ hv hn ht
  have hle : netMeasure δ tol dim vol ≤ (1 + (15 * dim + 18) * μ) * rhoR fl lib δ tol dim vol :=
    w.2.2.2.trans (mul_le_mul_of_nonneg_right (factor_le m0 h1) w.1.le)
  have hL := logb_nonpos' hp0 hp1
  set κ := (15 * dim + 18) * μ with hκ
  have κ0 : 0 ≤ κ := by positivity
  set ρ := netMeasure δ tol dim vol
  set m := N - 1
  have hm1 : 1 ≤ m := by omega
  have M1 := bits_ge m (dim + 1) hp0 hp1
  have k2 : logRow (dim + 1) (2 * m) + 1 = bits m (dim + 1) p + Real.logb 2 (1 - p) := by rw [bits_eq]; ring
  have mr0 : (0 : ℝ) ≤ m := Nat.cast_nonneg m
  have A0 := logRow_nonneg (2 * m) (dim + 1)
  have e9 := eps9 h0
  -- the exact product
  have key : ρ * m / 2 ≤ (1 + 2 * κ + 36 * μ) * bits m (dim + 1) p ∨ ρ * m / 2 ≤ (1 + κ) * (logRow (dim + 1) (2 * m) + 1) := by
    have k3 : ρ * m / 2 ≤ (1 + κ) * (rhoR fl lib δ tol dim vol * m / 2) := by
      have := mul_le_mul_of_nonneg_right hle mr0
      linarith
    rcases search_post _ _ hsr with ⟨k, hk, h2, hg, hb⟩ | ⟨he, -⟩
    · cases hk
      rcases hb with hb | hb
      · omega
      · rw [Good, not_and_or, not_le, not_le] at hb
        rcases hb with hb | hb
        · left
          have k1 := fails_necessary hl m0 hμ w.1.le hp0 hp1 fp hb
          rw [← bits_eq] at k1
          have k4 : (1 + 4 * (μ + 8 * eps)) * bits m (dim + 1) p ≤ (1 + 36 * μ) * bits m (dim + 1) p :=
            mul_le_mul_of_nonneg_right (by linarith) (by linarith)
          calc ρ * m / 2 ≤ (1 + κ) * ((1 + 36 * μ) * bits m (dim + 1) p) := k3.trans (mul_le_mul_of_nonneg_left (k1.trans k4) (by linarith))
            _ = ((1 + κ) * (1 + 36 * μ)) * bits m (dim + 1) p := by ring
            _ ≤ _ := mul_le_mul_of_nonneg_right (by nlinarith) (by linarith)
        · right
          refine k3.trans (mul_le_mul_of_nonneg_left ?_ (by linarith))
          refine rises_necessary hl m0 hμ w.1.le hm1 ?_ hb
          refine le_trans ?_ hs
          have q1 : 32 * (μ + 8 * eps) * m ≤ 288 * μ * m := mul_le_mul_of_nonneg_right (by linarith) mr0
          exact mul_le_mul q1 (by linarith) (by linarith) (by positivity)
    · cases he
  rw [failureBound_eq, sauerShelah_eq]
  calc (1 - p) * 2 ^ (-((30 * dim + 72) * μ * bits m (dim + 1) p))
      = 2 ^ (Real.logb 2 (1 - p) + -((30 * dim + 72) * μ * bits m (dim + 1) p)) := by
        rw [Real.rpow_add (by norm_num), Real.rpow_logb (by norm_num) (by norm_num) (by linarith)]
    _ ≤ _ := Real.rpow_le_rpow_of_exponent_le (by norm_num) ?_
  have e : (30 * dim + 72) * μ * bits m (dim + 1) p = (2 * κ + 36 * μ) * bits m (dim + 1) p := by rw [hκ]; ring
  rw [e]
  rcases key with key | key
  · linarith
  · have q1 : κ * (logRow (dim + 1) (2 * m) + 1) ≤ κ * bits m (dim + 1) p := mul_le_mul_of_nonneg_left (by linarith) κ0
    have q2 : 0 ≤ κ * bits m (dim + 1) p := mul_nonneg κ0 (by linarith)
    have q3 : 0 ≤ μ * bits m (dim + 1) p := mul_nonneg m0 (by linarith)
    linarith

/-- C133. `compute_numerical_bound` in floats answers whenever some power of two up to `2^53` passes the exact test with a margin, and is not so
large that single samples vanish in the rounding. -/
theorem C133_answers (hl : Accurate lib μ) (h0 : eps ≤ μ) (hμ : μ ≤ 1 / 100) (hd : 1 ≤ dim) (h1 : (5 * dim + 6) * μ ≤ 1 / 4) (fp : IsFloat p)
    (hp0 : 0 < p) (hp1 : p < 1) (hδ : 0 < δ) (hv : 0 < vol) (ht : TolNonneg tol) (hn : NoUnderflow δ vol dim tol) {k : ℕ} (hk : k ≤ 52)
    (hs : 144 * μ * 2 ^ (k + 1) ≤ 1) (hm : 8 * bits (2 ^ (k + 1)) (dim + 1) p ≤ netMeasure δ tol dim vol * 2 ^ (k + 1)) :
    ∃ fuel N r, numericalBoundR fl lib δ p vol dim tol fuel = some (.ok (N, r)) ∧ N ≤ 2 ^ (k + 1) := by
  have m0 : 0 ≤ μ := eps_pos.le.trans h0
  have w := rhoR_within hl h0 hd h1 hδ hv hn ht
  have hle : netMeasure δ tol dim vol ≤ (1 + (15 * dim + 18) * μ) * rhoR fl lib δ tol dim vol :=
    w.2.2.2.trans (mul_le_mul_of_nonneg_right (factor_le m0 h1) w.1.le)
  have hle2 : netMeasure δ tol dim vol ≤ 2 * rhoR fl lib δ tol dim vol :=
    hle.trans (mul_le_mul_of_nonneg_right (by linarith) w.1.le)
  have hg := margin_good (vc := dim + 1) (m := 2 ^ (k + 1)) hl m0 hμ w.1.le hp0 hp1 fp Nat.one_le_two_pow (by
    have : 16 * (μ + 8 * eps) * ((2 ^ (k + 1) : ℕ) : ℝ) ≤ 144 * μ * ((2 ^ (k + 1) : ℕ) : ℝ) :=
      mul_le_mul_of_nonneg_right (by linarith [eps9 h0]) (Nat.cast_nonneg _)
    push_cast at this ⊢
    linarith) (by
    rw [← bits_eq]
    push_cast
    have : netMeasure δ tol dim vol * 2 ^ (k + 1) ≤ 2 * rhoR fl lib δ tol dim vol * 2 ^ (k + 1) :=
      mul_le_mul_of_nonneg_right hle2 (by positivity)
    linarith)
  obtain ⟨fuel, N, hf, hN⟩ := search_answers hk hg
  exact ⟨fuel, N, _, numericalBoundR_of_search hp0 hp1 hf, hN⟩

/-- C133. The connection radius in floats: its relative error is at most eight times the root of the precision, and it is smaller than twice the
radius of the net by at most eight times the precision. -/
theorem C133_radius (hl : Accurate lib μ) (h0 : eps ≤ μ) (hμ : μ ≤ 1 / 10000) (hδ : 0 < δ) (ht : TolNonneg tol) (hn : NoUnderflow δ vol dim tol)
    (h : numericalBoundR fl lib δ p vol dim tol fuel = some (.ok (N, r))) :
    |r - 2 * (alpha tol + Real.sqrt (1 - alpha tol ^ 2)) * δ| ≤ 8 * Real.sqrt μ * (2 * (alpha tol + Real.sqrt (1 - alpha tol ^ 2)) * δ) ∧
      (1 - 8 * μ) * (2 * netRadius δ tol) ≤ r := by
  obtain ⟨-, -, rfl, -⟩ := numericalBoundR_ok h
  exact ⟨connRadiusR_near hl h0 hμ hδ ht hn.stretch hn.radius, connRadiusR_ge hl h0 (by linarith) hδ hn.stretch hn.radius⟩

/-- C133. The root is not due to a crude estimate: for `tol = 2^30` the difference `1 - alpha ** 2` is cancelled to 0, even if each operation and
each function of the library returns the float nearest to its exact result. The connection radius is then 2 for clearance 1, although the exact
one is larger by more than `2^-30`; this is over four million times the precision. -/
theorem C133_cancellation : connRadiusR fl (Libm.rounded fl) 1 (some (2 ^ 30)) = 2 ∧
    2 + 2 ^ (-30 : ℤ) ≤ 2 * (alpha (some (2 ^ 30)) + Real.sqrt (1 - alpha (some (2 ^ 30)) ^ 2)) * 1 := by
  have f2 : IsFloat (2 : ℝ) := ⟨1, 1, by norm_num, by norm_num, by norm_num⟩
  constructor
  · have a1 : alphaR fl (Libm.rounded fl) (some (2 ^ 30)) = 1 := by
      have b1 : fl (((2 : ℝ) ^ 30) ^ (2 : ℝ)) = 2 ^ 60 := by
        have : ((2 : ℝ) ^ 30) ^ (2 : ℝ) = 2 ^ (60 : ℤ) := by
          rw [show ((2 : ℝ) ^ 30) ^ (2 : ℝ) = ((2 : ℝ) ^ 30) ^ 2 by norm_cast]
          norm_num
        rw [this, fl_float (zpow_isFloat (by norm_num))]
        norm_num
      have b2 : fl (1 + 2 ^ 60 : ℝ) = 2 ^ 60 := by
        rw [fl_val (m := 2 ^ 52) (e := 8) (by norm_num) (by norm_num) (by norm_num) (by left; norm_num [abs_of_pos])]
        norm_num
      have b3 : Real.sqrt (2 ^ 60 : ℝ) = 2 ^ 30 := by
        rw [show (2 ^ 60 : ℝ) = (2 ^ 30) ^ 2 by norm_num, Real.sqrt_sq (by norm_num)]
      have b4 : fl (2 ^ 30 : ℝ) = 2 ^ 30 := by
        have := fl_float (zpow_isFloat (e := 30) (by norm_num))
        norm_num at this ⊢
        exact this
      simp only [alphaR, Libm.rounded, b1, b2, b3, b4]
      rw [div_self (by norm_num), fl_float one_isFloat]
    have p1 : fl ((1 : ℝ) ^ (2 : ℝ)) = 1 := by rw [Real.one_rpow, fl_float one_isFloat]
    unfold connRadiusR
    simp only [a1]
    simp only [Libm.rounded, p1, sub_self, fl_zero, Real.sqrt_zero, add_zero, mul_one, fl_float one_isFloat, fl_float f2]
  · simp only [alpha]
    have s0 : (0 : ℝ) < Real.sqrt (1 + (2 ^ 30) ^ 2) := by positivity
    have sq : Real.sqrt (1 + (2 ^ 30) ^ 2 : ℝ) ^ 2 = 1 + (2 ^ 30) ^ 2 := Real.sq_sqrt (by positivity)
    have hlo : (2 ^ 30 : ℝ) ≤ Real.sqrt (1 + (2 ^ 30) ^ 2) := Real.le_sqrt_of_sq_le (by norm_num)
    have hup : Real.sqrt (1 + (2 ^ 30) ^ 2) ≤ (2 ^ 30 : ℝ) + 1 / 2 ^ 31 := by
      rw [Real.sqrt_le_left (by norm_num)]
      norm_num
    have e1 : 1 - (2 ^ 30 / Real.sqrt (1 + (2 ^ 30) ^ 2) : ℝ) ^ 2 = (1 / Real.sqrt (1 + (2 ^ 30) ^ 2)) ^ 2 := by
      rw [div_pow, div_pow, sq]
      norm_num
    rw [e1, Real.sqrt_sq (by positivity), mul_one, ← add_div, mul_div_assoc', le_div_iff₀ s0]
    have : (2 + 2 ^ (-30 : ℤ) : ℝ) * Real.sqrt (1 + (2 ^ 30) ^ 2) ≤ (2 + 2 ^ (-30 : ℤ)) * (2 ^ 30 + 1 / 2 ^ 31) :=
      mul_le_mul_of_nonneg_left hup (by positivity)
    refine this.trans ?_
    norm_num

theorem netMeasure_scale {δ' : ℝ} (hd : 1 ≤ dim) (hδ : 0 < δ) (hδ' : 0 < δ') (ht : TolNonneg tol) :
    netMeasure δ tol dim vol = (δ / δ') ^ dim * netMeasure δ' tol dim vol := by
  rw [← rho_eq_netMeasure hd hδ.le ht, ← rho_eq_netMeasure hd hδ'.le ht]
  unfold rho epsilonNetRadius
  have : δ = δ / δ' * δ' := by field_simp
  simp only
  conv_lhs => rw [this]
  rw [mul_pow, mul_pow, mul_pow]
  ring

theorem count_slack {δ' : ℝ} (hl : Accurate lib μ) (h0 : eps ≤ μ) (hμ : μ ≤ 1 / 100) (hd : 1 ≤ dim) (h1 : (5 * dim + 6) * μ ≤ 1 / 4)
    (fp : IsFloat p) (hδ : 0 < δ) (hδ' : 0 < δ') (hle : δ' ≤ δ) (hv : 0 < vol) (ht : TolNonneg tol) (hn : NoUnderflow δ vol dim tol)
    (h : numericalBoundR fl lib δ p vol dim tol fuel = some (.ok (N, r))) :
    2 ≤ N ∧ failureBound N (netMeasure δ' tol dim vol) (dim + 1) ≤ (1 - p) * 2 ^ slack μ dim δ δ' p N := by
  have m0 : 0 ≤ μ := eps_pos.le.trans h0
  obtain ⟨hp0, hp1, -, -⟩ := numericalBoundR_ok h
  have w := rhoR_within hl h0 hd h1 hδ hv hn ht
  have q1 : (1 : ℝ) ≤ (δ / δ') ^ dim := one_le_pow₀ ((one_le_div hδ').2 hle)
  have q2 : (1 : ℝ) ≤ 1 + (15 * dim + 18) * μ := le_add_of_nonneg_right (by positivity)
  have hle : rhoR fl lib δ tol dim vol ≤ (1 + ((1 + (15 * dim + 18) * μ) * (δ / δ') ^ dim - 1)) * netMeasure δ' tol dim vol := by
    refine (w.2.2.1.trans (mul_le_mul_of_nonneg_right (factor_le m0 h1) w.2.1.le)).trans ?_
    rw [netMeasure_scale hd hδ hδ' ht]
    exact le_of_eq (by ring)
  obtain ⟨h2, k⟩ := count_log hl h0 hμ fp w.1.le (sub_nonneg.2 (one_le_mul_of_one_le_of_one_le q2 q1)) hle h
  exact ⟨h2, failure_of_log hp1 k⟩

/-- C133. The narrow passage entirely in floats: the count and the radius that `compute_numerical_bound` returns in floats, rounded samples,
rounded motion checks and rounded distances. Each query along a path of clearance a little above `δ'` is answered with a nonempty path, up to the
failure probability asked for times `2 ^ slack` and the probability that two samples agree in a coordinate. `hr` says by how much `δ'` has to be
below the clearance `δ` that the function was called with. -/
theorem C133_narrow {c δ' η κ : ℝ} (hl : Accurate lib μ) (h0 : eps ≤ μ) (hμ : μ ≤ 1 / 100) (h1 : (5 * (n + 1 : ℕ) + 6) * μ ≤ 1 / 4) (fp : IsFloat p)
    (fc : IsFloat c) (hc0 : 2 ^ (-100 : ℤ) ≤ c) (hc : c < 1 / 2) {R : ℕ → Ω → Region} {U : ℕ → Ω → Fin (n + 1) → ℝ}
    (hU : ChoiceDraws Pr (narrowWeight n c) R U) (hδ' : 0 < δ') (hle : δ' ≤ δ) (ht : TolNonneg tol)
    (hvol : (NarrowPassage.init n c).volume ≤ vol) (hv : 0 < vol) (hn : NoUnderflow δ vol (n + 1) tol)
    (h : numericalBoundR fl lib δ p vol (n + 1) tol fuel = some (.ok (N, r)))
    (hη : Real.sqrt (n + 1) * 2 ^ (-44 : ℤ) ≤ η) (hκ : 0 ≤ κ)
    (hr : (1 + κ) * (2 * netRadius δ' tol + Real.sqrt (n + 1) * 2 ^ (-50 : ℤ)) ≤ (1 - 8 * μ) * (2 * netRadius δ tol)) (d : ℕ)
    {a b : Space (n + 1)} (fa : ∀ i, IsFloat (a i) ∧ (a i = 0 ∨ 2 ^ (-800 : ℤ) ≤ |a i|))
    (fb : ∀ i, IsFloat (b i) ∧ (b i = 0 ∨ 2 ^ (-800 : ℤ) ≤ |b i|)) {γ : ℝ → Space (n + 1)} (hγ : ClearPath (narrowSet n c) (δ' + η) a b γ) :
    Pr.real {ω | ¬ ∀ w : World (Space (n + 1)) ℝ,
      FloatWorld w κ ((NarrowPassage.init n c).isMotionValidR fl)
        (fun i => (NarrowPassage.init n c).sampleR fl (R i ω) fun j => random53 (U i ω j)) → ∀ m, N ≤ m →
      ∃ len pts, (((Full.init r d).run w [.grow m]).query w a b).2 = .ok (len, pts) ∧ pts ≠ []} ≤
      (1 - p) * 2 ^ slack μ (n + 1) δ δ' p N + (n + 1) * (N + 1) ^ 2 * 2 ^ (-50 : ℤ) := by
  have hδ : 0 < δ := hδ'.trans_le hle
  have m0 : 0 ≤ μ := eps_pos.le.trans h0
  obtain ⟨h2, hb⟩ := count_slack hl h0 hμ (by omega) h1 fp hδ hδ' hle hv ht hn h
  have hge : (1 - 8 * μ) * (2 * netRadius δ tol) ≤ r := by
    obtain ⟨-, -, rfl, -⟩ := numericalBoundR_ok h
    exact connRadiusR_ge hl h0 (by linarith) hδ hn.stretch hn.radius
  exact narrow_complete_of_bound fc hc0 hc hU hδ' ht hvol h2 hb le_rfl hη hκ (hr.trans hge) d fa fb hγ

/-- C133. The straight corridor entirely in floats, likewise. -/
theorem C133_straight {delta length δ' κ : ℝ} (hl : Accurate lib μ) (h0 : eps ≤ μ) (hμ : μ ≤ 1 / 100) (h1 : (5 * (n + 1 : ℕ) + 6) * μ ≤ 1 / 4)
    (fp : IsFloat p) (fd : IsFloat delta) (fL : IsFloat length) (hd0 : 2 ^ (-100 : ℤ) ≤ delta) (hlen : 0 ≤ length) {e : StraightLine ℝ n}
    (he : StraightLine.initR fl n delta length = .ok e) {U : ℕ → Ω → Fin (n + 1) → ℝ} (hU : UnitDraws Pr U) (hδ' : 0 < δ') (hle : δ' ≤ δ)
    (hdd : δ' ≤ delta) (hdd' : length + δ' ≤ fl (length + delta)) (hvol : e.volume ≤ vol) (hv : 0 < vol) (ht : TolNonneg tol)
    (hn : NoUnderflow δ vol (n + 1) tol) (h : numericalBoundR fl lib δ p vol (n + 1) tol fuel = some (.ok (N, r))) (hκ : 0 ≤ κ)
    (hr : (1 + κ) * (2 * netRadius δ' tol + Real.sqrt (n + 1) * 2 ^ (-49 : ℤ) * (fl (length + delta) + delta)) ≤ (1 - 8 * μ) * (2 * netRadius δ tol))
    (d : ℕ) :
    Pr.real {ω | ¬ ∀ w : World (Space (n + 1)) ℝ, FloatWorld w κ e.isMotionValid (fun i => e.sampleR fl fun j => random53 (U i ω j)) →
      ∀ m, N ≤ m → ∀ s t : ℝ,
      ∃ len pts, (((Full.init r d).run w [.grow m]).query w (WithLp.toLp 2 (e.curvePointR fl s)) (WithLp.toLp 2 (e.curvePointR fl t))).2 =
        .ok (len, pts) ∧ pts ≠ []} ≤ (1 - p) * 2 ^ slack μ (n + 1) δ δ' p N := by
  have hδ : 0 < δ := hδ'.trans_le hle
  have m0 : 0 ≤ μ := eps_pos.le.trans h0
  obtain ⟨h2, hb⟩ := count_slack hl h0 hμ (by omega) h1 fp hδ hδ' hle hv ht hn h
  have hge : (1 - 8 * μ) * (2 * netRadius δ tol) ≤ r := by
    obtain ⟨-, -, rfl, -⟩ := numericalBoundR_ok h
    exact connRadiusR_ge hl h0 (by linarith) hδ hn.stretch hn.radius
  exact straight_complete_of_bound fd fL hd0 hlen he hU hδ' hdd hdd' hvol ht h2 hb le_rfl hκ (hr.trans hge) d

/-- C133. For existence of a path (`tol=None`) nothing has to be subtracted from the clearance by the caller: call `compute_numerical_bound` in
floats with the clearance `δ`, build the planner with the returned count and the returned radius. Each query along a path of clearance `δ` is
answered with a nonempty path, up to the failure probability asked for times `2 ^ slack` and the probability that two samples agree in a
coordinate. -/
theorem C133_existence {c κ : ℝ} (hl : Accurate lib μ) (h0 : eps ≤ μ) (hμ : μ ≤ 2 ^ (-48 : ℤ)) (h1 : (5 * (n + 1 : ℕ) + 6) * μ ≤ 1 / 4)
    (fp : IsFloat p) (fc : IsFloat c) (hc0 : 2 ^ (-100 : ℤ) ≤ c) (hc : c < 1 / 2) {R : ℕ → Ω → Region} {U : ℕ → Ω → Fin (n + 1) → ℝ}
    (hU : ChoiceDraws Pr (narrowWeight n c) R U) (hδ : Real.sqrt (n + 1) * 2 ^ (-44 : ℤ) < δ) (hδ2 : δ ≤ 1 / 2)
    (hvol : (NarrowPassage.init n c).volume ≤ vol) (hv : 0 < vol) (hn : NoUnderflow δ vol (n + 1) none)
    (h : numericalBoundR fl lib δ p vol (n + 1) none fuel = some (.ok (N, r))) (hκ : 0 ≤ κ) (hκ' : κ ≤ 2 ^ (-45 : ℤ)) (d : ℕ)
    {a b : Space (n + 1)} (fa : ∀ i, IsFloat (a i) ∧ (a i = 0 ∨ 2 ^ (-800 : ℤ) ≤ |a i|))
    (fb : ∀ i, IsFloat (b i) ∧ (b i = 0 ∨ 2 ^ (-800 : ℤ) ≤ |b i|)) {γ : ℝ → Space (n + 1)} (hγ : ClearPath (narrowSet n c) δ a b γ) :
    Pr.real {ω | ¬ ∀ w : World (Space (n + 1)) ℝ,
      FloatWorld w κ ((NarrowPassage.init n c).isMotionValidR fl)
        (fun i => (NarrowPassage.init n c).sampleR fl (R i ω) fun j => random53 (U i ω j)) → ∀ m, N ≤ m →
      ∃ len pts, (((Full.init r d).run w [.grow m]).query w a b).2 = .ok (len, pts) ∧ pts ≠ []} ≤
      (1 - p) * 2 ^ slack μ (n + 1) δ (δ - Real.sqrt (n + 1) * 2 ^ (-44 : ℤ)) p N + (n + 1) * (N + 1) ^ 2 * 2 ^ (-50 : ℤ) := by
  have m0 : 0 ≤ μ := eps_pos.le.trans h0
  have s1 : 1 ≤ Real.sqrt (n + 1) := by
    rw [Real.one_le_sqrt]
    have : (0 : ℝ) ≤ n := Nat.cast_nonneg n
    linarith
  have e50 : (2 : ℝ) ^ (-50 : ℤ) = 2 ^ (-44 : ℤ) / 64 := by
    rw [show (-50 : ℤ) = -44 + -6 by norm_num, zpow_add₀ (by norm_num)]; norm_num
  have e48 : (2 : ℝ) ^ (-48 : ℤ) = 2 ^ (-44 : ℤ) / 16 := by
    rw [show (-48 : ℤ) = -44 + -4 by norm_num, zpow_add₀ (by norm_num)]; norm_num
  have e45 : (2 : ℝ) ^ (-45 : ℤ) = 2 ^ (-44 : ℤ) / 2 := by
    rw [show (-45 : ℤ) = -44 + -1 by norm_num, zpow_add₀ (by norm_num)]; norm_num
  have u1 : (2 : ℝ) ^ (-44 : ℤ) ≤ 1 / 100 := by norm_num
  have u0 : (0 : ℝ) < 2 ^ (-44 : ℤ) := by positivity
  have hμ' := hμ
  rw [e48] at hμ'
  rw [e45] at hκ'
  refine C133_narrow hl h0 (by linarith) h1 fp fc hc0 hc hU (sub_pos.2 hδ) (sub_le_self _ (by positivity)) (tol := none) trivial hvol hv hn h le_rfl hκ ?_ d fa fb
    (by rw [sub_add_cancel]; exact hγ)
  simp only [netRadius]
  rw [e50]
  generalize (2 : ℝ) ^ (-44 : ℤ) = u at *
  set η := Real.sqrt (n + 1) * u with hη
  have hηu : u ≤ η := le_mul_of_one_le_left u0.le s1
  have e1 : Real.sqrt (n + 1) * (u / 64) = η / 64 := by rw [hη]; ring
  rw [e1]
  have d0 : 0 < δ := by linarith
  have k1 : κ * (2 * (δ - η) + η / 64) ≤ κ * (2 * δ) := mul_le_mul_of_nonneg_left (by linarith) hκ
  have k2 : κ * (2 * δ) ≤ κ := mul_le_of_le_one_right hκ (by linarith)
  have k3 : 8 * μ * (2 * δ) ≤ 8 * μ := mul_le_of_le_one_right (by linarith) (by linarith)
  linarith

theorem logb_half : Real.logb 2 (1 - 1 / 2) = -1 := by
  rw [show (1 - 1 / 2 : ℝ) = 2 ^ (-1 : ℝ) by rw [Real.rpow_neg_one]; norm_num, Real.logb_rpow (by norm_num) (by norm_num)]

theorem logRow_mono (v : ℕ) {m k : ℕ} (h : m ≤ k) : logRow v m ≤ logRow v k := by
  unfold logRow
  refine Real.logb_le_logb_of_le (by norm_num) (by exact_mod_cast partialRow_pos v m) ?_
  exact_mod_cast Finset.sum_le_sum fun i _ => Nat.choose_le_choose i h

theorem bits_planar : bits (2 ^ (15 + 1)) (2 + 1) (1 / 2) ≤ 51 := by
  unfold bits
  rw [logb_half]
  have : Real.logb 2 (∑ i ∈ Finset.range (2 + 1 + 1), (Nat.choose (2 * 2 ^ (15 + 1)) i : ℝ)) ≤ 49 := by
    rw [Real.logb_le_iff_le_rpow (by norm_num)]
    · have c3 : Nat.choose 131072 3 = 375291379056640 := by
        rw [Nat.choose_eq_descFactorial_div_factorial]; norm_num [Nat.descFactorial, Nat.factorial]
      have c2 : Nat.choose 131072 2 = 8589869056 := by
        rw [Nat.choose_eq_descFactorial_div_factorial]; norm_num [Nat.descFactorial, Nat.factorial]
      norm_num [Finset.sum_range_succ, c2, c3]
    · have : (0 : ℝ) < ((∑ i ∈ Finset.range (2 + 1 + 1), Nat.choose (2 * 2 ^ (15 + 1)) i : ℕ) : ℝ) := by
        exact_mod_cast partialRow_pos (2 + 1) (2 * 2 ^ (15 + 1))
      push_cast at this ⊢
      exact this
  linarith

/-- The hypotheses of C133 are met by the planar narrow passage of half-width 1/4, clearance 1/8 and success probability 1/2, with a library that
rounds exact results: the function answers, and C133_sufficient, C133_least (unless the count is 2) and C133_existence apply to its answer. -/
theorem C133_nonvacuous : Accurate (Libm.rounded fl) eps ∧ IsFloat (1 / 2 : ℝ) ∧ (5 * (1 + 1 : ℕ) + 6) * eps ≤ 1 / 4 ∧ eps ≤ 2 ^ (-48 : ℤ) ∧
    NoUnderflow (1 / 8) (NarrowPassage.init 1 (1 / 4 : ℝ)).volume 2 none ∧ Real.sqrt ((1 : ℕ) + 1) * 2 ^ (-44 : ℤ) < 1 / 8 ∧
    (∃ fuel N r, numericalBoundR fl (Libm.rounded fl) (1 / 8) (1 / 2) (NarrowPassage.init 1 (1 / 4 : ℝ)).volume 2 none fuel = some (.ok (N, r)) ∧
      N ≤ 2 ^ 16) ∧
    ∀ m ≤ 2 ^ 16, (15 * 2 + 45) * eps * bits m 3 (1 / 2) < 1 ∧ 288 * eps * m * bits m 3 (1 / 2) ≤ 1 := by
  have hvol : (NarrowPassage.init 1 (1 / 4 : ℝ)).volume = 5 / 2 := by
    obtain ⟨b1, b2, b3⟩ := narrow_boxVol (n := 1) (1 / 4 : ℝ)
    have : (NarrowPassage.init 1 (1 / 4 : ℝ)).volume = 1 + 1 + |2 * (1 / 4 : ℝ)| ^ 1 := congrArg₂ (· + ·) (congrArg₂ (· + ·) b1 b2) b3
    rw [this, abs_of_nonneg (by norm_num)]
    norm_num
  have hpi := Real.pi_gt_three
  have e1 := eps_small
  have f12 : IsFloat (1 / 2 : ℝ) := ⟨1, -1, by norm_num, by norm_num, by norm_num⟩
  have hsph : volUnitSphere 2 = Real.pi := by
    unfold volUnitSphere
    norm_num [Real.Gamma_two]
  have hrho : netMeasure (1 / 8) none 2 (5 / 2) = Real.pi * (1 / 64) / (5 / 2) := by
    rw [← rho_eq_netMeasure (tol := none) (dim := 2) (δ := 1 / 8) (by norm_num) (by norm_num) trivial]
    unfold rho epsilonNetRadius
    simp only [hsph, alpha]
    ring
  have tiny : (2 : ℝ) ^ (-900 : ℤ) ≤ 1 / 128 := by
    rw [show (1 / 128 : ℝ) = 2 ^ (-7 : ℤ) by norm_num]
    exact zpow_le_zpow_right₀ (by norm_num) (by norm_num)
  have hn : NoUnderflow (1 / 8) (NarrowPassage.init 1 (1 / 4 : ℝ)).volume 2 none := by
    rw [hvol]
    refine ⟨?_, ?_, fun t ht => (by cases ht), ?_, ?_, ?_⟩
    · rw [hsph]; linarith
    · rw [hsph]; linarith
    · simp only [netRadius]; linarith
    · simp only [netRadius]; linarith
    · rw [hrho]; linarith
  have h5 : (5 * (1 + 1 : ℕ) + 6) * eps ≤ 1 / 4 := by push_cast; linarith
  refine ⟨rounded_accurate, f12, h5, ?_, hn, ?_, ?_, ?_⟩
  · unfold eps
    exact zpow_le_zpow_right₀ (by norm_num) (by norm_num)
  · have hs : Real.sqrt ((1 : ℕ) + 1) ≤ 2 := by
      rw [Real.sqrt_le_left (by norm_num)]
      norm_num
    have := mul_le_mul_of_nonneg_right hs (by positivity : (0 : ℝ) ≤ 2 ^ (-44 : ℤ))
    refine this.trans_lt ?_
    norm_num
  · refine C133_answers (tol := none) rounded_accurate le_rfl (by linarith) (by norm_num) h5 f12 (by norm_num) (by norm_num) (by norm_num) (by rw [hvol]; norm_num)
      trivial hn (k := 15) (by norm_num) (by norm_num; linarith) ?_
    rw [hvol, hrho]
    have := bits_planar
    norm_num at this ⊢
    linarith
  · intro m hm
    have hb : bits m 3 (1 / 2) ≤ 51 := by
      refine le_trans ?_ bits_planar
      rw [bits_eq, bits_eq]
      exact sub_le_sub_right (add_le_add_left (logRow_mono 3 (Nat.mul_le_mul_left 2 hm)) 1) _
    have hb1 : 1 ≤ bits m 3 (1 / 2) := bits_ge m 3 (by norm_num) (by norm_num)
    have hmr : (m : ℝ) ≤ 65536 := by exact_mod_cast hm
    have m0 : (0 : ℝ) ≤ m := Nat.cast_nonneg m
    have e0 := eps_pos
    constructor
    · nlinarith
    · have k1 : m * bits m 3 (1 / 2) ≤ 65536 * 51 := mul_le_mul hmr hb (by linarith) (by norm_num)
      have k2 := mul_le_mul_of_nonneg_left k1 (by linarith : 0 ≤ 288 * eps)
      linarith

end Verif.Props
