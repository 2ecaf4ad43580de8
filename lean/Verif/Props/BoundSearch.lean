import Verif.Lemmas.SearchHang

/-!
Properties C01-C05 of `compute_numerical_bound`.
-/

namespace Verif.Props

open Verif.Bound Verif.Spec

/-- C01. With the returned number of samples, or any larger one, the failure bound is at most `1 - p`. -/
theorem C01_sufficient {δ p vol : ℝ} {dim : ℕ} {tol : Option ℝ} {fuel N : ℕ} {r : ℝ}
    (hd : 1 ≤ dim) (hδ : 0 ≤ δ) (ht : TolNonneg tol)
    (h : numericalBound δ p vol dim tol fuel = some (.ok (N, r))) :
    ∀ m, N ≤ m → failureBound m (netMeasure δ tol dim vol) (dim + 1) ≤ 1 - p := by
  obtain ⟨h0, h1, -, hs⟩ := numericalBound_ok h
  rw [← rho_eq_netMeasure hd hδ ht]
  intro m hm
  exact (sauerShelah_le_iff _ _ _ (by linarith)).1 ((search_sauerShelah (logb_lt_one h0 h1) hs).2.1 m hm)

/-- C02. No smaller number of at least two samples meets the failure bound. -/
theorem C02_least {δ p vol : ℝ} {dim : ℕ} {tol : Option ℝ} {fuel N : ℕ} {r : ℝ}
    (hd : 1 ≤ dim) (hδ : 0 ≤ δ) (ht : TolNonneg tol)
    (h : numericalBound δ p vol dim tol fuel = some (.ok (N, r))) :
    2 ≤ N ∧ ∀ m, 2 ≤ m → m < N → 1 - p < failureBound m (netMeasure δ tol dim vol) (dim + 1) := by
  obtain ⟨h0, h1, -, hs⟩ := numericalBound_ok h
  rw [← rho_eq_netMeasure hd hδ ht]
  have hm := search_sauerShelah (logb_lt_one h0 h1) hs
  refine ⟨hm.1, fun m h2 hlt => ?_⟩
  have := hm.2.2 m h2 hlt
  rw [← not_le, ← sauerShelah_le_iff _ _ _ (by linarith), not_le]
  exact this

/-- C02, in full: the returned count is the least one of at least two samples at which the failure bound is met and does not increase
with the next sample. -/
theorem C02_exact {δ p vol : ℝ} {dim : ℕ} {tol : Option ℝ} {fuel N : ℕ} {r : ℝ}
    (hd : 1 ≤ dim) (hδ : 0 ≤ δ) (ht : TolNonneg tol)
    (h : numericalBound δ p vol dim tol fuel = some (.ok (N, r))) :
    IsLeast {m | 2 ≤ m ∧ failureBound m (netMeasure δ tol dim vol) (dim + 1) ≤ 1 - p ∧
      failureBound (m + 1) (netMeasure δ tol dim vol) (dim + 1) ≤ failureBound m (netMeasure δ tol dim vol) (dim + 1)} N := by
  have hl := C02_least hd hδ ht h
  refine ⟨⟨hl.1, C01_sufficient hd hδ ht h N le_rfl, ?_⟩, fun m hm => ?_⟩
  · obtain ⟨h0, h1, -, hs⟩ := numericalBound_ok h
    rw [← rho_eq_netMeasure hd hδ ht]
    have h2 := (search_sauerShelah (logb_lt_one h0 h1) hs).2.1 N le_rfl
    have h3 := ((good_iff _ _ _ (logb_lt_one h0 h1)).2 h2).2
    rw [failureBound_eq, failureBound_eq]
    exact Real.rpow_le_rpow_of_exponent_le (by norm_num) h3
  · by_contra hlt
    exact absurd hm.2.1 (not_le.2 (hl.2 m hm.1 (not_le.1 hlt)))

/-- C03 (part). The call answers with a count whenever some count up to `2^53` meets the bound. Missing: larger counts,
for which the call may loop forever (`C03_always_answers_false`). -/
theorem C03_answers_partial {δ p vol : ℝ} {dim : ℕ} {tol : Option ℝ}
    (hd : 1 ≤ dim) (hδ : 0 ≤ δ) (ht : TolNonneg tol) (h0 : 0 < p) (h1 : p < 1)
    (hN : ∃ m, 2 ≤ m ∧ m ≤ 2 ^ 53 ∧ failureBound m (netMeasure δ tol dim vol) (dim + 1) ≤ 1 - p) :
    ∃ fuel N r, numericalBound δ p vol dim tol fuel = some (.ok (N, r)) := by
  obtain ⟨m, h2, h53, hm⟩ := hN
  rw [← rho_eq_netMeasure hd hδ ht] at hm
  obtain ⟨fuel, n, hs, -⟩ := search_complete (logb_lt_one h0 h1) h2 h53
    ((sauerShelah_le_iff _ _ _ (by linarith)).2 hm)
  exact ⟨fuel, n, _, numericalBound_of_search h0 h1 hs⟩

/-- C03. For a valid success probability the only exception is the overflow report, and it is raised only if no power of
two between 2 and `10^300` meets the bound; in particular `'Something wrong happened.'` is never raised. -/
theorem C03_only_overflow {δ p vol : ℝ} {dim : ℕ} {tol : Option ℝ} {fuel : ℕ} {e : PyErr}
    (hd : 1 ≤ dim) (hδ : 0 ≤ δ) (ht : TolNonneg tol) (h0 : 0 < p) (h1 : p < 1)
    (h : numericalBound δ p vol dim tol fuel = some (.error e)) :
    e = .overflow ∧ ∀ j, 2 ^ (j + 1) ≤ 10 ^ 300 →
      1 - p < failureBound (2 ^ (j + 1)) (netMeasure δ tol dim vol) (dim + 1) := by
  rw [← rho_eq_netMeasure hd hδ ht]
  unfold numericalBound at h
  rw [if_neg (by rw [not_or, not_le, not_le]; exact ⟨h0, h1⟩)] at h
  simp only at h
  split at h
  · cases h
  · next e' heq =>
    cases h
    rcases search_post _ _ heq with ⟨n, hn, _⟩ | ⟨he, hno⟩
    · cases hn
    · cases he
      refine ⟨rfl, fun j hj => ?_⟩
      have := hno j hj
      rw [good_iff _ _ _ (logb_lt_one h0 h1), sauerShelah_le_iff _ _ _ (by linarith), not_le] at this
      exact this
  · cases h

/-- C03 does not hold in general: in every dimension, for every volume and every success probability there is a
clearance for which the call never returns (the midpoint of the bisection rounds to an end of the interval). -/
theorem C03_always_answers_false (dim : ℕ) (hd : 1 ≤ dim) (p vol : ℝ) (h0 : 0 < p) (h1 : p < 1) (hv : 0 < vol) :
    ∃ δ, 0 < δ ∧ ∀ fuel, numericalBound δ p vol dim none fuel = none := by
  have hL := logb_lt_one h0 h1
  obtain ⟨ρ, hρ, hthr⟩ := exists_rho (dim + 1) hL (T := 2 ^ 53 + 1) (by norm_num)
  obtain ⟨δ, hδ, he⟩ := exists_clearance hd hv hρ
  refine ⟨δ, hδ, fun fuel => ?_⟩
  unfold numericalBound
  rw [if_neg (by rw [not_or, not_le, not_le]; exact ⟨h0, h1⟩)]
  simp only [he]
  rw [search_diverges (fun m _ => by rw [good_iff _ _ _ hL]; exact hthr m)]

/-- C03, exactly what happens for a valid success probability: the call returns if and only if `2^53` samples meet the bound, it reports
an overflow if and only if `2^996` samples (the largest power of two up to `10^300`) do not, and it never answers if and only if `2^996`
samples meet the bound and `2^53` do not. -/
theorem C03_exact {δ p vol : ℝ} {dim : ℕ} {tol : Option ℝ} (hd : 1 ≤ dim) (hδ : 0 ≤ δ) (ht : TolNonneg tol) (h0 : 0 < p) (h1 : p < 1) :
    ((∃ fuel N r, numericalBound δ p vol dim tol fuel = some (.ok (N, r))) ↔
      failureBound (2 ^ 53) (netMeasure δ tol dim vol) (dim + 1) ≤ 1 - p) ∧
    ((∃ fuel, numericalBound δ p vol dim tol fuel = some (.error .overflow)) ↔
      1 - p < failureBound (2 ^ 996) (netMeasure δ tol dim vol) (dim + 1)) ∧
    ((∀ fuel, numericalBound δ p vol dim tol fuel = none) ↔
      1 - p < failureBound (2 ^ 53) (netMeasure δ tol dim vol) (dim + 1) ∧
        failureBound (2 ^ 996) (netMeasure δ tol dim vol) (dim + 1) ≤ 1 - p) := by
  have hL := logb_lt_one h0 h1
  have up : ∀ m m', m ≤ m' → failureBound m (netMeasure δ tol dim vol) (dim + 1) ≤ 1 - p →
      failureBound m' (netMeasure δ tol dim vol) (dim + 1) ≤ 1 - p := by
    intro m m' hm h
    rw [← rho_eq_netMeasure hd hδ ht, ← sauerShelah_le_iff _ _ _ (by linarith)] at h ⊢
    exact sauerShelah_upward _ _ hL hm h
  have ret : (∃ fuel N r, numericalBound δ p vol dim tol fuel = some (.ok (N, r))) ↔
      failureBound (2 ^ 53) (netMeasure δ tol dim vol) (dim + 1) ≤ 1 - p := by
    constructor
    · rintro ⟨fuel, N, r, h⟩
      obtain ⟨-, -, -, hs⟩ := numericalBound_ok h
      exact C01_sufficient hd hδ ht h _ (search_small hs)
    · intro h
      exact C03_answers_partial hd hδ ht h0 h1 ⟨2 ^ 53, by norm_num, le_rfl, h⟩
  have ovf : (∃ fuel, numericalBound δ p vol dim tol fuel = some (.error .overflow)) ↔
      1 - p < failureBound (2 ^ 996) (netMeasure δ tol dim vol) (dim + 1) := by
    constructor
    · rintro ⟨fuel, h⟩
      exact (C03_only_overflow hd hδ ht h0 h1 h).2 995 (pow_le_big.2 (by norm_num))
    · intro h
      obtain ⟨b, hb, hpost⟩ := doubling_stops (fun m => sauerShelahLog2 m (rho δ tol dim vol) (dim + 1)) (Real.logb 2 (1 - p))
      rcases hpost with ⟨k, -, hg, -, hk⟩ | ⟨rfl, -⟩
      · exfalso
        rw [good_iff _ _ _ hL, sauerShelah_le_iff _ _ _ (by linarith), rho_eq_netMeasure hd hδ ht] at hg
        have := up _ (2 ^ 996) (Nat.pow_le_pow_right (by norm_num) (pow_le_big.1 hk)) hg
        linarith
      · obtain ⟨fuel, hf⟩ := search_of_overflow _ _ hb
        refine ⟨fuel, ?_⟩
        unfold numericalBound
        rw [if_neg (by rw [not_or, not_le, not_le]; exact ⟨h0, h1⟩)]
        simp only [hf]
  refine ⟨ret, ovf, ?_⟩
  rw [← not_le, ← ret, ← not_lt, ← ovf]
  constructor
  · intro h
    exact ⟨fun ⟨fuel, N, r, hf⟩ => (Option.some_ne_none _ (hf.symm.trans (h fuel))), fun ⟨fuel, hf⟩ => Option.some_ne_none _ (hf.symm.trans (h fuel))⟩
  · rintro ⟨hr, ho⟩ fuel
    rcases hc : numericalBound δ p vol dim tol fuel with _ | e | ⟨N, r⟩
    · rfl
    · exact absurd ⟨fuel, by rw [hc, (C03_only_overflow hd hδ ht h0 h1 hc).1]⟩ ho
    · exact absurd ⟨fuel, N, r, hc⟩ hr

/-- C03. For every positive ball measure some count meets the bound, so the mathematical question always has an
answer; what is missing for termination is only the rounding above `2^53`. -/
theorem C03_solvable (vc : ℕ) (ρ γ : ℝ) (hρ : 0 < ρ) (hγ : 0 < γ) : ∃ m, 2 ≤ m ∧ failureBound m ρ vc ≤ γ := by
  -- `(2m+1)^vc * 2^(-ρ m/2)` tends to 0
  have ht : Filter.Tendsto (fun m : ℕ => (2 * ((2 : ℝ) ^ vc * 2 ^ vc)) *
      ((m : ℝ) ^ (vc : ℝ) * Real.exp (-(ρ * Real.log 2 / 2) * m))) Filter.atTop (nhds 0) := by
    have := (tendsto_rpow_mul_exp_neg_mul_atTop_nhds_zero (vc : ℝ) (ρ * Real.log 2 / 2)
      (by have := Real.log_pos (by norm_num : (1 : ℝ) < 2); positivity)).comp tendsto_natCast_atTop_atTop
    simpa using this.const_mul (2 * ((2 : ℝ) ^ vc * 2 ^ vc))
  have hev := (ht.eventually (gt_mem_nhds hγ)).and (Filter.eventually_ge_atTop 2)
  obtain ⟨m, hm, h2⟩ := hev.exists
  refine ⟨m, h2, le_trans ?_ hm.le⟩
  unfold failureBound
  have hpow : (2 : ℝ) ^ (-(ρ * m) / 2) = Real.exp (-(ρ * Real.log 2 / 2) * m) := by
    rw [Real.rpow_def_of_pos (by norm_num)]; congr 1; ring
  rw [hpow]
  have hrow : (∑ i ∈ Finset.range (vc + 1), (Nat.choose (2 * m) i : ℝ)) ≤ (2 ^ vc * 2 ^ vc) * (m : ℝ) ^ vc := by
    have h1 : partialRow vc (2 * m) ≤ (2 * m + 1) ^ vc := partialRow_le_pow vc (2 * m)
    have h3 : (2 * m + 1) ^ vc ≤ (2 * 2 * m) ^ vc := Nat.pow_le_pow_left (by omega) vc
    have h4 := le_trans h1 h3
    have h5 : ((partialRow vc (2 * m) : ℕ) : ℝ) ≤ ((2 * 2 * m : ℕ) : ℝ) ^ vc := by exact_mod_cast h4
    unfold partialRow at h5
    push_cast at h5
    calc _ ≤ (2 * 2 * (m : ℝ)) ^ vc := by rw [show (2 * 2 * (m : ℝ)) = 4 * m by ring]; exact h5
      _ = _ := by rw [mul_pow, mul_pow]
  rw [Real.rpow_natCast]
  have hexp := Real.exp_pos (-(ρ * Real.log 2 / 2) * m)
  calc _ ≤ 2 * ((2 ^ vc * 2 ^ vc) * (m : ℝ) ^ vc) * Real.exp (-(ρ * Real.log 2 / 2) * m) := by
        apply mul_le_mul_of_nonneg_right _ hexp.le
        linarith
    _ = _ := by ring

/-- C04. The argument check raises ArithmeticError exactly outside `(0, 1)`. -/
theorem C04_success_prob_checked (δ p vol : ℝ) (dim : ℕ) (tol : Option ℝ) :
    (∃ fuel, numericalBound δ p vol dim tol fuel = some (.error .arithmetic)) ↔ (p ≤ 0 ∨ 1 ≤ p) := by
  constructor
  · rintro ⟨fuel, h⟩
    by_contra hp
    unfold numericalBound at h
    rw [if_neg hp] at h
    simp only at h
    split at h
    · cases h
    · next e heq =>
      cases h
      rcases search_post _ _ heq with ⟨n, hn, _⟩ | ⟨he, _⟩
      · cases hn
      · cases he
    · cases h
  · intro hp
    exact ⟨0, by unfold numericalBound; rw [if_pos hp]⟩

/-- Comparison of requests: a later stretch factor is a weaker request, and asking for existence only is the weakest. -/
def TolLe : Option ℝ → Option ℝ → Prop
  | _, none => True
  | some a, some b => a ≤ b
  | none, some _ => False

theorem div_sqrt_mono {a b : ℝ} (ha : 0 ≤ a) (h : a ≤ b) :
    a / Real.sqrt (1 + a ^ 2) ≤ b / Real.sqrt (1 + b ^ 2) := by
  have hb : 0 ≤ b := le_trans ha h
  have pa : 0 < Real.sqrt (1 + a ^ 2) := Real.sqrt_pos.2 (by positivity)
  have pb : 0 < Real.sqrt (1 + b ^ 2) := Real.sqrt_pos.2 (by positivity)
  rw [div_le_div_iff₀ pa pb]
  refine (pow_le_pow_iff_left₀ (by positivity) (by positivity) two_ne_zero).1 ?_
  rw [mul_pow, mul_pow, Real.sq_sqrt (by positivity), Real.sq_sqrt (by positivity)]
  have : a ^ 2 ≤ b ^ 2 := by apply pow_le_pow_left₀ ha h
  nlinarith

theorem alpha_le_one (tol : Option ℝ) : alpha tol ≤ 1 := by
  cases tol with
  | none => simp [alpha]
  | some t =>
    simp only [alpha]
    rw [div_le_one (Real.sqrt_pos.2 (by positivity))]
    apply Real.le_sqrt_of_sq_le
    linarith

theorem alpha_mono {t t' : Option ℝ} (h : TolLe t t') (ht : TolNonneg t) : alpha t ≤ alpha t' := by
  cases t' with
  | none => exact le_trans (alpha_le_one t) (by simp [alpha])
  | some b =>
    cases t with
    | none => exact h.elim
    | some a => exact div_sqrt_mono ht h

theorem rho_mono {δ δ' vol vol' : ℝ} {dim : ℕ} {tol tol' : Option ℝ} (hδ : 0 ≤ δ) (hδ' : δ ≤ δ') (hv' : 0 < vol')
    (hv : vol' ≤ vol) (ht : TolNonneg tol) (htt : TolLe tol tol') : rho δ tol dim vol ≤ rho δ' tol' dim vol' := by
  unfold rho epsilonNetRadius
  have hs := volUnitSphere_pos dim
  have ha := alpha_nonneg ht
  have ham := alpha_mono htt ht
  have hv0 : 0 < vol := lt_of_lt_of_le hv' hv
  apply mul_le_mul
  · exact div_le_div_of_nonneg_left hs.le hv' hv
  · exact pow_le_pow_left₀ (mul_nonneg ha hδ) (mul_le_mul ham hδ' hδ (le_trans ha ham)) _
  · exact pow_nonneg (mul_nonneg ha hδ) _
  · exact (div_pos hs hv').le

/-- C05. If the clearance does not shrink, the volume does not grow, the success probability is not raised and the
stretch factor is relaxed (or dropped), the returned count does not increase; and if the harder call returned, the easier one
returns too. -/
theorem C05_monotone {δ δ' p p' vol vol' : ℝ} {dim : ℕ} {tol tol' : Option ℝ} {fuel N : ℕ} {r : ℝ}
    (hδ : 0 ≤ δ) (hδ' : δ ≤ δ') (hv' : 0 < vol') (hv : vol' ≤ vol) (hp0 : 0 < p') (hp : p' ≤ p)
    (ht : TolNonneg tol) (htt : TolLe tol tol')
    (h : numericalBound δ p vol dim tol fuel = some (.ok (N, r))) :
    (∀ fuel' N' r', numericalBound δ' p' vol' dim tol' fuel' = some (.ok (N', r')) → N' ≤ N) ∧
      ∃ fuel' N' r', numericalBound δ' p' vol' dim tol' fuel' = some (.ok (N', r')) := by
  obtain ⟨h0, h1, -, hs⟩ := numericalBound_ok h
  have hrho := rho_mono (dim := dim) hδ hδ' hv' hv ht htt
  have hN := search_sauerShelah (logb_lt_one h0 h1) hs
  have hp1 : p' < 1 := lt_of_le_of_lt hp h1
  have hNle := hN.2.1 N (le_refl _)
  have hL : Real.logb 2 (1 - p) ≤ Real.logb 2 (1 - p') :=
    Real.logb_le_logb_of_le (by norm_num) (by linarith) (by linarith)
  have hNle' : sauerShelahLog2 N (rho δ' tol' dim vol') (dim + 1) ≤ Real.logb 2 (1 - p') := by
    rw [sauerShelah_eq] at hNle ⊢
    have : rho δ tol dim vol * N / 2 ≤ rho δ' tol' dim vol' * N / 2 := by
      have : (0 : ℝ) ≤ N := Nat.cast_nonneg N
      have := mul_le_mul_of_nonneg_right hrho this
      linarith
    linarith
  constructor
  · intro fuel' N' r' h'
    obtain ⟨h0', h1', -, hs'⟩ := numericalBound_ok h'
    have hN' := search_sauerShelah (logb_lt_one h0' h1') hs'
    by_contra hcon
    have := hN'.2.2 N hN.1 (by omega)
    linarith
  · obtain ⟨fuel', n, hsn, -⟩ := search_complete (logb_lt_one hp0 hp1) hN.1 (search_small hs) hNle'
    exact ⟨fuel', n, _, numericalBound_of_search hp0 hp1 hsn⟩

/-! ### A concrete call

Clearance 1 in the plane, volume `π/4`, success probability 1/2, existence only: the ball measure is 4 and the answer is
five samples (`2*93/2^8 > 1/2 ≥ 2*176/2^10`). -/

theorem netMeasure_example : netMeasure 1 none 2 (Real.pi / 4) = 4 := by
  rw [← rho_eq_netMeasure (tol := none) (by norm_num) (by norm_num) trivial]
  have : volUnitSphere 2 = Real.pi := by
    have h2 : Real.Gamma (1 + 1) = 1 := by rw [Real.Gamma_add_one one_ne_zero, Real.Gamma_one, one_mul]
    unfold volUnitSphere; norm_num [h2]
  unfold rho epsilonNetRadius alpha
  rw [this]
  have := Real.pi_pos.ne'
  field_simp

theorem failureBound_example (m : ℕ) :
    failureBound m 4 3 = 2 * (∑ i ∈ Finset.range 4, (Nat.choose (2 * m) i : ℝ)) / 2 ^ (2 * m) := by
  unfold failureBound
  have : -((4 : ℝ) * m) / 2 = -((2 * m : ℕ) : ℝ) := by push_cast; ring
  rw [this, Real.rpow_neg (by norm_num), Real.rpow_natCast]
  rfl

theorem C01_nonvacuous : ∃ fuel r, numericalBound 1 (1 / 2) (Real.pi / 4) 2 none fuel = some (.ok (5, r)) := by
  have h5 : failureBound 5 (netMeasure 1 none 2 (Real.pi / 4)) (2 + 1) ≤ 1 - 1 / 2 := by
    rw [netMeasure_example, failureBound_example]
    norm_num [Finset.sum_range_succ, Nat.choose]
  obtain ⟨fuel, N, r, h⟩ := C03_answers_partial (δ := 1) (p := 1 / 2) (vol := Real.pi / 4) (dim := 2) (tol := none)
    (by norm_num) (by norm_num) trivial (by norm_num) (by norm_num) ⟨5, by norm_num, by norm_num, h5⟩
  have hN : N = 5 := by
    obtain ⟨h2, hleast⟩ := C02_least (tol := none) (by norm_num) (by norm_num) trivial h
    have hsuff := C01_sufficient (tol := none) (by norm_num) (by norm_num) trivial h N (le_refl _)
    have hle : N ≤ 5 := by
      by_contra hcon
      exact absurd (hleast 5 (by norm_num) (by omega)) (not_lt.mpr h5)
    rw [netMeasure_example, failureBound_example] at hsuff
    interval_cases N
    · norm_num [Finset.sum_range_succ, Nat.choose] at hsuff
    · norm_num [Finset.sum_range_succ, Nat.choose] at hsuff
    · norm_num [Finset.sum_range_succ, Nat.choose] at hsuff
    · rfl
  exact ⟨fuel, r, hN ▸ h⟩

/-- C03 is not vacuous on the side of the overflow: without clearance no count is enough, and the call reports it. -/
theorem C03_overflow_nonvacuous : ∃ fuel, numericalBound 0 (1 / 2) 1 2 none fuel = some (.error .overflow) := by
  refine (C03_exact (tol := none) (by norm_num) le_rfl trivial (by norm_num) (by norm_num)).2.1.2 ?_
  rw [← rho_eq_netMeasure (tol := none) (by norm_num) le_rfl trivial, show rho 0 none 2 1 = 0 by simp [rho, epsilonNetRadius]]
  generalize 2 ^ 996 = m
  have h1 : (1 : ℝ) ≤ ∑ i ∈ Finset.range (2 + 1 + 1), (Nat.choose (2 * m) i : ℝ) := by
    rw [Finset.sum_range_succ']
    have : (0 : ℝ) ≤ ∑ i ∈ Finset.range (2 + 1), (Nat.choose (2 * m) (i + 1) : ℝ) := Finset.sum_nonneg fun _ _ => Nat.cast_nonneg _
    simp only [Nat.choose_zero_right, Nat.cast_one]; linarith
  unfold failureBound
  simp only [zero_mul, neg_zero, zero_div, Real.rpow_zero, mul_one]
  linarith

/-- C05 is not vacuous: five samples are enough for clearance 1 and success probability 1/2; so the call with clearance 2 and success
probability 1/3 answers too, with a count of at most five. -/
theorem C05_nonvacuous : ∃ fuel N r, numericalBound 2 (1 / 3) (Real.pi / 4) 2 none fuel = some (.ok (N, r)) ∧ N ≤ 5 := by
  obtain ⟨fuel, r, h⟩ := C01_nonvacuous
  obtain ⟨hle, fuel', N', r', h'⟩ := C05_monotone (δ' := 2) (p' := 1 / 3) (vol' := Real.pi / 4) (tol := none) (tol' := none) (by norm_num) (by norm_num)
    (by have := Real.pi_pos; positivity) le_rfl (by norm_num) (by norm_num) trivial trivial h
  exact ⟨fuel', N', r', h', hle _ _ _ h'⟩

end Verif.Props
