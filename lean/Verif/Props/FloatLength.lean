import Verif.Props.FloatBound

/-! Lengths of the returned paths in floats: C134. -/

namespace Verif.Props

open MeasureTheory ProbabilityTheory Verif.Envs Verif.Bound Verif.Spec Verif.Prm Verif.Net Verif.Float64

variable {Ω : Type*} [MeasurableSpace Ω] {Pr : Measure Ω} [IsProbabilityMeasure Pr] {n : ℕ} {lib : Libm} {μ δ p vol r ε : ℝ} {dim fuel N : ℕ}

/-- C134. The narrow passage in floats with the count and the radius for a tolerance `ε` (C128 gives the existence of a path only). For a path of
length `L` with some clearance to spare and a radius that exceeds the returned one by some rounding errors, the planner answers with a path whose
length, in the planner's distances of relative error `κ`, is at most `(1 + κ)` times the length in exact arithmetic (C87) and a multiple of `2 ^ -50`
for each sample on the path. -/
theorem C134_narrow {c η κ L : ℝ} (fc : IsFloat c) (hc0 : 2 ^ (-100 : ℤ) ≤ c) (hc : c < 1 / 2) {R : ℕ → Ω → Region}
    {U : ℕ → Ω → Fin (n + 1) → ℝ} (hU : ChoiceDraws Pr (narrowWeight n c) R U) (hδ : 0 < δ) {r' : ℝ} (hε : 0 ≤ ε)
    (h : numericalBound δ p (NarrowPassage.init n c).volume (n + 1) (some ε) fuel = some (.ok (N, r)))
    (hη : Real.sqrt (n + 1) * 2 ^ (-44 : ℤ) ≤ η) (hκ : 0 ≤ κ) (hr : (1 + κ) * (r + Real.sqrt (n + 1) * 2 ^ (-50 : ℤ)) ≤ r') (d : ℕ)
    {a b : Space (n + 1)} (fa : ∀ i, IsFloat (a i) ∧ (a i = 0 ∨ 2 ^ (-800 : ℤ) ≤ |a i|))
    (fb : ∀ i, IsFloat (b i) ∧ (b i = 0 ∨ 2 ^ (-800 : ℤ) ≤ |b i|)) {γ : ℝ → Space (n + 1)} (hγ : ClearPath (narrowSet n c) (δ + η) a b γ)
    (hL : LengthAtMost γ L) (hL0 : 0 ≤ L) :
    Pr.real {ω | ¬ ∀ w : World (Space (n + 1)) ℝ,
      FloatWorld w κ ((NarrowPassage.init n c).isMotionValidR fl)
        (fun i => (NarrowPassage.init n c).sampleR fl (R i ω) fun j => random53 (U i ω j)) → ∀ m, N ≤ m →
      ∃ (len : ℝ) (pts : List (Space (n + 1))), (((Full.init r' d).run w [.grow m]).query w a b).2 = .ok ((len : WithTop ℝ), pts) ∧
        pts ≠ [] ∧ len ≤ (1 + κ) * (L + (ε + Real.sqrt (n + 1) * 2 ^ (-50 : ℤ) / (2 * δ / Real.sqrt (1 + ε ^ 2))) *
          max L (2 * δ / Real.sqrt (1 + ε ^ 2)))} ≤ 1 - p + (n + 1) * (N + 1) ^ 2 * 2 ^ (-50 : ℤ) := by
  have h2 := (C02_least (tol := some ε) (by omega) hδ.le hε h).1
  exact narrow_length_of_bound fc hc0 hc hU hδ hε le_rfl h2 (C01_sufficient (tol := some ε) (by omega) hδ.le hε h N le_rfl) hη hκ
    (by rw [← C06_radius_consistent h]; exact hr) d fa fb hγ hL hL0

theorem max_absorb {a x L D : ℝ} (h : D ≤ L) : L + (a + x) * max L D = (1 + a + x) * L := by
  rw [max_eq_left h]
  ring

/-- C134. The experiment's query in floats: the length is at most the one of the exact query's path times `1 + ε`, up to rounding errors. -/
theorem C134_experiment {c κ : ℝ} (fc : IsFloat c) (hc0 : 2 ^ (-100 : ℤ) ≤ c) (hc : c < 1 / 2) {R : ℕ → Ω → Region}
    {U : ℕ → Ω → Fin (n + 1) → ℝ} (hU : ChoiceDraws Pr (narrowWeight n c) R U) (hδ : 0 < δ)
    (hδc : δ + Real.sqrt (n + 1) * 2 ^ (-43 : ℤ) ≤ c) {r' : ℝ} (hε : 0 ≤ ε)
    (h : numericalBound δ p (NarrowPassage.init n c).volume (n + 1) (some ε) fuel = some (.ok (N, r)))
    (hκ : 0 ≤ κ) (hr : (1 + κ) * (r + Real.sqrt (n + 1) * 2 ^ (-50 : ℤ)) ≤ r') (d : ℕ) :
    Pr.real {ω | ¬ ∀ w : World (Space (n + 1)) ℝ,
      FloatWorld w κ ((NarrowPassage.init n c).isMotionValidR fl)
        (fun i => (NarrowPassage.init n c).sampleR fl (R i ω) fun j => random53 (U i ω j)) → ∀ m, N ≤ m →
      ∃ (len : ℝ) (pts : List (Space (n + 1))),
        (((Full.init r' d).run w [.grow m]).query w (WithLp.toLp 2 (narrowStartR fl n c)) (WithLp.toLp 2 (narrowGoalR fl n c))).2 =
          .ok ((len : WithTop ℝ), pts) ∧ pts ≠ [] ∧
        len ≤ (1 + κ) * ((1 + ε + Real.sqrt (n + 1) * 2 ^ (-50 : ℤ) / (2 * δ / Real.sqrt (1 + ε ^ 2))) *
          (narrowLength n c + Real.sqrt (n + 1) * 2 ^ (-50 : ℤ)))} ≤ 1 - p + (n + 1) * (N + 1) ^ 2 * 2 ^ (-50 : ℤ) := by
  obtain ⟨fa, fb, γ, hγ, hL⟩ := experiment_float fc hc0 hc hδ hδc
  have x0 : 0 ≤ Real.sqrt (n + 1) * (2 : ℝ) ^ (-50 : ℤ) := by positivity
  have x1 : 0 ≤ Real.sqrt (n + 1) * (2 : ℝ) ^ (-43 : ℤ) := by positivity
  have hs : (1 : ℝ) ≤ Real.sqrt (1 + ε ^ 2) := by
    rw [Real.one_le_sqrt]
    nlinarith [sq_nonneg ε]
  have hlong : 2 * δ / Real.sqrt (1 + ε ^ 2) ≤ narrowLength n c + Real.sqrt (n + 1) * 2 ^ (-50 : ℤ) := by
    have h1 : 2 * δ / Real.sqrt (1 + ε ^ 2) ≤ 2 * δ := div_le_self (by linarith) hs
    have h2 : 0 ≤ (1 - 2 * c) * Real.sqrt (1 + n / 4) := mul_nonneg (by linarith) (Real.sqrt_nonneg _)
    have h3 : δ ≤ c := le_trans (le_add_of_nonneg_right x1) hδc
    refine h1.trans (le_trans ?_ (le_add_of_nonneg_right x0))
    unfold narrowLength
    linarith
  have key := C134_narrow fc hc0 hc hU hδ hε h le_rfl hκ hr d (fun i => ⟨(fa i).1, .inr (fa i).2⟩) (fun i => ⟨(fb i).1, .inr (fb i).2⟩) hγ hL
    (le_trans (by positivity) hlong)
  simp only [max_absorb hlong] at key
  exact key

/-- C134. The straight corridor in floats, likewise: all queries between two points of the line at once. -/
theorem C134_straight {delta length κ : ℝ} (fd : IsFloat delta) (fL : IsFloat length) (hd0 : 2 ^ (-100 : ℤ) ≤ delta) (hl : 0 ≤ length)
    {e : StraightLine ℝ n} (he : StraightLine.initR fl n delta length = .ok e) {U : ℕ → Ω → Fin (n + 1) → ℝ} (hU : UnitDraws Pr U)
    (hδ0 : 0 < δ) (hδ : δ ≤ delta) (hδ' : length + δ ≤ fl (length + delta)) (hvol : e.volume ≤ vol) {r' : ℝ} (hε : 0 ≤ ε)
    (h : numericalBound δ p vol (n + 1) (some ε) fuel = some (.ok (N, r))) (hκ : 0 ≤ κ)
    (hr : (1 + κ) * (r + Real.sqrt (n + 1) * 2 ^ (-49 : ℤ) * (fl (length + delta) + delta)) ≤ r') (d : ℕ) :
    Pr.real {ω | ¬ ∀ w : World (Space (n + 1)) ℝ, FloatWorld w κ e.isMotionValid (fun i => e.sampleR fl fun j => random53 (U i ω j)) →
      ∀ m, N ≤ m → ∀ s t : ℝ,
      ∃ (len : ℝ) (pts : List (Space (n + 1))),
        (((Full.init r' d).run w [.grow m]).query w (WithLp.toLp 2 (e.curvePointR fl s)) (WithLp.toLp 2 (e.curvePointR fl t))).2 =
        .ok ((len : WithTop ℝ), pts) ∧ pts ≠ [] ∧ len ≤ (1 + κ) * (|e.curvePointR fl s 0 - e.curvePointR fl t 0| +
          (ε + Real.sqrt (n + 1) * 2 ^ (-49 : ℤ) * (fl (length + delta) + delta) / (2 * δ / Real.sqrt (1 + ε ^ 2))) *
            max |e.curvePointR fl s 0 - e.curvePointR fl t 0| (2 * δ / Real.sqrt (1 + ε ^ 2)))} ≤ 1 - p := by
  have h2 := (C02_least (tol := some ε) (by omega) hδ0.le hε h).1
  exact straight_length_of_bound fd fL hd0 hl he hU hδ0 hδ hδ' hvol hε h2 (C01_sufficient (tol := some ε) (by omega) hδ0.le hε h N le_rfl) hκ
    (by rw [← C06_radius_consistent h]; exact hr) d

/-- The returned radius in floats, for a tolerance. -/
theorem radiusR_ge (hl : Accurate lib μ) (h0 : eps ≤ μ) (hμ : μ ≤ 1 / 10000) (hδ : 0 < δ) (hε : 0 ≤ ε) (hn : NoUnderflow δ vol dim (some ε))
    (h : numericalBoundR fl lib δ p vol dim (some ε) fuel = some (.ok (N, r))) : (1 - 8 * Real.sqrt μ) * connectionRadius δ ε ≤ r := by
  have h1 := (abs_le.1 (C133_radius (tol := some ε) hl h0 hμ hδ hε hn h).1).1
  have h2 : 2 * (alpha (some ε) + Real.sqrt (1 - alpha (some ε) ^ 2)) * δ = connectionRadius δ ε := by
    rw [alpha_sum]
    unfold connectionRadius
    ring
  rw [h2] at h1
  linarith

/-- C134. The narrow passage entirely in floats, with lengths: the count and the radius are those that `compute_numerical_bound` returns in floats
for the clearance `δ` and the tolerance `ε`; the path has a clearance a little above `δ'`. `hr` says by how much `δ'` has to be below `δ`. -/
theorem C134_narrow_float {c δ' η κ L : ℝ} (hl : Accurate lib μ) (h0 : eps ≤ μ) (hμ : μ ≤ 1 / 10000) (h1 : (5 * (n + 1 : ℕ) + 6) * μ ≤ 1 / 4)
    (fp : IsFloat p) (fc : IsFloat c) (hc0 : 2 ^ (-100 : ℤ) ≤ c) (hc : c < 1 / 2) {R : ℕ → Ω → Region} {U : ℕ → Ω → Fin (n + 1) → ℝ}
    (hU : ChoiceDraws Pr (narrowWeight n c) R U) (hδ' : 0 < δ') (hle : δ' ≤ δ) (hε : 0 ≤ ε)
    (hvol : (NarrowPassage.init n c).volume ≤ vol) (hv : 0 < vol) (hn : NoUnderflow δ vol (n + 1) (some ε))
    (h : numericalBoundR fl lib δ p vol (n + 1) (some ε) fuel = some (.ok (N, r)))
    (hη : Real.sqrt (n + 1) * 2 ^ (-44 : ℤ) ≤ η) (hκ : 0 ≤ κ)
    (hr : (1 + κ) * (connectionRadius δ' ε + Real.sqrt (n + 1) * 2 ^ (-50 : ℤ)) ≤ (1 - 8 * Real.sqrt μ) * connectionRadius δ ε) (d : ℕ)
    {a b : Space (n + 1)} (fa : ∀ i, IsFloat (a i) ∧ (a i = 0 ∨ 2 ^ (-800 : ℤ) ≤ |a i|))
    (fb : ∀ i, IsFloat (b i) ∧ (b i = 0 ∨ 2 ^ (-800 : ℤ) ≤ |b i|)) {γ : ℝ → Space (n + 1)} (hγ : ClearPath (narrowSet n c) (δ' + η) a b γ)
    (hL : LengthAtMost γ L) (hL0 : 0 ≤ L) :
    Pr.real {ω | ¬ ∀ w : World (Space (n + 1)) ℝ,
      FloatWorld w κ ((NarrowPassage.init n c).isMotionValidR fl)
        (fun i => (NarrowPassage.init n c).sampleR fl (R i ω) fun j => random53 (U i ω j)) → ∀ m, N ≤ m →
      ∃ (len : ℝ) (pts : List (Space (n + 1))), (((Full.init r d).run w [.grow m]).query w a b).2 = .ok ((len : WithTop ℝ), pts) ∧
        pts ≠ [] ∧ len ≤ (1 + κ) * (L + (ε + Real.sqrt (n + 1) * 2 ^ (-50 : ℤ) / (2 * δ' / Real.sqrt (1 + ε ^ 2))) *
          max L (2 * δ' / Real.sqrt (1 + ε ^ 2)))} ≤
      (1 - p) * 2 ^ slack μ (n + 1) δ δ' p N + (n + 1) * (N + 1) ^ 2 * 2 ^ (-50 : ℤ) := by
  have hδ : 0 < δ := hδ'.trans_le hle
  obtain ⟨h2, hb⟩ := count_slack (tol := some ε) hl h0 (by linarith) (by omega) h1 fp hδ hδ' hle hv hε hn h
  exact narrow_length_of_bound fc hc0 hc hU hδ' hε hvol h2 hb hη hκ (hr.trans (radiusR_ge hl h0 hμ hδ hε hn h)) d fa fb hγ hL hL0

/-- C134. The straight corridor entirely in floats, with lengths. -/
theorem C134_straight_float {delta length δ' κ : ℝ} (hl : Accurate lib μ) (h0 : eps ≤ μ) (hμ : μ ≤ 1 / 10000)
    (h1 : (5 * (n + 1 : ℕ) + 6) * μ ≤ 1 / 4) (fp : IsFloat p) (fd : IsFloat delta) (fL : IsFloat length) (hd0 : 2 ^ (-100 : ℤ) ≤ delta)
    (hlen : 0 ≤ length) {e : StraightLine ℝ n} (he : StraightLine.initR fl n delta length = .ok e) {U : ℕ → Ω → Fin (n + 1) → ℝ}
    (hU : UnitDraws Pr U) (hδ' : 0 < δ') (hle : δ' ≤ δ) (hdd : δ' ≤ delta) (hdd' : length + δ' ≤ fl (length + delta)) (hvol : e.volume ≤ vol)
    (hv : 0 < vol) (hε : 0 ≤ ε) (hn : NoUnderflow δ vol (n + 1) (some ε))
    (h : numericalBoundR fl lib δ p vol (n + 1) (some ε) fuel = some (.ok (N, r))) (hκ : 0 ≤ κ)
    (hr : (1 + κ) * (connectionRadius δ' ε + Real.sqrt (n + 1) * 2 ^ (-49 : ℤ) * (fl (length + delta) + delta)) ≤
      (1 - 8 * Real.sqrt μ) * connectionRadius δ ε) (d : ℕ) :
    Pr.real {ω | ¬ ∀ w : World (Space (n + 1)) ℝ, FloatWorld w κ e.isMotionValid (fun i => e.sampleR fl fun j => random53 (U i ω j)) →
      ∀ m, N ≤ m → ∀ s t : ℝ,
      ∃ (len : ℝ) (pts : List (Space (n + 1))),
        (((Full.init r d).run w [.grow m]).query w (WithLp.toLp 2 (e.curvePointR fl s)) (WithLp.toLp 2 (e.curvePointR fl t))).2 =
        .ok ((len : WithTop ℝ), pts) ∧ pts ≠ [] ∧ len ≤ (1 + κ) * (|e.curvePointR fl s 0 - e.curvePointR fl t 0| +
          (ε + Real.sqrt (n + 1) * 2 ^ (-49 : ℤ) * (fl (length + delta) + delta) / (2 * δ' / Real.sqrt (1 + ε ^ 2))) *
            max |e.curvePointR fl s 0 - e.curvePointR fl t 0| (2 * δ' / Real.sqrt (1 + ε ^ 2)))} ≤ (1 - p) * 2 ^ slack μ (n + 1) δ δ' p N := by
  have hδ : 0 < δ := hδ'.trans_le hle
  obtain ⟨h2, hb⟩ := count_slack (tol := some ε) hl h0 (by linarith) (by omega) h1 fp hδ hδ' hle hv hε hn h
  exact straight_length_of_bound fd fL hd0 hlen he hU hδ' hdd hdd' hvol hε h2 hb hκ (hr.trans (radiusR_ge hl h0 hμ hδ hε hn h)) d

/-- The hypotheses of C134 are met by the planar narrow passage of half-width 1/4 for clearance 15/64, tolerance 1 and success probability 1/2: the
bound answers, exactly and in floats. In floats the clearance of the path may be a millionth below, and the failure probability grows by a factor of
at most `2 ^ (1/10)`. -/
theorem C134_nonvacuous :
    ((15 / 64 : ℝ) + Real.sqrt ((1 : ℕ) + 1) * 2 ^ (-43 : ℤ) ≤ 1 / 4 ∧
      ∃ fuel N r, numericalBound (15 / 64) (1 / 2) (NarrowPassage.init 1 (1 / 4 : ℝ)).volume 2 (some 1) fuel = some (.ok (N, r))) ∧
    NoUnderflow (15 / 64) (NarrowPassage.init 1 (1 / 4 : ℝ)).volume 2 (some 1) ∧
    (∃ fuel N r, numericalBoundR fl (Libm.rounded fl) (15 / 64) (1 / 2) (NarrowPassage.init 1 (1 / 4 : ℝ)).volume 2 (some 1) fuel = some (.ok (N, r)) ∧
      N ≤ 2 ^ 16 ∧ slack eps 2 (15 / 64) (15 / 64 * (1 - 2 ^ (-20 : ℤ))) (1 / 2) N ≤ 1 / 10) ∧
    (1 + (0 : ℝ)) * (connectionRadius (15 / 64 * (1 - 2 ^ (-20 : ℤ))) 1 + Real.sqrt ((1 : ℕ) + 1) * 2 ^ (-50 : ℤ)) ≤
      (1 - 8 * Real.sqrt eps) * connectionRadius (15 / 64) 1 := by
  have hvol : (NarrowPassage.init 1 (1 / 4 : ℝ)).volume = 5 / 2 := by
    obtain ⟨b1, b2, b3⟩ := narrow_boxVol (n := 1) (1 / 4 : ℝ)
    have : (NarrowPassage.init 1 (1 / 4 : ℝ)).volume = 1 + 1 + |2 * (1 / 4 : ℝ)| ^ 1 := congrArg₂ (· + ·) (congrArg₂ (· + ·) b1 b2) b3
    rw [this, abs_of_nonneg (by norm_num)]
    norm_num
  have hpi := Real.pi_gt_three
  have e1 := eps_small
  have e0 := eps_pos
  have f12 : IsFloat (1 / 2 : ℝ) := ⟨1, -1, by norm_num, by norm_num, by norm_num⟩
  have hs2 : Real.sqrt ((1 : ℕ) + 1) ≤ 2 := by
    rw [Real.sqrt_le_left (by norm_num)]
    norm_num
  have hsph : volUnitSphere 2 = Real.pi := by
    unfold volUnitSphere
    norm_num [Real.Gamma_two]
  have hsq : (1 : ℝ) + 1 ^ 2 = 2 := by norm_num
  have r2 : Real.sqrt 2 ^ 2 = 2 := Real.sq_sqrt (by norm_num)
  have r1 : 1 ≤ Real.sqrt 2 := by rw [Real.one_le_sqrt]; norm_num
  have r3 : Real.sqrt 2 ≤ 2 := by rw [Real.sqrt_le_left (by norm_num)]; norm_num
  have hrad : netRadius (15 / 64) (some 1) ^ 2 = 225 / 8192 := by
    simp only [netRadius]
    rw [hsq, mul_pow, div_pow 1, r2]
    norm_num
  have hrho : netMeasure (15 / 64) (some 1) 2 (5 / 2) = Real.pi * (225 / 8192) / (5 / 2) := by
    rw [netMeasure_planar (by norm_num) (some 1) (show TolNonneg (some 1) from zero_le_one), hrad]
  have tiny : (2 : ℝ) ^ (-900 : ℤ) ≤ 1 / 128 := by
    rw [show (1 / 128 : ℝ) = 2 ^ (-7 : ℤ) by norm_num]
    exact zpow_le_zpow_right₀ (by norm_num) (by norm_num)
  have hn : NoUnderflow (15 / 64) (NarrowPassage.init 1 (1 / 4 : ℝ)).volume 2 (some 1) := by
    rw [hvol]
    refine ⟨?_, ?_, fun t ht => ?_, ?_, ?_, ?_⟩
    · rw [hsph]; linarith
    · rw [hsph]; linarith
    · cases ht
      exact zpow_le_one_of_nonpos₀ (by norm_num) (by norm_num)
    · have h0 : 0 ≤ netRadius (15 / 64) (some 1) := netRadius_nonneg (by norm_num) (show TolNonneg (some 1) from zero_le_one)
      nlinarith
    · rw [hrad]; linarith
    · rw [hrho]; linarith
  have h5 : (5 * (1 + 1 : ℕ) + 6) * eps ≤ 1 / 4 := by push_cast; linarith
  refine ⟨⟨?_, answers_planar (by norm_num) (show TolNonneg (some 1) from zero_le_one) ?_⟩, hn, ?_, ?_⟩
  · have := mul_le_mul_of_nonneg_right hs2 (by positivity : (0 : ℝ) ≤ 2 ^ (-43 : ℤ))
    refine (add_le_add_right this _).trans ?_
    norm_num
  · rw [hvol, hrho]
    linarith
  · obtain ⟨fuel, N, r, h, hN⟩ := C133_answers (tol := some 1) rounded_accurate le_rfl (by linarith) (by norm_num) h5 f12 (p := 1 / 2) (by norm_num) (by norm_num)
      (by norm_num) (by rw [hvol]; norm_num) (show TolNonneg (some 1) from zero_le_one) hn (k := 15) (by norm_num) (by norm_num; linarith) (by
        rw [hvol, hrho]
        have := bits_planar
        norm_num at this ⊢
        linarith)
    refine ⟨fuel, N, r, h, hN, ?_⟩
    have hb : bits N 3 (1 / 2) ≤ 51 := by
      refine le_trans ?_ bits_planar
      rw [bits_eq, bits_eq]
      exact sub_le_sub_right (add_le_add_left (logRow_mono 3 (Nat.mul_le_mul_left 2 hN)) 1) _
    have hb1 : 1 ≤ bits N 3 (1 / 2) := bits_ge N 3 (by norm_num) (by norm_num)
    unfold slack
    have hq : ((15 / 64 : ℝ) / (15 / 64 * (1 - 2 ^ (-20 : ℤ)))) ^ 2 ≤ 1 + 1 / 100000 := by norm_num
    have hq1 : (1 + (15 * (2 : ℕ) + 18) * eps) * ((15 / 64 : ℝ) / (15 / 64 * (1 - 2 ^ (-20 : ℤ)))) ^ 2 ≤ (1 + 48 * eps) * (1 + 1 / 100000) := by
      push_cast
      refine mul_le_mul (by linarith) hq (by positivity) (by linarith)
    have : ((1 + (15 * (2 : ℕ) + 18) * eps) * ((15 / 64 : ℝ) / (15 / 64 * (1 - 2 ^ (-20 : ℤ)))) ^ 2 - 1 + 27 * eps) * bits N (2 + 1) (1 / 2) ≤
        (1 / 1000) * 51 := by
      refine mul_le_mul (by linarith) hb (by linarith) (by norm_num)
    linarith
  · have hse : Real.sqrt eps ≤ 2 ^ (-26 : ℤ) := by
      rw [Real.sqrt_le_left (by positivity)]
      unfold eps
      norm_num
    have c1 : ∀ x : ℝ, connectionRadius x 1 = 2 * Real.sqrt 2 * x := by
      intro x
      unfold connectionRadius
      rw [hsq]
      field_simp
      rw [r2]
      ring
    rw [c1, c1]
    have h3 := mul_le_mul_of_nonneg_right hs2 (by positivity : (0 : ℝ) ≤ 2 ^ (-50 : ℤ))
    have h4 : 8 * Real.sqrt eps * (2 * Real.sqrt 2 * (15 / 64)) ≤ 8 * 2 ^ (-26 : ℤ) * (2 * Real.sqrt 2 * (15 / 64)) := by gcongr
    norm_num at h3 h4 ⊢
    nlinarith

end Verif.Props
