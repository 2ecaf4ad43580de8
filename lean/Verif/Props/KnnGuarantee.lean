import Mathlib.Analysis.SpecialFunctions.BinaryEntropy
import Verif.Lemmas.KnnRadius
import Verif.Props.NeighborTails

/-!
C81: the radii that `bound.py` returns for a k-NN PRM hold with the requested probability.
C82: the certified radius of the k-NN PRM.
C83: probabilistic completeness and path quality of the k-NN PRM.
-/

namespace Verif.Props

open MeasureTheory ProbabilityTheory Verif.Bound Verif.Spec Verif.Net Verif.Prm

variable {Ω : Type*} [MeasurableSpace Ω] {Pr : Measure Ω} [IsProbabilityMeasure Pr] {dim : ℕ} {X : ℕ → Ω → Space dim}
  {S : Set (Space dim)}

theorem halving_certified {g : ℝ → EReal} {L : EReal} {lb ub tol : ℝ} (h0 : 0 < tol) (h : lb < ub) {fuel : ℕ} {r : ℝ}
    (hr : halvingRadiusSearch g L lb ub tol fuel = some (.ok r)) : lb ≤ r ∧ (r = lb ∨ g r ≤ L) := by
  obtain ⟨fuel', r', hr', h1, -, h2, -⟩ := C09_halving_search g L h0 h
  have hrr : r = r' := by
    unfold halvingRadiusSearch at hr hr'
    rw [if_pos h] at hr hr'
    have := LoopStops.unique ⟨fuel, hr⟩ ⟨fuel', hr'⟩
    cases this; rfl
  subst hrr
  exact ⟨h1, h2.imp_right And.left⟩

/-- C81, radius search from 0 with the Chernoff-KL bound: with probability at least `p` every sample has fewer than `k` others closer
than the returned radius. -/
theorem C81_search (hX : IidUniform Pr X S) (hS : MeasurableSet S) (hdim : 1 ≤ dim) {vol : ℝ} (hv : 0 < vol)
    (hvol : ENNReal.ofReal vol ≤ volume S) {m : ℕ} (hm : 2 ≤ m) {k ub p tol : ℝ} (hk : 0 < k) (hp : p < 1) (ht : 0 < tol) (hub : 0 < ub)
    {fuel : ℕ} {r : ℝ} (h : halvingRadiusSearchProb (fun x => tailKL m k x dim vol) 0 ub p tol fuel = some (.ok r)) (d : ℕ) :
    Pr {ω | ∃ i < m, k ≤ neighbours X d m r ω i} ≤ ENNReal.ofReal (1 - p) := by
  obtain ⟨h0, h1⟩ := halving_certified ht hub h
  rcases h1 with rfl | h1
  · have : {ω | ∃ i < m, k ≤ neighbours X d m 0 ω i} = ∅ := by
      ext ω
      simp only [Set.mem_ofPred_eq, Set.mem_empty_iff_false, iff_false]
      rintro ⟨i, -, hi⟩
      have : neighbours X d m 0 ω i = 0 := by
        unfold neighbours
        rw [Finset.card_eq_zero, Finset.filter_eq_empty_iff]
        rintro j - ⟨-, hj⟩
        exact absurd dist_nonneg (not_le.2 hj)
      rw [this, Nat.cast_zero] at hi
      linarith
    rw [this]
    simp
  · refine (C80_chernoff_kl hX hS hdim hv hvol hm h0 hk.le d).trans ?_
    have := EReal.exp_monotone h1
    rwa [EReal.exp_coe, Real.exp_log (by linarith)] at this

theorem eff_mean {m : ℕ} {k : ℝ} {dim : ℕ} {vol γ r : ℝ} (hm : 2 ≤ m) (hd : 1 ≤ dim) (hv : 0 < vol)
    (hunit : volUnitSphere dim / vol ≤ 1) (h : effConnRadBound m k dim vol γ = .ok r) (hr : 0 ≤ r) :
    ((m : ℝ) - 1) * ballFraction r dim vol ≤ k := by
  have hm1 : (0 : ℝ) < (m : ℝ) - 1 := by
    have : (2 : ℝ) ≤ m := by exact_mod_cast hm
    linarith
  have hs := volUnitSphere_pos dim
  have hmu : 0 < volUnitSphere dim / vol := div_pos hs hv
  unfold effConnRadBound at h
  simp only [min_eq_left hunit] at h
  set numer := k - Real.sqrt (2 * k * (Real.log m - Real.log γ)) with hnum
  set denom := ((m : ℝ) - 1) * (volUnitSphere dim / vol) with hden
  have hden0 : 0 < denom := mul_pos hm1 hmu
  split at h
  · cases h
  · next hcond =>
    cases h
    have hq : 0 ≤ numer / denom := by
      by_contra hneg
      by_cases hd1 : dim = 1
      · subst hd1
        norm_num at hr
        exact hneg hr
      · exact hcond ⟨not_le.mp hneg, hd1⟩
    have hpow : ((numer / denom) ^ (1 / (dim : ℝ))) ^ dim = numer / denom := by
      rw [← Real.rpow_natCast, ← Real.rpow_mul hq]
      have : (1 / (dim : ℝ)) * dim = 1 := by
        have : (dim : ℝ) ≠ 0 := by positivity
        field_simp
      rw [this, Real.rpow_one]
    have hball : ((m : ℝ) - 1) * ballFraction ((numer / denom) ^ (1 / (dim : ℝ))) dim vol = numer := by
      unfold ballFraction
      rw [hpow, hden]
      field_simp
    rw [hball]
    have := Real.sqrt_nonneg (2 * k * (Real.log m - Real.log γ))
    linarith

/-- C81 (part), closed formula: in an environment no smaller than the unit ball, with probability at least `1 - γ` every sample has
fewer than `k` others closer than the returned radius. Missing: smaller environments, where it fails (`C81_formula_false`). -/
theorem C81_formula_partial (hX : IidUniform Pr X S) (hS : MeasurableSet S) (hdim : 1 ≤ dim) {vol : ℝ} (hv : 0 < vol)
    (hvol : ENNReal.ofReal vol ≤ volume S) (hunit : volUnitSphere dim ≤ vol) {m : ℕ} (hm : 2 ≤ m) {k γ r : ℝ} (hk : 0 < k)
    (hγ : 0 < γ) (hγ1 : γ ≤ 1) (h : effConnRadBound m k dim vol γ = .ok r) (hr : 0 ≤ r) (d : ℕ) :
    Pr {ω | ∃ i < m, k ≤ neighbours X d m r ω i} ≤ ENNReal.ofReal γ := by
  have hu : volUnitSphere dim / vol ≤ 1 := (div_le_one hv).2 hunit
  have hm1 : (0 : ℝ) ≤ (m : ℝ) - 1 := by
    have : (2 : ℝ) ≤ m := by exact_mod_cast hm
    linarith
  have hmean := eff_mean hm hdim hv hu h hr
  have h1 := C11_eff_radius_certified_partial hm hk hdim hv hγ hγ1 hu h hr
  refine (C80_chernoff_generic_partial hX hS hdim hv hvol hm hr hk
    ((mul_le_mul_of_nonneg_left (min_le_left _ _) hm1).trans hmean) d).trans ?_
  have := EReal.exp_monotone h1
  rwa [EReal.exp_coe, Real.exp_log hγ] at this

/-- C81 fails for the closed formula in an environment smaller than the unit ball (the code replaces the measure of the unit ball by
1): 2000 samples in an interval of length 1, 1999 neighbours, failure probability 1/2. With probability 3/4 some sample has all
others closer than the returned radius. -/
theorem C81_formula_false : ∃ (Pr : Measure (ℕ → Space 1)) (S : Set (Space 1)) (r : ℝ), IsProbabilityMeasure Pr ∧
    IidUniform Pr (fun i x => x i) S ∧ MeasurableSet S ∧ volume S = ENNReal.ofReal 1 ∧
    effConnRadBound 2000 1999 1 1 (1 / 2) = .ok r ∧ 0 ≤ r ∧
    ENNReal.ofReal (3 / 4) ≤ Pr {x | ∃ i < 2000, (1999 : ℝ) ≤ neighbours (fun i x => x i) 0 2000 r x i} := by
  obtain ⟨Pr, h1, h2, h3, h4⟩ := interval_sampler
  have hv : volUnitSphere 1 = 2 := by
    have := ballFraction_interval 1 zero_le_one
    unfold ballFraction at this
    linarith
  have hlog : Real.log 2000 - Real.log (1 / 2) ≤ 15 := by
    rw [← Real.log_div (by norm_num) (by norm_num), Real.log_le_iff_le_exp (by norm_num)]
    have h2 : (2 : ℝ) ≤ Real.exp 1 := by linarith [Real.add_one_le_exp (1 : ℝ)]
    calc (2000 / (1 / 2) : ℝ) ≤ 2 ^ 15 := by norm_num
      _ ≤ Real.exp 1 ^ 15 := pow_le_pow_left₀ (by norm_num) h2 15
      _ = Real.exp 15 := by rw [← Real.exp_nat_mul]; norm_num
  have hlog0 : 0 ≤ Real.log 2000 - Real.log (1 / 2) := by
    have := Real.log_le_log (by norm_num) (show (1 / 2 : ℝ) ≤ 2000 by norm_num)
    linarith
  have hsq : Real.sqrt (2 * 1999 * (Real.log 2000 - Real.log (1 / 2))) ≤ 1999 / 8 := by
    rw [Real.sqrt_le_left (by norm_num)]
    linarith
  set r : ℝ := (1999 - Real.sqrt (2 * 1999 * (Real.log 2000 - Real.log (1 / 2)))) / 1999 with hr
  have hr8 : 7 / 8 ≤ r := by
    rw [hr, le_div_iff₀ (by norm_num)]
    linarith
  refine ⟨Pr, _, r, h1, h2, h3, h4, ?_, by linarith, ?_⟩
  · unfold effConnRadBound
    simp only
    rw [hv, if_neg (by simp)]
    norm_num
    rw [hr]
    norm_num
  have hin : ∀ (s : ℝ) (i : ℕ), 0 ≤ s → s ≤ 1 / 2 → Pr ((fun x => x i) ⁻¹' Metric.ball (0 : Space 1) s) = ENNReal.ofReal (2 * s) := by
    intro s i hs hs2
    rw [← Measure.map_apply (h2.measurable i) measurableSet_ball, h2.uniform i, cond_apply measurableSet_ball, h4,
      Set.inter_eq_self_of_subset_right (Metric.ball_subset_ball hs2), volume_interval _ hs]
    simp
  have hae : ∀ᵐ x ∂Pr, ∀ i : ℕ, x i ∈ Metric.ball (0 : Space 1) (1 / 2) := by
    rw [ae_all_iff]
    intro i
    refine (mem_ae_iff_prob_eq_one (measurable_pi_apply i measurableSet_ball)).2 ?_
    rw [hin (1 / 2) i (by norm_num) le_rfl]
    norm_num
  have h5 := hin (3 / 8) 0 (by norm_num) (by norm_num)
  rw [show (2 : ℝ) * (3 / 8) = 3 / 4 by norm_num] at h5
  rw [← h5]
  apply measure_mono_ae
  filter_upwards [hae] with x hx hx0
  refine ⟨0, by norm_num, ?_⟩
  have hsub : (Finset.range 2000).erase 0 ⊆
      (Finset.range 2000).filter fun j => j ≠ 0 ∧ dist ((fun i (x : ℕ → Space 1) => x i) (0 + j) x) ((fun i (x : ℕ → Space 1) => x i) (0 + 0) x) < r := by
    intro j hj
    rw [Finset.mem_erase] at hj
    rw [Finset.mem_filter]
    refine ⟨hj.2, hj.1, ?_⟩
    have h6 := dist_triangle_right (x j) (x 0) (0 : Space 1)
    have h7 := Metric.mem_ball.1 (hx j)
    have h8 : dist (x 0) 0 < 3 / 8 := hx0
    simp only [zero_add]
    linarith
  have hcard := Finset.card_le_card hsub
  rw [Finset.card_erase_of_mem (by simp), Finset.card_range] at hcard
  have : (1999 : ℕ) ≤ neighbours (fun i (x : ℕ → Space 1) => x i) 0 2000 r x 0 := hcard
  exact_mod_cast this

/-- C82. The k-NN PRM with exact neighbours, grown to `m` samples (in whatever steps): its certified radius is at least `r` up to the
probability of the Chernoff-KL bound at `r`. -/
theorem C82_certified (hX : IidUniform Pr X S) (hS : MeasurableSet S) (hdim : 1 ≤ dim) {vol : ℝ} (hv : 0 < vol)
    (hvol : ENNReal.ofReal vol ≤ volume S) {m k : ℕ} (hm : 2 ≤ m) (hk : k + 1 ≤ m) {r : ℝ} (hr : 0 ≤ r) (F : Set (Space dim))
    (tr : Bool) (d : ℕ) :
    Pr {ω | ¬ ∀ (w : World (Space dim) ℝ) (ops rs : List (Knn.Op (Space dim) ℝ)), EuclideanWorld w F (fun i => X i ω) → KnnWorld w →
        (∀ o ∈ ops, o ≠ .reset ∧ ∀ k', o ≠ .setNeighbors k') → (((Knn.init k tr d).run w ops).grow w m).2 = .ok () →
        RadiusChanges rs → ∃ x, ((Knn.init k tr d).run w (ops ++ .grow m :: rs)).certified = some x ∧ r ≤ x} ≤
      EReal.exp (tailKL m k r dim vol) := by
  refine le_trans (measure_mono fun ω hω => ?_) (C80_chernoff_kl hX hS hdim hv hvol hm hr (Nat.cast_nonneg k) (d + 1))
  by_contra hnot
  apply hω
  intro w ops rs hw hkw hops hok hrs
  obtain ⟨x, h1, h2, -⟩ := grow_kept' hw.sound hkw.visits (knnDraws_run (knnDraws_init w k tr d) ops hops) hok
  have h3 := knn_kept_run hw.sound hkw.visits (hw.sound.knn_true _ _) hrs h2
  have hrun : (Knn.init k tr d).run w (ops ++ .grow m :: rs) = (((Knn.init k tr d).run w ops).grow w m).1.run w rs := by
    simp [Knn.run, Knn.step]
  rw [hrun]
  refine ⟨x, h3.2.2.2.1, ?_⟩
  by_contra hlt
  obtain ⟨i, hi, hki⟩ := many_neighbours hw hk (hkw.exact _ _) (hkw.sorted _ _) h1 (not_le.1 hlt)
  exact hnot ⟨i, hi, by exact_mod_cast hki⟩

/-- The growth in the two events: the query after it. -/
theorem knn_answer {ω : Ω} {F : Set (Space dim)} {w : World (Space dim) ℝ} (hw : EuclideanWorld w F (fun i => X i ω)) (hkw : KnnWorld w)
    {ops rs : List (Knn.Op (Space dim) ℝ)} {k m d : ℕ} {tr : Bool} {r : ℝ}
    (hops : ∀ o ∈ ops, o ≠ .reset ∧ ∀ k', o ≠ .setNeighbors k') (hok : (((Knn.init k tr d).run w ops).grow w m).2 = .ok ())
    (hrs : ∀ o ∈ rs, (∃ r', o = .setRadius r' ∧ r ≤ r') ∨ ∃ a b, o = .query a b) (hk : k + 1 ≤ m)
    (hnot : ¬ ∃ i < m, k ≤ neighbours X (d + 1) m r ω i) {a b : Space dim} {pts : List (Space dim)}
    (hpts : w.SampleChain (w.fresh (d + 1) m) r a b pts) (hlt : pts.IsChain fun p q => w.dist p q < r) :
    ∃ (len : ℝ) (pts' : List (Space dim)),
      (((Knn.init k tr d).run w (ops ++ .grow m :: rs)).query w a b).2 = .ok ((len : WithTop ℝ), pts') ∧ pts' ≠ [] ∧
      len ≤ pathLength w.dist (a :: pts ++ [b]) := by
  obtain ⟨x, h1, h2, h2'⟩ := grow_kept' hw.sound hkw.visits (knnDraws_run (knnDraws_init w k tr d) ops hops) hok
  have htrue := hw.sound.knn_true (w.fresh (d + 1) m) (min (m - 1) k)
  have hrun : (Knn.init k tr d).run w (ops ++ .grow m :: rs) = (((Knn.init k tr d).run w ops).grow w m).1.run w rs := by
    simp [Knn.run, Knn.step]
  have hrx : r ≤ x := by
    by_contra hlt
    exact hnot (many_neighbours hw hk (hkw.exact _ _) (hkw.sorted _ _) h1 (not_le.1 hlt))
  -- the state before the query
  have hstate : ∀ s : Knn (Space dim) ℝ, s.Kept w (w.fresh (d + 1) m) (w.knn (w.fresh (d + 1) m) (min (m - 1) k)) x →
      (∀ R, s.connR = some R → r ≤ R) → (s.run w rs).Kept w (w.fresh (d + 1) m) (w.knn (w.fresh (d + 1) m) (min (m - 1) k)) x ∧
        ∀ R, (s.run w rs).connR = some R → r ≤ R := by
    clear hrun h2 h2' hok
    induction rs with
    | nil => exact fun s h h' => ⟨h, h'⟩
    | cons o rs ih =>
      intro s hs hs'
      have hrest := ih fun o ho => hrs o (by simp [ho])
      rcases hrs o (by simp) with ⟨r', rfl, hr'⟩ | ⟨a, b, rfl⟩
      · obtain ⟨e1, e2⟩ := Knn.kept_setRadius hkw.visits htrue hs r'
        refine hrest _ e1 ?_
        intro R hR
        simp only [Knn.step] at hR
        rw [e2] at hR
        cases hR
        exact hr'
      · obtain ⟨e1, e2⟩ := Knn.kept_query hw.sound htrue hs a b
        refine hrest _ e1 ?_
        intro R hR
        simp only [Knn.step] at hR
        rw [e2] at hR
        exact hs' R hR
  obtain ⟨h3, h4⟩ := hstate _ h2 (by
    intro R hR
    rw [h2'] at hR
    split at hR
    · cases hR
      exact hrx
    · cases hR)
  rw [← hrun] at h3 h4
  obtain ⟨g, hg, hcont⟩ := kept_contains hw.sound (hkw.exact _ _) h1 hrx h3 h4
  obtain ⟨R, hR, hrR⟩ : ∃ R, ((Knn.init k tr d).run w (ops ++ .grow m :: rs)).connR.or
      ((Knn.init k tr d).run w (ops ++ .grow m :: rs)).certified = some R ∧ r ≤ R := by
    rw [h3.2.2.2.1]
    cases hc : ((Knn.init k tr d).run w (ops ++ .grow m :: rs)).connR with
    | none => exact ⟨x, rfl, hrx⟩
    | some R => exact ⟨R, rfl, h4 R hc⟩
  obtain ⟨ids, pts', hroute, hlen⟩ := route_of_chain (fun p => by rw [hw.dist, dist_self]) hcont hrR hpts hlt
  obtain ⟨g', len, pts'', hg', hq, hq1, hq2, hq3⟩ := C29_knn hw.sound k tr d (ops ++ .grow m :: rs) h3.1 hR a b
  rw [hg] at hg'
  cases hg'
  have hne : pts'' ≠ [] := fun h0 => hq1.1 h0 ⟨ids, pts', hroute⟩
  have hle := hq3 ids pts' hroute
  rw [hlen] at hle
  cases len with
  | top => exact absurd (hq2.2 rfl) hne
  | coe len => exact ⟨len, pts'', hq, hne, WithTop.coe_le_coe.1 hle⟩

/-- C83, existence. Take count and radius of `compute_numerical_bound` for a region of volume at most `vol₁` and at least `vol₂`, and a
k-NN PRM with exact neighbours. Up to the sum of the two failure probabilities, after it has grown to `m` samples (in whatever steps,
at least the returned count) every query between two points joined by a path of the given clearance is answered with a nonempty path.
The radius may have been set in between, but not below the returned one. -/
theorem C83_complete (hX : IidUniform Pr X S) (hS : MeasurableSet S) (hdim : 1 ≤ dim) {δ p vol₁ vol₂ : ℝ} {tol : Option ℝ} {fuel N : ℕ}
    {r : ℝ} (hvol₁ : volume S ≤ ENNReal.ofReal vol₁) (hv : 0 < vol₂) (hvol₂ : ENNReal.ofReal vol₂ ≤ volume S) (hδ : 0 < δ)
    (ht : TolNonneg tol) (h : numericalBound δ p vol₁ dim tol fuel = some (.ok (N, r))) {F : Set (Space dim)} (hF : F ⊆ S)
    {m k : ℕ} (hm : 2 ≤ m) (hN : N ≤ m) (hk : k + 1 ≤ m) (tr : Bool) (d : ℕ) :
    Pr {ω | ¬ ∀ (w : World (Space dim) ℝ) (ops rs : List (Knn.Op (Space dim) ℝ)) (a b : Space dim) (γ : ℝ → Space dim),
        EuclideanWorld w F (fun i => X i ω) → KnnWorld w →
        (∀ o ∈ ops, o ≠ .reset ∧ ∀ k', o ≠ .setNeighbors k') → (((Knn.init k tr d).run w ops).grow w m).2 = .ok () →
        (∀ o ∈ rs, (∃ r', o = .setRadius r' ∧ r ≤ r') ∨ ∃ a b, o = .query a b) → ClearPath F δ a b γ →
        ∃ len pts, (((Knn.init k tr d).run w (ops ++ .grow m :: rs)).query w a b).2 = .ok (len, pts) ∧ pts ≠ []} ≤
      ENNReal.ofReal (1 - p) + EReal.exp (tailKL m k r dim vol₂) := by
  have hr0 : 0 ≤ r := le_trans (mul_nonneg zero_le_two (netRadius_nonneg hδ.le ht)) (radius_ge hδ.le h)
  have hnet := C77_net hX hS hdim hvol₁ hδ.le ht h hN (d + 1)
  have hp0 : 0 ≤ 1 - p := measureReal_nonneg.trans hnet
  refine le_trans ?_ (add_le_add (to_ennreal hp0 hnet) (C80_chernoff_kl hX hS hdim hv hvol₂ hm hr0 (Nat.cast_nonneg k) (d + 1)))
  refine le_trans (measure_mono fun ω hω => ?_) (measure_union_le _ _)
  by_contra hnot
  rw [Set.mem_union, not_or] at hnot
  apply hω
  intro w ops rs a b γ hw hkw hops hok hrs hγ
  obtain ⟨pts, hpts, hlt⟩ := clearPath_chain hw (S := w.fresh (d + 1) m) (r := r) hγ (netRadius_le hδ.le tol)
    (radius_ge hδ.le h) (net_of_not_mem hF hδ.le hnot.1 hw.draw (by rw [fresh_length]) (by rw [fresh_length]))
  obtain ⟨len, pts', h1, h2, -⟩ := knn_answer hw hkw hops hok hrs hk (by
    rintro ⟨i, hi, hki⟩
    exact hnot.2 ⟨i, hi, by exact_mod_cast hki⟩) hpts hlt
  exact ⟨len, pts', h1, h2⟩

/-- C83, length: the same with stretch factor `1 + t`, for paths of length at most `L`. -/
theorem C83_length (hX : IidUniform Pr X S) (hS : MeasurableSet S) (hdim : 1 ≤ dim) {δ p vol₁ vol₂ t : ℝ} {fuel N : ℕ}
    {r : ℝ} (hvol₁ : volume S ≤ ENNReal.ofReal vol₁) (hv : 0 < vol₂) (hvol₂ : ENNReal.ofReal vol₂ ≤ volume S) (hδ : 0 < δ)
    (ht : 0 ≤ t) (h : numericalBound δ p vol₁ dim (some t) fuel = some (.ok (N, r))) {F : Set (Space dim)} (hF : F ⊆ S)
    {m k : ℕ} (hm : 2 ≤ m) (hN : N ≤ m) (hk : k + 1 ≤ m) (tr : Bool) (d : ℕ) :
    Pr {ω | ¬ ∀ (w : World (Space dim) ℝ) (ops rs : List (Knn.Op (Space dim) ℝ)) (a b : Space dim) (γ : ℝ → Space dim) (L : ℝ),
        EuclideanWorld w F (fun i => X i ω) → KnnWorld w →
        (∀ o ∈ ops, o ≠ .reset ∧ ∀ k', o ≠ .setNeighbors k') → (((Knn.init k tr d).run w ops).grow w m).2 = .ok () →
        (∀ o ∈ rs, (∃ r', o = .setRadius r' ∧ r ≤ r') ∨ ∃ a b, o = .query a b) → ClearPath F δ a b γ → LengthAtMost γ L → 0 ≤ L →
        ∃ (len : ℝ) (pts : List (Space dim)),
          (((Knn.init k tr d).run w (ops ++ .grow m :: rs)).query w a b).2 = .ok ((len : WithTop ℝ), pts) ∧ pts ≠ [] ∧
          len ≤ L + t * max L (2 * δ / Real.sqrt (1 + t ^ 2))} ≤
      ENNReal.ofReal (1 - p) + EReal.exp (tailKL m k r dim vol₂) := by
  have hr0 : 0 ≤ r := le_trans (mul_nonneg zero_le_two (netRadius_nonneg (tol := some t) hδ.le ht)) (radius_ge hδ.le h)
  have hnet := C77_net hX hS hdim hvol₁ hδ.le (tol := some t) ht h hN (d + 1)
  have hp0 : 0 ≤ 1 - p := measureReal_nonneg.trans hnet
  refine le_trans ?_ (add_le_add (to_ennreal hp0 hnet) (C80_chernoff_kl hX hS hdim hv hvol₂ hm hr0 (Nat.cast_nonneg k) (d + 1)))
  refine le_trans (measure_mono fun ω hω => ?_) (measure_union_le _ _)
  by_contra hnot
  rw [Set.mem_union, not_or] at hnot
  apply hω
  intro w ops rs a b γ L hw hkw hops hok hrs hγ hL hL0
  obtain ⟨f1, f2, f3, f4⟩ := spacing_facts (t := t) hδ
  obtain ⟨pts, ⟨hpts, hlt⟩, hlen⟩ := clearPath_short hw (S := w.fresh (d + 1) m) (r := r) hγ hL hL0 hδ f1
    (by rw [f2, ← C06_radius_consistent h]) f3.le (net_of_not_mem hF hδ.le hnot.1 hw.draw (by rw [fresh_length]) (by rw [fresh_length]))
  rw [f4] at hlen
  obtain ⟨len, pts', h1, h2, h3⟩ := knn_answer hw hkw hops hok hrs hk (by
    rintro ⟨i, hi, hki⟩
    exact hnot.2 ⟨i, hi, by exact_mod_cast hki⟩) hpts hlt
  exact ⟨len, pts', h1, h2, h3.trans hlen⟩

/-! ### The hypotheses can be met: a disc of radius 8 -/

theorem discWorld_knn (F : Set (Space 2)) (x : ℕ → Space 2) : KnnWorld (discWorld F x) where
  exact := fun S k => exactKnn_table (discWorld F x) S k
  sorted := by
    intro S k row hrow
    obtain ⟨a, -, rfl⟩ := List.mem_map.1 hrow
    exact (List.pairwise_insertionSort (fun x y : ℕ × ℝ => x.2 ≤ y.2) _).sublist (List.take_sublist _ _)
  visits := arrayVisits_existing rfl

theorem certify_rows_ok {t : Table ℝ} (hne : t ≠ []) (h : ∀ row ∈ t, row ≠ []) : ∃ x, Knn.certify t = .ok x := by
  have hm : ∃ l, t.mapM (fun row => row.getLast?) = some l ∧ l.length = t.length := by
    clear hne
    induction t with
    | nil => exact ⟨[], rfl, rfl⟩
    | cons a t ih =>
      obtain ⟨l, h1, h2⟩ := ih fun row hrow => h row (by simp [hrow])
      obtain ⟨c, hc⟩ := Option.ne_none_iff_exists'.1 (fun h0 => h a (by simp) (List.getLast?_eq_none_iff.1 h0))
      refine ⟨c :: l, ?_, by simp [h2]⟩
      rw [List.mapM_cons, hc, h1]
      rfl
  obtain ⟨l, h1, h2⟩ := hm
  unfold Knn.certify
  rw [h1]
  cases l with
  | nil =>
    exfalso
    apply hne
    exact List.length_eq_zero_iff.1 h2.symm
  | cons c l => exact ⟨_, rfl⟩

theorem discWorld_grow (F : Set (Space 2)) (x : ℕ → Space 2) {k m : ℕ} (hk : 1 ≤ k) (hm : 2 ≤ m) :
    ((Knn.init k true 0).grow (discWorld F x) m).2 = .ok () := by
  have hw := (discWorld_euclidean F x).sound
  set w := discWorld F x with hwd
  set S := w.fresh 1 m with hS
  have hlen : S.length = m := fresh_length w 1 m
  have hx := exactKnn_table w S (min (m - 1) k)
  have hrows : ∃ y, Knn.certify (w.knn S (min (m - 1) k)) = .ok y := by
    apply certify_rows_ok
    · intro h0
      have := (hw.knn_true S (min (m - 1) k)).1
      rw [h0, hlen] at this
      simp at this
      omega
    · intro row hrow h0
      obtain ⟨i, hi⟩ := List.mem_iff_getElem?.1 hrow
      have := hx.full i row hi
      rw [h0, hlen] at this
      simp at this
      omega
  obtain ⟨y, hy⟩ := hrows
  have hgrow : (Knn.init k true 0).grow w m = Knn.rebuild w { Knn.init k true 0 with drawn := 0 + 1 + m } S := rfl
  rw [hgrow]
  unfold Knn.rebuild
  simp only [hlen, Knn.init]
  rw [tableGraph_ok (hw.knn_true _ _)]
  simp only
  rw [hy]
  simp [Knn.setRadius, Knn.mustReload]

theorem volUnitSphere_two : volUnitSphere 2 = Real.pi := by
  have h2 : Real.Gamma (1 + 1) = 1 := by rw [Real.Gamma_add_one one_ne_zero, Real.Gamma_one, one_mul]
  unfold volUnitSphere
  norm_num [h2]

theorem netMeasure_disc8 : netMeasure 1 none 2 (64 * Real.pi) = 1 / 64 := by
  unfold netMeasure netRadius
  have := volume_disc 1 (by norm_num)
  unfold Space at this
  rw [this, ENNReal.toReal_ofReal (by have := Real.pi_pos; positivity)]
  have := Real.pi_pos.ne'
  field_simp

theorem ballFraction_disc8 : ballFraction 2 2 (64 * Real.pi) = 1 / 16 := by
  rw [ballFraction_eq (by norm_num) (by norm_num), volume_disc 2 (by norm_num),
    ENNReal.toReal_ofReal (by have := Real.pi_pos; positivity)]
  have := Real.pi_pos.ne'
  field_simp
  norm_num

/-- With `k = m - 1` the Chernoff-KL bound is small. -/
theorem tail_sixteenth {m : ℕ} (hm : 4 ≤ m) {r vol : ℝ} {dim : ℕ} (hf : ballFraction r dim vol = 1 / 16) :
    EReal.exp (tailKL m (m - 1 : ℕ) r dim vol) ≤ ENNReal.ofReal (1 / 4) := by
  have hm0 : (4 : ℝ) ≤ m := by exact_mod_cast hm
  have hcast : ((m - 1 : ℕ) : ℝ) = (m : ℝ) - 1 := by
    push_cast [Nat.cast_sub (show 1 ≤ m by omega)]
    ring
  unfold tailKL
  simp only [if_true, hf, hcast]
  rw [min_eq_left (by norm_num)]
  set x : ℝ := ((m : ℝ) - 1) / m with hx
  have hx34 : 3 / 4 ≤ x := by
    rw [hx, le_div_iff₀ (by linarith)]
    linarith
  have hx1 : x < 1 := by
    rw [hx, div_lt_one (by linarith)]
    linarith
  rw [max_eq_left (by linarith), show (1 / 16 : ℝ) + (x - 1 / 16) = x by ring]
  unfold entropy2 relEntr
  rw [if_pos ⟨by linarith, by norm_num⟩, if_pos ⟨by linarith, by norm_num⟩, ← EReal.coe_add, ← EReal.coe_mul, ← EReal.coe_sub, EReal.exp_coe]
  apply ENNReal.ofReal_le_ofReal
  clear_value x
  have hent : Real.log 4 ≤ x * Real.log (x / (1 / 16)) + (1 - x) * Real.log ((1 - x) / (1 - 1 / 16)) := by
    have h1 := Real.binEntropy_le_log_two (p := x)
    rw [Real.binEntropy_eq_negMulLog_add_negMulLog_one_sub] at h1
    unfold Real.negMulLog at h1
    rw [Real.log_div (x := x) (by linarith) (by norm_num), Real.log_div (x := 1 - x) (by linarith) (by norm_num)]
    have h2 : Real.log (1 / 16) = -(4 * Real.log 2) := by
      rw [show (1 / 16 : ℝ) = (2 ^ 4)⁻¹ by norm_num, Real.log_inv, Real.log_pow]
      norm_num
    have h3 : Real.log (1 - 1 / 16) ≤ 0 := Real.log_nonpos (by norm_num) (by norm_num)
    have h4 : Real.log 4 = 2 * Real.log 2 := by
      rw [show (4 : ℝ) = 2 ^ 2 by norm_num, Real.log_pow]
      norm_num
    have h5 : 0 < Real.log 2 := Real.log_pos (by norm_num)
    rw [h2, h4]
    have h8 := mul_nonneg (sub_nonneg.2 hx34) h5.le
    have h9 := mul_nonneg (sub_nonneg.2 hx1.le) (neg_nonneg.2 h3)
    nlinarith
  have h6 : Real.log m - (x * Real.log (x / (1 / 16)) + (1 - x) * Real.log ((1 - x) / (1 - 1 / 16))) * ((m : ℝ) - 1) ≤
      Real.log m - Real.log 4 * ((m : ℝ) - 1) := by
    have : Real.log 4 * ((m : ℝ) - 1) ≤
        (x * Real.log (x / (1 / 16)) + (1 - x) * Real.log ((1 - x) / (1 - 1 / 16))) * ((m : ℝ) - 1) :=
      mul_le_mul_of_nonneg_right hent (by linarith)
    linarith
  refine (Real.exp_le_exp.2 h6).trans ?_
  rw [Real.exp_sub, Real.exp_log (by linarith), ← hcast, mul_comm, Real.exp_nat_mul, Real.exp_log (by norm_num),
    div_le_iff₀ (by positivity)]
  obtain ⟨n, rfl⟩ : ∃ n, m = n + 4 := ⟨m - 4, by omega⟩
  have h7 : ∀ n : ℕ, ((n + 4 : ℕ) : ℝ) ≤ 1 / 4 * 4 ^ (n + 4 - 1) := by
    intro n
    induction n with
    | zero => norm_num
    | succ n ih =>
      have : n + 1 + 4 - 1 = (n + 4 - 1) + 1 := by omega
      rw [this, pow_succ]
      push_cast at ih ⊢
      linarith
  exact h7 n

theorem answers_64th {δ vol : ℝ} (hδ : 0 ≤ δ) (h : netMeasure δ none 2 vol = 1 / 64) :
    ∃ fuel N r, numericalBound δ (1 / 2) vol 2 none fuel = some (.ok (N, r)) := by
  have hb : failureBound 6400 (netMeasure δ none 2 vol) (2 + 1) ≤ 1 - 1 / 2 := by
    rw [h]
    unfold failureBound
    have : -((1 / 64 : ℝ) * ((6400 : ℕ) : ℝ)) / 2 = -((50 : ℕ) : ℝ) := by norm_num
    rw [this, Real.rpow_neg (by norm_num), Real.rpow_natCast]
    have h2 : Nat.choose 12800 2 = 81913600 := by
      rw [Nat.choose_eq_descFactorial_div_factorial]
      norm_num [Nat.descFactorial, Nat.factorial]
    have h3 : Nat.choose 12800 3 = 349443417600 := by
      rw [Nat.choose_eq_descFactorial_div_factorial]
      norm_num [Nat.descFactorial, Nat.factorial]
    norm_num [Finset.sum_range_succ, h2, h3]
  exact C03_answers_partial (dim := 2) (tol := none) (by norm_num) hδ trivial (by norm_num) (by norm_num) ⟨6400, by norm_num, by norm_num, hb⟩

/-- The hypotheses of C82 and C83 are met by the disc of radius 8, clearance 1, success probability 1/2: a count is returned, there are
a sampler, a planner with exact neighbours whose growth succeeds, and a path of clearance 1, and the two failure probabilities add
up to at most 3/4. -/
theorem C83_nonvacuous : ∃ (fuel N : ℕ) (r : ℝ) (m k : ℕ),
    numericalBound 1 (1 / 2) (64 * Real.pi) 2 none fuel = some (.ok (N, r)) ∧ 2 ≤ m ∧ N ≤ m ∧ k + 1 ≤ m ∧
    ENNReal.ofReal (1 - 1 / 2) + EReal.exp (tailKL m k r 2 (64 * Real.pi)) ≤ ENNReal.ofReal (3 / 4) ∧
    ∃ (Pr : Measure (ℕ → Space 2)), IsProbabilityMeasure Pr ∧
      IidUniform Pr (fun i x => x i) (Metric.ball (0 : Space 2) 8) ∧ MeasurableSet (Metric.ball (0 : Space 2) 8) ∧
      volume (Metric.ball (0 : Space 2) 8) = ENNReal.ofReal (64 * Real.pi) ∧
      ∀ x : ℕ → Space 2, ∃ w : World (Space 2) ℝ, EuclideanWorld w (Metric.ball 0 8) x ∧ KnnWorld w ∧
        (((Knn.init k true 0).run w []).grow w m).2 = .ok () ∧
        ∃ (a b : Space 2) (γ : ℝ → Space 2), a ≠ b ∧ ClearPath (Metric.ball 0 8) 1 a b γ ∧ LengthAtMost γ 2 := by
  obtain ⟨fuel, N, r, h⟩ := answers_64th (δ := 1) (vol := 64 * Real.pi) (by norm_num) netMeasure_disc8
  have hr : r = 2 := by
    obtain ⟨-, -, hr, -⟩ := numericalBound_ok h
    rw [hr]
    norm_num [alpha]
  have hvol := volume_disc 8 (by norm_num)
  rw [show Real.pi * (8 : ℝ) ^ 2 = 64 * Real.pi by ring] at hvol
  have hprob : IsProbabilityMeasure (cond volume (Metric.ball (0 : Space 2) 8)) :=
    cond_isProbabilityMeasure_of_finite (by rw [hvol]; simp [Real.pi_pos]) (by rw [hvol]; exact ENNReal.ofReal_ne_top)
  refine ⟨fuel, N, r, N + 4, N + 3, h, by omega, by omega, by omega, ?_,
    Measure.infinitePi fun _ => cond volume (Metric.ball (0 : Space 2) 8), inferInstance, ⟨fun i => measurable_pi_apply i, ?_, ?_⟩,
    measurableSet_ball, hvol, ?_⟩
  · rw [hr]
    refine (add_le_add le_rfl (tail_sixteenth (m := N + 4) (by omega) ballFraction_disc8)).trans ?_
    rw [← ENNReal.ofReal_add (by norm_num) (by norm_num)]
    norm_num
  · exact iIndepFun_infinitePi (X := fun _ x => x) fun _ => measurable_id
  · intro i
    exact (measurePreserving_eval_infinitePi (fun _ => cond volume (Metric.ball (0 : Space 2) 8)) i).map_eq
  · intro x
    obtain ⟨a, b, γ, h5, h6, h7⟩ := disc_path
    refine ⟨discWorld _ x, discWorld_euclidean _ x, discWorld_knn _ x, discWorld_grow _ x (by omega) (by omega), a, b, γ, h5,
      ⟨h6.continuous, h6.start, h6.goal, fun t ht => (h6.clear t ht).trans (Metric.ball_subset_ball (by norm_num))⟩, h7⟩

/-- The hypotheses of C81 are met: the search answers for 100 samples, 40 neighbours in an interval of length 1, and the closed formula
gives a positive radius for 1000 samples, 100 neighbours in a disc of radius 8. -/
theorem C81_nonvacuous :
    (∃ fuel r, halvingRadiusSearchProb (fun x => tailKL 100 40 x 1 1) 0 1 (1 / 2) (1 / 100) fuel = some (.ok r)) ∧
    (∃ Pr : Measure (ℕ → Space 1), IsProbabilityMeasure Pr ∧ IidUniform Pr (fun i x => x i) (Metric.ball (0 : Space 1) (1 / 2)) ∧
      volume (Metric.ball (0 : Space 1) (1 / 2)) = ENNReal.ofReal 1) ∧
    volUnitSphere 2 ≤ 64 * Real.pi ∧ ∃ r, 0 < r ∧ effConnRadBound 1000 100 2 (64 * Real.pi) (1 / 2) = .ok r := by
  refine ⟨?_, ?_, ?_, ?_⟩
  · obtain ⟨fuel, r, h, -⟩ := C09_halving_search (fun x => tailKL 100 40 x 1 1) ((Real.log (1 - 1 / 2) : ℝ) : EReal) (lb := 0) (ub := 1)
      (tol := 1 / 100) (by norm_num) (by norm_num)
    exact ⟨fuel, r, h⟩
  · obtain ⟨Pr, h1, h2, -, h4⟩ := interval_sampler
    exact ⟨Pr, h1, h2, h4⟩
  · rw [volUnitSphere_two]
    have := Real.pi_pos
    linarith
  · have hlog : Real.log 1000 - Real.log (1 / 2) ≤ 11 := by
      rw [← Real.log_div (by norm_num) (by norm_num), Real.log_le_iff_le_exp (by norm_num)]
      have h2 : (2 : ℝ) ≤ Real.exp 1 := by linarith [Real.add_one_le_exp (1 : ℝ)]
      calc (1000 / (1 / 2) : ℝ) ≤ 2 ^ 11 := by norm_num
        _ ≤ Real.exp 1 ^ 11 := pow_le_pow_left₀ (by norm_num) h2 11
        _ = Real.exp 11 := by rw [← Real.exp_nat_mul]; norm_num
    have hsq : Real.sqrt (2 * 100 * (Real.log 1000 - Real.log (1 / 2))) ≤ 50 := by
      rw [Real.sqrt_le_left (by norm_num)]
      linarith
    have hq : 0 < (100 - Real.sqrt (2 * 100 * (Real.log ((1000 : ℕ) : ℝ) - Real.log (1 / 2)))) /
        ((((1000 : ℕ) : ℝ) - 1) * min (volUnitSphere 2 / (64 * Real.pi)) 1) := by
      apply div_pos
      · push_cast
        linarith
      · have := volUnitSphere_pos 2
        have := Real.pi_pos
        apply mul_pos (by norm_num)
        exact lt_min (by positivity) one_pos
    unfold effConnRadBound
    simp only
    rw [if_neg (fun h => absurd h.1 (not_lt.2 hq.le))]
    exact ⟨_, Real.rpow_pos_of_pos hq _, rfl⟩

end Verif.Props
