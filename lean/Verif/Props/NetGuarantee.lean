import Mathlib.Probability.Independence.InfinitePi
import Mathlib.MeasureTheory.Measure.Lebesgue.VolumeOfBalls
import Verif.Model.NkArrays
import Verif.Lemmas.NetSampling
import Verif.Lemmas.PrmExample
import Verif.Props.BoundFormulas
import Verif.Props.PrmFull

/-!
C77-C79: what the count and the radius of `compute_numerical_bound` guarantee for a PRM on independent uniform samples.
Failure events are measured by the outer measure, so a bound on them needs no measurability.
-/

namespace Verif.Props

open MeasureTheory ProbabilityTheory Verif.Bound Verif.Spec Verif.Prm Verif.Net

variable {Ω : Type*} [MeasurableSpace Ω] {Pr : Measure Ω} [IsProbabilityMeasure Pr] {dim : ℕ} {X : ℕ → Ω → Space dim}
  {S : Set (Space dim)}

theorem netRadius_nonneg {δ : ℝ} (hδ : 0 ≤ δ) {tol : Option ℝ} (ht : TolNonneg tol) : 0 ≤ netRadius δ tol := by
  cases tol with
  | none => exact hδ
  | some t =>
    have : 0 ≤ t := ht
    simp only [netRadius]
    positivity

/-- C77. Draw at least the returned number of independent samples, uniform in a region of at most the given volume. The probability
that some ball of the net's radius inside the region contains none of them is at most `1 - p`. -/
theorem C77_net (hX : IidUniform Pr X S) (hS : MeasurableSet S) (hdim : 1 ≤ dim) {δ p vol : ℝ} {tol : Option ℝ} {fuel N : ℕ} {r : ℝ}
    (hvol : volume S ≤ ENNReal.ofReal vol) (hδ : 0 ≤ δ) (ht : TolNonneg tol)
    (h : numericalBound δ p vol dim tol fuel = some (.ok (N, r))) {m : ℕ} (hm : N ≤ m) (d : ℕ) :
    Pr.real {ω | ∃ c, Metric.ball c (netRadius δ tol) ⊆ S ∧ ∀ i < m, netRadius δ tol ≤ dist (X (d + i) ω) c} ≤ 1 - p := by
  have h2 := (C02_least hdim hδ ht h).1
  exact (iid_net hX hS hdim (netRadius_nonneg hδ ht) hvol (h2.trans hm) d).trans (C01_sufficient hdim hδ ht h m hm)

theorem netRadius_le {δ : ℝ} (hδ : 0 ≤ δ) (tol : Option ℝ) : netRadius δ tol ≤ δ := by
  cases tol with
  | none => exact le_refl _
  | some t =>
    simp only [netRadius]
    have := alpha_le_one (some t)
    simp only [alpha] at this
    calc _ ≤ δ * 1 := by gcongr
      _ = δ := mul_one _

theorem radius_ge {δ p vol : ℝ} {dim : ℕ} {tol : Option ℝ} {fuel N : ℕ} {r : ℝ} (hδ : 0 ≤ δ)
    (h : numericalBound δ p vol dim tol fuel = some (.ok (N, r))) : 2 * netRadius δ tol ≤ r := by
  obtain ⟨-, -, hr, -⟩ := numericalBound_ok h
  rw [hr]
  have : netRadius δ tol = alpha tol * δ := by
    cases tol <;> simp [netRadius, alpha, mul_comm]
  rw [this]
  have := Real.sqrt_nonneg (1 - alpha tol ^ 2)
  nlinarith [mul_nonneg this hδ]

/-- Outside the failure event of C77 the samples of the planner are near every point of clearance. -/
theorem net_of_not_mem {F : Set (Space dim)} (hF : F ⊆ S) {δ : ℝ} {tol : Option ℝ} {N : ℕ} (hδ : 0 ≤ δ) {ω : Ω} {d : ℕ}
    (hω : ¬ ∃ c, Metric.ball c (netRadius δ tol) ⊆ S ∧ ∀ i < N, netRadius δ tol ≤ dist (X (d + 1 + i) ω) c)
    {w : World (Space dim) ℝ} (hw : ∀ i, w.draw i = X i ω) {T : List (Space dim)} (hT : T = w.fresh (d + 1) T.length)
    (hN : N ≤ T.length) (c : Space dim) (hc : Metric.ball c δ ⊆ F) : ∃ q ∈ T, dist q c < netRadius δ tol := by
  by_contra hcon
  apply hω
  refine ⟨c, (Metric.ball_subset_ball (netRadius_le hδ tol)).trans (hc.trans hF), ?_⟩
  intro i hi
  by_contra hlt
  apply hcon
  refine ⟨X (d + 1 + i) ω, ?_, not_le.1 hlt⟩
  rw [hT, World.fresh]
  exact List.mem_map.2 ⟨i, List.mem_range.2 (by omega), hw _⟩

/-- C78. Take the count and the radius that `compute_numerical_bound` returns. With probability at least `p` over the sampler, the
full radius PRM that has at least that many samples (grown in whatever steps, queried in between, radius not made smaller, never
reset) answers every query between two points joined by a path of the given clearance with a nonempty path. -/
theorem C78_complete (hX : IidUniform Pr X S) (hS : MeasurableSet S) (hdim : 1 ≤ dim) {δ p vol : ℝ} {tol : Option ℝ} {fuel N : ℕ}
    {r : ℝ} (hvol : volume S ≤ ENNReal.ofReal vol) (hδ : 0 < δ) (ht : TolNonneg tol)
    (h : numericalBound δ p vol dim tol fuel = some (.ok (N, r))) {F : Set (Space dim)} (hF : F ⊆ S) (d : ℕ) :
    Pr.real {ω | ¬ ∀ (w : World (Space dim) ℝ) (ops : List (Full.Op (Space dim) ℝ)) (T : List (Space dim)) (a b : Space dim)
        (γ : ℝ → Space dim), EuclideanWorld w F (fun i => X i ω) → (∀ o ∈ ops, o ≠ .reset) →
        ((Full.init r d).run w ops).samples = some T → N ≤ T.length → r ≤ lastRadius r ops → ClearPath F δ a b γ →
        ∃ len pts, (((Full.init r d).run w ops).query w a b).2 = .ok (len, pts) ∧ pts ≠ []} ≤ 1 - p := by
  refine le_trans (measureReal_mono (fun ω hω => ?_) (measure_ne_top _ _))
    (C77_net hX hS hdim hvol hδ.le ht h (le_refl N) (d + 1))
  by_contra hnot
  apply hω
  intro w ops T a b γ hw hops hT hN hr hγ
  have hfresh := samples_of_run hops hT
  obtain ⟨pts, hpts, -⟩ := clearPath_chain hw (S := T) (r := lastRadius r ops) hγ (netRadius_le hδ.le tol)
    ((radius_ge hδ.le h).trans hr) (net_of_not_mem hF hδ.le hnot hw.draw hfresh hN)
  obtain ⟨len, pts', h1, h2, -, -⟩ := C29_full hw.sound r d ops hT a b
  refine ⟨len, pts', h1, ?_⟩
  intro h0
  exact h2.1 h0 ⟨pts, hpts⟩

/-- Distance of way points for stretch factor `1 + t`. -/
noncomputable def spacing (δ t : ℝ) : ℝ := 2 * δ / Real.sqrt (1 + t ^ 2)

theorem spacing_facts {δ t : ℝ} (hδ : 0 < δ) : 0 < spacing δ t ∧ spacing δ t + 2 * netRadius δ (some t) = connectionRadius δ t ∧
    spacing δ t ^ 2 / 4 + netRadius δ (some t) ^ 2 = δ ^ 2 ∧ 2 * netRadius δ (some t) / spacing δ t = t := by
  have hp : 0 < 1 + t ^ 2 := by positivity
  have hs : 0 < Real.sqrt (1 + t ^ 2) := Real.sqrt_pos.2 hp
  have hsq := Real.sq_sqrt hp.le
  unfold spacing connectionRadius
  simp only [netRadius]
  refine ⟨by positivity, ?_, ?_, ?_⟩
  · field_simp
    ring
  · field_simp
    rw [hsq]
    ring
  · field_simp

/-- C79 (part): length. With probability at least `p` every query between two points joined by a path of clearance `δ` and length at
most `L` is answered with a path no longer than `L + t * max L (2δ/sqrt(1+t²))`. -/
theorem C79_length_partial (hX : IidUniform Pr X S) (hS : MeasurableSet S) (hdim : 1 ≤ dim) {δ p vol t : ℝ} {fuel N : ℕ}
    {r : ℝ} (hvol : volume S ≤ ENNReal.ofReal vol) (hδ : 0 < δ) (ht : 0 ≤ t)
    (h : numericalBound δ p vol dim (some t) fuel = some (.ok (N, r))) {F : Set (Space dim)} (hF : F ⊆ S) (d : ℕ) :
    Pr.real {ω | ¬ ∀ (w : World (Space dim) ℝ) (ops : List (Full.Op (Space dim) ℝ)) (T : List (Space dim)) (a b : Space dim)
        (γ : ℝ → Space dim) (L : ℝ), EuclideanWorld w F (fun i => X i ω) → (∀ o ∈ ops, o ≠ .reset) →
        ((Full.init r d).run w ops).samples = some T → N ≤ T.length → r ≤ lastRadius r ops → ClearPath F δ a b γ →
        LengthAtMost γ L → 0 ≤ L →
        ∃ (len : ℝ) (pts : List (Space dim)), (((Full.init r d).run w ops).query w a b).2 = .ok ((len : WithTop ℝ), pts) ∧ pts ≠ [] ∧
          len ≤ L + t * max L (2 * δ / Real.sqrt (1 + t ^ 2))} ≤ 1 - p := by
  refine le_trans (measureReal_mono (fun ω hω => ?_) (measure_ne_top _ _))
    (C77_net hX hS hdim hvol hδ.le (tol := some t) ht h (le_refl N) (d + 1))
  by_contra hnot
  apply hω
  intro w ops T a b γ L hw hops hT hN hr hγ hL hL0
  have hfresh := samples_of_run hops hT
  obtain ⟨f1, f2, f3, f4⟩ := spacing_facts (t := t) hδ
  obtain ⟨pts, ⟨hpts, -⟩, hlen⟩ := clearPath_short hw (S := T) (r := lastRadius r ops) hγ hL hL0 hδ f1
    (by rw [f2, ← C06_radius_consistent h]; exact hr) f3.le (net_of_not_mem hF hδ.le hnot hw.draw hfresh hN)
  rw [f4] at hlen
  obtain ⟨len, pts', h1, h2, h3, h4⟩ := C29_full hw.sound r d ops hT a b
  have hne : pts' ≠ [] := fun h0 => h2.1 h0 ⟨pts, hpts⟩
  have hle := h4 pts hpts
  cases len with
  | top => exact absurd (h3.2 rfl) hne
  | coe len =>
    refine ⟨len, pts', h1, hne, ?_⟩
    have := WithTop.coe_le_coe.1 hle
    exact this.trans hlen

/-- C79 (part): stretch. For lengths `L` of at least `2δ/sqrt(1+t²)` the answer is no longer than `(1 + t) L`. Missing: shorter paths,
for which this fails (`C79_short_false`). -/
theorem C79_stretch_partial (hX : IidUniform Pr X S) (hS : MeasurableSet S) (hdim : 1 ≤ dim) {δ p vol t : ℝ} {fuel N : ℕ}
    {r : ℝ} (hvol : volume S ≤ ENNReal.ofReal vol) (hδ : 0 < δ) (ht : 0 ≤ t)
    (h : numericalBound δ p vol dim (some t) fuel = some (.ok (N, r))) {F : Set (Space dim)} (hF : F ⊆ S) (d : ℕ) :
    Pr.real {ω | ¬ ∀ (w : World (Space dim) ℝ) (ops : List (Full.Op (Space dim) ℝ)) (T : List (Space dim)) (a b : Space dim)
        (γ : ℝ → Space dim) (L : ℝ), EuclideanWorld w F (fun i => X i ω) → (∀ o ∈ ops, o ≠ .reset) →
        ((Full.init r d).run w ops).samples = some T → N ≤ T.length → r ≤ lastRadius r ops → ClearPath F δ a b γ →
        LengthAtMost γ L → 2 * δ / Real.sqrt (1 + t ^ 2) ≤ L →
        ∃ (len : ℝ) (pts : List (Space dim)), (((Full.init r d).run w ops).query w a b).2 = .ok ((len : WithTop ℝ), pts) ∧ pts ≠ [] ∧
          len ≤ (1 + t) * L} ≤ 1 - p := by
  refine le_trans (measureReal_mono (fun ω hω => ?_) (measure_ne_top _ _)) (C79_length_partial hX hS hdim hvol hδ ht h hF d)
  intro hall
  apply hω
  intro w ops T a b γ L hw hops hT hN hr hγ hL hLD
  have hL0 : 0 ≤ L := le_trans (by positivity) hLD
  obtain ⟨len, pts, h1, h2, h3⟩ := hall w ops T a b γ L hw hops hT hN hr hγ hL hL0
  refine ⟨len, pts, h1, h2, h3.trans ?_⟩
  rw [max_eq_left hLD]
  linarith

/-- C79 fails for short paths: a query from a point to itself is joined by a path of length 0, but almost surely the returned path is
longer than `(1 + t) * 0`, however many samples there are. -/
theorem C79_short_false (hX : IidUniform Pr X S) (hdim : 1 ≤ dim) (F : Set (Space dim)) (r t : ℝ) (d m : ℕ) (a : Space dim) :
    (∀ δ, Metric.ball a δ ⊆ F → ClearPath F δ a a (fun _ => a) ∧ LengthAtMost (fun _ => a) 0) ∧
    Pr {ω | ∃ w : World (Space dim) ℝ, EuclideanWorld w F (fun i => X i ω) ∧ ∃ (len : ℝ) (pts : List (Space dim)),
      (((Full.init r d).run w [.grow m]).query w a a).2 = .ok ((len : WithTop ℝ), pts) ∧ len ≤ (1 + t) * 0} = 0 := by
  constructor
  · intro δ hδ
    refine ⟨⟨continuousOn_const, rfl, rfl, fun _ _ => hδ⟩, ?_⟩
    unfold LengthAtMost
    rw [eVariationOn.constant_on]
    · simp
    · exact Set.Subsingleton.anti (Set.subsingleton_singleton (a := a)) (by rintro _ ⟨_, _, rfl⟩; rfl)
  · have hnull : Pr (⋃ i : ℕ, {ω | X i ω = a}) = 0 := by
      rw [measure_iUnion_null_iff]
      intro i
      have h1 : {ω | X i ω = a} = X i ⁻¹' {a} := rfl
      have hnt : Nontrivial (Space dim) := by
        have : Nonempty (Fin dim) := ⟨⟨0, hdim⟩⟩
        infer_instance
      rw [h1, ← Measure.map_apply (hX.measurable i) (measurableSet_singleton a), hX.uniform i]
      have h0 : (volume : Measure (Space dim)) {a} = 0 := measure_singleton a
      exact cond_absolutelyContinuous h0
    refine measure_mono_null ?_ hnull
    rintro ω ⟨w, hw, len, pts, hq, hlen⟩
    rw [mul_zero] at hlen
    have hT : ((Full.init r d).run w [.grow m]).samples = some (w.fresh (d + 1) m) := rfl
    obtain ⟨len', pts', h1, h2⟩ := C28_full hw.sound r d [.grow m] hT a a
    obtain ⟨len'', pts'', h1', -, h3', -⟩ := C29_full hw.sound r d [.grow m] hT a a
    rw [hq] at h1 h1'
    cases h1
    cases h1'
    have hne : pts ≠ [] := fun h0 => absurd (h3'.1 h0) WithTop.coe_ne_top
    obtain ⟨hs, -, hl⟩ := h2 hne
    have hl' := WithTop.coe_inj.1 hl
    cases pts with
    | nil => exact absurd rfl hne
    | cons q l =>
      have hlen0 : 0 ≤ pathLength w.dist (q :: l ++ [a]) := by
        have : ∀ (l : List (Space dim)), 0 ≤ pathLength w.dist l := by
          intro l
          induction l with
          | nil => exact le_refl _
          | cons p l ih =>
            cases l with
            | nil => exact le_refl _
            | cons p' l => exact add_nonneg (hw.sound.dist_nonneg _ _) ih
        exact this _
      have hsum : len = w.dist a q + pathLength w.dist (q :: l ++ [a]) := hl'
      have hz : w.dist a q ≤ 0 := by linarith
      rw [hw.dist] at hz
      have hqa : a = q := dist_le_zero.1 hz
      have hmem := hs q (by simp)
      rw [World.fresh] at hmem
      obtain ⟨i, -, hi⟩ := List.mem_map.1 hmem
      rw [hw.draw] at hi
      exact Set.mem_iUnion.2 ⟨d + 1 + i, by rw [Set.mem_ofPred_eq, hi, hqa]⟩

/-! ### A concrete case

Sampling the disc of radius 2, clearance 1, success probability 1/2. -/

/-- A planner with exact neighbours, a reference shortest-path search and an edge generator that runs over adjacency arrays (and skips edges). -/
noncomputable def discWorld (F : Set (Space 2)) (x : ℕ → Space 2) : World (Space 2) ℝ := by
  classical exact
  { check := fun p q => decide (segment ℝ p q ⊆ F)
    draw := x
    dist := dist
    knn := exactKnn dist
    knnUpdate := fun S new k => exactKnn dist (S ++ new) k
    shortest := refShortest
    visits := arrayVisits }

theorem discWorld_euclidean (F : Set (Space 2)) (x : ℕ → Space 2) : EuclideanWorld (discWorld F x) F x where
  sound :=
    { dist_symm := dist_comm
      dist_nonneg := fun _ _ => dist_nonneg
      dijkstra := refShortest_correct
      knn_true := fun S k => exactKnn_true (discWorld F x) S k
      knnUpdate_true := fun S new k => exactKnn_true (discWorld F x) (S ++ new) k }
  dist := fun _ _ => rfl
  draw := fun _ => rfl
  check := fun p q h => by simpa [discWorld] using h

theorem volume_disc (s : ℝ) (hs : 0 ≤ s) : volume (Metric.ball (0 : Space 2) s) = ENNReal.ofReal (Real.pi * s ^ 2) := by
  rw [EuclideanSpace.volume_ball_fin_two, ENNReal.ofReal_mul Real.pi_pos.le, mul_comm, ENNReal.ofReal_pow hs]

theorem netMeasure_disc : netMeasure 1 none 2 (4 * Real.pi) = 1 / 4 := by
  unfold netMeasure netRadius
  have := volume_disc 1 (by norm_num)
  unfold Space at this
  rw [this, ENNReal.toReal_ofReal (by have := Real.pi_pos; positivity)]
  have := Real.pi_pos.ne'
  field_simp

theorem netMeasure_disc_tol : netMeasure 1 (some 1) 2 (4 * Real.pi) = 1 / 8 := by
  unfold netMeasure netRadius
  have h2 : (0 : ℝ) ≤ 1 * (1 / Real.sqrt (1 + 1 ^ 2)) := by positivity
  have := volume_disc _ h2
  unfold Space at this
  rw [this, ENNReal.toReal_ofReal (by have := Real.pi_pos; positivity)]
  have h3 := Real.pi_pos.ne'
  have h4 : (1 * (1 / Real.sqrt (1 + 1 ^ 2))) ^ 2 = (1 / 2 : ℝ) := by
    rw [one_mul, div_pow, Real.sq_sqrt (by norm_num)]
    norm_num
  rw [h4]
  field_simp
  norm_num

/-- There is a sampler for the disc of radius 2. -/
theorem disc_sampler : ∃ (Pr : Measure (ℕ → Space 2)), IsProbabilityMeasure Pr ∧
    IidUniform Pr (fun i x => x i) (Metric.ball (0 : Space 2) 2) ∧ MeasurableSet (Metric.ball (0 : Space 2) 2) ∧
    volume (Metric.ball (0 : Space 2) 2) ≤ ENNReal.ofReal (4 * Real.pi) := by
  have hvol := volume_disc 2 (by norm_num)
  have hne : volume (Metric.ball (0 : Space 2) 2) ≠ 0 := by
    rw [hvol]
    have := Real.pi_pos
    simp [this]
  have hnt : volume (Metric.ball (0 : Space 2) 2) ≠ ⊤ := by
    rw [hvol]
    simp
  have hprob : IsProbabilityMeasure (cond volume (Metric.ball (0 : Space 2) 2)) := cond_isProbabilityMeasure_of_finite hne hnt
  refine ⟨Measure.infinitePi fun _ => cond volume (Metric.ball (0 : Space 2) 2), inferInstance, ⟨fun i => measurable_pi_apply i, ?_, ?_⟩,
    measurableSet_ball, ?_⟩
  · exact iIndepFun_infinitePi (X := fun _ x => x) fun _ => measurable_id
  · intro i
    exact (measurePreserving_eval_infinitePi (fun _ => cond volume (Metric.ball (0 : Space 2) 2)) i).map_eq
  · rw [hvol]
    apply le_of_eq
    congr 1
    ring

/-- In the disc of radius 2 a path of length 2 keeps distance 1 from the boundary. -/
theorem disc_path : ∃ (a b : Space 2) (γ : ℝ → Space 2), a ≠ b ∧ ClearPath (Metric.ball 0 2) 1 a b γ ∧ LengthAtMost γ 2 := by
  let e : Space 2 := EuclideanSpace.single 0 1
  have he : ‖e‖ = 1 := by simp [e]
  refine ⟨-e, e, fun t => (2 * t - 1) • e, ?_, ⟨?_, by simp, by norm_num, ?_⟩, ?_⟩
  · intro h0
    have h1 := congrArg (fun v : Space 2 => v 0) h0
    simp only [e, PiLp.neg_apply, EuclideanSpace.single_apply, if_true] at h1
    norm_num at h1
  · exact (((continuous_const.mul continuous_id).sub continuous_const).smul continuous_const).continuousOn
  · intro t ht
    apply Metric.ball_subset_ball'
    rw [dist_zero_right, norm_smul, he, Real.norm_eq_abs]
    have : |2 * t - 1| ≤ 1 := abs_le.2 ⟨by linarith [ht.1], by linarith [ht.2]⟩
    linarith
  · unfold LengthAtMost
    have hl : LipschitzOnWith 2 (fun t : ℝ => (2 * t - 1) • e) (Set.Icc 0 1) := by
      refine LipschitzOnWith.of_dist_le_mul fun s _ t _ => ?_
      rw [dist_eq_norm, ← sub_smul, norm_smul, he, mul_one, Real.dist_eq, Real.norm_eq_abs]
      have : 2 * s - 1 - (2 * t - 1) = 2 * (s - t) := by ring
      rw [this, abs_mul]
      simp
    have h1 := hl.comp_eVariationOn_le (g := id) (s := Set.Icc (0 : ℝ) 1) (fun t ht => ht)
    have h2 := (monotone_id.monotoneOn (Set.univ : Set ℝ)).eVariationOn_eq (a := 0) (b := 1) trivial trivial
    simp only [Set.univ_inter, id] at h2
    refine h1.trans ?_
    have h3 : eVariationOn (id : ℝ → ℝ) (Set.Icc 0 1) = 1 := by
      have : (fun x : ℝ => x) = id := rfl
      simpa [this] using h2
    rw [h3]
    simp [ENNReal.ofReal]

/-- The hypotheses of C77 and C78 are met by the disc of radius 2, clearance 1, success probability 1/2: a count is returned, and there
are a sampler, a planner and a path of clearance 1 between two different points. -/
theorem C78_nonvacuous : ∃ (fuel N : ℕ) (r : ℝ), numericalBound 1 (1 / 2) (4 * Real.pi) 2 none fuel = some (.ok (N, r)) ∧
    ∃ (Pr : Measure (ℕ → Space 2)), IsProbabilityMeasure Pr ∧
      IidUniform Pr (fun i x => x i) (Metric.ball (0 : Space 2) 2) ∧ MeasurableSet (Metric.ball (0 : Space 2) 2) ∧
      volume (Metric.ball (0 : Space 2) 2) ≤ ENNReal.ofReal (4 * Real.pi) ∧
      ∀ x : ℕ → Space 2, ∃ w : World (Space 2) ℝ, EuclideanWorld w (Metric.ball 0 2) x ∧
        (((Full.init r 0).run w [.grow N]).samples.map List.length = some N) ∧
        ∃ (a b : Space 2) (γ : ℝ → Space 2), a ≠ b ∧ ClearPath (Metric.ball 0 2) 1 a b γ := by
  have hb : failureBound 400 (netMeasure 1 none 2 (4 * Real.pi)) (2 + 1) ≤ 1 - 1 / 2 := by
    rw [netMeasure_disc]
    unfold failureBound
    have : -((1 / 4 : ℝ) * ((400 : ℕ) : ℝ)) / 2 = -((50 : ℕ) : ℝ) := by norm_num
    rw [this, Real.rpow_neg (by norm_num), Real.rpow_natCast]
    have h2 : Nat.choose 800 2 = 319600 := by
      rw [Nat.choose_eq_descFactorial_div_factorial]
      norm_num [Nat.descFactorial, Nat.factorial]
    have h3 : Nat.choose 800 3 = 85013600 := by
      rw [Nat.choose_eq_descFactorial_div_factorial]
      norm_num [Nat.descFactorial, Nat.factorial]
    norm_num [Finset.sum_range_succ, h2, h3]
  obtain ⟨fuel, N, r, h⟩ := C03_answers_partial (δ := 1) (p := 1 / 2) (vol := 4 * Real.pi) (dim := 2) (tol := none)
    (by norm_num) (by norm_num) trivial (by norm_num) (by norm_num) ⟨400, by norm_num, by norm_num, hb⟩
  obtain ⟨Pr, h1, h2, h3, h4⟩ := disc_sampler
  obtain ⟨a, b, γ, h5, h6, -⟩ := disc_path
  refine ⟨fuel, N, r, h, Pr, h1, h2, h3, h4, fun x => ⟨discWorld _ x, discWorld_euclidean _ x, ?_, a, b, γ, h5, h6⟩⟩
  simp [Full.run, Full.step, Full.grow, Full.init, Full.rebuild, World.fresh]

/-- The hypotheses of C79 are met by the same disc and stretch factor 2, with a path of length 2. -/
theorem C79_nonvacuous : ∃ (fuel N : ℕ) (r : ℝ), numericalBound 1 (1 / 2) (4 * Real.pi) 2 (some 1) fuel = some (.ok (N, r)) ∧
    ∃ (Pr : Measure (ℕ → Space 2)), IsProbabilityMeasure Pr ∧
      IidUniform Pr (fun i x => x i) (Metric.ball (0 : Space 2) 2) ∧ MeasurableSet (Metric.ball (0 : Space 2) 2) ∧
      volume (Metric.ball (0 : Space 2) 2) ≤ ENNReal.ofReal (4 * Real.pi) ∧
      ∀ x : ℕ → Space 2, ∃ w : World (Space 2) ℝ, EuclideanWorld w (Metric.ball 0 2) x ∧
        (((Full.init r 0).run w [.grow N]).samples.map List.length = some N) ∧
        ∃ (a b : Space 2) (γ : ℝ → Space 2), a ≠ b ∧ ClearPath (Metric.ball 0 2) 1 a b γ ∧ LengthAtMost γ 2 ∧
          2 * (1 : ℝ) / Real.sqrt (1 + 1 ^ 2) ≤ 2 := by
  have hb : failureBound 800 (netMeasure 1 (some 1) 2 (4 * Real.pi)) (2 + 1) ≤ 1 - 1 / 2 := by
    rw [netMeasure_disc_tol]
    unfold failureBound
    have : -((1 / 8 : ℝ) * ((800 : ℕ) : ℝ)) / 2 = -((50 : ℕ) : ℝ) := by norm_num
    rw [this, Real.rpow_neg (by norm_num), Real.rpow_natCast]
    have h2 : Nat.choose 1600 2 = 1279200 := by
      rw [Nat.choose_eq_descFactorial_div_factorial]
      norm_num [Nat.descFactorial, Nat.factorial]
    have h3 : Nat.choose 1600 3 = 681387200 := by
      rw [Nat.choose_eq_descFactorial_div_factorial]
      norm_num [Nat.descFactorial, Nat.factorial]
    norm_num [Finset.sum_range_succ, h2, h3]
  obtain ⟨fuel, N, r, h⟩ := C03_answers_partial (δ := 1) (p := 1 / 2) (vol := 4 * Real.pi) (dim := 2) (tol := some 1)
    (by norm_num) (by norm_num) (by simp [TolNonneg]) (by norm_num) (by norm_num) ⟨800, by norm_num, by norm_num, hb⟩
  obtain ⟨Pr, h1, h2, h3, h4⟩ := disc_sampler
  obtain ⟨a, b, γ, h5, h6, h7⟩ := disc_path
  refine ⟨fuel, N, r, h, Pr, h1, h2, h3, h4, fun x => ⟨discWorld _ x, discWorld_euclidean _ x, ?_, a, b, γ, h5, h6, h7, ?_⟩⟩
  · simp [Full.run, Full.step, Full.grow, Full.init, Full.rebuild, World.fresh]
  · rw [div_le_iff₀ (by positivity)]
    have : (1 : ℝ) ≤ Real.sqrt (1 + 1 ^ 2) := Real.one_le_sqrt.2 (by norm_num)
    linarith

end Verif.Props
