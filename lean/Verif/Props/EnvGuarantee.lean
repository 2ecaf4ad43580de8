import Mathlib.Analysis.Real.Pi.Bounds
import Verif.Lemmas.GenericPosition
import Verif.Lemmas.PathOps
import Verif.Model.ExpQueries
import Verif.Props.NetGuarantee
import Verif.Props.UniformEnvs

/-!
C86, C87: from the random number generator to the answer. The planner gets the environment's checker and sampler, and the count and
radius that `compute_numerical_bound` returns for the environment's volume.
-/

namespace Verif.Props

open MeasureTheory ProbabilityTheory Verif.Envs Verif.Bound Verif.Spec Verif.Prm Verif.Net

variable {Ω : Type*} [MeasurableSpace Ω] {Pr : Measure Ω} [IsProbabilityMeasure Pr] {n : ℕ}

/-! ### Straight line -/

theorem corridor_measurable (delta length : ℝ) : MeasurableSet (corridorSet n delta length) := by
  have h : corridorSet n delta length = (WithLp.ofLp : Space (n + 1) → Fin (n + 1) → ℝ) ⁻¹'
      Set.Icc (headRest (-delta) (-delta)) (headRest (length + delta) delta) := by
    rw [headRest_Icc]
    rfl
  rw [h]
  exact (PiLp.volume_preserving_ofLp (Fin (n + 1))).measurable measurableSet_Icc

theorem corridor_volume {delta length : ℝ} (hl : 0 ≤ length) {e : StraightLine ℝ n} (he : StraightLine.init n delta length = .ok e) :
    volume (corridorSet n delta length) = ENNReal.ofReal e.volume := by
  rw [← (C15_volume hl he).1]
  have hm : MeasurableSet {x : Fin (n + 1) → ℝ | InCorridor delta length x} := by
    have : {x : Fin (n + 1) → ℝ | InCorridor delta length x} =
        Set.Icc (headRest (-delta) (-delta)) (headRest (length + delta) delta) := by rw [headRest_Icc]; rfl
    rw [this]
    exact measurableSet_Icc
  exact (PiLp.volume_preserving_ofLp (Fin (n + 1))).measure_preimage hm.nullMeasurableSet

theorem corridor_world {delta length : ℝ} {e : StraightLine ℝ n} (he : StraightLine.init n delta length = .ok e)
    {w : World (Space (n + 1)) ℝ} {x : ℕ → Fin (n + 1) → ℝ} (hw : EnvWorld w e.isMotionValid x) :
    EuclideanWorld w (corridorSet n delta length) fun i => WithLp.toLp 2 (x i) := by
  refine ⟨hw.sound, hw.dist, hw.draw, fun p q h => ?_⟩
  rw [hw.check, straight_valid_iff he]
  exact ⟨h (left_mem_segment ℝ p q), h (right_mem_segment ℝ p q)⟩

theorem coord_lt {m : ℕ} {x y : Space m} {δ : ℝ} (h : dist x y < δ) (i : Fin m) : |x i - y i| < δ := by
  refine lt_of_le_of_lt ?_ h
  rw [dist_eq_norm]
  exact PiLp.norm_apply_le (x - y) i

/-- The line of the environment keeps the clearance. -/
theorem line_clear {delta length : ℝ} (hl : 0 ≤ length) {e : StraightLine ℝ n} (he : StraightLine.init n delta length = .ok e) (s t : ℝ) :
    ∃ γ, ClearPath (corridorSet n delta length) delta (WithLp.toLp 2 (e.curvePoint s)) (WithLp.toLp 2 (e.curvePoint t)) γ ∧
      LengthAtMost γ (|clip s 0 1 - clip t 0 1| * length) := by
  obtain ⟨-, hd, -, -, -, hlen⟩ := straight_init he
  have h01 := fun s : ℝ => clip_mem (x := s) (zero_le_one (α := ℝ))
  have hco : ∀ s, (WithLp.toLp 2 (e.curvePoint s) : Space (n + 1)) 0 = clip s 0 1 * length ∧
      ∀ i : Fin n, (WithLp.toLp 2 (e.curvePoint s) : Space (n + 1)) i.succ = 0 := by
    intro s
    refine ⟨?_, fun i => ?_⟩
    · show e.curvePoint s 0 = _
      simp [StraightLine.curvePoint, headRest, hlen]
    · show e.curvePoint s i.succ = 0
      simp [StraightLine.curvePoint, headRest]
  have hdist : dist (WithLp.toLp 2 (e.curvePoint s) : Space (n + 1)) (WithLp.toLp 2 (e.curvePoint t)) =
      |clip s 0 1 - clip t 0 1| * length := by
    rw [EuclideanSpace.dist_eq, Fin.sum_univ_succ, (hco s).1, (hco t).1]
    rw [Finset.sum_eq_zero fun i _ => by rw [(hco s).2, (hco t).2]; simp, add_zero]
    rw [Real.sqrt_sq dist_nonneg, Real.dist_eq, ← sub_mul, abs_mul, abs_of_nonneg hl]
  rw [← hdist]
  refine ⟨_, straight_path fun x hx y hy => ?_⟩
  obtain ⟨u, v, hu, hv, huv, rfl⟩ := hx
  have hb := coord_lt (Metric.mem_ball.1 hy)
  have hb0 := hb 0
  have e0 : (u • (WithLp.toLp 2 (e.curvePoint s) : Space (n + 1)) + v • WithLp.toLp 2 (e.curvePoint t)) 0 =
      u * (clip s 0 1 * length) + v * (clip t 0 1 * length) := by
    rw [← (hco s).1, ← (hco t).1]
    rfl
  have ei : ∀ i : Fin n, (u • (WithLp.toLp 2 (e.curvePoint s) : Space (n + 1)) + v • WithLp.toLp 2 (e.curvePoint t)) i.succ = 0 := by
    intro i
    have : (u • (WithLp.toLp 2 (e.curvePoint s) : Space (n + 1)) + v • WithLp.toLp 2 (e.curvePoint t)) i.succ =
      u * (WithLp.toLp 2 (e.curvePoint s) : Space (n + 1)) i.succ + v * (WithLp.toLp 2 (e.curvePoint t) : Space (n + 1)) i.succ := rfl
    rw [this, (hco s).2, (hco t).2]
    ring
  rw [e0, abs_lt] at hb0
  have b1 : 0 ≤ u * (clip s 0 1 * length) + v * (clip t 0 1 * length) := by
    have := (h01 s).1; have := (h01 t).1
    positivity
  have b2 : u * (clip s 0 1 * length) + v * (clip t 0 1 * length) ≤ length := by
    have e1 : u * (clip s 0 1 * length) ≤ u * length :=
      mul_le_mul_of_nonneg_left (mul_le_of_le_one_left hl (h01 s).2) hu
    have e2 : v * (clip t 0 1 * length) ≤ v * length :=
      mul_le_mul_of_nonneg_left (mul_le_of_le_one_left hl (h01 t).2) hv
    have e3 : u * length + v * length = length := by rw [← add_mul, huv, one_mul]
    linarith
  refine ⟨by linarith [hb0.1], by linarith [hb0.2], fun i => ?_⟩
  have := hb i.succ
  rw [ei, sub_zero, abs_lt] at this
  exact ⟨this.1.le, this.2.le⟩

/-- C86. In the straight-line environment, with probability at least `p`, the planner with the returned count and radius answers every
query between two points of the line with a nonempty path. -/
theorem C86_complete {delta length : ℝ} (hd : 0 < delta) (hl : 0 ≤ length) {e : StraightLine ℝ n}
    (he : StraightLine.init n delta length = .ok e) {U : ℕ → Ω → Fin (n + 1) → ℝ} (hU : UnitDraws Pr U) {p : ℝ} {tol : Option ℝ}
    {fuel N : ℕ} {r : ℝ} (ht : TolNonneg tol) (h : numericalBound delta p e.volume (n + 1) tol fuel = some (.ok (N, r))) (d : ℕ) :
    Pr.real {ω | ¬ ∀ w : World (Space (n + 1)) ℝ, EnvWorld w e.isMotionValid (fun i => e.sample (U i ω)) → ∀ m, N ≤ m → ∀ s t : ℝ,
      ∃ len pts, (((Full.init r d).run w [.grow m]).query w (WithLp.toLp 2 (e.curvePoint s)) (WithLp.toLp 2 (e.curvePoint t))).2 =
        .ok (len, pts) ∧ pts ≠ []} ≤ 1 - p := by
  refine le_trans (measureReal_mono (fun ω hω => ?_) (measure_ne_top _ _))
    (C78_complete (C84_straight hd hl he hU) (corridor_measurable _ _) (by omega) (corridor_volume hl he).le hd ht h (le_refl _) d)
  intro hall
  apply hω
  intro w hw m hm s t
  obtain ⟨γ, hγ, -⟩ := line_clear hl he s t
  exact hall w [.grow m] _ _ _ γ (corridor_world he hw) (by simp) rfl (by rw [fresh_length]; exact hm) (le_refl _) hγ

/-- C86, length: with stretch factor `1 + ε` the answer is no longer than the stretch of line between the two points, plus `ε` times
that length (or the way-point distance, if this is more). -/
theorem C86_length {delta length : ℝ} (hd : 0 < delta) (hl : 0 ≤ length) {e : StraightLine ℝ n}
    (he : StraightLine.init n delta length = .ok e) {U : ℕ → Ω → Fin (n + 1) → ℝ} (hU : UnitDraws Pr U) {p ε : ℝ}
    {fuel N : ℕ} {r : ℝ} (ht : 0 ≤ ε) (h : numericalBound delta p e.volume (n + 1) (some ε) fuel = some (.ok (N, r))) (d : ℕ) :
    Pr.real {ω | ¬ ∀ w : World (Space (n + 1)) ℝ, EnvWorld w e.isMotionValid (fun i => e.sample (U i ω)) → ∀ m, N ≤ m → ∀ s t : ℝ,
      ∃ (len : ℝ) (pts : List (Space (n + 1))),
        (((Full.init r d).run w [.grow m]).query w (WithLp.toLp 2 (e.curvePoint s)) (WithLp.toLp 2 (e.curvePoint t))).2 =
        .ok ((len : WithTop ℝ), pts) ∧ pts ≠ [] ∧ len ≤ |clip s 0 1 - clip t 0 1| * length +
          ε * max (|clip s 0 1 - clip t 0 1| * length) (2 * delta / Real.sqrt (1 + ε ^ 2))} ≤ 1 - p := by
  refine le_trans (measureReal_mono (fun ω hω => ?_) (measure_ne_top _ _))
    (C79_length_partial (C84_straight hd hl he hU) (corridor_measurable _ _) (by omega) (corridor_volume hl he).le hd ht h (le_refl _) d)
  intro hall
  apply hω
  intro w hw m hm s t
  obtain ⟨γ, hγ, hL⟩ := line_clear hl he s t
  exact hall w [.grow m] _ _ _ γ _ (corridor_world he hw) (by simp) rfl (by rw [fresh_length]; exact hm) (le_refl _) hγ hL
    (mul_nonneg (abs_nonneg _) hl)

/-! ### Narrow passage -/

theorem narrow_measurable (c : ℝ) : MeasurableSet (narrowSet n c) := by
  have h : narrowSet n c = (WithLp.ofLp : Space (n + 1) → Fin (n + 1) → ℝ) ⁻¹' ⋃ r, narrowBox n c r := by
    rw [narrowBox_union]
    rfl
  rw [h]
  refine (PiLp.volume_preserving_ofLp (Fin (n + 1))).measurable (MeasurableSet.iUnion fun r => ?_)
  cases r <;> exact measurableSet_Icc

theorem narrow_volume {c : ℝ} (hc : 0 ≤ c) : volume (narrowSet n c) = ENNReal.ofReal (NarrowPassage.init n c).volume := by
  rw [← C18_volume hc]
  have hm : MeasurableSet {x : Fin (n + 1) → ℝ | NarrowFree c x} := by
    rw [← narrowBox_union]
    refine MeasurableSet.iUnion fun r => ?_
    cases r <;> exact measurableSet_Icc
  exact (PiLp.volume_preserving_ofLp (Fin (n + 1))).measure_preimage hm.nullMeasurableSet

/-- The free space without the walls. -/
def narrowOpen (n : ℕ) (c : ℝ) : Set (Space (n + 1)) := {x | NarrowFree c (fun i => x i) ∧ ¬ NarrowObstacle c fun i => x i}

/-- An open ball in the free space does not touch a wall. -/
theorem ball_narrowOpen {c δ : ℝ} {x : Space (n + 1)} (h : Metric.ball x δ ⊆ narrowSet n c) :
    Metric.ball x δ ⊆ narrowOpen n c := by
  intro y hy
  refine ⟨h hy, fun hobs => ?_⟩
  obtain ⟨h1, h2, i, hi⟩ := hobs
  obtain ⟨η, hη, hηball⟩ := Metric.isOpen_ball.mem_nhds hy |> Metric.mem_nhds_iff.1
  set ε : ℝ := min (η / 4) (1 / 4) with hε
  have ε0 : 0 < ε := lt_min (by linarith) (by norm_num)
  have ε1 : ε ≤ η / 4 := min_le_left _ _
  have ε2 : ε ≤ 1 / 4 := min_le_right _ _
  -- move away from the mouths of the passage, and into the wall
  obtain ⟨σ, hσ, hσ1, hσ2⟩ : ∃ σ : ℝ, |σ| = ε ∧ -1 / 2 < y 0 + σ ∧ y 0 + σ < 1 / 2 := by
    rcases le_total (y 0) 0 with h0 | h0
    · exact ⟨ε, abs_of_pos ε0, by linarith, by linarith⟩
    · exact ⟨-ε, by rw [abs_neg, abs_of_pos ε0], by linarith, by linarith⟩
  obtain ⟨τ, hτ, hτ1⟩ : ∃ τ : ℝ, |τ| = ε ∧ (c < y i.succ + τ ∨ y i.succ + τ < -c) := by
    rcases hi with hi | hi
    · exact ⟨ε, abs_of_pos ε0, Or.inl (by linarith [hi.1])⟩
    · exact ⟨-ε, by rw [abs_neg, abs_of_pos ε0], Or.inr (by linarith [hi.2])⟩
  let z : Space (n + 1) := y + (EuclideanSpace.single 0 σ + EuclideanSpace.single i.succ τ)
  have hz : z ∈ Metric.ball y η := by
    rw [Metric.mem_ball, dist_eq_norm]
    have : z - y = EuclideanSpace.single 0 σ + EuclideanSpace.single i.succ τ := by
      simp only [z]
      abel
    rw [this]
    refine lt_of_le_of_lt (norm_add_le _ _) ?_
    simp only [PiLp.norm_single, Real.norm_eq_abs, hσ, hτ]
    linarith
  have z0 : z 0 = y 0 + σ := by
    simp [z, (Fin.succ_ne_zero i).symm]
  have zi : z i.succ = y i.succ + τ := by
    simp [z]
  have hfree : NarrowFree c fun i => z i := h (hηball hz)
  rcases hfree with ⟨-, f, -⟩ | ⟨-, -, f⟩ | ⟨f, -⟩
  · dsimp only at f; rw [z0] at f; linarith
  · have := f i
    dsimp only at this
    rw [zi] at this
    rcases hτ1 with hh | hh <;> linarith [this.1, this.2]
  · dsimp only at f; rw [z0] at f; linarith

theorem narrow_check {c : ℝ} (hc : c < 1 / 2) {w : World (Space (n + 1)) ℝ} {x : ℕ → Fin (n + 1) → ℝ}
    (hw : EnvWorld w (NarrowPassage.init n c).isMotionValid x) (p q : Space (n + 1)) (hpq : ∀ i, p i ≠ q i)
    (h : segment ℝ p q ⊆ narrowOpen n c) : w.check p q = true := by
  rw [hw.check]
  refine C17_clear_accepted_partial hc _ _ (fun y hy => ?_) fun i => ⟨Or.inl (hpq 0), fun h0 => hpq 0 h0.1, fun h0 => hpq _ h0.1⟩
  obtain ⟨u, v, hu, hv, huv, rfl⟩ := hy
  exact (h ⟨u, v, hu, hv, huv, rfl⟩).2

/-- Outside an event of probability at most `1 - p` the planner finds a path, if its checker accepts motions in general position. -/
theorem general_complete {dim : ℕ} {X : ℕ → Ω → Space dim} {S F : Set (Space dim)} (hX : IidUniform Pr X S) (hS : MeasurableSet S)
    (hdim : 1 ≤ dim) {δ p vol : ℝ} {tol : Option ℝ} {fuel N : ℕ} {r : ℝ} (hvol : volume S ≤ ENNReal.ofReal vol) (hδ : 0 < δ)
    (ht : TolNonneg tol) (h : numericalBound δ p vol dim tol fuel = some (.ok (N, r))) (hF : F ⊆ S) (d : ℕ) (a b : Space dim) :
    Pr.real {ω | ¬ ∀ w : World (Space dim) ℝ, w.Sound → (∀ p q, w.dist p q = dist p q) → (∀ i, w.draw i = X i ω) →
      (∀ p q, (∀ i, p i ≠ q i) → segment ℝ p q ⊆ F → w.check p q = true) → ∀ m, N ≤ m → ∀ γ, ClearPath F δ a b γ →
      ∃ len pts, (((Full.init r d).run w [.grow m]).query w a b).2 = .ok (len, pts) ∧ pts ≠ []} ≤ 1 - p := by
  have hnull := general_ae hX a b
  refine le_trans (measureReal_mono (fun ω hω => ?_) (measure_ne_top _ _) |>.trans (measureReal_union_le _ _)) (?_ :
    Pr.real {ω | ∃ c, Metric.ball c (netRadius δ tol) ⊆ S ∧ ∀ i < N, netRadius δ tol ≤ dist (X (d + 1 + i) ω) c} +
    Pr.real {ω | ¬ ((∀ k i, X k ω i ≠ a i ∧ X k ω i ≠ b i) ∧ ∀ k l, k ≠ l → ∀ i, X k ω i ≠ X l ω i)} ≤ 1 - p)
  · by_contra hnot
    rw [Set.mem_union, not_or] at hnot
    apply hω
    intro w hs hdist hdraw hch m hm γ hγ
    have hT : ((Full.init r d).run w [.grow m]).samples = some (w.fresh (d + 1) m) := rfl
    have hfresh : w.fresh (d + 1) m = w.fresh (d + 1) (w.fresh (d + 1) m).length := by rw [fresh_length]
    have hgen : General (w.fresh (d + 1) m) a b := by
      refine general_fresh (x := fun k => X k ω) (not_not.1 hnot.2) fun q hq => ?_
      obtain ⟨k, -, rfl⟩ := List.mem_map.1 hq
      exact ⟨_, hdraw _⟩
    obtain ⟨pts, h1, h2, h3⟩ := clearPath_hops hγ (netRadius_le hδ.le tol) (radius_ge hδ.le h)
      (net_of_not_mem hF hδ.le hnot.1 hdraw hfresh (by rw [fresh_length]; exact hm))
    obtain ⟨pts', h4, -⟩ := sampleChain_of_general hdist hch hgen h1 h2 h3
    obtain ⟨len, pts'', h5, h6, -, -⟩ := C29_full hs r d [.grow m] hT a b
    refine ⟨len, pts'', h5, ?_⟩
    intro h0
    exact h6.1 h0 ⟨pts', h4⟩
  · have h0 : Pr.real {ω | ¬ ((∀ k i, X k ω i ≠ a i ∧ X k ω i ≠ b i) ∧ ∀ k l, k ≠ l → ∀ i, X k ω i ≠ X l ω i)} = 0 := by
      rw [Measure.real, hnull]
      rfl
    rw [h0, add_zero]
    exact C77_net hX hS hdim hvol hδ.le ht h (le_refl N) (d + 1)

/-- The same with the length of the answer. -/
theorem general_length {dim : ℕ} {X : ℕ → Ω → Space dim} {S F : Set (Space dim)} (hX : IidUniform Pr X S) (hS : MeasurableSet S)
    (hdim : 1 ≤ dim) {δ p vol t : ℝ} {fuel N : ℕ} {r : ℝ} (hvol : volume S ≤ ENNReal.ofReal vol) (hδ : 0 < δ)
    (ht : 0 ≤ t) (h : numericalBound δ p vol dim (some t) fuel = some (.ok (N, r))) (hF : F ⊆ S) (d : ℕ) (a b : Space dim) :
    Pr.real {ω | ¬ ∀ w : World (Space dim) ℝ, w.Sound → (∀ p q, w.dist p q = dist p q) → (∀ i, w.draw i = X i ω) →
      (∀ p q, (∀ i, p i ≠ q i) → segment ℝ p q ⊆ F → w.check p q = true) → ∀ m, N ≤ m → ∀ γ L, ClearPath F δ a b γ →
      LengthAtMost γ L → 0 ≤ L →
      ∃ (len : ℝ) (pts : List (Space dim)), (((Full.init r d).run w [.grow m]).query w a b).2 = .ok ((len : WithTop ℝ), pts) ∧
        pts ≠ [] ∧ len ≤ L + t * max L (2 * δ / Real.sqrt (1 + t ^ 2))} ≤ 1 - p := by
  have hnull := general_ae hX a b
  refine le_trans (measureReal_mono (fun ω hω => ?_) (measure_ne_top _ _) |>.trans (measureReal_union_le _ _)) (?_ :
    Pr.real {ω | ∃ c, Metric.ball c (netRadius δ (some t)) ⊆ S ∧ ∀ i < N, netRadius δ (some t) ≤ dist (X (d + 1 + i) ω) c} +
    Pr.real {ω | ¬ ((∀ k i, X k ω i ≠ a i ∧ X k ω i ≠ b i) ∧ ∀ k l, k ≠ l → ∀ i, X k ω i ≠ X l ω i)} ≤ 1 - p)
  · by_contra hnot
    rw [Set.mem_union, not_or] at hnot
    apply hω
    intro w hs hdist hdraw hch m hm γ L hγ hL hL0
    have hT : ((Full.init r d).run w [.grow m]).samples = some (w.fresh (d + 1) m) := rfl
    have hfresh : w.fresh (d + 1) m = w.fresh (d + 1) (w.fresh (d + 1) m).length := by rw [fresh_length]
    have hgen : General (w.fresh (d + 1) m) a b := by
      refine general_fresh (x := fun k => X k ω) (not_not.1 hnot.2) fun q hq => ?_
      obtain ⟨k, -, rfl⟩ := List.mem_map.1 hq
      exact ⟨_, hdraw _⟩
    obtain ⟨f1, f2, f3, f4⟩ := spacing_facts (t := t) hδ
    obtain ⟨pts, h1, h2, h3, hlen⟩ := clearPath_short_hops (r := r) hγ hL hL0 hδ f1 (by rw [f2, ← C06_radius_consistent h]) f3.le
      (net_of_not_mem hF hδ.le hnot.1 hdraw hfresh (by rw [fresh_length]; exact hm))
    rw [f4] at hlen
    obtain ⟨pts', h4, h4l, -⟩ := sampleChain_of_general hdist hch hgen h1 h2 h3
    obtain ⟨len, pts'', h5, h6, h7, h8⟩ := C29_full hs r d [.grow m] hT a b
    have hne : pts'' ≠ [] := fun h0 => h6.1 h0 ⟨pts', h4⟩
    have hle := h8 pts' h4
    have hd' : w.dist = dist := by
      funext p q
      exact hdist p q
    cases len with
    | top => exact absurd (h7.2 rfl) hne
    | coe len =>
      refine ⟨len, pts'', h5, hne, ?_⟩
      have := WithTop.coe_le_coe.1 hle
      rw [hd', h4l] at this
      exact this.trans hlen
  · have h0 : Pr.real {ω | ¬ ((∀ k i, X k ω i ≠ a i ∧ X k ω i ≠ b i) ∧ ∀ k l, k ≠ l → ∀ i, X k ω i ≠ X l ω i)} = 0 := by
      rw [Measure.real, hnull]
      rfl
    rw [h0, add_zero]
    exact C77_net hX hS hdim hvol hδ.le (tol := some t) ht h (le_refl N) (d + 1)

theorem clearPath_narrowOpen {c δ : ℝ} {a b : Space (n + 1)} {γ : ℝ → Space (n + 1)}
    (h : ClearPath (narrowSet n c) δ a b γ) : ClearPath (narrowOpen n c) δ a b γ :=
  ⟨h.continuous, h.start, h.goal, fun t ht => ball_narrowOpen (h.clear t ht)⟩

/-- C87. In the narrow-passage environment, for each query between two points joined by a path of clearance `δ` in the free space: with
probability at least `p`, the planner with the count and radius returned for `δ` answers with a nonempty path. -/
theorem C87_complete {c δ : ℝ} (hc : 0 < c) (hc2 : c < 1 / 2) {R : ℕ → Ω → Region} {U : ℕ → Ω → Fin (n + 1) → ℝ}
    (hU : ChoiceDraws Pr (narrowWeight n c) R U) (hδ : 0 < δ) {p : ℝ} {tol : Option ℝ} {fuel N : ℕ} {r : ℝ} (ht : TolNonneg tol)
    (h : numericalBound δ p (NarrowPassage.init n c).volume (n + 1) tol fuel = some (.ok (N, r))) (d : ℕ) {a b : Space (n + 1)}
    {γ : ℝ → Space (n + 1)} (hγ : ClearPath (narrowSet n c) δ a b γ) :
    Pr.real {ω | ¬ ∀ w : World (Space (n + 1)) ℝ,
      EnvWorld w (NarrowPassage.init n c).isMotionValid (fun i => (NarrowPassage.init n c).sample (R i ω) (U i ω)) → ∀ m, N ≤ m →
      ∃ len pts, (((Full.init r d).run w [.grow m]).query w a b).2 = .ok (len, pts) ∧ pts ≠ []} ≤ 1 - p := by
  refine le_trans (measureReal_mono (fun ω hω => ?_) (measure_ne_top _ _))
    (general_complete (F := narrowOpen n c) (C84_narrow hc.le hU) (narrow_measurable _) (by omega) (narrow_volume hc.le).le hδ ht h
      (fun x hx => hx.1) d a b)
  intro hall
  apply hω
  intro w hw m hm
  exact hall w hw.sound hw.dist hw.draw (narrow_check hc2 hw) m hm γ (clearPath_narrowOpen hγ)

/-- C87, length: with stretch factor `1 + ε`. -/
theorem C87_length {c δ : ℝ} (hc : 0 < c) (hc2 : c < 1 / 2) {R : ℕ → Ω → Region} {U : ℕ → Ω → Fin (n + 1) → ℝ}
    (hU : ChoiceDraws Pr (narrowWeight n c) R U) (hδ : 0 < δ) {p ε : ℝ} {fuel N : ℕ} {r : ℝ} (ht : 0 ≤ ε)
    (h : numericalBound δ p (NarrowPassage.init n c).volume (n + 1) (some ε) fuel = some (.ok (N, r))) (d : ℕ) {a b : Space (n + 1)}
    {γ : ℝ → Space (n + 1)} {L : ℝ} (hγ : ClearPath (narrowSet n c) δ a b γ) (hL : LengthAtMost γ L) (hL0 : 0 ≤ L) :
    Pr.real {ω | ¬ ∀ w : World (Space (n + 1)) ℝ,
      EnvWorld w (NarrowPassage.init n c).isMotionValid (fun i => (NarrowPassage.init n c).sample (R i ω) (U i ω)) → ∀ m, N ≤ m →
      ∃ (len : ℝ) (pts : List (Space (n + 1))), (((Full.init r d).run w [.grow m]).query w a b).2 = .ok ((len : WithTop ℝ), pts) ∧
        pts ≠ [] ∧ len ≤ L + ε * max L (2 * δ / Real.sqrt (1 + ε ^ 2))} ≤ 1 - p := by
  refine le_trans (measureReal_mono (fun ω hω => ?_) (measure_ne_top _ _))
    (general_length (F := narrowOpen n c) (C84_narrow hc.le hU) (narrow_measurable _) (by omega) (narrow_volume hc.le).le hδ ht h
      (fun x hx => hx.1) d a b)
  intro hall
  apply hω
  intro w hw m hm
  exact hall w hw.sound hw.dist hw.draw (narrow_check hc2 hw) m hm γ L (clearPath_narrowOpen hγ) hL hL0

/-! ### The experiment's query -/

theorem between {u v a b lo hi : ℝ} (hu : 0 ≤ u) (hv : 0 ≤ v) (huv : u + v = 1) (ha : lo ≤ a ∧ a ≤ hi) (hb : lo ≤ b ∧ b ≤ hi) :
    lo ≤ u * a + v * b ∧ u * a + v * b ≤ hi := by
  have hu' : u = 1 - v := by linarith
  subst hu'
  constructor
  · have := mul_nonneg hu (sub_nonneg.2 ha.1)
    have := mul_nonneg hv (sub_nonneg.2 hb.1)
    linarith
  · have := mul_nonneg hu (sub_nonneg.2 ha.2)
    have := mul_nonneg hv (sub_nonneg.2 hb.2)
    linarith

/-- The rooms, without a rim of width `c`. -/
theorem left_clear {c : ℝ} {x : Space (n + 1)} (h0 : -3 / 2 + c ≤ x 0 ∧ x 0 ≤ -1 / 2 - c)
    (hi : ∀ i : Fin n, -(1 / 2 - c) ≤ x i.succ ∧ x i.succ ≤ 1 / 2 - c) : Metric.ball x c ⊆ narrowSet n c := by
  intro y hy
  have hb := coord_lt (Metric.mem_ball.1 hy)
  have b0 := abs_lt.1 (hb 0)
  refine Or.inl ⟨by linarith [h0.1, b0.1], by linarith [h0.2, b0.2], fun i => ?_⟩
  have bi := abs_lt.1 (hb i.succ)
  exact ⟨by linarith [(hi i).1, bi.1], by linarith [(hi i).2, bi.2]⟩

theorem right_clear {c : ℝ} {x : Space (n + 1)} (h0 : 1 / 2 + c ≤ x 0 ∧ x 0 ≤ 3 / 2 - c)
    (hi : ∀ i : Fin n, -(1 / 2 - c) ≤ x i.succ ∧ x i.succ ≤ 1 / 2 - c) : Metric.ball x c ⊆ narrowSet n c := by
  intro y hy
  have hb := coord_lt (Metric.mem_ball.1 hy)
  have b0 := abs_lt.1 (hb 0)
  refine Or.inr (Or.inr ⟨by linarith [h0.1, b0.1], by linarith [h0.2, b0.2], fun i => ?_⟩)
  have bi := abs_lt.1 (hb i.succ)
  exact ⟨by linarith [(hi i).1, bi.1], by linarith [(hi i).2, bi.2]⟩

/-- The axis of the passage. -/
theorem hall_clear {c : ℝ} (hc2 : c < 1 / 2) {x : Space (n + 1)} (h0 : -(1 / 2 + c) ≤ x 0 ∧ x 0 ≤ 1 / 2 + c)
    (hi : ∀ i : Fin n, x i.succ = 0) : Metric.ball x c ⊆ narrowSet n c := by
  intro y hy
  have hb := coord_lt (Metric.mem_ball.1 hy)
  have b0 := abs_lt.1 (hb 0)
  have bi : ∀ i : Fin n, -c ≤ y i.succ ∧ y i.succ ≤ c := by
    intro i
    have := hb i.succ
    rw [hi i, sub_zero, abs_lt] at this
    exact ⟨this.1.le, this.2.le⟩
  rcases le_total (y 0) (-1 / 2) with h | h
  · exact Or.inl ⟨by linarith [h0.1, b0.1], h, fun i => ⟨by linarith [(bi i).1], by linarith [(bi i).2]⟩⟩
  · rcases le_total (y 0) (1 / 2) with h' | h'
    · exact Or.inr (Or.inl ⟨h, h', bi⟩)
    · exact Or.inr (Or.inr ⟨h', by linarith [h0.2, b0.2], fun i => ⟨by linarith [(bi i).1], by linarith [(bi i).2]⟩⟩)

/-- The length of the polygonal line start - mouth - mouth - goal. -/
noncomputable def narrowLength (n : ℕ) (c : ℝ) : ℝ := 1 + 2 * c + 2 * ((1 - 2 * c) * Real.sqrt (1 + n / 4))

/-- The query of the experiment has a path of the environment's clearance, through the middle of the passage. -/
theorem narrow_path {c : ℝ} (hc : 0 < c) (hc2 : c < 1 / 2) :
    ∃ γ, ClearPath (narrowSet n c) c (WithLp.toLp 2 (narrowStart n c)) (WithLp.toLp 2 (narrowGoal n c)) γ ∧
      LengthAtMost γ (narrowLength n c) := by
  let A : Space (n + 1) := WithLp.toLp 2 (narrowStart n c)
  let B : Space (n + 1) := WithLp.toLp 2 (headRest (-1 / 2 - c) 0)
  let C : Space (n + 1) := WithLp.toLp 2 (headRest (1 / 2 + c) 0)
  let D : Space (n + 1) := WithLp.toLp 2 (narrowGoal n c)
  have A0 : A 0 = -3 / 2 + c := by
    show -1 - (1 * (1 / 2) - c) = _
    ring
  have Ai : ∀ i : Fin n, A i.succ = -(1 / 2 - c) := fun i => by
    show 0 - (1 * (1 / 2) - c) = _
    ring
  have B0 : B 0 = -1 / 2 - c := rfl
  have Bi : ∀ i : Fin n, B i.succ = 0 := fun i => rfl
  have C0 : C 0 = 1 / 2 + c := rfl
  have Ci : ∀ i : Fin n, C i.succ = 0 := fun i => rfl
  have D0 : D 0 = 3 / 2 - c := by
    show 1 + (1 * (1 / 2) - c) = _
    ring
  have Di : ∀ i : Fin n, D i.succ = 1 / 2 - c := fun i => by
    show 0 + (1 * (1 / 2) - c) = _
    ring
  have hAB : dist A B = (1 - 2 * c) * Real.sqrt (1 + n / 4) := by
    rw [EuclideanSpace.dist_eq, Fin.sum_univ_succ, A0, B0]
    simp only [Ai, Bi, Real.dist_eq, sq_abs, Finset.sum_const, Finset.card_univ, Fintype.card_fin, nsmul_eq_mul]
    have : (-3 / 2 + c - (-1 / 2 - c)) ^ 2 + (n : ℝ) * (-(1 / 2 - c) - 0) ^ 2 = (1 - 2 * c) ^ 2 * (1 + n / 4) := by ring
    rw [this, Real.sqrt_mul (sq_nonneg _), Real.sqrt_sq (by linarith)]
  have hCD : dist C D = (1 - 2 * c) * Real.sqrt (1 + n / 4) := by
    rw [EuclideanSpace.dist_eq, Fin.sum_univ_succ, C0, D0]
    simp only [Ci, Di, Real.dist_eq, sq_abs, Finset.sum_const, Finset.card_univ, Fintype.card_fin, nsmul_eq_mul]
    have : (1 / 2 + c - (3 / 2 - c)) ^ 2 + (n : ℝ) * (0 - (1 / 2 - c)) ^ 2 = (1 - 2 * c) ^ 2 * (1 + n / 4) := by ring
    rw [this, Real.sqrt_mul (sq_nonneg _), Real.sqrt_sq (by linarith)]
  have hBC : dist B C = 1 + 2 * c := by
    rw [EuclideanSpace.dist_eq, Fin.sum_univ_succ, B0, C0]
    simp only [Ci, Bi, Real.dist_eq, sq_abs, sub_self, ne_eq, OfNat.ofNat_ne_zero, not_false_eq_true, zero_pow, Finset.sum_const_zero,
      add_zero]
    have : (-1 / 2 - c - (1 / 2 + c)) ^ 2 = (1 + 2 * c) ^ 2 := by ring
    rw [this, Real.sqrt_sq (by linarith)]
  have pAB := straight_path (F := narrowSet n c) (δ := c) (a := A) (b := B) (by
    rintro x ⟨u, v, hu, hv, huv, rfl⟩
    have e0 : (u • A + v • B) 0 = u * A 0 + v * B 0 := rfl
    have ei : ∀ i : Fin n, (u • A + v • B) i.succ = u * A i.succ + v * B i.succ := fun _ => rfl
    apply left_clear
    · rw [e0]
      refine between hu hv huv ?_ ?_
      · rw [A0]; exact ⟨le_refl _, by linarith⟩
      · rw [B0]; exact ⟨by linarith, le_refl _⟩
    · intro i
      rw [ei]
      refine between hu hv huv ?_ ?_
      · rw [Ai]; exact ⟨le_refl _, by linarith⟩
      · rw [Bi]; exact ⟨by linarith, by linarith⟩)
  have pCD := straight_path (F := narrowSet n c) (δ := c) (a := C) (b := D) (by
    rintro x ⟨u, v, hu, hv, huv, rfl⟩
    have e0 : (u • C + v • D) 0 = u * C 0 + v * D 0 := rfl
    have ei : ∀ i : Fin n, (u • C + v • D) i.succ = u * C i.succ + v * D i.succ := fun _ => rfl
    apply right_clear
    · rw [e0]
      refine between hu hv huv ?_ ?_
      · rw [C0]; exact ⟨le_refl _, by linarith⟩
      · rw [D0]; exact ⟨by linarith, le_refl _⟩
    · intro i
      rw [ei]
      refine between hu hv huv ?_ ?_
      · rw [Ci]; exact ⟨by linarith, by linarith⟩
      · rw [Di]; exact ⟨by linarith, le_refl _⟩)
  have pBC := straight_path (F := narrowSet n c) (δ := c) (a := B) (b := C) (by
    rintro x ⟨u, v, hu, hv, huv, rfl⟩
    have e0 : (u • B + v • C) 0 = u * B 0 + v * C 0 := rfl
    have ei : ∀ i : Fin n, (u • B + v • C) i.succ = u * B i.succ + v * C i.succ := fun _ => rfl
    apply hall_clear hc2
    · rw [e0]
      refine between hu hv huv ?_ ?_
      · rw [B0]; exact ⟨by linarith, by linarith⟩
      · rw [C0]; exact ⟨by linarith, le_refl _⟩
    · intro i
      rw [ei, Bi, Ci]
      ring)
  obtain ⟨q1, q2⟩ := Net.ClearPath.concat pAB.1 pBC.1 pAB.2 pBC.2 dist_nonneg dist_nonneg
  obtain ⟨q3, q4⟩ := Net.ClearPath.concat q1 pCD.1 q2 pCD.2 (add_nonneg dist_nonneg dist_nonneg) dist_nonneg
  refine ⟨_, q3, ?_⟩
  have : narrowLength n c = dist A B + dist B C + dist C D := by
    rw [hAB, hBC, hCD]
    unfold narrowLength
    ring
  rw [this]
  exact q4

/-- C87, the experiment: with the count and radius returned for the environment's clearance and volume, the experiment's query is
answered with probability at least `p`. -/
theorem C87_experiment {c : ℝ} (hc : 0 < c) (hc2 : c < 1 / 2) {R : ℕ → Ω → Region} {U : ℕ → Ω → Fin (n + 1) → ℝ}
    (hU : ChoiceDraws Pr (narrowWeight n c) R U) {p : ℝ} {tol : Option ℝ} {fuel N : ℕ} {r : ℝ} (ht : TolNonneg tol)
    (h : numericalBound c p (NarrowPassage.init n c).volume (n + 1) tol fuel = some (.ok (N, r))) (d : ℕ) :
    Pr.real {ω | ¬ ∀ w : World (Space (n + 1)) ℝ,
      EnvWorld w (NarrowPassage.init n c).isMotionValid (fun i => (NarrowPassage.init n c).sample (R i ω) (U i ω)) → ∀ m, N ≤ m →
      ∃ len pts, (((Full.init r d).run w [.grow m]).query w (WithLp.toLp 2 (narrowStart n c)) (WithLp.toLp 2 (narrowGoal n c))).2 =
        .ok (len, pts) ∧ pts ≠ []} ≤ 1 - p := by
  obtain ⟨γ, hγ, -⟩ := narrow_path (n := n) hc hc2
  exact C87_complete hc hc2 hU hc ht h d hγ

/-- C87, the experiment, length. -/
theorem C87_experiment_length {c : ℝ} (hc : 0 < c) (hc2 : c < 1 / 2) {R : ℕ → Ω → Region} {U : ℕ → Ω → Fin (n + 1) → ℝ}
    (hU : ChoiceDraws Pr (narrowWeight n c) R U) {p ε : ℝ} {fuel N : ℕ} {r : ℝ} (ht : 0 ≤ ε)
    (h : numericalBound c p (NarrowPassage.init n c).volume (n + 1) (some ε) fuel = some (.ok (N, r))) (d : ℕ) :
    Pr.real {ω | ¬ ∀ w : World (Space (n + 1)) ℝ,
      EnvWorld w (NarrowPassage.init n c).isMotionValid (fun i => (NarrowPassage.init n c).sample (R i ω) (U i ω)) → ∀ m, N ≤ m →
      ∃ (len : ℝ) (pts : List (Space (n + 1))),
        (((Full.init r d).run w [.grow m]).query w (WithLp.toLp 2 (narrowStart n c)) (WithLp.toLp 2 (narrowGoal n c))).2 =
          .ok ((len : WithTop ℝ), pts) ∧ pts ≠ [] ∧ len ≤ (1 + ε) * narrowLength n c} ≤ 1 - p := by
  obtain ⟨γ, hγ, hL⟩ := narrow_path (n := n) hc hc2
  have hs : (1 : ℝ) ≤ Real.sqrt (1 + ε ^ 2) := by
    rw [Real.one_le_sqrt]
    nlinarith [sq_nonneg ε]
  have hlong : 2 * c / Real.sqrt (1 + ε ^ 2) ≤ narrowLength n c := by
    have h1 : 2 * c / Real.sqrt (1 + ε ^ 2) ≤ 2 * c := div_le_self (by linarith) hs
    have h2 : 0 ≤ (1 - 2 * c) * Real.sqrt (1 + n / 4) := mul_nonneg (by linarith) (Real.sqrt_nonneg _)
    unfold narrowLength
    linarith
  have hL0 : 0 ≤ narrowLength n c := le_trans (by positivity) hlong
  refine le_trans (measureReal_mono (fun ω hω => ?_) (measure_ne_top _ _)) (C87_length hc hc2 hU hc ht h d hγ hL hL0)
  intro hall
  apply hω
  intro w hw m hm
  obtain ⟨len, pts, h1, h2, h3⟩ := hall w hw m hm
  refine ⟨len, pts, h1, h2, h3.trans ?_⟩
  rw [max_eq_left hlong]
  linarith

/-! ### The hypotheses are met -/

/-- A planner with exact neighbours and a reference shortest-path search. -/
noncomputable def envWorld {dim : ℕ} (valid : (Fin dim → ℝ) → (Fin dim → ℝ) → Bool) (x : ℕ → Fin dim → ℝ) : World (Space dim) ℝ where
  check p q := valid (fun i => p i) fun i => q i
  draw i := WithLp.toLp 2 (x i)
  dist := dist
  knn := exactKnn dist
  knnUpdate S new k := exactKnn dist (S ++ new) k
  shortest := refShortest
  visits E _ := E

theorem envWorld_ok {dim : ℕ} (valid : (Fin dim → ℝ) → (Fin dim → ℝ) → Bool) (x : ℕ → Fin dim → ℝ) :
    EnvWorld (envWorld valid x) valid x where
  sound :=
    { dist_symm := dist_comm
      dist_nonneg := fun _ _ => dist_nonneg
      dijkstra := refShortest_correct
      knn_true := fun S k => exactKnn_true (envWorld valid x) S k
      knnUpdate_true := fun S new k => exactKnn_true (envWorld valid x) (S ++ new) k }
  dist := fun _ _ => rfl
  draw := fun _ => rfl
  check := fun _ _ => rfl

theorem envWorld_knn {dim : ℕ} (valid : (Fin dim → ℝ) → (Fin dim → ℝ) → Bool) (x : ℕ → Fin dim → ℝ) : KnnWorld (envWorld valid x) where
  exact := fun S k => exactKnn_table (envWorld valid x) S k
  sorted := by
    intro S k row hrow
    obtain ⟨a, -, rfl⟩ := List.mem_map.1 hrow
    exact (List.pairwise_insertionSort (fun x y : ℕ × ℝ => x.2 ≤ y.2) _).sublist (List.take_sublist _ _)
  visits := fun _ _ e he => ⟨e, he, by simp [Edge.joins], rfl⟩

theorem answers_planar {δ vol : ℝ} {tol : Option ℝ} (hδ : 0 ≤ δ) (ht : TolNonneg tol) (h : 1 / 32 ≤ netMeasure δ tol 2 vol) :
    ∃ fuel N r, numericalBound δ (1 / 2) vol 2 tol fuel = some (.ok (N, r)) := by
  refine C03_answers_partial (by norm_num) hδ ht (by norm_num) (by norm_num) ⟨3200, by norm_num, by norm_num, ?_⟩
  have h1 : failureBound 3200 (netMeasure δ tol 2 vol) (2 + 1) ≤ failureBound 3200 (1 / 32) (2 + 1) := by
    unfold failureBound
    gcongr
    norm_num
  refine h1.trans ?_
  unfold failureBound
  have : -((1 / 32 : ℝ) * ((3200 : ℕ) : ℝ)) / 2 = -((50 : ℕ) : ℝ) := by norm_num
  rw [this, Real.rpow_neg (by norm_num), Real.rpow_natCast]
  have h2 : Nat.choose 6400 2 = 20476800 := by
    rw [Nat.choose_eq_descFactorial_div_factorial]
    norm_num [Nat.descFactorial, Nat.factorial]
  have h3 : Nat.choose 6400 3 = 43670188800 := by
    rw [Nat.choose_eq_descFactorial_div_factorial]
    norm_num [Nat.descFactorial, Nat.factorial]
  norm_num [Finset.sum_range_succ, h2, h3]

theorem netMeasure_planar {δ vol : ℝ} (hδ : 0 ≤ δ) (tol : Option ℝ) (ht : TolNonneg tol) :
    netMeasure δ tol 2 vol = Real.pi * netRadius δ tol ^ 2 / vol := by
  unfold netMeasure
  have h0 := netRadius_nonneg hδ ht
  have := volume_disc _ h0
  unfold Space at this
  rw [this, ENNReal.toReal_ofReal (by have := Real.pi_pos; positivity)]

theorem netRadius_one (δ : ℝ) : netRadius δ (some 1) ^ 2 = δ ^ 2 / 2 := by
  simp only [netRadius]
  rw [mul_pow, div_pow, Real.sq_sqrt (by norm_num)]
  norm_num
  ring

/-- The hypotheses of C86 are met by the planar corridor of clearance 1 and length 2, success probability 1/2, with and without a
stretch factor. -/
theorem C86_nonvacuous : ∃ e : StraightLine ℝ 1, StraightLine.init 1 1 2 = .ok e ∧
    (∃ fuel N r, numericalBound 1 (1 / 2) e.volume 2 none fuel = some (.ok (N, r))) ∧
    (∃ fuel N r, numericalBound 1 (1 / 2) e.volume 2 (some 1) fuel = some (.ok (N, r))) ∧
    ∃ Pr : Measure (ℕ → Fin 2 → ℝ), IsProbabilityMeasure Pr ∧ UnitDraws Pr (fun i x => x i) ∧
      ∀ x : ℕ → Fin 2 → ℝ, EnvWorld (envWorld e.isMotionValid fun i => e.sample (x i)) e.isMotionValid fun i => e.sample (x i) := by
  obtain ⟨e, he⟩ := (C15_init (n := 1) (1 : ℝ) 2).1.1 (by norm_num)
  have hvol : e.volume = 8 := by
    rw [(C15_volume (by norm_num) he).2]
    norm_num
  have hpi := Real.pi_gt_three
  refine ⟨e, he, answers_planar (by norm_num) trivial ?_, answers_planar (by norm_num) (by norm_num [TolNonneg]) ?_, ?_⟩
  · rw [netMeasure_planar (by norm_num) none trivial, hvol]
    simp only [netRadius]
    linarith
  · rw [netMeasure_planar (by norm_num) (some 1) (by norm_num [TolNonneg]), hvol, netRadius_one]
    linarith
  · obtain ⟨Pr, h1, h2⟩ := exists_unitDraws 2
    exact ⟨Pr, h1, h2, fun x => envWorld_ok _ _⟩

/-- The hypotheses of C87 are met by the planar narrow passage of clearance 1/4, success probability 1/2, with and without a stretch
factor, and by the query of the experiment. -/
theorem C87_nonvacuous :
    (∃ fuel N r, numericalBound (1 / 4) (1 / 2) (NarrowPassage.init 1 (1 / 4 : ℝ)).volume 2 none fuel = some (.ok (N, r))) ∧
    (∃ fuel N r, numericalBound (1 / 4) (1 / 2) (NarrowPassage.init 1 (1 / 4 : ℝ)).volume 2 (some 1) fuel = some (.ok (N, r))) ∧
    (∃ Pr : Measure (ℕ → Region × (Fin 2 → ℝ)), IsProbabilityMeasure Pr ∧
      ChoiceDraws Pr (narrowWeight 1 (1 / 4)) (fun i x => (x i).1) (fun i x => (x i).2)) ∧
    (∀ x, EnvWorld (envWorld (NarrowPassage.init 1 (1 / 4 : ℝ)).isMotionValid x) (NarrowPassage.init 1 (1 / 4 : ℝ)).isMotionValid x) ∧
    ∃ γ, ClearPath (narrowSet 1 (1 / 4)) (1 / 4) (WithLp.toLp 2 (narrowStart 1 (1 / 4))) (WithLp.toLp 2 (narrowGoal 1 (1 / 4))) γ := by
  have hvol : (NarrowPassage.init 1 (1 / 4 : ℝ)).volume = 5 / 2 := by
    obtain ⟨b1, b2, b3⟩ := narrow_boxVol (n := 1) (1 / 4 : ℝ)
    have : (NarrowPassage.init 1 (1 / 4 : ℝ)).volume = 1 + 1 + |2 * (1 / 4 : ℝ)| ^ 1 := congrArg₂ (· + ·) (congrArg₂ (· + ·) b1 b2) b3
    rw [this, abs_of_nonneg (by norm_num)]
    norm_num
  have hpi := Real.pi_gt_three
  refine ⟨answers_planar (by norm_num) trivial ?_, answers_planar (by norm_num) (by norm_num [TolNonneg]) ?_,
    (C84_nonvacuous (n := 1)).2.2.1 (1 / 4), fun x => envWorld_ok _ _, ?_⟩
  · rw [netMeasure_planar (by norm_num) none trivial, hvol]
    simp only [netRadius]
    linarith
  · rw [netMeasure_planar (by norm_num) (some 1) (by norm_num [TolNonneg]), hvol, netRadius_one]
    linarith
  · obtain ⟨γ, h, -⟩ := narrow_path (n := 1) (c := 1 / 4) (by norm_num) (by norm_num)
    exact ⟨γ, h⟩

end Verif.Props
