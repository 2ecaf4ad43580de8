import Verif.Lemmas.KnnFew
import Verif.Props.ExperimentGuarantee
import Verif.Props.KnnGuarantee
import Verif.Props.NarrowTrialKnn

/-! The k-NN planner in the two environments, C120, and in the narrow-passage experiment, C119. -/

namespace Verif.Props

open MeasureTheory ProbabilityTheory Verif.Prm Verif.Exps Verif.Envs Verif.Spec Verif.Bound Verif.Net

variable {n : ℕ} {Ω : Type*} [MeasurableSpace Ω] {Pr : Measure Ω} [IsProbabilityMeasure Pr]

/-- The first growth of a k-NN planner with full neighbour tables succeeds. -/
theorem first_grow {dim : ℕ} {w : World (Space dim) ℝ} (hw : w.Sound) (hkw : KnnWorld w) {k m d : ℕ} (tr : Bool) (hk : 1 ≤ k) (hm : 2 ≤ m) :
    ((Knn.init k tr d).grow w m).2 = .ok () := by
  have hlen : (w.fresh (d + 1) m).length = m := fresh_length w (d + 1) m
  have hx := hkw.exact (w.fresh (d + 1) m) (min (m - 1) k)
  obtain ⟨y, hy⟩ : ∃ y, Knn.certify (w.knn (w.fresh (d + 1) m) (min (m - 1) k)) = .ok y := by
    apply certify_rows_ok
    · intro h0
      have := (hw.knn_true (w.fresh (d + 1) m) (min (m - 1) k)).1
      rw [h0, hlen] at this
      simp at this
      omega
    · intro row hrow h0
      obtain ⟨i, hi⟩ := List.mem_iff_getElem?.1 hrow
      have := hx.full i row hi
      rw [h0, hlen] at this
      simp at this
      omega
  have hgrow : (Knn.init k tr d).grow w m = Knn.rebuild w { Knn.init k tr d with drawn := d + 1 + m } (w.fresh (d + 1) m) := rfl
  rw [hgrow]
  unfold Knn.rebuild
  simp only [hlen, Knn.init]
  rw [tableGraph_ok (hw.knn_true _ _)]
  simp only
  rw [hy]
  cases tr <;> simp [Knn.setRadius, Knn.mustReload]

/-- C120. In the straight-line environment the k-NN planner with exact neighbours, grown to `m` samples, at least the returned count,
answers every query between two points of the line with a nonempty path, up to the sum of the two failure probabilities. -/
theorem C120_line {delta length : ℝ} (hd : 0 < delta) (hl : 0 ≤ length) {e : StraightLine ℝ n}
    (he : StraightLine.init n delta length = .ok e) {U : ℕ → Ω → Fin (n + 1) → ℝ} (hU : UnitDraws Pr U) {p : ℝ} {tol : Option ℝ}
    {fuel N : ℕ} {r : ℝ} (ht : TolNonneg tol) (h : numericalBound delta p e.volume (n + 1) tol fuel = some (.ok (N, r)))
    {m k : ℕ} (hm : 2 ≤ m) (hN : N ≤ m) (hk1 : 1 ≤ k) (hk : k + 1 ≤ m) (tr : Bool) (d : ℕ) :
    Pr {ω | ¬ ∀ w : World (Space (n + 1)) ℝ, EnvWorld w e.isMotionValid (fun i => e.sample (U i ω)) → KnnWorld w → ∀ s t : ℝ,
      ∃ len pts, (((Knn.init k tr d).run w [.grow m]).query w (WithLp.toLp 2 (e.curvePoint s)) (WithLp.toLp 2 (e.curvePoint t))).2 =
        .ok (len, pts) ∧ pts ≠ []} ≤ ENNReal.ofReal (1 - p) + EReal.exp (tailKL m k r (n + 1) e.volume) := by
  have hvol := corridor_volume hl he
  have hv : 0 < e.volume := by
    rw [(C15_volume hl he).2]
    positivity
  refine le_trans (measure_mono fun ω hω => ?_)
    (C83_complete (C84_straight hd hl he hU) (corridor_measurable _ _) (by omega) hvol.le hv hvol.ge hd ht h (le_refl _) hm hN hk tr d)
  intro hall
  apply hω
  intro w hw hkw s t
  obtain ⟨γ, hγ, -⟩ := line_clear hl he s t
  exact hall w [] [] _ _ γ (corridor_world he hw) hkw (by simp) (first_grow hw.sound hkw tr hk1 hm) (by simp) hγ

/-- C120, straight line, length. -/
theorem C120_line_length {delta length : ℝ} (hd : 0 < delta) (hl : 0 ≤ length) {e : StraightLine ℝ n}
    (he : StraightLine.init n delta length = .ok e) {U : ℕ → Ω → Fin (n + 1) → ℝ} (hU : UnitDraws Pr U) {p ε : ℝ}
    {fuel N : ℕ} {r : ℝ} (ht : 0 ≤ ε) (h : numericalBound delta p e.volume (n + 1) (some ε) fuel = some (.ok (N, r)))
    {m k : ℕ} (hm : 2 ≤ m) (hN : N ≤ m) (hk1 : 1 ≤ k) (hk : k + 1 ≤ m) (tr : Bool) (d : ℕ) :
    Pr {ω | ¬ ∀ w : World (Space (n + 1)) ℝ, EnvWorld w e.isMotionValid (fun i => e.sample (U i ω)) → KnnWorld w → ∀ s t : ℝ,
      ∃ (len : ℝ) (pts : List (Space (n + 1))),
        (((Knn.init k tr d).run w [.grow m]).query w (WithLp.toLp 2 (e.curvePoint s)) (WithLp.toLp 2 (e.curvePoint t))).2 =
        .ok ((len : WithTop ℝ), pts) ∧ pts ≠ [] ∧ len ≤ |clip s 0 1 - clip t 0 1| * length +
          ε * max (|clip s 0 1 - clip t 0 1| * length) (2 * delta / Real.sqrt (1 + ε ^ 2))} ≤
      ENNReal.ofReal (1 - p) + EReal.exp (tailKL m k r (n + 1) e.volume) := by
  have hvol := corridor_volume hl he
  have hv : 0 < e.volume := by
    rw [(C15_volume hl he).2]
    positivity
  refine le_trans (measure_mono fun ω hω => ?_)
    (C83_length (C84_straight hd hl he hU) (corridor_measurable _ _) (by omega) hvol.le hv hvol.ge hd ht h (le_refl _) hm hN hk tr d)
  intro hall
  apply hω
  intro w hw hkw s t
  obtain ⟨γ, hγ, hL⟩ := line_clear hl he s t
  exact hall w [] [] _ _ γ _ (corridor_world he hw) hkw (by simp) (first_grow hw.sound hkw tr hk1 hm) (by simp) hγ hL
    (mul_nonneg (abs_nonneg _) hl)

/-! ### Narrow passage -/

/-- Up to the two failure probabilities there is a chain of samples with strict hops, and no sample has `k` others closer than `r`. -/
theorem general_few {dim : ℕ} {X : ℕ → Ω → Space dim} {S F : Set (Space dim)} (hX : IidUniform Pr X S) (hS : MeasurableSet S)
    (hdim : 1 ≤ dim) {δ p vol₁ vol₂ : ℝ} {tol : Option ℝ} {fuel N : ℕ} {r : ℝ} (hvol₁ : volume S ≤ ENNReal.ofReal vol₁)
    (hv : 0 < vol₂) (hvol₂ : ENNReal.ofReal vol₂ ≤ volume S) (hδ : 0 < δ) (ht : TolNonneg tol)
    (h : numericalBound δ p vol₁ dim tol fuel = some (.ok (N, r))) (hF : F ⊆ S) {m k : ℕ} (hm : 2 ≤ m) (hN : N ≤ m) (d : ℕ)
    (a b : Space dim) :
    Pr {ω | ¬ ((∀ w : World (Space dim) ℝ, (∀ p q, w.dist p q = dist p q) → (∀ i, w.draw i = X i ω) →
      (∀ p q, (∀ i, p i ≠ q i) → segment ℝ p q ⊆ F → w.check p q = true) → ∀ γ L, ClearPath F δ a b γ → LengthAtMost γ L → 0 ≤ L →
      ∃ pts, w.SampleChain (w.fresh (d + 1) m) r a b pts ∧ (pts.IsChain fun p q => w.dist p q < r) ∧
        ∀ t, tol = some t → pathLength dist (a :: pts ++ [b]) ≤ L + t * max L (2 * δ / Real.sqrt (1 + t ^ 2))) ∧
      ¬ ∃ i < m, k ≤ neighbours X (d + 1) m r ω i)} ≤
      ENNReal.ofReal (1 - p) + EReal.exp (tailKL m k r dim vol₂) := by
  have hr0 : 0 ≤ r := le_trans (mul_nonneg zero_le_two (netRadius_nonneg hδ.le ht)) (radius_ge hδ.le h)
  have hnet := C77_net hX hS hdim hvol₁ hδ.le ht h hN (d + 1)
  have hp0 : 0 ≤ 1 - p := measureReal_nonneg.trans hnet
  have hnull := general_ae hX a b
  have h4 := (measure_union_le _ _).trans
    (add_le_add (to_ennreal hp0 hnet) (C80_chernoff_kl hX hS hdim hv hvol₂ hm hr0 (Nat.cast_nonneg k) (d + 1)))
  refine le_trans (measure_mono fun ω hω => ?_) ((measure_union_le _ _).trans ((add_le_add h4 hnull.le).trans (add_zero _).le))
  by_contra hnot
  rw [Set.mem_union, not_or, Set.mem_union, not_or] at hnot
  obtain ⟨⟨hn1, hn2⟩, hn3⟩ := hnot
  apply hω
  refine ⟨?_, ?_⟩
  · intro w hdist hdraw hch γ L hγ hL hL0
    have hgen : General (w.fresh (d + 1) m) a b := by
      refine general_fresh (x := fun k => X k ω) (not_not.1 hn3) fun q hq => ?_
      obtain ⟨k, -, rfl⟩ := List.mem_map.1 hq
      exact ⟨_, hdraw _⟩
    have hnetw := net_of_not_mem hF hδ.le hn1 hdraw (show w.fresh (d + 1) m = w.fresh (d + 1) (w.fresh (d + 1) m).length by rw [fresh_length])
      (by rw [fresh_length])
    cases tol with
    | none =>
      obtain ⟨pts, h1, h2, h3⟩ := clearPath_hops hγ (netRadius_le hδ.le none) (radius_ge hδ.le h) hnetw
      obtain ⟨pts', h4, -, h5⟩ := sampleChain_of_general hdist hch hgen h1 h2 h3
      exact ⟨pts', h4, h5, fun t ht => by cases ht⟩
    | some t =>
      obtain ⟨f1, f2, f3, f4⟩ := spacing_facts (t := t) hδ
      obtain ⟨pts, h1, h2, h3, hlen⟩ := clearPath_short_hops (r := r) hγ hL hL0 hδ f1 (by rw [f2, ← C06_radius_consistent h]) f3.le hnetw
      rw [f4] at hlen
      obtain ⟨pts', h4, h4l, h5⟩ := sampleChain_of_general hdist hch hgen h1 h2 h3
      refine ⟨pts', h4, h5, fun t' ht' => ?_⟩
      cases ht'
      rw [h4l]
      exact hlen
  · rintro ⟨i, hi, hki⟩
    exact hn2 ⟨i, hi, by exact_mod_cast hki⟩

/-- A planner with an environment's checker and sampler, without using the checker. -/
theorem envWorld_euclidean {dim : ℕ} {w : World (Space dim) ℝ} {valid : (Fin dim → ℝ) → (Fin dim → ℝ) → Bool} {x : ℕ → Fin dim → ℝ}
    (hw : EnvWorld w valid x) : EuclideanWorld w ∅ fun i => WithLp.toLp 2 (x i) :=
  ⟨hw.sound, hw.dist, hw.draw, fun p _ h => absurd (h (left_mem_segment ℝ p _)) (Set.notMem_empty p)⟩

theorem narrow_volume_pos {c : ℝ} (hc : 0 < c) : 0 < (NarrowPassage.init n c).volume := by
  obtain ⟨b1, b2, b3⟩ := narrow_boxVol (n := n) c
  have : (NarrowPassage.init n c).volume = 1 + 1 + |2 * c| ^ n := congrArg₂ (· + ·) (congrArg₂ (· + ·) b1 b2) b3
  rw [this]
  positivity

/-- C120. In the narrow-passage environment, for each query between two points joined by a path of clearance `δ`: the k-NN planner with
exact neighbours, grown to `m` samples, at least the returned count, answers it with a nonempty path, up to the sum of the two failure
probabilities. -/
theorem C120_narrow {c δ : ℝ} (hc : 0 < c) (hc2 : c < 1 / 2) {R : ℕ → Ω → Region} {U : ℕ → Ω → Fin (n + 1) → ℝ}
    (hU : ChoiceDraws Pr (narrowWeight n c) R U) (hδ : 0 < δ) {p : ℝ} {tol : Option ℝ} {fuel N : ℕ} {r : ℝ} (ht : TolNonneg tol)
    (h : numericalBound δ p (NarrowPassage.init n c).volume (n + 1) tol fuel = some (.ok (N, r)))
    {m k : ℕ} (hm : 2 ≤ m) (hN : N ≤ m) (hk1 : 1 ≤ k) (hk : k + 1 ≤ m) (tr : Bool) (d : ℕ) {a b : Space (n + 1)}
    {γ : ℝ → Space (n + 1)} {L : ℝ} (hγ : ClearPath (narrowSet n c) δ a b γ) (hL : LengthAtMost γ L) (hL0 : 0 ≤ L) :
    Pr {ω | ¬ ∀ w : World (Space (n + 1)) ℝ,
      EnvWorld w (NarrowPassage.init n c).isMotionValid (fun i => (NarrowPassage.init n c).sample (R i ω) (U i ω)) → KnnWorld w →
      ∃ (len : ℝ) (pts : List (Space (n + 1))), (((Knn.init k tr d).run w [.grow m]).query w a b).2 = .ok ((len : WithTop ℝ), pts) ∧
        pts ≠ [] ∧ ∀ ε, tol = some ε → len ≤ L + ε * max L (2 * δ / Real.sqrt (1 + ε ^ 2))} ≤
      ENNReal.ofReal (1 - p) + EReal.exp (tailKL m k r (n + 1) (NarrowPassage.init n c).volume) := by
  have hvol := narrow_volume (n := n) hc.le
  refine le_trans (measure_mono fun ω hω => ?_) (general_few (F := narrowOpen n c) (C84_narrow hc.le hU) (narrow_measurable _) (by omega)
    hvol.le (narrow_volume_pos hc) hvol.ge hδ ht h (fun x hx => hx.1) hm hN d a b)
  rintro ⟨hall, hfew⟩
  apply hω
  intro w hw hkw
  obtain ⟨pts, h1, h2, h3⟩ := hall w hw.dist hw.draw (narrow_check hc2 hw) γ L (clearPath_narrowOpen hγ) hL hL0
  obtain ⟨len, pts', e1, e2, e3⟩ := knn_answer (X := fun i ω => (WithLp.toLp 2 ((NarrowPassage.init n c).sample (R i ω) (U i ω)) : Space (n + 1))) (ω := ω) (ops := []) (rs := []) (tr := tr)
    (envWorld_euclidean hw) hkw (by simp)
    (first_grow hw.sound hkw tr hk1 hm) (by simp) hk hfew h1 h2
  refine ⟨len, pts', e1, e2, fun ε hε => e3.trans ?_⟩
  have hd' : w.dist = dist := by
    funext p q
    exact hw.dist p q
  rw [hd']
  exact h3 ε hε

/-- C119 for the k-NN roadmap: for each number `k` of neighbours up to the largest, and each sample size `m` from the returned count on.
Up to the sum of the two failure probabilities, in the table of every trial that contains the sample size `m`, the row for `m` has the
problem as solved, and the lower end of the interval for the number of neighbours is below `k` (or 4, the smallest number). -/
theorem C119_knn {c : ℝ} (hc : 0 < c) (hc2 : c < 1 / 2) {R : ℕ → Ω → Region} {U : ℕ → Ω → Fin (n + 1) → ℝ}
    (hU : ChoiceDraws Pr (narrowWeight n c) R U) {p : ℝ} {tol : Option ℝ} {fuel N : ℕ} {r : ℝ} (ht : TolNonneg tol)
    (h : numericalBound c p (NarrowPassage.init n c).volume (n + 1) tol fuel = some (.ok (N, r)))
    {m k : ℕ} (hm : 2 ≤ m) (hN : N ≤ m) (hk : k + 1 ≤ m) {maxK L : ℕ} (hkm : k ≤ maxK) (hround : 4 ^ L ≤ 2 * maxK ^ 2) (hL : 3 ≤ L)
    (dim : ℕ) (δ : ℝ) (seed : ℤ) (times : ℕ → WithTop ℝ × WithTop ℝ) (d : ℕ) :
    Pr {ω | ¬ ∀ w : World (Space (n + 1)) ℝ,
      EnvWorld w (NarrowPassage.init n c).isMotionValid (fun i => (NarrowPassage.init n c).sample (R i ω) (U i ω)) → KnnWorld w →
      ∀ sched : List ℕ, (∀ x, sched.head? = some x → 2 ≤ x) → sched.IsChain (· < ·) → ∃ rows,
        knnTrial w (WithLp.toLp 2 (Envs.narrowStart n c)) (WithLp.toLp 2 (narrowGoal n c)) dim δ seed maxK L times sched d =
          dataFrame narrowColumns rows ∧
        List.Forall₂ (fun m' row => m' = m → ∃ e, 2 ≤ e ∧ HasNum row "conn_lb" ((2 ^ e : ℕ) : ℝ) ∧
          HasNum row "conn_ub" ((2 ^ (e + 1) : ℕ) : ℝ) ∧ (2 ^ e < k ∨ e = 2)) sched rows} ≤
      ENNReal.ofReal (1 - p) + EReal.exp (tailKL m k r (n + 1) (NarrowPassage.init n c).volume) := by
  have hvol := narrow_volume (n := n) hc.le
  obtain ⟨γ, hγ, hγL⟩ := narrow_path (n := n) hc hc2
  have hL0 : 0 ≤ narrowLength n c := by
    have h2 : 0 ≤ (1 - 2 * c) * Real.sqrt (1 + n / 4) := mul_nonneg (by linarith) (Real.sqrt_nonneg _)
    unfold narrowLength
    linarith
  refine le_trans (measure_mono fun ω hω => ?_) (general_few (F := narrowOpen n c) (C84_narrow hc.le hU) (narrow_measurable _) (by omega)
    hvol.le (narrow_volume_pos hc) hvol.ge hc ht h (fun x hx => hx.1) hm hN d (WithLp.toLp 2 (Envs.narrowStart n c))
    (WithLp.toLp 2 (narrowGoal n c)))
  rintro ⟨hall, hfew⟩
  apply hω
  intro w hw hkw sched hfirst hsched
  obtain ⟨rows, e1, e2⟩ := C108_knn_rows_partial hw.sound (fun S k row hrow => by
      obtain ⟨i, hi⟩ := List.mem_iff_getElem?.1 hrow
      exact (hkw.exact S k).full i row hi) (WithLp.toLp 2 (Envs.narrowStart n c)) (WithLp.toLp 2 (narrowGoal n c)) dim δ seed times
    hround hL d sched hfirst hsched
  refine ⟨rows, e1, e2.imp fun m' row hrow hm' => ?_⟩
  subst hm'
  have hsol : w.KnnSolvable (w.fresh (d + 1) m') maxK (WithLp.toLp 2 (Envs.narrowStart n c)) (WithLp.toLp 2 (narrowGoal n c)) k := by
    obtain ⟨pts, h1, h2, -⟩ := hall w hw.dist hw.draw (narrow_check hc2 hw) γ _ (clearPath_narrowOpen hγ) hγL hL0
    set k' := min (m' - 1) maxK with hk'
    have hmin : min (m' - 1) k' = k' := by omega
    have hx := hkw.exact (w.fresh (d + 1) m') k'
    have hsrt := hkw.sorted (w.fresh (d + 1) m') k'
    have hlen : (w.fresh (d + 1) m').length = m' := fresh_length ..
    have hfresh : w.knn (w.fresh (d + 1) m') (min ((w.fresh (d + 1) m').length - 1) maxK) = w.knn (w.fresh (d + 1) m') k' := by
      rw [hlen]
    obtain ⟨x, hcx⟩ : ∃ x, Knn.certify (w.knn (w.fresh (d + 1) m') k') = .ok x := by
      apply certify_rows_ok
      · intro h0
        have := (hw.sound.knn_true (w.fresh (d + 1) m') k').1
        rw [h0, hlen] at this
        simp at this
        omega
      · intro row hrow h0
        obtain ⟨i, hi⟩ := List.mem_iff_getElem?.1 hrow
        have := hx.full i row hi
        have hmax : 1 ≤ maxK := by simpa using half_le hround 0 (by omega)
        rw [h0, hlen] at this
        simp at this
        omega
    have hrx : r ≤ x := by
      by_contra hlt
      obtain ⟨i, hi, hki⟩ := many_neighbours (X := fun i ω => (WithLp.toLp 2 ((NarrowPassage.init n c).sample (R i ω) (U i ω)) : Space (n + 1))) (ω := ω) 
        (envWorld_euclidean hw) (d := d + 1) (n := m') (k := k') (by omega) (by rw [hmin]; exact hx)
        (by rw [hmin]; exact hsrt) (by rw [hmin]; exact hcx) (not_le.1 hlt)
      exact hfew ⟨i, hi, by omega⟩
    have hcont : w.ContainsRadiusGraph (w.fresh (d + 1) m') r
        (Knn.throwAway (Knn.tails (w.knn (w.fresh (d + 1) m') k') k) (tabGraph w (w.fresh (d + 1) m') (w.knn (w.fresh (d + 1) m') k'))) := by
      intro i j p q hij hp hq hpq ha
      rw [kept_graph]
      exact kept_close (X := fun i ω => (WithLp.toLp 2 ((NarrowPassage.init n c).sample (R i ω) (U i ω)) : Space (n + 1))) (ω := ω) hw.sound hw.dist hw.draw hx hsrt (by omega) hk hfew hp hq hij hpq ha
    obtain ⟨ids, pts', hroute, -⟩ := route_of_chain (fun p => by rw [hw.dist, dist_self]) hcont hrx h1 h2
    exact ⟨pts', x, _, ids, by rw [hfresh]; exact hcx, by rw [hfresh]; exact kept_graph w _ _ k, hroute⟩
  obtain ⟨e, h2e, heL, h3, h4, h5, -, -⟩ := hrow.solved (knnSolvable_mono hkm hsol)
  refine ⟨e, h2e, h3, h4, ?_⟩
  by_cases hlt : 2 ^ e < k
  · exact Or.inl hlt
  · exact Or.inr (h5 (knnSolvable_mono (not_lt.1 hlt) hsol))

/-! ### The hypotheses are met -/

/-- The hypotheses of C120 for the straight line are met by the planar corridor of clearance 1 and length `32 π - 2`; the two failure
probabilities add up to at most 3/4. -/
theorem C120_line_nonvacuous : ∃ e : StraightLine ℝ 1, StraightLine.init 1 1 (32 * Real.pi - 2) = .ok e ∧ 0 ≤ 32 * Real.pi - 2 ∧
    (∃ fuel N r m k, numericalBound 1 (1 / 2) e.volume 2 none fuel = some (.ok (N, r)) ∧ 2 ≤ m ∧ N ≤ m ∧ 1 ≤ k ∧ k + 1 ≤ m ∧
      ENNReal.ofReal (1 - 1 / 2) + EReal.exp (tailKL m k r 2 e.volume) ≤ ENNReal.ofReal (3 / 4)) ∧
    (∃ Pr : Measure (ℕ → Fin 2 → ℝ), IsProbabilityMeasure Pr ∧ UnitDraws Pr (fun i x => x i)) ∧
    ∀ x : ℕ → Fin 2 → ℝ, EnvWorld (envWorld e.isMotionValid fun i => e.sample (x i)) e.isMotionValid (fun i => e.sample (x i)) ∧
      KnnWorld (envWorld e.isMotionValid fun i => e.sample (x i)) := by
  have hpi := Real.pi_gt_three
  obtain ⟨e, he⟩ := (C15_init (n := 1) (1 : ℝ) (32 * Real.pi - 2)).1.1 (by norm_num)
  have hvol : e.volume = 64 * Real.pi := by
    rw [(C15_volume (by linarith) he).2]
    ring
  refine ⟨e, he, by linarith, ?_, exists_unitDraws 2, fun x => ⟨envWorld_ok _ _, envWorld_knn _ _⟩⟩
  obtain ⟨fuel, N, r, h⟩ := answers_64th (δ := 1) (vol := e.volume) (by norm_num) (by rw [hvol]; exact netMeasure_disc8)
  have hr : r = 2 := by
    obtain ⟨-, -, hr, -⟩ := numericalBound_ok h
    rw [hr]
    norm_num [alpha]
  refine ⟨fuel, N, r, N + 4, N + 3, h, by omega, by omega, by omega, by omega, ?_⟩
  refine (add_le_add le_rfl (tail_sixteenth (m := N + 4) (by omega) (by rw [hr, hvol]; exact ballFraction_disc8))).trans ?_
  rw [← ENNReal.ofReal_add (by norm_num) (by norm_num)]
  norm_num

/-- The hypotheses of C120 and C119 for the narrow passage are met in the plane, by the clearance for which a ball of the returned radius
takes one sixteenth of the volume; the two failure probabilities add up to at most 3/4. -/
theorem C120_narrow_nonvacuous : ∃ c : ℝ, 0 < c ∧ c < 1 / 2 ∧
    (∃ fuel N r m k, numericalBound c (1 / 2) (NarrowPassage.init 1 c).volume 2 none fuel = some (.ok (N, r)) ∧ 2 ≤ m ∧ N ≤ m ∧ 1 ≤ k ∧
      k + 1 ≤ m ∧ ENNReal.ofReal (1 - 1 / 2) + EReal.exp (tailKL m k r 2 (NarrowPassage.init 1 c).volume) ≤ ENNReal.ofReal (3 / 4) ∧
      ∃ maxK L, k ≤ maxK ∧ 4 ^ L ≤ 2 * maxK ^ 2 ∧ 3 ≤ L) ∧
    (∃ Pr : Measure (ℕ → Region × (Fin 2 → ℝ)), IsProbabilityMeasure Pr ∧
      ChoiceDraws Pr (narrowWeight 1 c) (fun i x => (x i).1) (fun i x => (x i).2)) ∧
    (∀ x, EnvWorld (envWorld (NarrowPassage.init 1 c).isMotionValid x) (NarrowPassage.init 1 c).isMotionValid x ∧
      KnnWorld (envWorld (NarrowPassage.init 1 c).isMotionValid x)) ∧
    ∃ γ, ClearPath (narrowSet 1 c) c (WithLp.toLp 2 (Envs.narrowStart 1 c)) (WithLp.toLp 2 (narrowGoal 1 c)) γ ∧
      LengthAtMost γ (narrowLength 1 c) := by
  have hpi := Real.pi_gt_three
  obtain ⟨c, ⟨h0, h1⟩, hc⟩ : ∃ c ∈ Set.Icc (0 : ℝ) (1 / 4), 64 * Real.pi * c ^ 2 - (2 + 2 * c) = 0 := by
    refine intermediate_value_Icc (f := fun c : ℝ => 64 * Real.pi * c ^ 2 - (2 + 2 * c)) (by norm_num) (by fun_prop) ⟨?_, ?_⟩
    · norm_num
    · norm_num
      linarith
  have hc0 : 0 < c := by
    rcases h0.lt_or_eq with h | h
    · exact h
    · rw [← h] at hc
      norm_num at hc
  have hc2 : c < 1 / 2 := by linarith
  have hvol : (NarrowPassage.init 1 c).volume = 2 + 2 * c := by
    obtain ⟨b1, b2, b3⟩ := narrow_boxVol (n := 1) c
    have : (NarrowPassage.init 1 c).volume = 1 + 1 + |2 * c| ^ 1 := congrArg₂ (· + ·) (congrArg₂ (· + ·) b1 b2) b3
    rw [this, abs_of_nonneg (by linarith)]
    ring
  have hv0 : (2 + 2 * c) ≠ 0 := by positivity
  have hnet : netMeasure c none 2 (NarrowPassage.init 1 c).volume = 1 / 64 := by
    rw [netMeasure_planar hc0.le none trivial, hvol]
    simp only [netRadius]
    rw [div_eq_iff hv0]
    linarith
  obtain ⟨fuel, N, r, h⟩ := answers_64th hc0.le hnet
  have hr : r = 2 * c := by
    obtain ⟨-, -, hr, -⟩ := numericalBound_ok h
    rw [hr]
    norm_num [alpha]
  have hfrac : ballFraction r 2 (NarrowPassage.init 1 c).volume = 1 / 16 := by
    rw [ballFraction_eq (by norm_num) (by rw [hr]; linarith), volume_disc r (by rw [hr]; linarith), hvol,
      ENNReal.toReal_ofReal (by positivity), hr, div_eq_iff hv0]
    linarith
  refine ⟨c, hc0, hc2, ⟨fuel, N, r, N + 4, N + 3, h, by omega, by omega, by omega, by omega, ?_, N + 6, 3, by omega, ?_, le_refl _⟩,
    (C84_nonvacuous (n := 1)).2.2.1 c, fun x => ⟨envWorld_ok _ _, envWorld_knn _ _⟩, ?_⟩
  · refine (add_le_add le_rfl (tail_sixteenth (m := N + 4) (by omega) hfrac)).trans ?_
    rw [← ENNReal.ofReal_add (by norm_num) (by norm_num)]
    norm_num
  · calc 4 ^ 3 ≤ 2 * 6 ^ 2 := by norm_num
      _ ≤ 2 * (N + 6) ^ 2 := by gcongr; omega
  · exact narrow_path hc0 hc2

end Verif.Props
