import Verif.Spec.FloatKnnWorld
import Verif.Props.FloatGuarantee
import Verif.Props.FloatStraight
import Verif.Props.NearGuarantee
import Verif.Props.KnnEnvGuarantee

/-! C144: the k-NN planner in the two environments when samples, motion checks and all distances are rounded. -/

namespace Verif.Props

open MeasureTheory ProbabilityTheory Verif.Prm Verif.Envs Verif.Spec Verif.Bound Verif.Net Verif.Float64

variable {n : ℕ} {Ω : Type*} [MeasurableSpace Ω] {Pr : Measure Ω} [IsProbabilityMeasure Pr]

section Deterministic

variable {dim : ℕ} {X : ℕ → Ω → Space dim} {w : World (Space dim) ℝ} {td : Space dim → Space dim → ℝ} {κ α : ℝ} {B : Set (Space dim)}
  {valid : (Fin dim → ℝ) → (Fin dim → ℝ) → Bool} {x : ℕ → Fin dim → ℝ}

/-- The certified radius for samples that are `e` away from the ideal ones, outside the event that some ideal sample has `k` others closer than `s`. -/
theorem rounded_certified {ω : Ω} (hw : FloatKnnWorld w td κ α B valid x) (hκ : κ < 1) (hin : ∀ i, (WithLp.toLp 2 (x i) : Space dim) ∈ B) {e r s : ℝ}
    (he : ∀ i, dist (X i ω) (WithLp.toLp 2 (x i)) ≤ e) (hs : r + α ≤ (1 - κ) * (s - 2 * e)) {m k d : ℕ} (hk : k + 1 ≤ m)
    (hnot : ¬ ∃ i < m, k ≤ neighbours X (d + 1) m s ω i) {y : ℝ}
    (hy : Knn.certify (w.knn (w.fresh (d + 1) m) (min (m - 1) k)) = .ok y) : r ≤ y := by
  by_contra hlt
  refine hnot (many_near_with hw.near.sound hk ?_ (hw.knn.exact _ _) (hw.knn.sorted _ _) hy (not_le.1 hlt))
  intro i _ j _ hij
  rw [hw.draw, hw.draw] at hij
  have h1 := (abs_le.1 (hw.near.table _ (hin (d + 1 + i)) _ (hin (d + 1 + j)))).1
  by_contra hge
  have h2 := he (d + 1 + i)
  have h3 := he (d + 1 + j)
  have h4 := dist_triangle4 (X (d + 1 + j) ω) (WithLp.toLp 2 (x (d + 1 + j))) (WithLp.toLp 2 (x (d + 1 + i))) (X (d + 1 + i) ω)
  rw [dist_comm (WithLp.toLp 2 (x (d + 1 + i)) : Space dim) (X (d + 1 + i) ω), dist_comm (WithLp.toLp 2 (x (d + 1 + j)) : Space dim)] at h4
  have h5 : s - 2 * e ≤ dist (WithLp.toLp 2 (x (d + 1 + i)) : Space dim) (WithLp.toLp 2 (x (d + 1 + j))) := by linarith [not_lt.1 hge]
  have := mul_le_mul_of_nonneg_left h5 (sub_pos.2 hκ).le
  linarith

/-- A chain of samples in exact distances gives an answer of the planner. -/
theorem rounded_answer (hw : FloatKnnWorld w td κ α B valid x) (hκ0 : 0 ≤ κ) (hin : ∀ i, (WithLp.toLp 2 (x i) : Space dim) ∈ B) {r r' : ℝ}
    (hr : (1 + κ) * r + α < r') {ops rs : List (Knn.Op (Space dim) ℝ)} {k m d : ℕ} {tr : Bool}
    (hops : ∀ o ∈ ops, o ≠ .reset ∧ ∀ k', o ≠ .setNeighbors k') (hok : (((Knn.init k tr d).run w ops).grow w m).2 = .ok ())
    (hrs : ∀ o ∈ rs, (∃ r₀, o = .setRadius r₀ ∧ r' ≤ r₀) ∨ ∃ a b, o = .query a b)
    (hcert : ∀ y, Knn.certify (w.knn (w.fresh (d + 1) m) (min (m - 1) k)) = .ok y → r' ≤ y) {a b : Space dim} {pts : List (Space dim)}
    (ha : a ∈ B) (hb : b ∈ B)
    (hc : (envWorld valid x).SampleChain ((envWorld valid x).fresh (d + 1) m) r a b pts) :
    ∃ (len : ℝ) (pts' : List (Space dim)),
      (((Knn.init k tr d).run w (ops ++ .grow m :: rs)).query w a b).2 = .ok ((len : WithTop ℝ), pts') ∧ pts' ≠ [] ∧
      len ≤ (1 + κ) * pathLength dist (a :: pts ++ [b]) + (pts.length + 1) * α := by
  have hup : ∀ (f : Space dim → Space dim → ℝ), (∀ p ∈ B, ∀ q ∈ B, |f p q - dist p q| ≤ κ * dist p q + α) →
      ∀ p ∈ B, ∀ q ∈ B, dist p q ≤ r → f p q < r' := by
    intro f hf p hp q hq hpq
    have h1 := (abs_le.1 (hf p hp q hq)).2
    have h2 := mul_le_mul_of_nonneg_left hpq (show 0 ≤ 1 + κ by linarith)
    linarith
  obtain ⟨c1, c2, c3, c4, c5⟩ := hc
  have hfr : (envWorld valid x).fresh (d + 1) m = w.fresh (d + 1) m := List.map_congr_left fun i _ => (hw.draw _).symm
  rw [hfr] at c2
  have hB : ∀ p ∈ pts, p ∈ B := by
    intro p hp
    obtain ⟨i, -, rfl⟩ := List.mem_map.1 (c2 p hp)
    rw [hw.draw]
    exact hin _
  have hck : ∀ p q, (envWorld valid x).check p q = w.check p q := fun p q => (hw.check p q).symm
  obtain ⟨len, pts', e1, e2, e3⟩ := knn_route_with hw.near.sound hw.knn.visits hw.near.dist_self hw.near.table_self (hw.knn.exact _ _) hops hok hrs
    hcert (a := a) (b := b) c1 c2
    (fun p hp => ⟨(hup _ hw.near.dist p (hB p (List.mem_of_mem_head? hp)) a ha (c3 p hp).1).le, by rw [← hck]; exact (c3 p hp).2⟩)
    (fun p hp => ⟨(hup _ hw.near.dist p (hB p (List.mem_of_mem_getLast? hp)) b hb (c4 p hp).1).le, by rw [← hck]; exact (c4 p hp).2⟩)
    (isChain_mem c5 fun p q hp hq h => ⟨hup _ hw.near.table p (hB p hp) q (hB q hq) h.1, by
      have := h.2
      simp only [World.Accepted, hck] at this
      exact this⟩)
  refine ⟨len, pts', e1, e2, e3.trans ?_⟩
  have := (abs_le.1 (routeLength_near hw.near.dist hw.near.table ha hb c1 hB)).2
  linarith

theorem envWorld_float (valid : (Fin dim → ℝ) → (Fin dim → ℝ) → Bool) (x : ℕ → Fin dim → ℝ) : FloatWorld (envWorld valid x) 0 valid x := by
  obtain ⟨h1, h2, h3, h4⟩ := envWorld_ok valid x
  exact ⟨h1, fun p q => by rw [h2]; simp, h3, h4⟩

end Deterministic

/-! ### Narrow passage -/

/-- Draws outside the unit cube have probability 0. -/
theorem outside_null {m : ℕ} {U : ℕ → Ω → Fin m → ℝ} (hm : ∀ i, Measurable (U i)) (hu : ∀ i, pdf.IsUniform (U i) (Set.Icc 0 1) Pr volume) :
    Pr (⋃ i, {ω | U i ω ∉ Set.Icc (0 : Fin m → ℝ) 1}) = 0 := by
  rw [measure_iUnion_null_iff]
  intro i
  have h1 : {ω | U i ω ∉ Set.Icc (0 : Fin m → ℝ) 1} = U i ⁻¹' (Set.Icc 0 1)ᶜ := rfl
  have h2 : Pr.map (U i) = cond volume (Set.Icc 0 1) := hu i
  rw [h1, ← Measure.map_apply (hm i) measurableSet_Icc.compl, h2, cond_apply measurableSet_Icc]
  simp

/-- The answer in the narrow passage, outside the exceptional events. -/
theorem narrow_rounded_answer {c κ α : ℝ} (fc : IsFloat c) (hc0 : 2 ^ (-100 : ℤ) ≤ c) (hc : c < 1 / 2) {R : ℕ → Region}
    {U : ℕ → Fin (n + 1) → ℝ} {X : ℕ → Ω → Space (n + 1)} {ω : Ω} (hX : ∀ i, X i ω = WithLp.toLp 2 ((NarrowPassage.init n c).sample (R i) (U i)))
    (hin : ∀ i, U i ∈ Set.Icc (0 : Fin (n + 1) → ℝ) 1) {r r' s e : ℝ} (hκ0 : 0 ≤ κ) (hκ : κ < 1) (he : e = Real.sqrt (n + 1) * 2 ^ (-50 : ℤ))
    (hr : (1 + κ) * (r + e) + α < r') (hs : r' + α ≤ (1 - κ) * (s - e)) {B : Set (Space (n + 1))} (hB : narrowSet n c ⊆ B) {m k d : ℕ} {tr : Bool}
    (hk : k + 1 ≤ m) (hnot : ¬ ∃ i < m, (k : ℝ) ≤ neighbours X (d + 1) m s ω i) {w : World (Space (n + 1)) ℝ} {td : Space (n + 1) → Space (n + 1) → ℝ}
    {ops rs : List (Knn.Op (Space (n + 1)) ℝ)}
    (hw : FloatKnnWorld w td κ α B ((NarrowPassage.init n c).isMotionValidR fl)
      (fun i => (NarrowPassage.init n c).sampleR fl (R i) fun j => random53 (U i j)))
    (hops : ∀ o ∈ ops, o ≠ .reset ∧ ∀ k', o ≠ .setNeighbors k') (hok : (((Knn.init k tr d).run w ops).grow w m).2 = .ok ())
    (hrs : ∀ o ∈ rs, (∃ r₀, o = .setRadius r₀ ∧ r' ≤ r₀) ∨ ∃ a b, o = .query a b) {a b : Space (n + 1)} (ha : a ∈ narrowSet n c) (hb : b ∈ narrowSet n c)
    {pts : List (Space (n + 1))}
    (h : (envWorld ((NarrowPassage.init n c).isMotionValidR fl) (fun i => (NarrowPassage.init n c).sampleR fl (R i) fun j => random53 (U i j))).SampleChain
      ((envWorld ((NarrowPassage.init n c).isMotionValidR fl) (fun i => (NarrowPassage.init n c).sampleR fl (R i) fun j => random53 (U i j))).fresh (d + 1) m)
      (r + e) a b pts) :
    ∃ (len : ℝ) (path : List (Space (n + 1))),
      (((Knn.init k tr d).run w (ops ++ .grow m :: rs)).query w a b).2 = .ok ((len : WithTop ℝ), path) ∧ path ≠ [] ∧
      len ≤ (1 + κ) * pathLength dist (a :: pts ++ [b]) + (pts.length + 1) * α := by
  have e50 : (2 : ℝ) ^ (-50 : ℤ) = 8 * eps := by
    unfold eps
    rw [show (-50 : ℤ) = 3 + -53 by norm_num, zpow_add₀ (by norm_num)]; norm_num
  have hinB : ∀ i, (WithLp.toLp 2 ((NarrowPassage.init n c).sampleR fl (R i) fun j => random53 (U i j)) : Space (n + 1)) ∈ B :=
    fun i => hB (sample_good fc hc0 hc (R i) (hin i)).free
  have he2 : s - 2 * (Real.sqrt (n + 1) * (4 * eps)) = s - e := by rw [he, e50]; ring
  refine rounded_answer hw hκ0 hinB hr hops hok hrs (fun y hy => ?_) (hB ha) (hB hb) h
  refine rounded_certified (X := X) (ω := ω) hw hκ hinB (e := Real.sqrt (n + 1) * (4 * eps)) (fun i => ?_) (by rw [he2]; exact hs) hk ?_ hy
  · rw [hX]
    exact sample_err fc hc0 hc (R i) (hin i)
  · rintro ⟨i, hi, hki⟩
    exact hnot ⟨i, hi, by exact_mod_cast hki⟩

/-- The argument of C144 for the narrow passage, for any property of the hops. -/
theorem narrow_rounded {c δ η κ α q : ℝ} (fc : IsFloat c) (hc0 : 2 ^ (-100 : ℤ) ≤ c) (hc : c < 1 / 2) {R : ℕ → Ω → Region}
    {U : ℕ → Ω → Fin (n + 1) → ℝ} (hU : ChoiceDraws Pr (narrowWeight n c) R U) (hδ : 0 < δ) {tol : Option ℝ} {N : ℕ} {r r' s : ℝ}
    (ht : TolNonneg tol) (h2N : 2 ≤ N) (hb : failureBound N (netMeasure δ tol (n + 1) (NarrowPassage.init n c).volume) (n + 1 + 1) ≤ q)
    (hη : Real.sqrt (n + 1) * 2 ^ (-44 : ℤ) ≤ η) (hκ0 : 0 ≤ κ) (hκ : κ < 1) (hα : 0 ≤ α) (hs0 : 0 ≤ s)
    (hr : (1 + κ) * (r + Real.sqrt (n + 1) * 2 ^ (-50 : ℤ)) + α < r') (hs : r' + α ≤ (1 - κ) * (s - Real.sqrt (n + 1) * 2 ^ (-50 : ℤ)))
    {B : Set (Space (n + 1))} (hB : narrowSet n c ⊆ B) {m k : ℕ} (hN : N ≤ m) (hk : k + 1 ≤ m) (tr : Bool) (d : ℕ)
    {a b : Space (n + 1)} (fa : ∀ i, IsFloat (a i) ∧ (a i = 0 ∨ 2 ^ (-800 : ℤ) ≤ |a i|))
    (fb : ∀ i, IsFloat (b i) ∧ (b i = 0 ∨ 2 ^ (-800 : ℤ) ≤ |b i|)) {γ : ℝ → Space (n + 1)} (hγ : ClearPath (narrowSet n c) (δ + η) a b γ)
    {Q : List (Space (n + 1)) → Prop}
    (H : ∀ S : List (Space (n + 1)), (∀ x, Metric.ball x δ ⊆ {x | Metric.ball x η ⊆ narrowSet n c} → ∃ q ∈ S, dist q x < netRadius δ tol) →
      ∃ pts : List (Space (n + 1)), pts ≠ [] ∧ (∀ p ∈ pts, p ∈ S) ∧
        (a :: pts ++ [b]).IsChain (fun p q => dist p q < r ∧ segment ℝ p q ⊆ {x | Metric.ball x η ⊆ narrowSet n c}) ∧ Q pts) :
    Pr {ω | ¬ ∀ (w : World (Space (n + 1)) ℝ) (td : Space (n + 1) → Space (n + 1) → ℝ) (ops rs : List (Knn.Op (Space (n + 1)) ℝ)),
        FloatKnnWorld w td κ α B ((NarrowPassage.init n c).isMotionValidR fl)
          (fun i => (NarrowPassage.init n c).sampleR fl (R i ω) fun j => random53 (U i ω j)) →
        (∀ o ∈ ops, o ≠ .reset ∧ ∀ k', o ≠ .setNeighbors k') → (((Knn.init k tr d).run w ops).grow w m).2 = .ok () →
        (∀ o ∈ rs, (∃ r₀, o = .setRadius r₀ ∧ r' ≤ r₀) ∨ ∃ a b, o = .query a b) →
        ∃ (len : ℝ) (path pts : List (Space (n + 1))),
          (((Knn.init k tr d).run w (ops ++ .grow m :: rs)).query w a b).2 = .ok ((len : WithTop ℝ), path) ∧ path ≠ [] ∧ Q pts ∧
          len ≤ (1 + κ) * (pathLength dist (a :: pts ++ [b]) + Real.sqrt (n + 1) * 2 ^ (-50 : ℤ) * pts.length) + (pts.length + 1) * α} ≤
      ENNReal.ofReal (q + (n + 1) * (N + 1) ^ 2 * 2 ^ (-50 : ℤ)) + EReal.exp (tailKL m k s (n + 1) (NarrowPassage.init n c).volume) := by
  have c0 : 0 < c := lt_of_lt_of_le (by positivity) hc0
  have hX : IidUniform Pr (fun i ω => (WithLp.toLp 2 ((NarrowPassage.init n c).sample (R i ω) (U i ω)) : Space (n + 1))) (narrowSet n c) :=
    C84_narrow c0.le hU
  have hvol := narrow_volume (n := n) c0.le
  have hcore := narrow_core fc hc0 hc hU hδ ht le_rfl h2N hb hη le_rfl (r' := r + Real.sqrt (n + 1) * 2 ^ (-50 : ℤ)) (by rw [add_zero, one_mul]) d fa fb hγ H
  have hp0 := measureReal_nonneg.trans hcore
  have hnull := outside_null hU.measurable' hU.uniform
  have h4 := (measure_union_le _ _).trans (add_le_add (to_ennreal hp0 hcore)
    (C80_chernoff_kl hX (narrow_measurable c) (by omega) (narrow_volume_pos c0) hvol.ge (by omega : 2 ≤ m) hs0 (Nat.cast_nonneg k) (d + 1)))
  refine le_trans (measure_mono fun ω hω => ?_) ((measure_union_le _ _).trans ((add_le_add h4 hnull.le).trans (add_zero _).le))
  by_contra hnot
  rw [Set.mem_union, not_or, Set.mem_union, not_or] at hnot
  obtain ⟨⟨n1, n2⟩, n3⟩ := hnot
  apply hω
  intro w td ops rs hw hops hok hrs
  have hin : ∀ i, U i ω ∈ Set.Icc (0 : Fin (n + 1) → ℝ) 1 := by
    intro i
    by_contra hi
    exact n3 (Set.mem_iUnion.2 ⟨i, hi⟩)
  obtain ⟨pts, pts', hQ, h5, h6, h7⟩ := not_not.1 n1 _ (envWorld_float _ _) m hN
  have hends : a ∈ narrowSet n c ∧ b ∈ narrowSet n c := clearPath_ends (by
    have : 0 ≤ Real.sqrt (n + 1) * 2 ^ (-44 : ℤ) := by positivity
    linarith) hγ
  obtain ⟨len, path, g1, g2, g3⟩ := narrow_rounded_answer (R := fun i => R i ω) (U := fun i => U i ω)
    (X := fun i ω => (WithLp.toLp 2 ((NarrowPassage.init n c).sample (R i ω) (U i ω)) : Space (n + 1))) (ω := ω) fc hc0 hc (fun _ => rfl) hin hκ0 hκ rfl hr hs hB hk n2 hw hops hok hrs hends.1 hends.2 h5
  refine ⟨len, path, pts, g1, g2, hQ, g3.trans (add_le_add (mul_le_mul_of_nonneg_left ?_ (by linarith)) (mul_le_mul_of_nonneg_right ?_ hα))⟩
  · rw [add_zero, one_mul] at h6
    exact h6
  · have : (pts'.length : ℝ) ≤ pts.length := by exact_mod_cast h7
    linarith

/-- C144. The k-NN planner in the narrow passage with everything rounded: samples and motion checks in double precision, the planner's distances and those of the neighbour
library with relative error `κ` and absolute error `α` in a set `B` that contains free space. For each query between two float points joined by a path whose
clearance exceeds `δ` by some rounding errors, with a radius `r'` that exceeds the returned one by the errors, and a radius `s` for the tail that exceeds `r'` by the errors: the
planner, grown to `m` samples in whatever steps, answers with a nonempty path up to the failure probability asked for, the probability that two of the samples agree in a
coordinate, and the probability of the Chernoff-KL bound at `s`. -/
theorem C144_narrow {c δ η κ α : ℝ} (fc : IsFloat c) (hc0 : 2 ^ (-100 : ℤ) ≤ c) (hc : c < 1 / 2) {R : ℕ → Ω → Region}
    {U : ℕ → Ω → Fin (n + 1) → ℝ} (hU : ChoiceDraws Pr (narrowWeight n c) R U) (hδ : 0 < δ) {p : ℝ} {tol : Option ℝ} {fuel N : ℕ} {r r' s : ℝ}
    (ht : TolNonneg tol) (h : numericalBound δ p (NarrowPassage.init n c).volume (n + 1) tol fuel = some (.ok (N, r)))
    (hη : Real.sqrt (n + 1) * 2 ^ (-44 : ℤ) ≤ η) (hκ0 : 0 ≤ κ) (hκ : κ < 1) (hα : 0 ≤ α) (hs0 : 0 ≤ s)
    (hr : (1 + κ) * (r + Real.sqrt (n + 1) * 2 ^ (-50 : ℤ)) + α < r') (hs : r' + α ≤ (1 - κ) * (s - Real.sqrt (n + 1) * 2 ^ (-50 : ℤ)))
    {B : Set (Space (n + 1))} (hB : narrowSet n c ⊆ B) {m k : ℕ} (hN : N ≤ m) (hk : k + 1 ≤ m) (tr : Bool) (d : ℕ)
    {a b : Space (n + 1)} (fa : ∀ i, IsFloat (a i) ∧ (a i = 0 ∨ 2 ^ (-800 : ℤ) ≤ |a i|))
    (fb : ∀ i, IsFloat (b i) ∧ (b i = 0 ∨ 2 ^ (-800 : ℤ) ≤ |b i|)) {γ : ℝ → Space (n + 1)} (hγ : ClearPath (narrowSet n c) (δ + η) a b γ) :
    Pr {ω | ¬ ∀ (w : World (Space (n + 1)) ℝ) (td : Space (n + 1) → Space (n + 1) → ℝ) (ops rs : List (Knn.Op (Space (n + 1)) ℝ)),
        FloatKnnWorld w td κ α B ((NarrowPassage.init n c).isMotionValidR fl)
          (fun i => (NarrowPassage.init n c).sampleR fl (R i ω) fun j => random53 (U i ω j)) →
        (∀ o ∈ ops, o ≠ .reset ∧ ∀ k', o ≠ .setNeighbors k') → (((Knn.init k tr d).run w ops).grow w m).2 = .ok () →
        (∀ o ∈ rs, (∃ r₀, o = .setRadius r₀ ∧ r' ≤ r₀) ∨ ∃ a b, o = .query a b) →
        ∃ len pts, (((Knn.init k tr d).run w (ops ++ .grow m :: rs)).query w a b).2 = .ok (len, pts) ∧ pts ≠ []} ≤
      ENNReal.ofReal (1 - p + (n + 1) * (N + 1) ^ 2 * 2 ^ (-50 : ℤ)) + EReal.exp (tailKL m k s (n + 1) (NarrowPassage.init n c).volume) := by
  have h2 := (C02_least (by omega) hδ.le ht h).1
  refine le_trans (measure_mono fun ω hω => ?_) (narrow_rounded (Q := fun _ => True) fc hc0 hc hU hδ ht h2
    (C01_sufficient (by omega) hδ.le ht h N le_rfl) hη hκ0 hκ hα hs0 hr hs hB hN hk tr d fa fb hγ fun S hS => by
      obtain ⟨pts, h1, h2, h3⟩ := clearPath_hops (clear_shrink hγ) (netRadius_le hδ.le tol) (radius_ge hδ.le h) hS
      exact ⟨pts, h1, h2, h3, trivial⟩)
  intro hall
  apply hω
  intro w td ops rs hw hops hok hrs
  obtain ⟨len, path, -, h1, h2, -⟩ := hall w td ops rs hw hops hok hrs
  exact ⟨_, path, h1, h2⟩

/-- C144, narrow passage, length: the same with stretch factor `1 + t`, for paths of length at most `L`. -/
theorem C144_narrow_length {c δ η κ α t L : ℝ} (fc : IsFloat c) (hc0 : 2 ^ (-100 : ℤ) ≤ c) (hc : c < 1 / 2) {R : ℕ → Ω → Region}
    {U : ℕ → Ω → Fin (n + 1) → ℝ} (hU : ChoiceDraws Pr (narrowWeight n c) R U) (hδ : 0 < δ) {p : ℝ} {fuel N : ℕ} {r r' s D : ℝ}
    (ht : 0 ≤ t) (h : numericalBound δ p (NarrowPassage.init n c).volume (n + 1) (some t) fuel = some (.ok (N, r)))
    (hη : Real.sqrt (n + 1) * 2 ^ (-44 : ℤ) ≤ η) (hκ0 : 0 ≤ κ) (hκ : κ < 1) (hα : 0 ≤ α) (hs0 : 0 ≤ s)
    (hr : (1 + κ) * (r + Real.sqrt (n + 1) * 2 ^ (-50 : ℤ)) + α < r') (hs : r' + α ≤ (1 - κ) * (s - Real.sqrt (n + 1) * 2 ^ (-50 : ℤ)))
    {B : Set (Space (n + 1))} (hB : narrowSet n c ⊆ B) {m k : ℕ} (hN : N ≤ m) (hk : k + 1 ≤ m) (tr : Bool) (d : ℕ)
    {a b : Space (n + 1)} (fa : ∀ i, IsFloat (a i) ∧ (a i = 0 ∨ 2 ^ (-800 : ℤ) ≤ |a i|))
    (fb : ∀ i, IsFloat (b i) ∧ (b i = 0 ∨ 2 ^ (-800 : ℤ) ≤ |b i|)) {γ : ℝ → Space (n + 1)} (hγ : ClearPath (narrowSet n c) (δ + η) a b γ)
    (hL : LengthAtMost γ L) (hL0 : 0 ≤ L) (hD : D = 2 * δ / Real.sqrt (1 + t ^ 2)) :
    Pr {ω | ¬ ∀ (w : World (Space (n + 1)) ℝ) (td : Space (n + 1) → Space (n + 1) → ℝ) (ops rs : List (Knn.Op (Space (n + 1)) ℝ)),
        FloatKnnWorld w td κ α B ((NarrowPassage.init n c).isMotionValidR fl)
          (fun i => (NarrowPassage.init n c).sampleR fl (R i ω) fun j => random53 (U i ω j)) →
        (∀ o ∈ ops, o ≠ .reset ∧ ∀ k', o ≠ .setNeighbors k') → (((Knn.init k tr d).run w ops).grow w m).2 = .ok () →
        (∀ o ∈ rs, (∃ r₀, o = .setRadius r₀ ∧ r' ≤ r₀) ∨ ∃ a b, o = .query a b) →
        ∃ (len : ℝ) (pts : List (Space (n + 1))),
          (((Knn.init k tr d).run w (ops ++ .grow m :: rs)).query w a b).2 = .ok ((len : WithTop ℝ), pts) ∧ pts ≠ [] ∧
          len ≤ (1 + κ) * (L + (t + Real.sqrt (n + 1) * 2 ^ (-50 : ℤ) / D) * max L D) + (max L D / D + 1) * α} ≤
      ENNReal.ofReal (1 - p + (n + 1) * (N + 1) ^ 2 * 2 ^ (-50 : ℤ)) + EReal.exp (tailKL m k s (n + 1) (NarrowPassage.init n c).volume) := by
  have h2 := (C02_least (by omega) hδ.le (show TolNonneg (some t) from ht) h).1
  obtain ⟨f1, f2, f3, f4⟩ := spacing_facts (t := t) hδ
  have hDs : D = spacing δ t := hD
  refine le_trans (measure_mono fun ω hω => ?_) (narrow_rounded
    (Q := fun pts => pathLength dist (a :: pts ++ [b]) ≤ L + t * max L (spacing δ t) ∧ pts.length * spacing δ t ≤ max L (spacing δ t)) (tol := some t)
    fc hc0 hc hU hδ ht h2 (C01_sufficient (by omega) hδ.le (show TolNonneg (some t) from ht) h N le_rfl) hη hκ0 hκ hα hs0 hr hs hB hN hk tr d fa fb hγ fun S hS => by
      obtain ⟨pts, h1, h2, h3, h4, h5⟩ := clearPath_short_hops_count (clear_shrink hγ) hL hL0 hδ f1 (by rw [f2, ← C06_radius_consistent h]) f3.le hS
      rw [f4] at h4
      exact ⟨pts, h1, h2, h3, h4, h5⟩)
  intro hall
  apply hω
  intro w td ops rs hw hops hok hrs
  obtain ⟨len, path, pts, h1, h2, ⟨q1, q2⟩, h3⟩ := hall w td ops rs hw hops hok hrs
  rw [hDs]
  refine ⟨len, path, h1, h2, h3.trans (add_le_add (mul_le_mul_of_nonneg_left ?_ (by linarith)) (mul_le_mul_of_nonneg_right ?_ hα))⟩
  · exact moved_length_le f1 (by positivity) q1 q2
  · rw [add_le_add_iff_right, le_div_iff₀ f1]
    exact q2

/-! ### Straight line -/

/-- Draws with a coordinate 1 have probability 0. -/
theorem one_null {m : ℕ} {U : ℕ → Ω → Fin m → ℝ} (hm : ∀ i, Measurable (U i)) (hu : ∀ i, pdf.IsUniform (U i) (Set.Icc 0 1) Pr volume) :
    Pr (⋃ x : ℕ × Fin m, {ω | U x.1 ω ∈ Set.Icc (0 : Fin m → ℝ) 1 ∧ U x.1 ω x.2 = 1}) = 0 := by
  rw [measure_iUnion_null_iff]
  rintro ⟨k, i⟩
  have h1 : {ω | U k ω ∈ Set.Icc (0 : Fin m → ℝ) 1 ∧ U k ω i = 1} = U k ⁻¹' (Set.Icc 0 1 ∩ {u | u i ∈ ({1} : Set ℝ)}) := rfl
  have hms : MeasurableSet {u : Fin m → ℝ | u i ∈ ({1} : Set ℝ)} := measurable_pi_apply i (measurableSet_singleton 1)
  have h2 : Pr.map (U k) = cond volume (Set.Icc 0 1) := hu k
  rw [h1, ← Measure.map_apply (hm k) (measurableSet_Icc.inter hms), h2, cond_apply measurableSet_Icc, cube_volume, inv_one, one_mul,
    ← Set.inter_assoc, Set.inter_self]
  have := slab_volume (m := m) i (lo := 1) (hi := 1) {1} fun u hu _ _ => by
    rw [Set.mem_singleton_iff] at hu
    exact ⟨hu.ge, hu.le⟩
  simpa using this

/-- Up to a null event all draws are in the unit cube without its upper faces. -/
theorem draws_null {m : ℕ} {U : ℕ → Ω → Fin m → ℝ} (hU : UnitDraws Pr U) : Pr {ω | ¬ ∀ k i, 0 ≤ U k ω i ∧ U k ω i < 1} = 0 := by
  refine measure_mono_null (fun ω hω => ?_) (measure_union_null (outside_null hU.measurable hU.uniform) (one_null hU.measurable hU.uniform))
  by_contra hnot
  rw [Set.mem_union, not_or] at hnot
  apply hω
  intro k i
  have hk : U k ω ∈ Set.Icc (0 : Fin m → ℝ) 1 := by
    by_contra hi
    exact hnot.1 (Set.mem_iUnion.2 ⟨k, hi⟩)
  exact ⟨hk.1 i, lt_of_le_of_ne (hk.2 i) fun he => hnot.2 (Set.mem_iUnion.2 ⟨(k, i), hk, he⟩)⟩

/-- The answer in the straight-line environment, outside the exceptional events. -/
theorem straight_rounded_answer {delta length κ α : ℝ} (fd : IsFloat delta) (fL : IsFloat length) (hd0 : 2 ^ (-100 : ℤ) ≤ delta) (hl : 0 ≤ length)
    {e e0 : StraightLine ℝ n} (he : StraightLine.initR fl n delta length = .ok e) (b1 : e0.boundsLower = e.boundsLower) (b2 : e0.boundsUpper = e.boundsUpper)
    {U : ℕ → Fin (n + 1) → ℝ} {X : ℕ → Ω → Space (n + 1)} {ω : Ω} (hX : ∀ i, X i ω = WithLp.toLp 2 (e0.sample (U i)))
    (hin : ∀ k i, 0 ≤ U k i ∧ U k i < 1) {r r' s err : ℝ} (hκ0 : 0 ≤ κ) (hκ : κ < 1)
    (herr : err = Real.sqrt (n + 1) * 2 ^ (-49 : ℤ) * (fl (length + delta) + delta))
    (hr : (1 + κ) * (r + err) + α < r') (hs : r' + α ≤ (1 - κ) * (s - err)) {B : Set (Space (n + 1))}
    (hB : corridorSet n delta (fl (length + delta) - delta) ⊆ B) {m k d : ℕ} {tr : Bool} (hk : k + 1 ≤ m)
    (hnot : ¬ ∃ i < m, (k : ℝ) ≤ neighbours X (d + 1) m s ω i) {w : World (Space (n + 1)) ℝ} {td : Space (n + 1) → Space (n + 1) → ℝ}
    {ops rs : List (Knn.Op (Space (n + 1)) ℝ)}
    (hw : FloatKnnWorld w td κ α B e.isMotionValid (fun i => e.sampleR fl fun j => random53 (U i j)))
    (hops : ∀ o ∈ ops, o ≠ .reset ∧ ∀ k', o ≠ .setNeighbors k') (hok : (((Knn.init k tr d).run w ops).grow w m).2 = .ok ())
    (hrs : ∀ o ∈ rs, (∃ r₀, o = .setRadius r₀ ∧ r' ≤ r₀) ∨ ∃ a b, o = .query a b) {u v : ℝ} {pts : List (Space (n + 1))}
    (h : (envWorld e.isMotionValid (fun i => e.sampleR fl fun j => random53 (U i j))).SampleChain
      ((envWorld e.isMotionValid (fun i => e.sampleR fl fun j => random53 (U i j))).fresh (d + 1) m) (r + err)
      (WithLp.toLp 2 (e.curvePointR fl u)) (WithLp.toLp 2 (e.curvePointR fl v)) pts) :
    ∃ (len : ℝ) (path : List (Space (n + 1))),
      (((Knn.init k tr d).run w (ops ++ .grow m :: rs)).query w (WithLp.toLp 2 (e.curvePointR fl u)) (WithLp.toLp 2 (e.curvePointR fl v))).2 =
        .ok ((len : WithTop ℝ), path) ∧ path ≠ [] ∧
      len ≤ (1 + κ) * pathLength dist ((WithLp.toLp 2 (e.curvePointR fl u) : Space (n + 1)) :: pts ++ [WithLp.toLp 2 (e.curvePointR fl v)]) +
        (pts.length + 1) * α := by
  have e49 : (2 : ℝ) ^ (-49 : ℤ) = 16 * eps := by
    unfold eps
    rw [show (-49 : ℤ) = 4 + -53 by norm_num, zpow_add₀ (by norm_num)]; norm_num
  have hinB : ∀ i, (WithLp.toLp 2 (e.sampleR fl fun j => random53 (U i j)) : Space (n + 1)) ∈ B :=
    fun i => hB (straightR_sample_mem fd fL hl he (hin i))
  have he2 : s - 2 * (Real.sqrt (n + 1) * (8 * eps * (fl (length + delta) + delta))) = s - err := by rw [herr, e49]; ring
  refine rounded_answer hw hκ0 hinB hr hops hok hrs (fun y hy => ?_) (hB (curveR_mem fd fL hl he u)) (hB (curveR_mem fd fL hl he v)) h
  refine rounded_certified (X := X) (ω := ω) hw hκ hinB (e := Real.sqrt (n + 1) * (8 * eps * (fl (length + delta) + delta))) (fun i => ?_)
    (by rw [he2]; exact hs) hk ?_ hy
  · rw [hX]
    exact straightR_sample_err fd fL hl hd0 he b1 b2 (hin i)
  · rintro ⟨i, hi, hki⟩
    exact hnot ⟨i, hi, by exact_mod_cast hki⟩

/-- The argument of C144 for the straight line, for any property of the hops. -/
theorem straight_rounded {delta length δ κ α q vol : ℝ} (fd : IsFloat delta) (fL : IsFloat length) (hd0 : 2 ^ (-100 : ℤ) ≤ delta)
    (hl : 0 ≤ length) {e : StraightLine ℝ n} (he : StraightLine.initR fl n delta length = .ok e) {U : ℕ → Ω → Fin (n + 1) → ℝ}
    (hU : UnitDraws Pr U) (hδ0 : 0 < δ) (hδ : δ ≤ delta) (hδ' : length + δ ≤ fl (length + delta)) (hvol : e.volume ≤ vol) {tol : Option ℝ}
    {N : ℕ} {r r' s err : ℝ} (ht : TolNonneg tol) (h2N : 2 ≤ N) (hb : failureBound N (netMeasure δ tol (n + 1) vol) (n + 1 + 1) ≤ q)
    (hκ0 : 0 ≤ κ) (hκ : κ < 1) (hα : 0 ≤ α) (hs0 : 0 ≤ s) (herr : err = Real.sqrt (n + 1) * 2 ^ (-49 : ℤ) * (fl (length + delta) + delta))
    (hr : (1 + κ) * (r + err) + α < r') (hs : r' + α ≤ (1 - κ) * (s - err)) {B : Set (Space (n + 1))}
    (hB : corridorSet n delta (fl (length + delta) - delta) ⊆ B) {m k : ℕ} (hN : N ≤ m) (hk : k + 1 ≤ m) (tr : Bool) (d : ℕ)
    {Q : ℝ → ℝ → List (Space (n + 1)) → Prop}
    (hhops : ∀ S : List (Space (n + 1)),
      (∀ x, Metric.ball x δ ⊆ corridorSet n delta (fl (length + delta) - delta) → ∃ q ∈ S, dist q x < netRadius δ tol) → ∀ s t,
      ∃ pts : List (Space (n + 1)), pts ≠ [] ∧ (∀ p ∈ pts, p ∈ S) ∧
        ((WithLp.toLp 2 (e.curvePointR fl s) : Space (n + 1)) :: pts ++ [WithLp.toLp 2 (e.curvePointR fl t)]).IsChain
          (fun p q => dist p q < r ∧ segment ℝ p q ⊆ corridorSet n delta (fl (length + delta) - delta)) ∧ Q s t pts) :
    Pr {ω | ¬ ∀ (w : World (Space (n + 1)) ℝ) (td : Space (n + 1) → Space (n + 1) → ℝ) (ops rs : List (Knn.Op (Space (n + 1)) ℝ)) (u v : ℝ),
        FloatKnnWorld w td κ α B e.isMotionValid (fun i => e.sampleR fl fun j => random53 (U i ω j)) →
        (∀ o ∈ ops, o ≠ .reset ∧ ∀ k', o ≠ .setNeighbors k') → (((Knn.init k tr d).run w ops).grow w m).2 = .ok () →
        (∀ o ∈ rs, (∃ r₀, o = .setRadius r₀ ∧ r' ≤ r₀) ∨ ∃ a b, o = .query a b) →
        ∃ (len : ℝ) (path pts : List (Space (n + 1))),
          (((Knn.init k tr d).run w (ops ++ .grow m :: rs)).query w (WithLp.toLp 2 (e.curvePointR fl u)) (WithLp.toLp 2 (e.curvePointR fl v))).2 =
            .ok ((len : WithTop ℝ), path) ∧ path ≠ [] ∧ Q u v pts ∧
          len ≤ (1 + κ) * (pathLength dist ((WithLp.toLp 2 (e.curvePointR fl u) : Space (n + 1)) :: pts ++ [WithLp.toLp 2 (e.curvePointR fl v)]) +
            err * pts.length) + (pts.length + 1) * α} ≤
      ENNReal.ofReal q + EReal.exp (tailKL m k s (n + 1) e.volume) := by
  have d0 : 0 < delta := lt_of_lt_of_le (by positivity) hd0
  obtain ⟨g1, g2⟩ := straight_end_ge fd fL d0.le hl
  obtain ⟨e0, he0, b1, b2⟩ := straightR_box he
  have hl' : 0 ≤ fl (length + delta) - delta := by linarith
  have hX : IidUniform Pr (fun i ω => (WithLp.toLp 2 (e0.sample (U i ω)) : Space (n + 1))) (corridorSet n delta (fl (length + delta) - delta)) :=
    C84_straight d0 hl' he0 hU
  have hve : e0.volume = e.volume := by
    unfold StraightLine.volume
    rw [b1, b2]
  have hvol2 := corridor_volume hl' he0
  have hv : 0 < e0.volume := by
    rw [(C15_volume hl' he0).2]
    have : 0 < fl (length + delta) - delta + 2 * delta := by linarith
    positivity
  have hcore := straight_core fd fL hd0 hl he hU hδ0 hδ hδ' hvol ht h2N hb le_rfl (r' := r + err) (by rw [add_zero, one_mul, herr]) d hhops
  have hp0 := measureReal_nonneg.trans hcore
  have hnull := draws_null hU
  have h4 := (measure_union_le _ _).trans (add_le_add (to_ennreal hp0 hcore)
    (C80_chernoff_kl hX (corridor_measurable _ _) (by omega) hv hvol2.ge (by omega : 2 ≤ m) hs0 (Nat.cast_nonneg k) (d + 1)))
  rw [hve] at h4
  refine le_trans (measure_mono fun ω hω => ?_) ((measure_union_le _ _).trans ((add_le_add h4 hnull.le).trans (add_zero _).le))
  by_contra hnot
  rw [Set.mem_union, not_or, Set.mem_union, not_or] at hnot
  obtain ⟨⟨n1, n2⟩, n3⟩ := hnot
  apply hω
  intro w td ops rs u v hw hops hok hrs
  obtain ⟨pts, pts', hQ, h5, h6, h7⟩ := not_not.1 n1 _ (envWorld_float _ _) m hN u v
  obtain ⟨len, path, g1, g2, g3⟩ := straight_rounded_answer (U := fun i => U i ω)
    (X := fun i ω => (WithLp.toLp 2 (e0.sample (U i ω)) : Space (n + 1))) (ω := ω) fd fL hd0 hl he b1 b2 (fun _ => rfl) (not_not.1 n3) hκ0 hκ herr hr hs hB hk
    n2 hw hops hok hrs h5
  refine ⟨len, path, pts, g1, g2, hQ, g3.trans (add_le_add (mul_le_mul_of_nonneg_left ?_ (by linarith)) (mul_le_mul_of_nonneg_right ?_ hα))⟩
  · rw [add_zero, one_mul, ← herr] at h6
    exact h6
  · have : (pts'.length : ℝ) ≤ pts.length := by exact_mod_cast h7
    linarith

/-- C144, straight line: the same for the k-NN planner in the straight-line environment, for all queries between two points of the line at once. Bounds, samples and points of
the line are rounded, distances have relative error `κ` and absolute error `α` in a set that contains the box. -/
theorem C144_line {delta length δ κ α vol : ℝ} (fd : IsFloat delta) (fL : IsFloat length) (hd0 : 2 ^ (-100 : ℤ) ≤ delta)
    (hl : 0 ≤ length) {e : StraightLine ℝ n} (he : StraightLine.initR fl n delta length = .ok e) {U : ℕ → Ω → Fin (n + 1) → ℝ}
    (hU : UnitDraws Pr U) (hδ0 : 0 < δ) (hδ : δ ≤ delta) (hδ' : length + δ ≤ fl (length + delta)) (hvol : e.volume ≤ vol) {p : ℝ} {tol : Option ℝ}
    {fuel N : ℕ} {r r' s err : ℝ} (ht : TolNonneg tol) (h : numericalBound δ p vol (n + 1) tol fuel = some (.ok (N, r)))
    (hκ0 : 0 ≤ κ) (hκ : κ < 1) (hα : 0 ≤ α) (hs0 : 0 ≤ s) (herr : err = Real.sqrt (n + 1) * 2 ^ (-49 : ℤ) * (fl (length + delta) + delta))
    (hr : (1 + κ) * (r + err) + α < r') (hs : r' + α ≤ (1 - κ) * (s - err)) {B : Set (Space (n + 1))}
    (hB : corridorSet n delta (fl (length + delta) - delta) ⊆ B) {m k : ℕ} (hN : N ≤ m) (hk : k + 1 ≤ m) (tr : Bool) (d : ℕ) :
    Pr {ω | ¬ ∀ (w : World (Space (n + 1)) ℝ) (td : Space (n + 1) → Space (n + 1) → ℝ) (ops rs : List (Knn.Op (Space (n + 1)) ℝ)) (u v : ℝ),
        FloatKnnWorld w td κ α B e.isMotionValid (fun i => e.sampleR fl fun j => random53 (U i ω j)) →
        (∀ o ∈ ops, o ≠ .reset ∧ ∀ k', o ≠ .setNeighbors k') → (((Knn.init k tr d).run w ops).grow w m).2 = .ok () →
        (∀ o ∈ rs, (∃ r₀, o = .setRadius r₀ ∧ r' ≤ r₀) ∨ ∃ a b, o = .query a b) →
        ∃ len pts, (((Knn.init k tr d).run w (ops ++ .grow m :: rs)).query w (WithLp.toLp 2 (e.curvePointR fl u)) (WithLp.toLp 2 (e.curvePointR fl v))).2 =
            .ok (len, pts) ∧ pts ≠ []} ≤
      ENNReal.ofReal (1 - p) + EReal.exp (tailKL m k s (n + 1) e.volume) := by
  have h2 := (C02_least (by omega) hδ0.le ht h).1
  refine le_trans (measure_mono fun ω hω => ?_) (straight_rounded (Q := fun _ _ _ => True) fd fL hd0 hl he hU hδ0 hδ hδ' hvol ht h2
    (C01_sufficient (by omega) hδ0.le ht h N le_rfl) hκ0 hκ hα hs0 herr hr hs hB hN hk tr d fun S hS u v => by
      obtain ⟨γ, hγ, -⟩ := lineR_clear hδ hδ' fL hl he u v
      obtain ⟨pts, h1, h2, h3⟩ := clearPath_hops hγ (netRadius_le hδ0.le tol) (radius_ge hδ0.le h) hS
      exact ⟨pts, h1, h2, h3, trivial⟩)
  intro hall
  apply hω
  intro w td ops rs u v hw hops hok hrs
  obtain ⟨len, path, -, h1, h2, -⟩ := hall w td ops rs u v hw hops hok hrs
  exact ⟨_, path, h1, h2⟩

/-- C144, straight line, length: the same with stretch factor `1 + ε`, where `x` is the distance of the two points of the line. -/
theorem C144_line_length {delta length δ κ α vol ε : ℝ} (fd : IsFloat delta) (fL : IsFloat length) (hd0 : 2 ^ (-100 : ℤ) ≤ delta)
    (hl : 0 ≤ length) {e : StraightLine ℝ n} (he : StraightLine.initR fl n delta length = .ok e) {U : ℕ → Ω → Fin (n + 1) → ℝ}
    (hU : UnitDraws Pr U) (hδ0 : 0 < δ) (hδ : δ ≤ delta) (hδ' : length + δ ≤ fl (length + delta)) (hvol : e.volume ≤ vol) {p : ℝ}
    {fuel N : ℕ} {r r' s err D : ℝ} (ht : 0 ≤ ε) (h : numericalBound δ p vol (n + 1) (some ε) fuel = some (.ok (N, r)))
    (hκ0 : 0 ≤ κ) (hκ : κ < 1) (hα : 0 ≤ α) (hs0 : 0 ≤ s) (herr : err = Real.sqrt (n + 1) * 2 ^ (-49 : ℤ) * (fl (length + delta) + delta))
    (hr : (1 + κ) * (r + err) + α < r') (hs : r' + α ≤ (1 - κ) * (s - err)) {B : Set (Space (n + 1))}
    (hB : corridorSet n delta (fl (length + delta) - delta) ⊆ B) {m k : ℕ} (hN : N ≤ m) (hk : k + 1 ≤ m) (tr : Bool) (d : ℕ)
    (hD : D = 2 * δ / Real.sqrt (1 + ε ^ 2)) :
    Pr {ω | ¬ ∀ (w : World (Space (n + 1)) ℝ) (td : Space (n + 1) → Space (n + 1) → ℝ) (ops rs : List (Knn.Op (Space (n + 1)) ℝ)) (u v x : ℝ),
        FloatKnnWorld w td κ α B e.isMotionValid (fun i => e.sampleR fl fun j => random53 (U i ω j)) →
        (∀ o ∈ ops, o ≠ .reset ∧ ∀ k', o ≠ .setNeighbors k') → (((Knn.init k tr d).run w ops).grow w m).2 = .ok () →
        (∀ o ∈ rs, (∃ r₀, o = .setRadius r₀ ∧ r' ≤ r₀) ∨ ∃ a b, o = .query a b) →
        x = |e.curvePointR fl u 0 - e.curvePointR fl v 0| →
        ∃ (len : ℝ) (pts : List (Space (n + 1))),
          (((Knn.init k tr d).run w (ops ++ .grow m :: rs)).query w (WithLp.toLp 2 (e.curvePointR fl u)) (WithLp.toLp 2 (e.curvePointR fl v))).2 =
            .ok ((len : WithTop ℝ), pts) ∧ pts ≠ [] ∧
          len ≤ (1 + κ) * (x + (ε + err / D) * max x D) + (max x D / D + 1) * α} ≤
      ENNReal.ofReal (1 - p) + EReal.exp (tailKL m k s (n + 1) e.volume) := by
  have h2 := (C02_least (by omega) hδ0.le (show TolNonneg (some ε) from ht) h).1
  obtain ⟨f1, f2, f3, f4⟩ := spacing_facts (t := ε) hδ0
  have hDs : D = spacing δ ε := hD
  have d0 : 0 < delta := lt_of_lt_of_le (by positivity) hd0
  obtain ⟨g1, -⟩ := straight_end_ge fd fL d0.le hl
  have err0 : 0 ≤ err := by
    rw [herr]
    exact mul_nonneg (by positivity) (by linarith)
  refine le_trans (measure_mono fun ω hω => ?_) (straight_rounded (tol := some ε)
    (Q := fun s t pts =>
      pathLength dist ((WithLp.toLp 2 (e.curvePointR fl s) : Space (n + 1)) :: pts ++ [WithLp.toLp 2 (e.curvePointR fl t)]) ≤
        |e.curvePointR fl s 0 - e.curvePointR fl t 0| + ε * max |e.curvePointR fl s 0 - e.curvePointR fl t 0| (spacing δ ε) ∧
      pts.length * spacing δ ε ≤ max |e.curvePointR fl s 0 - e.curvePointR fl t 0| (spacing δ ε)) fd fL hd0 hl he hU hδ0 hδ hδ' hvol ht h2
    (C01_sufficient (by omega) hδ0.le (show TolNonneg (some ε) from ht) h N le_rfl) hκ0 hκ hα hs0 herr hr hs hB hN hk tr d fun S hS u v => by
      obtain ⟨γ, hγ, hL⟩ := lineR_clear hδ hδ' fL hl he u v
      obtain ⟨pts, h1, h2, h3, h4, h5⟩ := clearPath_short_hops_count hγ hL (abs_nonneg _) hδ0 f1 (by rw [f2, ← C06_radius_consistent h]) f3.le hS
      rw [f4] at h4
      exact ⟨pts, h1, h2, h3, h4, h5⟩)
  intro hall
  apply hω
  intro w td ops rs u v x hw hops hok hrs hx
  obtain ⟨len, path, pts, h1, h2, ⟨q1, q2⟩, h3⟩ := hall w td ops rs u v hw hops hok hrs
  rw [← hx] at q1 q2
  rw [hDs]
  refine ⟨len, path, h1, h2, h3.trans (add_le_add (mul_le_mul_of_nonneg_left ?_ (by linarith)) (mul_le_mul_of_nonneg_right ?_ hα))⟩
  · exact moved_length_le f1 err0 q1 q2
  · rw [add_le_add_iff_right, le_div_iff₀ f1]
    exact q2

/-! ### The hypotheses can be met: tables in single precision -/

/-- `envWorld` with a nearest-neighbour library that rounds its distances to single precision. -/
noncomputable abbrev singleEnv {dim : ℕ} (valid : (Fin dim → ℝ) → (Fin dim → ℝ) → Bool) (x : ℕ → Fin dim → ℝ) : World (Space dim) ℝ :=
  { envWorld valid x with
    knn := exactKnn fun p q => Float32.fl (dist p q)
    knnUpdate := fun S new k => exactKnn (fun p q => Float32.fl (dist p q)) (S ++ new) k }

theorem singleEnv_float {dim : ℕ} (valid : (Fin dim → ℝ) → (Fin dim → ℝ) → Bool) (x : ℕ → Fin dim → ℝ) :
    FloatKnnWorld (singleEnv valid x) (fun p q => Float32.fl (dist p q)) (2 ^ (-24 : ℤ)) (2 ^ (-150 : ℤ)) Set.univ valid x where
  near :=
    { sound :=
        { dist_symm := dist_comm
          dist_nonneg := fun _ _ => dist_nonneg
          td_symm := fun p q => by rw [dist_comm]
          td_nonneg := fun _ _ => Float32.fl_nonneg dist_nonneg
          dijkstra := refShortest_correct
          knn := fun S k => exactKnn_true { envWorld valid x with dist := fun p q => Float32.fl (dist p q) } S k
          knnUpdate := fun S new k => exactKnn_true { envWorld valid x with dist := fun p q => Float32.fl (dist p q) } (S ++ new) k }
      dist := fun p _ q _ => by
        have h : (singleEnv valid x).dist p q = dist p q := rfl
        rw [h, sub_self, abs_zero]
        positivity
      table := fun p _ q _ => by
        have := Float32.fl_err (dist p q)
        rwa [abs_of_nonneg (dist_nonneg (x := p) (y := q))] at this
      dist_self := fun p => dist_self p
      table_self := fun p => by rw [dist_self, Float32.fl_zero] }
  knn :=
    { exact := fun S k => exactKnn_table { singleEnv valid x with dist := fun p q => Float32.fl (dist p q) } S k
      sorted := by
        intro S k row hrow
        obtain ⟨a, -, rfl⟩ := List.mem_map.1 hrow
        exact (List.pairwise_insertionSort (fun x y : ℕ × ℝ => x.2 ≤ y.2) _).sublist (List.take_sublist _ _)
      visits := fun _ _ e he => ⟨e, he, by simp [Edge.joins], rfl⟩ }
  draw := fun _ => rfl
  check := fun _ _ => rfl

/-- A count of at most 6400 is returned in the plane when a net measure of 1/64 is asked for. -/
theorem answers_6400 {δ vol : ℝ} (hδ : 0 ≤ δ) (h : 1 / 64 ≤ netMeasure δ none 2 vol) :
    ∃ fuel N r, numericalBound δ (1 / 2) vol 2 none fuel = some (.ok (N, r)) ∧ r = 2 * δ ∧ N ≤ 6400 := by
  have hb : failureBound 6400 (netMeasure δ none 2 vol) (2 + 1) ≤ 1 - 1 / 2 := by
    have h1 : failureBound 6400 (netMeasure δ none 2 vol) (2 + 1) ≤ failureBound 6400 (1 / 64) (2 + 1) := by
      unfold failureBound
      gcongr
      norm_num
    refine h1.trans ?_
    unfold failureBound
    have : -((1 / 64 : ℝ) * ((6400 : ℕ) : ℝ)) / 2 = -((50 : ℕ) : ℝ) := by norm_num
    rw [this, Real.rpow_neg (by norm_num), Real.rpow_natCast]
    have h2 : Nat.choose 12800 2 = 81913600 := by
      rw [Nat.choose_eq_descFactorial_div_factorial]
      norm_num [Nat.descFactorial, Nat.factorial]
    have h3 : Nat.choose 12800 3 = 349443417600 := by
      rw [Nat.choose_eq_descFactorial_div_factorial]
      norm_num [Nat.descFactorial, Nat.factorial]
    norm_num [Finset.sum_range_succ, h2, h3]
  obtain ⟨fuel, N, r, hn⟩ := C03_answers_partial (dim := 2) (tol := none) (by norm_num) hδ trivial (by norm_num) (by norm_num) ⟨6400, by norm_num, by norm_num, hb⟩
  refine ⟨fuel, N, r, hn, ?_, ?_⟩
  · obtain ⟨-, -, hr, -⟩ := numericalBound_ok hn
    rw [hr]
    simp [alpha]
  · by_contra hlt
    have := (C02_least (tol := none) (by norm_num) hδ trivial hn).2 6400 (by norm_num) (by omega)
    linarith

theorem ballFraction_planar {r vol : ℝ} (hr : 0 ≤ r) : ballFraction r 2 vol = Real.pi * r ^ 2 / vol := by
  rw [ballFraction_eq (by norm_num) hr, volume_disc r hr, ENNReal.toReal_ofReal (by have := Real.pi_pos; positivity)]

theorem narrow_quarter_volume : (NarrowPassage.init 1 (1 / 4 : ℝ)).volume = 5 / 2 := by
  obtain ⟨b1, b2, b3⟩ := narrow_boxVol (n := 1) (1 / 4 : ℝ)
  have : (NarrowPassage.init 1 (1 / 4 : ℝ)).volume = 1 + 1 + |2 * (1 / 4 : ℝ)| ^ 1 := congrArg₂ (· + ·) (congrArg₂ (· + ·) b1 b2) b3
  rw [this, abs_of_nonneg (by norm_num)]
  norm_num

theorem sqrt_two_le : Real.sqrt ((1 : ℕ) + 1) ≤ 2 := by
  rw [Real.sqrt_le_left (by norm_num)]
  norm_num

theorem room_up {κ α e r r' : ℝ} (h0 : 0 ≤ κ) (h1 : κ ≤ 1 / 1000) (h2 : α ≤ 1 / 1000) (h3 : 0 ≤ e) (h4 : e ≤ 1 / 1000)
    (h : (1 + 1 / 1000) * (|r| + 1 / 1000) + 1 / 1000 < r') : (1 + κ) * (r + e) + α < r' := by
  have h5 : (1 + κ) * (r + e) ≤ (1 + 1 / 1000) * (|r| + 1 / 1000) := by
    refine (mul_le_mul_of_nonneg_left (add_le_add (le_abs_self r) h4) (by linarith)).trans (mul_le_mul_of_nonneg_right (by linarith) ?_)
    have := abs_nonneg r
    linarith
  linarith

theorem room_down {κ α e r' s : ℝ} (h0 : 0 ≤ κ) (h1 : κ ≤ 1 / 1000) (h2 : α ≤ 1 / 1000) (_ : 0 ≤ e) (h4 : e ≤ 1 / 1000) (h5 : 1 / 1000 ≤ s)
    (h : r' + 1 / 1000 ≤ (1 - 1 / 1000) * (s - 1 / 1000)) : r' + α ≤ (1 - κ) * (s - e) := by
  have h5 : (1 - 1 / 1000) * (s - 1 / 1000) ≤ (1 - κ) * (s - e) :=
    mul_le_mul (by linarith) (by linarith) (by linarith) (by linarith)
  linarith

/-- The hypotheses of C144 are met by the planar narrow passage of half width 1/4, clearance 1/8, success probability 1/2, with a library that rounds its distances to single
precision: a count is returned, there are draws, a planner whose growth succeeds and a path through the passage between two float points, and the failure
probabilities add up to at most 7/8. -/
theorem C144_nonvacuous : ∃ (fuel N : ℕ) (r r' s κ α η : ℝ) (m k : ℕ),
    numericalBound (1 / 8) (1 / 2) (NarrowPassage.init 1 (1 / 4 : ℝ)).volume 2 none fuel = some (.ok (N, r)) ∧ IsFloat (1 / 4 : ℝ) ∧
    Real.sqrt ((1 : ℕ) + 1) * 2 ^ (-44 : ℤ) ≤ η ∧ 0 < κ ∧ κ < 1 ∧ 0 < α ∧ 0 ≤ s ∧
    (1 + κ) * (r + Real.sqrt ((1 : ℕ) + 1) * 2 ^ (-50 : ℤ)) + α < r' ∧ r' + α ≤ (1 - κ) * (s - Real.sqrt ((1 : ℕ) + 1) * 2 ^ (-50 : ℤ)) ∧ N ≤ m ∧ k + 1 ≤ m ∧
    ENNReal.ofReal (1 - 1 / 2 + ((1 : ℕ) + 1) * (N + 1) ^ 2 * 2 ^ (-50 : ℤ)) + EReal.exp (tailKL m k s 2 (NarrowPassage.init 1 (1 / 4 : ℝ)).volume) ≤
      ENNReal.ofReal (7 / 8) ∧
    (∃ Pr : Measure (ℕ → Region × (Fin 2 → ℝ)), IsProbabilityMeasure Pr ∧
      ChoiceDraws Pr (narrowWeight 1 (1 / 4)) (fun i x => (x i).1) (fun i x => (x i).2)) ∧
    (∀ x, ∃ (w : World (Space 2) ℝ) (td : Space 2 → Space 2 → ℝ),
      FloatKnnWorld w td κ α Set.univ ((NarrowPassage.init 1 (1 / 4 : ℝ)).isMotionValidR fl) x ∧ (((Knn.init k true 0).run w []).grow w m).2 = .ok ()) ∧
    ∃ (a b : Space 2) (γ : ℝ → Space 2), a 0 = -1 ∧ b 0 = 1 ∧ (∀ i, IsFloat (a i) ∧ (a i = 0 ∨ 2 ^ (-800 : ℤ) ≤ |a i|)) ∧
      (∀ i, IsFloat (b i) ∧ (b i = 0 ∨ 2 ^ (-800 : ℤ) ≤ |b i|)) ∧ ClearPath (narrowSet 1 (1 / 4)) (1 / 8 + η) a b γ := by
  have hvol := narrow_quarter_volume
  have hpi := Real.pi_gt_three
  have hpi' := Real.pi_lt_d2
  obtain ⟨fuel, N, r, h, hr, hN⟩ := answers_6400 (δ := 1 / 8) (vol := (NarrowPassage.init 1 (1 / 4 : ℝ)).volume) (by norm_num) (by
    rw [netMeasure_planar (by norm_num) none trivial, hvol]
    simp only [netRadius]
    linarith)
  have hs2 := sqrt_two_le
  have hs0 : 0 ≤ Real.sqrt ((1 : ℕ) + 1) := Real.sqrt_nonneg _
  have h50 : Real.sqrt ((1 : ℕ) + 1) * 2 ^ (-50 : ℤ) ≤ 1 / 1000 := by
    refine (mul_le_mul_of_nonneg_right hs2 (by positivity)).trans ?_
    norm_num
  have h50' : 0 ≤ Real.sqrt ((1 : ℕ) + 1) * 2 ^ (-50 : ℤ) := by positivity
  have h24 : (2 : ℝ) ^ (-24 : ℤ) ≤ 1 / 1000 := by norm_num
  have h24' : (0 : ℝ) < 2 ^ (-24 : ℤ) := by positivity
  have h150 : (2 : ℝ) ^ (-150 : ℤ) ≤ 1 / 1000 := by norm_num
  have h150' : (0 : ℝ) < 2 ^ (-150 : ℤ) := by positivity
  have hγ : ∃ γ, ClearPath (narrowSet 1 (1 / 4)) (1 / 8 + 1 / 16) (WithLp.toLp 2 (headRest (-1) 0) : Space 2) (WithLp.toLp 2 (headRest 1 0)) γ := by
    obtain ⟨γ, hγ, -⟩ := narrow_path_rim (n := 1) (c := 1 / 4) (δ := 1 / 8 + 1 / 16) (A := WithLp.toLp 2 (headRest (-1) 0)) (D := WithLp.toLp 2 (headRest 1 0))
      (by norm_num) (by norm_num) (by norm_num) ⟨by change _ ≤ (-1 : ℝ); norm_num, by change (-1 : ℝ) ≤ _; norm_num⟩
      (fun i => ⟨by change _ ≤ (0 : ℝ); norm_num, by change (0 : ℝ) ≤ _; norm_num⟩) ⟨by change _ ≤ (1 : ℝ); norm_num, by change (1 : ℝ) ≤ _; norm_num⟩
      (fun i => ⟨by change _ ≤ (0 : ℝ); norm_num, by change (0 : ℝ) ≤ _; norm_num⟩)
    exact ⟨γ, hγ⟩
  obtain ⟨γ, hγ⟩ := hγ
  refine ⟨fuel, N, r, 26 / 100, 5 / 16, 2 ^ (-24 : ℤ), 2 ^ (-150 : ℤ), 1 / 16, N + 8, N + 7, h, ⟨1, -2, by norm_num, by norm_num, by norm_num⟩, ?_, h24',
    lt_of_le_of_lt h24 (by norm_num), h150', by norm_num, ?_, ?_, by omega, by omega, ?_, (C84_nonvacuous (n := 1)).2.2.1 (1 / 4), fun x => ?_, _, _, γ, rfl, rfl, ?_, ?_, hγ⟩
  · refine (mul_le_mul_of_nonneg_right hs2 (by positivity)).trans ?_
    norm_num
  · rw [hr]
    exact room_up h24'.le h24 h150 h50' h50 (by norm_num)
  · exact room_down h24'.le h24 h150 h50' h50 (by norm_num) (by norm_num)
  · have ht := tail_eighth (m := N + 8) (by omega) (r := 5 / 16) (vol := (NarrowPassage.init 1 (1 / 4 : ℝ)).volume) (dim := 2)
      (by rw [ballFraction_planar (by norm_num), hvol]; positivity) (by
        rw [ballFraction_planar (by norm_num), hvol]
        linarith)
    refine (add_le_add (ENNReal.ofReal_le_ofReal (q := 5 / 8) ?_) ht).trans ?_
    · have hN' : (N : ℝ) + 1 ≤ 6401 := by exact_mod_cast Nat.succ_le_succ hN
      have h1 : ((N : ℝ) + 1) ^ 2 ≤ 6401 ^ 2 := pow_le_pow_left₀ (by positivity) hN' 2
      have h2 : (2 : ℝ) ^ (-50 : ℤ) ≤ 1 / 2 ^ 40 := by norm_num
      have h3 : ((1 : ℕ) + 1 : ℝ) * ((N : ℝ) + 1) ^ 2 * 2 ^ (-50 : ℤ) ≤ ((1 : ℕ) + 1) * 6401 ^ 2 * (1 / 2 ^ 40) := by gcongr
      refine (add_le_add_right h3 _).trans ?_
      norm_num
    · rw [← ENNReal.ofReal_add (by norm_num) (by norm_num)]
      norm_num
  · have hw := singleEnv_float ((NarrowPassage.init 1 (1 / 4 : ℝ)).isMotionValidR fl) x
    exact ⟨_, _, hw, near_grow hw.near.sound hw.knn (by omega) (by omega)⟩
  · intro i
    refine Fin.cases ⟨one_isFloat.neg, Or.inr ?_⟩ (fun j => ⟨zero_isFloat, Or.inl rfl⟩) i
    change _ ≤ |(-1 : ℝ)|
    rw [abs_neg, abs_one]
    exact zpow_le_one_of_nonpos₀ (by norm_num) (by norm_num)
  · intro i
    refine Fin.cases ⟨one_isFloat, Or.inr ?_⟩ (fun j => ⟨zero_isFloat, Or.inl rfl⟩) i
    change _ ≤ |(1 : ℝ)|
    rw [abs_one]
    exact zpow_le_one_of_nonpos₀ (by norm_num) (by norm_num)

/-- The hypotheses of C144 for the straight line are met by the planar corridor of half width 1 and length 2, clearance 1/4, success probability 1/2, with a library that
rounds its distances to single precision; the failure probabilities add up to at most 3/4. -/
theorem C144_line_nonvacuous : ∃ (e : StraightLine ℝ 1) (fuel N : ℕ) (r r' s κ α err : ℝ) (m k : ℕ),
    StraightLine.initR fl 1 1 2 = .ok e ∧ IsFloat (1 : ℝ) ∧ IsFloat (2 : ℝ) ∧ (2 : ℝ) + 1 / 4 ≤ fl (2 + 1) ∧
    numericalBound (1 / 4) (1 / 2) e.volume 2 none fuel = some (.ok (N, r)) ∧ 0 < κ ∧ κ < 1 ∧ 0 < α ∧ 0 ≤ s ∧
    err = Real.sqrt ((1 : ℕ) + 1) * 2 ^ (-49 : ℤ) * (fl (2 + 1) + 1) ∧
    (1 + κ) * (r + err) + α < r' ∧ r' + α ≤ (1 - κ) * (s - err) ∧ N ≤ m ∧ k + 1 ≤ m ∧
    ENNReal.ofReal (1 - 1 / 2) + EReal.exp (tailKL m k s 2 e.volume) ≤ ENNReal.ofReal (3 / 4) ∧
    (∃ Pr : Measure (ℕ → Fin 2 → ℝ), IsProbabilityMeasure Pr ∧ UnitDraws Pr (fun i x => x i)) ∧
    ∀ x, ∃ (w : World (Space 2) ℝ) (td : Space 2 → Space 2 → ℝ),
      FloatKnnWorld w td κ α Set.univ e.isMotionValid x ∧ (((Knn.init k true 0).run w []).grow w m).2 = .ok () := by
  have f3 : fl ((2 : ℝ) + 1) = 2 + 1 := fl_float ⟨3, 0, by norm_num, by norm_num, by norm_num⟩
  obtain ⟨e, he, he'⟩ : ∃ e : StraightLine ℝ 1, StraightLine.init 1 1 2 = .ok e ∧ StraightLine.initR fl 1 1 2 = .ok e := by
    obtain ⟨e, he⟩ := (C15_init (n := 1) (1 : ℝ) 2).1.1 (by norm_num)
    refine ⟨e, he, ?_⟩
    unfold StraightLine.initR
    rw [f3]
    exact he
  have hvol : e.volume = 8 := by
    rw [(C15_volume (by norm_num) he).2]
    norm_num
  have hpi := Real.pi_gt_three
  have hpi' := Real.pi_lt_d2
  obtain ⟨fuel, N, r, h, hr, -⟩ := answers_6400 (δ := 1 / 4) (vol := e.volume) (by norm_num) (by
    rw [netMeasure_planar (by norm_num) none trivial, hvol]
    simp only [netRadius]
    linarith)
  have hs2 := sqrt_two_le
  have h49 : Real.sqrt ((1 : ℕ) + 1) * 2 ^ (-49 : ℤ) * (fl (2 + 1) + 1) ≤ 1 / 1000 := by
    rw [f3]
    refine (mul_le_mul_of_nonneg_right (mul_le_mul_of_nonneg_right hs2 (by positivity)) (by norm_num)).trans ?_
    norm_num
  have h49' : 0 ≤ Real.sqrt ((1 : ℕ) + 1) * 2 ^ (-49 : ℤ) * (fl (2 + 1) + 1) := by
    rw [f3]
    positivity
  have h24 : (2 : ℝ) ^ (-24 : ℤ) ≤ 1 / 1000 := by norm_num
  have h24' : (0 : ℝ) < 2 ^ (-24 : ℤ) := by positivity
  have h150 : (2 : ℝ) ^ (-150 : ℤ) ≤ 1 / 1000 := by norm_num
  have h150' : (0 : ℝ) < 2 ^ (-150 : ℤ) := by positivity
  refine ⟨e, fuel, N, r, 51 / 100, 9 / 16, 2 ^ (-24 : ℤ), 2 ^ (-150 : ℤ), _, N + 8, N + 7, he', one_isFloat, ⟨1, 1, by norm_num, by norm_num, by norm_num⟩,
    by rw [f3]; norm_num, h, h24', lt_of_le_of_lt h24 (by norm_num), h150', by norm_num, rfl, ?_, ?_, by omega, by omega, ?_, exists_unitDraws 2, fun x => ?_⟩
  · rw [hr]
    exact room_up h24'.le h24 h150 h49' h49 (by norm_num)
  · exact room_down h24'.le h24 h150 h49' h49 (by norm_num) (by norm_num)
  · have ht := tail_eighth (m := N + 8) (by omega) (r := 9 / 16) (vol := e.volume) (dim := 2)
      (by rw [ballFraction_planar (by norm_num), hvol]; positivity) (by
        rw [ballFraction_planar (by norm_num), hvol]
        linarith)
    refine (add_le_add le_rfl ht).trans ?_
    rw [← ENNReal.ofReal_add (by norm_num) (by norm_num)]
    norm_num
  · have hw := singleEnv_float e.isMotionValid x
    exact ⟨_, _, hw, near_grow hw.near.sound hw.knn (by omega) (by omega)⟩

end Verif.Props
