import Mathlib.MeasureTheory.Constructions.BorelSpace.Order
import Mathlib.MeasureTheory.Measure.Prod
import Mathlib.Probability.Independence.Basic
import Verif.Lemmas.Draws

/-! How often samples that are drawn with finite precision share a coordinate. -/

namespace Verif.Net

open MeasureTheory ProbabilityTheory Verif.Spec

variable {Ω : Type*} [MeasurableSpace Ω] {Pr : Measure Ω} [IsProbabilityMeasure Pr] {ι : Type*} [MeasurableSpace ι] [Fintype ι]
  [MeasurableSingletonClass ι] {p : ι → ℝ} {m : ℕ} {R : ℕ → Ω → ι} {U : ℕ → Ω → Fin m → ℝ}

/-- The draws from the unit cube with the `i`-th coordinate in a short interval. -/
theorem slab_volume (i : Fin m) {lo hi : ℝ} (T : Set ℝ) (hT : ∀ u ∈ T, 0 ≤ u → u ≤ 1 → lo ≤ u ∧ u ≤ hi) :
    volume (Set.Icc (0 : Fin m → ℝ) 1 ∩ {u | u i ∈ T}) ≤ ENNReal.ofReal (hi - lo) := by
  have hsub : Set.Icc (0 : Fin m → ℝ) 1 ∩ {u | u i ∈ T} ⊆ Set.Icc (Function.update 0 i lo) (Function.update 1 i hi) := by
    rintro u ⟨⟨h0, h1⟩, hu⟩
    have := hT _ hu (h0 i) (h1 i)
    constructor <;> intro j <;> by_cases hj : j = i
    · subst hj; simpa using this.1
    · simpa [hj] using h0 j
    · subst hj; simpa using this.2
    · simpa [hj] using h1 j
  refine (measure_mono hsub).trans ?_
  rw [Real.volume_Icc_pi, Finset.prod_eq_single i]
  · simp
  · intro j _ hj
    simp [hj]
  · simp

variable {f : ι → ℝ → ℝ} {q : ℝ}

theorem hit_le (h : ChoiceDraws Pr p R U) (i : Fin m) (hf : ∀ r, Measurable (f r))
    (hq : ∀ r v, ∃ lo hi, hi - lo ≤ q ∧ ∀ u, 0 ≤ u → u ≤ 1 → f r u = v → lo ≤ u ∧ u ≤ hi) (k : ℕ) (v : ℝ) :
    Pr {ω | f (R k ω) (U k ω i) = v} ≤ ENNReal.ofReal q := by
  have hU : Pr.map (U k) = cond volume (Set.Icc 0 1) := h.uniform k
  have hm : ∀ r, MeasurableSet {u : Fin m → ℝ | f r (u i) = v} := fun r =>
    measurableSet_eq_fun ((hf r).comp (measurable_pi_apply i)) measurable_const
  have hone : ∀ r, Pr (U k ⁻¹' {u | f r (u i) = v}) ≤ ENNReal.ofReal q := by
    intro r
    rw [← Measure.map_apply (h.measurable' k) (hm r), hU, cond_apply measurableSet_Icc, cube_volume, inv_one, one_mul]
    obtain ⟨lo, hi, h1, h2⟩ := hq r v
    exact (slab_volume i {u | f r u = v} fun u hu h0 h1 => h2 u h0 h1 hu).trans (ENNReal.ofReal_le_ofReal h1)
  have hsub : {ω | f (R k ω) (U k ω i) = v} ⊆ ⋃ r, R k ⁻¹' {r} ∩ U k ⁻¹' {u | f r (u i) = v} := by
    intro ω hω
    exact Set.mem_iUnion.2 ⟨R k ω, rfl, hω⟩
  refine (measure_mono hsub).trans ((measure_iUnion_fintype_le _ _).trans ?_)
  calc ∑ r, Pr (R k ⁻¹' {r} ∩ U k ⁻¹' {u | f r (u i) = v})
      = ∑ r, Pr (R k ⁻¹' {r}) * Pr (U k ⁻¹' {u | f r (u i) = v}) := by
        refine Finset.sum_congr rfl fun r _ => ?_
        exact (h.indepPair k).measure_inter_preimage_eq_mul _ _ (measurableSet_singleton r) (hm r)
    _ ≤ ∑ r, Pr (R k ⁻¹' {r}) * ENNReal.ofReal q := Finset.sum_le_sum fun r _ => mul_le_mul_right (hone r) _
    _ = ENNReal.ofReal q := by
        rw [← Finset.sum_mul, sum_measure_preimage_singleton _ fun r _ => h.measurable k (measurableSet_singleton r)]
        simp

theorem meet_le (h : ChoiceDraws Pr p R U) (i : Fin m) (hf : ∀ r, Measurable (f r))
    (hq : ∀ r v, ∃ lo hi, hi - lo ≤ q ∧ ∀ u, 0 ≤ u → u ≤ 1 → f r u = v → lo ≤ u ∧ u ≤ hi) {k l : ℕ} (hkl : k ≠ l) :
    Pr {ω | f (R k ω) (U k ω i) = f (R l ω) (U l ω i)} ≤ ENNReal.ofReal q := by
  have hg : Measurable fun x : ι × (Fin m → ℝ) => f x.1 (x.2 i) :=
    measurable_from_prod_countable_right fun r => (hf r).comp (measurable_pi_apply i)
  have hY : ∀ k, Measurable fun ω => f (R k ω) (U k ω i) := fun k => hg.comp ((h.measurable k).prodMk (h.measurable' k))
  have hind : IndepFun (fun ω => f (R k ω) (U k ω i)) (fun ω => f (R l ω) (U l ω i)) Pr := (h.indep.indepFun hkl).comp hg hg
  have hmap := (indepFun_iff_map_prod_eq_prod_map_map (hY k).aemeasurable (hY l).aemeasurable).1 hind
  have hm : MeasurableSet {x : ℝ × ℝ | x.1 = x.2} := measurableSet_eq_fun measurable_fst measurable_snd
  have h1 : {ω | f (R k ω) (U k ω i) = f (R l ω) (U l ω i)} =
      (fun ω => (f (R k ω) (U k ω i), f (R l ω) (U l ω i))) ⁻¹' {x : ℝ × ℝ | x.1 = x.2} := rfl
  have := Measure.isProbabilityMeasure_map (μ := Pr) (hY k).aemeasurable
  rw [h1, ← Measure.map_apply ((hY k).prodMk (hY l)) hm, hmap, Measure.prod_apply hm]
  refine (lintegral_mono (g := fun _ => ENNReal.ofReal q) fun v => ?_).trans (by simp)
  have h2 : Prod.mk v ⁻¹' {x : ℝ × ℝ | x.1 = x.2} = {v} := by
    ext y
    simp [eq_comm]
  show Measure.map _ Pr _ ≤ _
  rw [h2, Measure.map_apply (hY l) (measurableSet_singleton v)]
  exact hit_le h i hf hq l v

/-- Among `N` successive samples: the probability that two share a coordinate, or one shares a coordinate with one of two given points. -/
theorem collision_le (h : ChoiceDraws Pr p R U) {g : Fin m → ι → ℝ → ℝ} (hg : ∀ i r, Measurable (g i r)) (q0 : 0 ≤ q)
    (hq : ∀ i r v, ∃ lo hi, hi - lo ≤ q ∧ ∀ u, 0 ≤ u → u ≤ 1 → g i r u = v → lo ≤ u ∧ u ≤ hi) (a b : Fin m → ℝ) (d N : ℕ) :
    Pr.real {ω | ¬ ((∀ k < N, ∀ i, g i (R (d + k) ω) (U (d + k) ω i) ≠ a i ∧ g i (R (d + k) ω) (U (d + k) ω i) ≠ b i) ∧
      ∀ k < N, ∀ l < N, k ≠ l → ∀ i, g i (R (d + k) ω) (U (d + k) ω i) ≠ g i (R (d + l) ω) (U (d + l) ω i))} ≤
      m * (N + 1) ^ 2 * q := by
  have hsub : {ω | ¬ ((∀ k < N, ∀ i, g i (R (d + k) ω) (U (d + k) ω i) ≠ a i ∧ g i (R (d + k) ω) (U (d + k) ω i) ≠ b i) ∧
      ∀ k < N, ∀ l < N, k ≠ l → ∀ i, g i (R (d + k) ω) (U (d + k) ω i) ≠ g i (R (d + l) ω) (U (d + l) ω i))} ⊆
      (⋃ x : Fin N × Fin m, {ω | g x.2 (R (d + x.1) ω) (U (d + x.1) ω x.2) = a x.2}) ∪
      (⋃ x : Fin N × Fin m, {ω | g x.2 (R (d + x.1) ω) (U (d + x.1) ω x.2) = b x.2}) ∪
      ⋃ x : Fin N × Fin N × Fin m, {ω | x.1 ≠ x.2.1 ∧ g x.2.2 (R (d + x.1) ω) (U (d + x.1) ω x.2.2) =
        g x.2.2 (R (d + x.2.1) ω) (U (d + x.2.1) ω x.2.2)} := by
    intro ω hω
    by_contra hn
    apply hω
    simp only [Set.mem_union, Set.mem_iUnion, Set.mem_ofPred_eq, not_or, not_exists, not_and] at hn
    refine ⟨fun k hk i => ⟨hn.1.1 (⟨k, hk⟩, i), hn.1.2 (⟨k, hk⟩, i)⟩, fun k hk l hl hkl i => ?_⟩
    exact hn.2 (⟨k, hk⟩, ⟨l, hl⟩, i) (fun e => hkl (Fin.mk.inj e))
  have real_le : ∀ {s : Set Ω}, Pr s ≤ ENNReal.ofReal q → Pr.real s ≤ q := fun hs => ENNReal.toReal_le_of_le_ofReal q0 hs
  have one : ∀ c : Fin m → ℝ, Pr.real (⋃ x : Fin N × Fin m, {ω | g x.2 (R (d + x.1) ω) (U (d + x.1) ω x.2) = c x.2}) ≤ N * m * q := by
    intro c
    refine (measureReal_iUnion_fintype_le _).trans ((Finset.sum_le_sum fun x _ =>
      real_le (hit_le h x.2 (hg x.2) (hq x.2) (d + x.1) (c x.2))).trans ?_)
    simp [mul_assoc]
  have two : Pr.real (⋃ x : Fin N × Fin N × Fin m, {ω | x.1 ≠ x.2.1 ∧ g x.2.2 (R (d + x.1) ω) (U (d + x.1) ω x.2.2) =
        g x.2.2 (R (d + x.2.1) ω) (U (d + x.2.1) ω x.2.2)}) ≤ N * N * m * q := by
    refine (measureReal_iUnion_fintype_le _).trans ((Finset.sum_le_sum (g := fun _ => q) fun x _ => ?_).trans ?_)
    · by_cases hx : x.1 = x.2.1
      · simp [hx, q0]
      · refine real_le ((measure_mono fun ω hω => ?_).trans (meet_le h x.2.2 (hg x.2.2) (hq x.2.2) (k := d + x.1) (l := d + x.2.1) ?_))
        · exact hω.2
        · intro e
          exact hx (Fin.ext (by omega))
    · simp [mul_assoc]
  refine (measureReal_mono hsub (measure_ne_top _ _)).trans ((measureReal_union_le _ _).trans ?_)
  have := measureReal_union_le (μ := Pr) (⋃ x : Fin N × Fin m, {ω | g x.2 (R (d + x.1) ω) (U (d + x.1) ω x.2) = a x.2})
    (⋃ x : Fin N × Fin m, {ω | g x.2 (R (d + x.1) ω) (U (d + x.1) ω x.2) = b x.2})
  have h3 := one a
  have h4 := one b
  have h5 : (0 : ℝ) ≤ m * q := by positivity
  have h6 : (m : ℝ) * (N + 1) ^ 2 * q = N * N * m * q + N * m * q + N * m * q + m * q := by ring
  linarith

end Verif.Net
