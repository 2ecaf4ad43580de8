import Mathlib.MeasureTheory.Measure.Lebesgue.EqHaar
import Mathlib.MeasureTheory.Measure.Haar.InnerProductSpace
import Mathlib.Probability.ConditionalProbability
import Mathlib.Probability.Independence.Basic
import Mathlib.Probability.Distributions.Uniform
import Mathlib.Tactic.Linarith
import Mathlib.Tactic.Ring

/-! Uniform laws: affine images, mixtures of pieces. -/

namespace Verif.Uniform

open MeasureTheory ProbabilityTheory

/-- A map that scales the measure carries uniform laws to uniform laws. -/
theorem map_cond {α β : Type*} [MeasurableSpace α] [MeasurableSpace β] {μ : Measure α} {ν : Measure β} {f : α → β} (hf : Measurable f)
    {k : ENNReal} (hk : k ≠ 0) (hk' : k ≠ ⊤) (h : μ.map f = k • ν) {T : Set β} (hT : MeasurableSet T) :
    (cond μ (f ⁻¹' T)).map f = cond ν T := by
  have key : ∀ A : Set β, MeasurableSet A → μ (f ⁻¹' A) = k * ν A := by
    intro A hA
    rw [← Measure.map_apply hf hA, h]
    rfl
  ext A hA
  rw [Measure.map_apply hf hA, cond_apply (hf hT), cond_apply hT, ← Set.preimage_inter, key _ (hT.inter hA), key _ hT,
    ENNReal.mul_inv (Or.inl hk) (Or.inl hk'), mul_mul_mul_comm, ENNReal.inv_mul_cancel hk hk', one_mul]

/-- Choosing a piece with probability proportional to its measure, and then a point uniformly in the piece, is uniform on the union. -/
theorem mixture {Ω ι α β : Type*} [MeasurableSpace Ω] [Fintype ι] [MeasurableSpace ι] [MeasurableSingletonClass ι] [MeasurableSpace α]
    [MeasurableSpace β] {Pr : Measure Ω} {ν : Measure β} {X : Ω → ι} {U : Ω → α} (hX : Measurable X) (hU : Measurable U)
    (hind : IndepFun X U Pr) {f : ι → α → β} (hf : ∀ i, Measurable (f i)) {B : ι → Set β} (hB : ∀ i, MeasurableSet (B i))
    (hd : Pairwise fun i j => AEDisjoint ν (B i) (B j)) (hw : ∀ i, Pr (X ⁻¹' {i}) = ν (B i) / ν (⋃ i, B i))
    (ht : ∀ i, ν (B i) ≠ ⊤)
    (hlaw : ∀ i, ν (B i) ≠ 0 → (Pr.map U).map (f i) = cond ν (B i)) :
    Pr.map (fun ω => f (X ω) (U ω)) = cond ν (⋃ i, B i) := by
  have hmeas : Measurable fun ω => f (X ω) (U ω) := by
    have h1 : Measurable fun p : ι × α => f p.1 p.2 := measurable_from_prod_countable_right hf
    exact h1.comp (hX.prodMk hU)
  ext A hA
  rw [Measure.map_apply hmeas hA, cond_apply (MeasurableSet.iUnion hB), Set.iUnion_inter]
  have hsplit : (fun ω => f (X ω) (U ω)) ⁻¹' A = ⋃ i, X ⁻¹' {i} ∩ U ⁻¹' (f i ⁻¹' A) := by
    ext ω
    simp only [Set.mem_preimage, Set.mem_iUnion, Set.mem_inter_iff, Set.mem_singleton_iff]
    constructor
    · intro h
      exact ⟨X ω, rfl, h⟩
    · rintro ⟨i, rfl, h⟩
      exact h
  rw [hsplit, measure_iUnion, measure_iUnion₀ (f := fun i => B i ∩ A), tsum_fintype, tsum_fintype, Finset.mul_sum]
  · apply Finset.sum_congr rfl
    intro i _
    rw [hind.measure_inter_preimage_eq_mul _ _ (measurableSet_singleton i) (hf i hA), hw i]
    by_cases h0 : ν (B i) = 0
    · have : ν (B i ∩ A) = 0 := measure_mono_null Set.inter_subset_left h0
      rw [h0, this]
      simp
    · have h1 : Pr (U ⁻¹' (f i ⁻¹' A)) = (ν (B i))⁻¹ * ν (B i ∩ A) := by
        rw [← Measure.map_apply hU (hf i hA), ← Measure.map_apply (hf i) hA, hlaw i h0, cond_apply (hB i)]
      rw [h1, div_eq_mul_inv, mul_comm (ν (B i)), mul_assoc, ← mul_assoc (ν (B i)), ENNReal.mul_inv_cancel h0 (ht i), one_mul]
  · intro i j hij
    exact (hd hij).mono Set.inter_subset_left Set.inter_subset_left
  · intro i
    exact ((hB i).inter hA).nullMeasurableSet
  · intro i j hij
    refine Set.disjoint_left.2 ?_
    rintro ω ⟨h1, -⟩ ⟨h2, -⟩
    simp only [Set.mem_preimage, Set.mem_singleton_iff] at h1 h2
    exact hij (h1.symm.trans h2)
  · intro i
    exact (hX (measurableSet_singleton i)).inter (hU (hf i hA))

/-- Stretching the unit cube to a box. -/
theorem map_box {ι : Type*} [Fintype ι] (lo hi : ι → ℝ) (h : ∀ i, lo i < hi i) :
    (cond volume (Set.Icc (0 : ι → ℝ) 1)).map (fun u i => lo i + (hi i - lo i) * u i) = cond volume (Set.Icc lo hi) := by
  classical
  have hdet : Matrix.det (Matrix.diagonal fun i => hi i - lo i) ≠ 0 := by
    rw [Matrix.det_diagonal]
    exact Finset.prod_ne_zero_iff.2 fun i _ => (sub_pos.2 (h i)).ne'
  have hf : Measurable fun (u : ι → ℝ) i => lo i + (hi i - lo i) * u i := by fun_prop
  have hmap : (volume : Measure (ι → ℝ)).map (fun u i => lo i + (hi i - lo i) * u i) =
      ENNReal.ofReal |(Matrix.det (Matrix.diagonal fun i => hi i - lo i))⁻¹| • volume := by
    have h1 := Real.map_matrix_volume_pi_eq_smul_volume_pi hdet
    have h2 : (fun (u : ι → ℝ) i => lo i + (hi i - lo i) * u i) =
        (fun v => lo + v) ∘ Matrix.toLin' (Matrix.diagonal fun i => hi i - lo i) := by
      funext u i
      simp [Matrix.mulVec_diagonal]
    rw [h2, ← Measure.map_map (measurable_const_add lo) (LinearMap.continuous_of_finiteDimensional _).measurable, h1,
      Measure.map_smul, map_add_left_eq_self]
  have hpre : (fun (u : ι → ℝ) i => lo i + (hi i - lo i) * u i) ⁻¹' Set.Icc lo hi = Set.Icc (0 : ι → ℝ) 1 := by
    ext u
    simp only [Set.mem_preimage, Set.mem_Icc, Pi.le_def, Pi.zero_apply, Pi.one_apply]
    rw [← forall_and, ← forall_and]
    refine forall_congr' fun i => ?_
    have hi' := sub_pos.2 (h i)
    constructor
    · rintro ⟨h1, h2⟩
      constructor
      · by_contra hn
        nlinarith
      · by_contra hn
        nlinarith
    · rintro ⟨h1, h2⟩
      constructor <;> nlinarith
  rw [← hpre]
  exact map_cond hf (by simpa using abs_pos.2 (inv_ne_zero hdet)) ENNReal.ofReal_ne_top hmap measurableSet_Icc

/-- Reordering the coordinates. -/
theorem map_perm {ι : Type*} [Fintype ι] (σ : Equiv.Perm ι) :
    (cond volume (Set.Icc (0 : ι → ℝ) 1)).map (fun u i => u (σ i)) = cond volume (Set.Icc (0 : ι → ℝ) 1) := by
  have hm : Measurable fun (u : ι → ℝ) i => u (σ i) := by fun_prop
  have hmap : (volume : Measure (ι → ℝ)).map (fun u i => u (σ i)) = (1 : ENNReal) • volume := by
    rw [one_smul]
    have h1 := (volume_measurePreserving_piCongrLeft (fun _ : ι => ℝ) σ.symm).map_eq
    have h2 : (fun (u : ι → ℝ) i => u (σ i)) = MeasurableEquiv.piCongrLeft (fun _ : ι => ℝ) σ.symm := by
      funext u i
      have := MeasurableEquiv.piCongrLeft_apply_apply (β := fun _ : ι => ℝ) σ.symm u (σ i)
      rw [Equiv.symm_apply_apply] at this
      exact this.symm
    rw [h2]
    exact h1
  have hpre : (fun (u : ι → ℝ) i => u (σ i)) ⁻¹' Set.Icc (0 : ι → ℝ) 1 = Set.Icc (0 : ι → ℝ) 1 := by
    ext u
    simp only [Set.mem_preimage, Set.mem_Icc, Pi.le_def, Pi.zero_apply, Pi.one_apply]
    constructor
    · rintro ⟨h1, h2⟩
      exact ⟨fun i => by simpa using h1 (σ.symm i), fun i => by simpa using h2 (σ.symm i)⟩
    · rintro ⟨h1, h2⟩
      exact ⟨fun i => h1 _, fun i => h2 _⟩
  have := map_cond hm one_ne_zero ENNReal.one_ne_top hmap (T := Set.Icc (0 : ι → ℝ) 1) measurableSet_Icc
  rwa [hpre] at this

/-- Stretching the unit cube to a box, after a reordering of the coordinates. -/
theorem map_box_perm {ι : Type*} [Fintype ι] (lo hi : ι → ℝ) (h : ∀ i, lo i < hi i) (σ : Equiv.Perm ι) :
    (cond volume (Set.Icc (0 : ι → ℝ) 1)).map (fun u i => lo i + (hi i - lo i) * u (σ i)) = cond volume (Set.Icc lo hi) := by
  have h1 : (fun (u : ι → ℝ) i => lo i + (hi i - lo i) * u (σ i)) =
      (fun (u : ι → ℝ) i => lo i + (hi i - lo i) * u i) ∘ fun u i => u (σ i) := rfl
  rw [h1, ← Measure.map_map (by fun_prop) (by fun_prop), map_perm, map_box lo hi h]

/-- From coordinate vectors to Euclidean space. -/
theorem map_toLp {ι : Type*} [Fintype ι] {T : Set (ι → ℝ)} (hT : MeasurableSet T) :
    (cond volume T).map (WithLp.toLp 2) = cond volume {x : EuclideanSpace ℝ ι | (x : ι → ℝ) ∈ T} := by
  have hm : Measurable (WithLp.toLp 2 : (ι → ℝ) → EuclideanSpace ℝ ι) := (PiLp.volume_preserving_toLp ι).measurable
  have hm' : Measurable (WithLp.ofLp : EuclideanSpace ℝ ι → (ι → ℝ)) := (PiLp.volume_preserving_ofLp ι).measurable
  have h1 : (volume : Measure (ι → ℝ)).map (WithLp.toLp 2) = (1 : ENNReal) • (volume : Measure (EuclideanSpace ℝ ι)) := by
    rw [one_smul]
    exact (PiLp.volume_preserving_toLp ι).map_eq
  exact map_cond hm one_ne_zero ENNReal.one_ne_top h1 (T := {x : EuclideanSpace ℝ ι | (x : ι → ℝ) ∈ T}) (hm' hT)

end Verif.Uniform
