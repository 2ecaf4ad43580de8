import Mathlib.Analysis.Convex.Join
import Mathlib.Analysis.Convex.Topology
import Mathlib.MeasureTheory.Measure.Prod
import Mathlib.MeasureTheory.Measure.Haar.Unique
import Mathlib.LinearAlgebra.Matrix.ToLin
import Mathlib.LinearAlgebra.Determinant
import Mathlib.Tactic.FieldSimp
import Mathlib.Tactic.Positivity
import Verif.Lemmas.Uniform
import Verif.Model.Sampler

/-! The law of a folded and stretched point of the unit square. -/

namespace Verif.Uniform

open MeasureTheory ProbabilityTheory Verif.Sampler

/-- Area in the plane is translation invariant. -/
instance : (volume : Measure (ℝ × ℝ)).IsAddHaarMeasure := by
  rw [Measure.volume_eq_prod]
  infer_instance

/-- The corner triangle of the unit square. -/
def corner : Set (ℝ × ℝ) := {p | 0 ≤ p.1 ∧ 0 ≤ p.2 ∧ p.1 + p.2 ≤ 1}

theorem corner_measurable : MeasurableSet corner :=
  (measurableSet_le measurable_const measurable_fst).inter
    ((measurableSet_le measurable_const measurable_snd).inter
      (measurableSet_le (measurable_fst.add measurable_snd) measurable_const))

theorem line_null : (volume : Measure (ℝ × ℝ)) {p | p.1 + p.2 = 1} = 0 := by
  have hm : MeasurableSet {p : ℝ × ℝ | p.1 + p.2 = 1} :=
    measurableSet_eq_fun (measurable_fst.add measurable_snd) measurable_const
  rw [Measure.volume_eq_prod, Measure.measure_prod_null hm]
  refine Filter.Eventually.of_forall fun x => ?_
  have : (Prod.mk x ⁻¹' {p : ℝ × ℝ | p.1 + p.2 = 1}) = {1 - x} := by
    ext y
    simp only [Set.mem_preimage, Set.mem_ofPred_eq, Set.mem_singleton_iff]
    constructor <;> intro h <;> linarith
  show volume _ = 0
  rw [this]
  simp

/-- Each point of the corner triangle is met twice by the folding. -/
theorem volume_fold (A : Set (ℝ × ℝ)) (hA : MeasurableSet A) :
    (volume : Measure (ℝ × ℝ)) (Set.Icc 0 1 ∩ (fun p : ℝ × ℝ => fold p.1 p.2) ⁻¹' A) = 2 * volume (corner ∩ A) := by
  have hdiag : MeasurableSet {p : ℝ × ℝ | p.1 + p.2 ≤ 1} :=
    measurableSet_le (measurable_fst.add measurable_snd) measurable_const
  rw [← measure_inter_add_sdiff _ hdiag, two_mul]
  congr 1
  · congr 1
    ext ⟨x, y⟩
    simp only [Set.mem_inter_iff, Set.mem_Icc, Set.mem_preimage, Set.mem_ofPred_eq, corner, Prod.le_def, Prod.fst_zero, Prod.snd_zero,
      Prod.fst_one, Prod.snd_one, fold]
    constructor
    · rintro ⟨⟨⟨⟨h1, h2⟩, -, -⟩, h3⟩, h4⟩
      rw [if_neg (not_lt.2 h4)] at h3
      exact ⟨⟨h1, h2, h4⟩, h3⟩
    · rintro ⟨⟨h1, h2, h4⟩, h3⟩
      rw [if_neg (not_lt.2 h4)]
      exact ⟨⟨⟨⟨h1, h2⟩, by linarith, by linarith⟩, h3⟩, h4⟩
  · have hpre : ((Set.Icc 0 1 ∩ (fun p : ℝ × ℝ => fold p.1 p.2) ⁻¹' A) \ {p : ℝ × ℝ | p.1 + p.2 ≤ 1}) =
        (fun p : ℝ × ℝ => (1 : ℝ × ℝ) - p) ⁻¹' ((corner ∩ A) \ {p : ℝ × ℝ | p.1 + p.2 = 1}) := by
      ext ⟨x, y⟩
      simp only [Set.mem_sdiff, Set.mem_inter_iff, Set.mem_Icc, Set.mem_preimage, Set.mem_ofPred_eq, corner, Prod.le_def, Prod.fst_zero,
        Prod.snd_zero, Prod.fst_one, Prod.snd_one, Prod.fst_sub, Prod.snd_sub, fold, not_le]
      constructor
      · rintro ⟨⟨⟨⟨h1, h2⟩, h5, h6⟩, h3⟩, h4⟩
        rw [if_pos h4] at h3
        exact ⟨⟨⟨by linarith, by linarith, by linarith⟩, h3⟩, by intro h; linarith⟩
      · rintro ⟨⟨⟨h1, h2, h5⟩, h3⟩, h4⟩
        have h6 : 1 < x + y := by
          rcases lt_or_ge 1 (x + y) with h | h
          · exact h
          · exact absurd (by linarith) h4
        rw [if_pos h6]
        exact ⟨⟨⟨⟨by linarith, by linarith⟩, by linarith, by linarith⟩, h3⟩, h6⟩
    have hmp := Measure.measurePreserving_sub_left (volume : Measure (ℝ × ℝ)) (1 : ℝ × ℝ)
    rw [hpre, hmp.measure_preimage, measure_sdiff_null line_null]
    exact ((corner_measurable.inter hA).diff (measurableSet_eq_fun (measurable_fst.add measurable_snd) measurable_const)).nullMeasurableSet

theorem fold_measurable : Measurable fun p : ℝ × ℝ => fold p.1 p.2 := by
  unfold fold
  exact Measurable.ite (measurableSet_lt measurable_const (measurable_fst.add measurable_snd))
    ((measurable_const.sub measurable_fst).prodMk (measurable_const.sub measurable_snd)) (measurable_fst.prodMk measurable_snd)

theorem volume_unit_square : (volume : Measure (ℝ × ℝ)) (Set.Icc 0 1) = 1 := by
  have : (Set.Icc (0 : ℝ × ℝ) 1) = Set.Icc (0 : ℝ) 1 ×ˢ Set.Icc (0 : ℝ) 1 := by
    rw [Set.Icc_prod_Icc]
    rfl
  rw [this, Measure.volume_eq_prod, Measure.prod_prod]
  simp

theorem volume_corner : (volume : Measure (ℝ × ℝ)) corner = 1 / 2 := by
  have h := volume_fold Set.univ MeasurableSet.univ
  rw [Set.preimage_univ, Set.inter_univ, Set.inter_univ, volume_unit_square] at h
  rw [ENNReal.eq_div_iff (by norm_num) (by norm_num)]
  exact h.symm

/-- Folding a uniform point of the unit square gives a uniform point of the corner triangle. -/
theorem map_fold : (cond volume (Set.Icc (0 : ℝ × ℝ) 1)).map (fun p => fold p.1 p.2) = cond volume corner := by
  ext A hA
  rw [Measure.map_apply fold_measurable hA, cond_apply measurableSet_Icc, cond_apply corner_measurable, volume_fold A hA, volume_corner,
    volume_unit_square]
  simp

/-- The linear part of the stretching. -/
noncomputable def stretch (t : Triangle ℝ) : ℝ × ℝ →ₗ[ℝ] ℝ × ℝ :=
  Matrix.toLin (Module.Basis.finTwoProd ℝ) (Module.Basis.finTwoProd ℝ)
    !![t.2.1.1 - t.1.1, t.2.2.1 - t.1.1; t.2.1.2 - t.1.2, t.2.2.2 - t.1.2]

theorem stretch_apply (t : Triangle ℝ) (p : ℝ × ℝ) : stretch t p =
    ((t.2.1.1 - t.1.1) * p.1 + (t.2.2.1 - t.1.1) * p.2, (t.2.1.2 - t.1.2) * p.1 + (t.2.2.2 - t.1.2) * p.2) :=
  Matrix.toLin_finTwoProd_apply ..

theorem abs_det_stretch (t : Triangle ℝ) : |LinearMap.det (stretch t)| = 2 * area t := by
  unfold stretch
  rw [LinearMap.det_toLin, Matrix.det_fin_two_of]
  unfold area
  have : t.1.1 * (t.2.1.2 - t.2.2.2) + t.2.1.1 * (t.2.2.2 - t.1.2) + t.2.2.1 * (t.1.2 - t.2.1.2) =
      (t.2.1.1 - t.1.1) * (t.2.2.2 - t.1.2) - (t.2.2.1 - t.1.1) * (t.2.1.2 - t.1.2) := by ring
  rw [this]
  ring

theorem affine_eq (t : Triangle ℝ) (p : ℝ × ℝ) :
    affine (t.2.1.1 - t.1.1, t.2.2.1 - t.1.1, t.2.1.2 - t.1.2, t.2.2.2 - t.1.2, t.1.1, t.1.2) p = t.1 + stretch t p := by
  rw [stretch_apply]
  unfold affine
  ext <;> simp only [Prod.fst_add, Prod.snd_add] <;> ring

/-- A triangle is the image of the corner triangle. -/
theorem image_corner (t : Triangle ℝ) : (fun p => t.1 + stretch t p) '' corner = convexHull ℝ {t.1, t.2.1, t.2.2} := by
  rw [← convexJoin_singleton_segment]
  obtain ⟨a, b, c⟩ := t
  ext x
  simp only [Set.mem_image, mem_convexJoin, Set.mem_singleton_iff, exists_eq_left]
  constructor
  · rintro ⟨⟨u, v⟩, ⟨h1, h2, h3⟩, rfl⟩
    dsimp only at h1 h2 h3
    rw [stretch_apply]
    by_cases h0 : u + v = 0
    · have hu : u = 0 := by linarith
      have hv : v = 0 := by linarith
      subst hu hv
      refine ⟨b, left_mem_segment _ _ _, ?_⟩
      simp only [mul_zero, add_zero]
      have : a + ((0 : ℝ), (0 : ℝ)) = a := by ext <;> simp
      rw [this]
      exact left_mem_segment _ _ _
    · have hpos : 0 < u + v := lt_of_le_of_ne (by linarith) (Ne.symm h0)
      refine ⟨(u / (u + v)) • b + (v / (u + v)) • c, ⟨_, _, by positivity, by positivity, by field_simp, rfl⟩, ?_⟩
      refine ⟨1 - (u + v), u + v, by linarith, hpos.le, by ring, ?_⟩
      ext <;> simp only [Prod.fst_add, Prod.snd_add, Prod.smul_fst, Prod.smul_snd, smul_eq_mul] <;> field_simp <;> ring
  · rintro ⟨y, ⟨p, q, hp, hq, hpq, rfl⟩, r, s, hr, hs, hrs, rfl⟩
    refine ⟨(s * p, s * q), ⟨mul_nonneg hs hp, mul_nonneg hs hq, ?_⟩, ?_⟩
    · dsimp only
      rw [← mul_add, hpq]
      linarith
    · rw [stretch_apply]
      have hr' : r = 1 - s := by linarith
      have hp' : p = 1 - q := by linarith
      subst hr' hp'
      ext <;> simp only [Prod.fst_add, Prod.snd_add, Prod.smul_fst, Prod.smul_snd, smul_eq_mul] <;> ring

/-- The area in the code is the measure of the triangle. -/
theorem volume_triangle (t : Triangle ℝ) : volume (convexHull ℝ {t.1, t.2.1, t.2.2}) = ENNReal.ofReal (area t) := by
  rw [← image_corner]
  have h1 : (fun p => t.1 + stretch t p) '' corner = (fun q => t.1 + q) '' (stretch t '' corner) := by
    rw [Set.image_image]
  rw [h1, Set.image_add_left, measure_preimage_add, Measure.addHaar_image_linearMap, abs_det_stretch, volume_corner,
    ENNReal.ofReal_mul (by norm_num)]
  rw [mul_comm (ENNReal.ofReal 2), mul_assoc]
  have : ENNReal.ofReal 2 * (1 / 2) = 1 := by
    rw [ENNReal.ofReal_ofNat, one_div, ENNReal.mul_inv_cancel (by norm_num) (by norm_num)]
  rw [this, mul_one]

theorem pointIn_measurable (t : Triangle ℝ) : Measurable fun p : ℝ × ℝ => pointIn t p.1 p.2 := by
  have h : (fun p : ℝ × ℝ => pointIn t p.1 p.2) = (fun q => t.1 + stretch t q) ∘ fun p => fold p.1 p.2 := by
    funext p
    exact affine_eq t _
  rw [h]
  exact ((LinearMap.continuous_of_finiteDimensional (stretch t)).measurable.const_add t.1).comp fold_measurable

theorem triangle_measurable (t : Triangle ℝ) : MeasurableSet (convexHull ℝ {t.1, t.2.1, t.2.2}) :=
  (Set.Finite.isCompact_convexHull (𝕜 := ℝ) (by simp)).isClosed.measurableSet

/-- The returned point is uniform in the chosen triangle. -/
theorem map_pointIn (t : Triangle ℝ) (h : area t ≠ 0) :
    (cond volume (Set.Icc (0 : ℝ × ℝ) 1)).map (fun p => pointIn t p.1 p.2) = cond volume (convexHull ℝ {t.1, t.2.1, t.2.2}) := by
  have hdet : LinearMap.det (stretch t) ≠ 0 := by
    rw [← abs_ne_zero, abs_det_stretch]
    simpa using h
  have hc : Continuous (stretch t) := LinearMap.continuous_of_finiteDimensional (stretch t)
  have he : (fun p : ℝ × ℝ => pointIn t p.1 p.2) = (fun q => t.1 + stretch t q) ∘ fun p => fold p.1 p.2 := by
    funext p
    exact affine_eq t _
  have hm : Measurable fun q => t.1 + stretch t q := hc.measurable.const_add t.1
  rw [he, ← Measure.map_map hm fold_measurable, map_fold]
  have hinj : Function.Injective fun q => t.1 + stretch t q := by
    intro p q hpq
    have h1 : stretch t p = stretch t q := add_left_cancel hpq
    have h2 := (LinearMap.equivOfDetNeZero (stretch t) hdet).injective
    exact h2 h1
  have hpre : (fun q => t.1 + stretch t q) ⁻¹' (convexHull ℝ {t.1, t.2.1, t.2.2}) = corner := by
    rw [← image_corner, Set.preimage_image_eq _ hinj]
  have hmap : (volume : Measure (ℝ × ℝ)).map (fun q => t.1 + stretch t q) = ENNReal.ofReal |(LinearMap.det (stretch t))⁻¹| • volume := by
    have h2 : (fun q => t.1 + stretch t q) = (fun v => t.1 + v) ∘ stretch t := rfl
    rw [h2, ← Measure.map_map (measurable_const_add t.1) hc.measurable, Measure.map_linearMap_addHaar_eq_smul_addHaar _ hdet,
      Measure.map_smul, map_add_left_eq_self]
  rw [← hpre]
  exact map_cond hm (by simpa using abs_pos.2 (inv_ne_zero hdet)) ENNReal.ofReal_ne_top hmap (triangle_measurable t)

end Verif.Uniform
