import Verif.Lemmas.Triangle
import Verif.Lemmas.Draws

/-!
C85: the point returned by `random_point_in_mpolygon` is uniform, given a triangulation.
-/

namespace Verif.Props

open MeasureTheory ProbabilityTheory Verif.Sampler Verif.Spec

/-- The closed triangle with the given corners. -/
def triangleSet (t : Triangle ℝ) : Set (ℝ × ℝ) := convexHull ℝ {t.1, t.2.1, t.2.2}

/-- The statement for a family of triangles and one sample. -/
theorem uniform_family {Ω : Type*} [MeasurableSpace Ω] {Pr : Measure Ω} {n : ℕ} {T : Fin n → Triangle ℝ} (hne : ∃ i, area (T i) ≠ 0)
    (hd : ∀ i j, i ≠ j → volume (triangleSet (T i) ∩ triangleSet (T j)) = 0) {M : Set (ℝ × ℝ)} (hM : MeasurableSet M)
    (hcov : volume (M \ ⋃ i, triangleSet (T i)) = 0) (hin : volume ((⋃ i, triangleSet (T i)) \ M) = 0)
    {J : Ω → Fin n} {U : Ω → ℝ × ℝ} (hJ : Measurable J) (hU : Measurable U) (hind : IndepFun J U Pr)
    (hw : ∀ i, Pr.real (J ⁻¹' {i}) = area (T i) / ∑ i, area (T i)) [IsProbabilityMeasure Pr]
    (hu : pdf.IsUniform U (Set.Icc 0 1) Pr volume) :
    pdf.IsUniform (fun ω => pointIn (T (J ω)) (U ω).1 (U ω).2) M Pr volume := by
  have hd' : Pairwise fun i j => AEDisjoint volume (triangleSet (T i)) (triangleSet (T j)) := fun i j hij => hd i j hij
  have hmeas : ∀ i, MeasurableSet (triangleSet (T i)) := fun i => Uniform.triangle_measurable _
  have hnn : ∀ t : Triangle ℝ, 0 ≤ area t := fun t => by unfold area; positivity
  have hsum0 : 0 < ∑ i, area (T i) := by
    obtain ⟨i, ha⟩ := hne
    exact lt_of_lt_of_le (lt_of_le_of_ne (hnn _) (Ne.symm ha))
      (Finset.single_le_sum (f := fun i => area (T i)) (fun i _ => hnn _) (Finset.mem_univ i))
  have hunion : volume (⋃ i, triangleSet (T i)) = ENNReal.ofReal (∑ i, area (T i)) := by
    rw [measure_iUnion₀ hd' fun i => (hmeas i).nullMeasurableSet, tsum_fintype, ENNReal.ofReal_sum_of_nonneg fun i _ => hnn _]
    exact Finset.sum_congr rfl fun i _ => Uniform.volume_triangle _
  have hw' : ∀ i, Pr (J ⁻¹' {i}) = volume (triangleSet (T i)) / volume (⋃ i, triangleSet (T i)) := by
    intro i
    have h4 : volume (triangleSet (T i)) = ENNReal.ofReal (area (T i)) := Uniform.volume_triangle _
    rw [hunion, h4, ← ENNReal.ofReal_div_of_pos hsum0, ← hw i]
    simp
  have hlaw : Pr.map U = cond volume (Set.Icc 0 1) := hu
  have hmix := Uniform.mixture (ν := volume) (B := fun i => triangleSet (T i))
    (f := fun i p => pointIn (T i) p.1 p.2) hJ hU hind (fun i => Uniform.pointIn_measurable _) hmeas hd' hw'
    (fun i => by
      have h4 : volume (triangleSet (T i)) = ENNReal.ofReal (area (T i)) := Uniform.volume_triangle _
      rw [h4]; exact ENNReal.ofReal_ne_top)
    (fun i hi => by
      rw [hlaw]
      refine Uniform.map_pointIn _ fun h0 => hi ?_
      have h4 : volume (triangleSet (T i)) = ENNReal.ofReal (area (T i)) := Uniform.volume_triangle _
      rw [h4, h0]
      simp)
  show Pr.map _ = cond volume M
  rw [hmix]
  have hae : (⋃ i, triangleSet (T i)) =ᵐ[volume] M := by
    rw [ae_eq_set]
    exact ⟨hin, hcov⟩
  ext A hA
  rw [cond_apply (MeasurableSet.iUnion hmeas), cond_apply hM, measure_congr hae, measure_congr (hae.inter (ae_eq_refl A))]

/-- Two independent numbers make a uniform point of the unit square. -/
theorem square_uniform {Ω : Type*} [MeasurableSpace Ω] {Pr : Measure Ω} {U : Ω → Fin 2 → ℝ} (hm : Measurable U)
    (hu : pdf.IsUniform U (Set.Icc 0 1) Pr volume) : pdf.IsUniform (fun ω => (U ω 0, U ω 1)) (Set.Icc (0 : ℝ × ℝ) 1) Pr volume := by
  have h1 : Pr.map U = cond volume (Set.Icc 0 1) := hu
  have h2 := volume_preserving_finTwoArrow ℝ
  show Pr.map (fun ω => (U ω 0, U ω 1)) = cond volume _
  have h3 : (fun ω => (U ω 0, U ω 1)) = (MeasurableEquiv.finTwoArrow : (Fin 2 → ℝ) ≃ᵐ ℝ × ℝ) ∘ U := rfl
  rw [h3, ← Measure.map_map (MeasurableEquiv.measurable _) hm, h1]
  have h4 : Set.Icc (0 : Fin 2 → ℝ) 1 = (MeasurableEquiv.finTwoArrow : (Fin 2 → ℝ) ≃ᵐ ℝ × ℝ) ⁻¹' Set.Icc (0 : ℝ × ℝ) 1 := by
    ext u
    simp only [Set.mem_Icc, Set.mem_preimage, Pi.le_def, Fin.forall_fin_two, Prod.le_def]
    rfl
  ext A hA
  rw [Measure.map_apply (MeasurableEquiv.measurable _) hA, cond_apply measurableSet_Icc, cond_apply measurableSet_Icc, h4,
    ← Set.preimage_inter, h2.measure_preimage_equiv, h2.measure_preimage_equiv]

/-- C85. Let the triangles overlap in null sets only and make up the set `M`, up to null sets, and let one of them have positive area.
If for each sample the triangle is drawn with the computed weights, and the two numbers uniformly and independently of it, then the
returned points are independent and uniform on `M`. -/
theorem C85_uniform {Ω : Type*} [MeasurableSpace Ω] {Pr : Measure Ω} [IsProbabilityMeasure Pr] {ts : List (Triangle ℝ)}
    (hne : ∃ t ∈ ts, area t ≠ 0)
    (hd : ∀ i j : Fin ts.length, i ≠ j → volume (triangleSet ts[i] ∩ triangleSet ts[j]) = 0) {M : Set (ℝ × ℝ)} (hM : MeasurableSet M)
    (hcov : volume (M \ ⋃ i : Fin ts.length, triangleSet ts[i]) = 0) (hin : volume ((⋃ i : Fin ts.length, triangleSet ts[i]) \ M) = 0)
    {J : ℕ → Ω → Fin ts.length} {U : ℕ → Ω → Fin 2 → ℝ}
    (h : ChoiceDraws Pr (fun i : Fin ts.length => ((weights ts)[(i : ℕ)]?).getD 0) J U) :
    iIndepFun (fun k ω => pointIn ts[J k ω] (U k ω 0) (U k ω 1)) Pr ∧
    ∀ k, pdf.IsUniform (fun ω => pointIn ts[J k ω] (U k ω 0) (U k ω 1)) M Pr volume := by
  have hm0 : ∀ i : Fin ts.length, Measurable fun u : Fin 2 → ℝ => pointIn ts[i] (u 0) (u 1) := by
    intro i
    have h1 : Measurable fun u : Fin 2 → ℝ => (u 0, u 1) := by fun_prop
    exact (Uniform.pointIn_measurable ts[i]).comp h1
  have hm : Measurable fun q : Fin ts.length × (Fin 2 → ℝ) => pointIn ts[q.1] (q.2 0) (q.2 1) := measurable_from_prod_countable_right hm0
  refine ⟨h.indep.comp _ fun _ => hm, fun k => ?_⟩
  have hsum : (ts.map area).sum = ∑ i : Fin ts.length, area ts[i] := by
    rw [← List.sum_ofFn]
    congr 1
    apply List.ext_getElem
    · simp
    · intro i h1 h2
      simp
  have hpair : Measurable fun u : Fin 2 → ℝ => (u 0, u 1) := by fun_prop
  have hind : IndepFun (J k) (fun ω => (U k ω 0, U k ω 1)) Pr := (h.indepPair k).comp measurable_id hpair
  refine uniform_family (T := fun i : Fin ts.length => ts[i]) (U := fun ω => (U k ω 0, U k ω 1)) ?_ hd hM hcov hin (h.measurable k)
    (hpair.comp (h.measurable' k)) hind (fun i => ?_) (square_uniform (h.measurable' k) (h.uniform k))
  · obtain ⟨t, ht, ha⟩ := hne
    obtain ⟨i, hi, rfl⟩ := List.getElem_of_mem ht
    exact ⟨⟨i, hi⟩, ha⟩
  · have h2 : (weights ts)[(i : ℕ)]? = some (area ts[i] / (ts.map area).sum) := by
      unfold weights
      rw [List.getElem?_map, List.getElem?_map, List.getElem?_eq_getElem i.2]
      rfl
    have h1 := h.choice k i
    simp only [h2, Option.getD_some] at h1
    rw [← hsum, Measure.real, h1, ENNReal.toReal_ofReal]
    have hnn : ∀ t : Triangle ℝ, 0 ≤ area t := fun t => by unfold area; positivity
    rw [hsum]
    exact div_nonneg (hnn _) (Finset.sum_nonneg fun _ _ => hnn _)

/-- The two halves of the unit square. -/
def squareHalves : List (Triangle ℝ) := [((0, 0), (1, 0), (1, 1)), ((0, 0), (0, 1), (1, 1))]

theorem lower_eq : triangleSet ((0, 0), (1, 0), (1, 1)) = {p : ℝ × ℝ | 0 ≤ p.2 ∧ p.2 ≤ p.1 ∧ p.1 ≤ 1} := by
  rw [triangleSet, ← Uniform.image_corner]
  ext p
  simp only [Set.mem_image, Uniform.stretch_apply, Uniform.corner, Set.mem_ofPred_eq]
  constructor
  · rintro ⟨q, ⟨h1, h2, h3⟩, rfl⟩
    norm_num
    exact ⟨h2, h1, h3⟩
  · rintro ⟨h1, h2, h3⟩
    refine ⟨(p.1 - p.2, p.2), ⟨by simpa using h2, h1, by simpa using h3⟩, ?_⟩
    ext <;> simp

theorem upper_eq : triangleSet ((0, 0), (0, 1), (1, 1)) = {p : ℝ × ℝ | 0 ≤ p.1 ∧ p.1 ≤ p.2 ∧ p.2 ≤ 1} := by
  rw [triangleSet, ← Uniform.image_corner]
  ext p
  simp only [Set.mem_image, Uniform.stretch_apply, Uniform.corner, Set.mem_ofPred_eq]
  constructor
  · rintro ⟨q, ⟨h1, h2, h3⟩, rfl⟩
    norm_num
    exact ⟨h2, h1, h3⟩
  · rintro ⟨h1, h2, h3⟩
    refine ⟨(p.2 - p.1, p.1), ⟨by simpa using h2, h1, by simpa using h3⟩, ?_⟩
    ext <;> simp

/-- The two halves make up the unit square. -/
theorem halves_union : (⋃ i : Fin squareHalves.length, triangleSet squareHalves[i]) = Set.Icc 0 1 := by
  have h : (⋃ i : Fin squareHalves.length, triangleSet squareHalves[i]) =
      triangleSet ((0, 0), (1, 0), (1, 1)) ∪ triangleSet ((0, 0), (0, 1), (1, 1)) := by
    ext p
    simp only [Set.mem_iUnion, Set.mem_union]
    exact Fin.exists_fin_two
  rw [h, lower_eq, upper_eq]
  ext ⟨x, y⟩
  simp only [Set.mem_union, Set.mem_ofPred_eq, Set.mem_Icc, Prod.le_def, Prod.fst_zero, Prod.snd_zero, Prod.fst_one, Prod.snd_one]
  constructor
  · rintro (⟨h1, h2, h3⟩ | ⟨h1, h2, h3⟩)
    · exact ⟨⟨by linarith, h1⟩, h3, by linarith⟩
    · exact ⟨⟨h1, by linarith⟩, by linarith, h3⟩
  · rintro ⟨⟨h1, h2⟩, h3, h4⟩
    rcases le_total y x with h | h
    · exact Or.inl ⟨h2, h, h3⟩
    · exact Or.inr ⟨h1, h, h4⟩

theorem halves_null : volume (triangleSet ((0, 0), (1, 0), (1, 1)) ∩ triangleSet ((0, 0), (0, 1), (1, 1))) = 0 := by
  rw [lower_eq, upper_eq]
  refine measure_mono_null (t := {p : ℝ × ℝ | p.1 = p.2}) (fun p hp => ?_) ?_
  · exact le_antisymm hp.2.2.1 hp.1.2.1
  · have hm : MeasurableSet {p : ℝ × ℝ | p.1 = p.2} := measurableSet_eq_fun measurable_fst measurable_snd
    rw [Measure.volume_eq_prod, Measure.measure_prod_null hm]
    refine Filter.Eventually.of_forall fun x => ?_
    have : Prod.mk x ⁻¹' {p : ℝ × ℝ | p.1 = p.2} = {x} := by
      ext y
      simp [eq_comm]
    show volume _ = 0
    rw [this]
    simp

/-- The hypotheses of C85 are met: the two halves of the unit square, with suitable random draws. -/
theorem C85_nonvacuous : (∃ t ∈ squareHalves, area t ≠ 0) ∧
    (∀ i j : Fin squareHalves.length, i ≠ j → volume (triangleSet squareHalves[i] ∩ triangleSet squareHalves[j]) = 0) ∧
    (⋃ i : Fin squareHalves.length, triangleSet squareHalves[i]) = Set.Icc 0 1 ∧
    ∃ Pr : Measure (ℕ → Fin squareHalves.length × (Fin 2 → ℝ)), IsProbabilityMeasure Pr ∧
      ChoiceDraws Pr (fun i : Fin squareHalves.length => ((weights squareHalves)[(i : ℕ)]?).getD 0) (fun k x => (x k).1)
        fun k x => (x k).2 := by
  have h0 : area (((0, 0), (1, 0), (1, 1)) : Triangle ℝ) = 1 / 2 := by unfold area; norm_num
  have h1 : area (((0, 0), (0, 1), (1, 1)) : Triangle ℝ) = 1 / 2 := by unfold area; norm_num
  have hw : weights squareHalves = [1 / 2, 1 / 2] := by
    unfold weights squareHalves
    simp only [List.map_cons, List.map_nil, h0, h1, List.sum_cons, List.sum_nil]
    norm_num
  refine ⟨⟨_, List.mem_cons_self, by rw [h0]; norm_num⟩, ?_, halves_union, exists_choiceDraws (fun r => ?_) ?_ _⟩
  · have h2 := halves_null
    have h3 := h2
    rw [Set.inter_comm] at h3
    intro i j hij
    match i, j, hij with
    | ⟨0, _⟩, ⟨0, _⟩, h => exact absurd rfl h
    | ⟨0, _⟩, ⟨1, _⟩, _ => exact h2
    | ⟨1, _⟩, ⟨0, _⟩, _ => exact h3
    | ⟨1, _⟩, ⟨1, _⟩, h => exact absurd rfl h
  · rw [hw]
    match r with
    | ⟨0, _⟩ => norm_num
    | ⟨1, _⟩ => norm_num
  · rw [hw]
    show ∑ r : Fin 2, (([1 / 2, 1 / 2] : List ℝ)[(r : ℕ)]?).getD 0 = 1
    rw [Fin.sum_univ_two]
    norm_num

end Verif.Props
