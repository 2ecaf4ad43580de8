import Verif.Lemmas.NetSampling
import Mathlib.MeasureTheory.Measure.Lebesgue.Basic

/-! Uniform samples and a fixed region. -/

namespace Verif.Net

open MeasureTheory ProbabilityTheory Verif.Spec

variable {Ω : Type*} [MeasurableSpace Ω] {Pr : Measure Ω} [IsProbabilityMeasure Pr] {dim : ℕ} {X : ℕ → Ω → Space dim} {S : Set (Space dim)}

/-- The probability that none of `m` uniform samples from a region of volume `v` falls into a part of volume at least `β`. -/
theorem iid_miss (h : IidUniform Pr X S) {v β : ℝ} (hv : 0 < v) (hS : MeasurableSet S) (hvol : volume S = ENNReal.ofReal v) {A : Set (Space dim)} (hA : MeasurableSet A) (hAS : A ⊆ S)
    (hβ0 : 0 ≤ β) (hβ : ENNReal.ofReal β ≤ volume A) (d m : ℕ) : Pr {ω | ∀ i < m, X (d + i) ω ∉ A} ≤ ENNReal.ofReal ((1 - β / v) ^ m) := by
  have := IidUniform.prob h
  have hle : cond volume S Aᶜ ≤ ENNReal.ofReal (1 - β / v) := by
    rw [prob_compl_eq_one_sub hA, cond_apply hS, Set.inter_eq_right.2 hAS, hvol]
    rw [ENNReal.ofReal_sub _ (by positivity), ENNReal.ofReal_one]
    apply tsub_le_tsub_left
    rw [ENNReal.ofReal_div_of_pos hv, ENNReal.div_eq_inv_mul]
    gcongr
  have hmeas : Measurable fun ω (i : Fin m) => X (d + i) ω := measurable_pi_iff.2 fun i => h.measurable _
  have hset : {ω | ∀ i < m, X (d + i) ω ∉ A} = (fun ω (i : Fin m) => X (d + i) ω) ⁻¹' (Set.univ.pi fun _ => Aᶜ) := by
    ext ω
    simp only [Set.mem_ofPred_eq, Set.mem_preimage, Set.mem_univ_pi, Set.mem_compl_iff]
    exact ⟨fun h i => h i i.2, fun h i hi => h ⟨i, hi⟩⟩
  rw [hset, ← Measure.map_apply hmeas (MeasurableSet.univ_pi fun _ => hA.compl), IidUniform.law h, Measure.pi_pi, Finset.prod_const, Finset.card_univ, Fintype.card_fin]
  by_cases hb : 0 ≤ 1 - β / v
  · rw [ENNReal.ofReal_pow hb]
    gcongr
  · have h0 : cond volume S Aᶜ = 0 := by
      rw [ENNReal.ofReal_of_nonpos (by linarith)] at hle
      exact le_antisymm hle bot_le
    exfalso
    have h1 : (1 : ENNReal) < ENNReal.ofReal (β / v) := by
      rw [← ENNReal.ofReal_one]
      exact (ENNReal.ofReal_lt_ofReal_iff (by linarith)).2 (by linarith)
    have h2 : ENNReal.ofReal β ≤ ENNReal.ofReal v := hβ.trans ((measure_mono hAS).trans hvol.le)
    have h3 : β ≤ v := (ENNReal.ofReal_le_ofReal_iff hv.le).1 h2
    have : β / v ≤ 1 := by rw [div_le_one hv]; exact h3
    linarith

/-- An open rectangle in the plane. -/
def openBox (x0 x1 y0 y1 : ℝ) : Set (Space 2) := {x | x 0 ∈ Set.Ioo x0 x1 ∧ x 1 ∈ Set.Ioo y0 y1}

theorem openBox_eq (x0 x1 y0 y1 : ℝ) : openBox x0 x1 y0 y1 = WithLp.ofLp ⁻¹' (Set.univ.pi fun i : Fin 2 => Set.Ioo ((![x0, y0] : Fin 2 → ℝ) i) ((![x1, y1] : Fin 2 → ℝ) i)) := by
  ext x
  simp [openBox, Fin.forall_fin_two]

theorem openBox_measurable (x0 x1 y0 y1 : ℝ) : MeasurableSet (openBox x0 x1 y0 y1) := by
  rw [openBox_eq]
  exact (PiLp.volume_preserving_ofLp (Fin 2)).measurable (MeasurableSet.univ_pi fun _ => measurableSet_Ioo)

theorem openBox_volume {x0 x1 y0 y1 : ℝ} (hx : x0 ≤ x1) : volume (openBox x0 x1 y0 y1) = ENNReal.ofReal ((x1 - x0) * (y1 - y0)) := by
  rw [openBox_eq, (PiLp.volume_preserving_ofLp (Fin 2)).measure_preimage (MeasurableSet.univ_pi fun _ => measurableSet_Ioo).nullMeasurableSet, Real.volume_pi_Ioo,
    Fin.prod_univ_two, ENNReal.ofReal_mul (by linarith)]
  simp

end Verif.Net
