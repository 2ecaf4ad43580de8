import Verif.Lemmas.ClearPath
import Mathlib.Topology.EMetricSpace.BoundedVariation
import Mathlib.Analysis.Normed.Affine.AddTorsor

/-! Straight paths and concatenation of paths. -/

namespace Verif.Net

open Verif.Spec

variable {dim : ℕ} {F : Set (Space dim)} {δ : ℝ} {a b c : Space dim}

theorem variation_id : eVariationOn (id : ℝ → ℝ) (Set.Icc 0 1) = 1 := by
  have h2 := (monotone_id.monotoneOn (Set.univ : Set ℝ)).eVariationOn_eq (a := 0) (b := 1) trivial trivial
  simp only [Set.univ_inter, id] at h2
  have : (fun x : ℝ => x) = id := rfl
  simp [this]

/-- A straight path. -/
theorem straight_path (h : ∀ x ∈ segment ℝ a b, Metric.ball x δ ⊆ F) :
    ClearPath F δ a b (AffineMap.lineMap a b) ∧ LengthAtMost (AffineMap.lineMap a b) (dist a b) := by
  refine ⟨⟨(AffineMap.lineMap_continuous).continuousOn, by simp, by simp, fun t ht => h _ ?_⟩, ?_⟩
  · rw [segment_eq_image_lineMap]
    exact ⟨t, ht, rfl⟩
  · unfold LengthAtMost
    have hl : LipschitzOnWith (nndist a b) (AffineMap.lineMap a b : ℝ → Space dim) (Set.Icc 0 1) := by
      refine LipschitzOnWith.of_dist_le_mul fun s _ t _ => ?_
      rw [dist_lineMap_lineMap, mul_comm]
      rfl
    have h1 := hl.comp_eVariationOn_le (g := id) (s := Set.Icc (0 : ℝ) 1) (fun t ht => ht)
    refine h1.trans ?_
    rw [variation_id, mul_one, ← edist_dist, edist_nndist]

/-- First one path, then another one. -/
noncomputable def concat (γ₁ γ₂ : ℝ → Space dim) (t : ℝ) : Space dim := if t ≤ 1 / 2 then γ₁ (2 * t) else γ₂ (2 * t - 1)

theorem ClearPath.concat {γ₁ γ₂ : ℝ → Space dim} {L₁ L₂ : ℝ} (h₁ : ClearPath F δ a b γ₁) (h₂ : ClearPath F δ b c γ₂)
    (l₁ : LengthAtMost γ₁ L₁) (l₂ : LengthAtMost γ₂ L₂) (p₁ : 0 ≤ L₁) (p₂ : 0 ≤ L₂) :
    ClearPath F δ a c (concat γ₁ γ₂) ∧ LengthAtMost (concat γ₁ γ₂) (L₁ + L₂) := by
  have e1 : Set.EqOn (Net.concat γ₁ γ₂) (γ₁ ∘ fun t => 2 * t) (Set.Icc 0 (1 / 2)) := by
    intro t ht
    exact if_pos ht.2
  have e2 : Set.EqOn (Net.concat γ₁ γ₂) (γ₂ ∘ fun t => 2 * t - 1) (Set.Icc (1 / 2) 1) := by
    intro t ht
    rcases ht.1.eq_or_lt with h | h
    · unfold Net.concat
      rw [if_pos h.symm.le, ← h]
      simp only [Function.comp]
      norm_num
      rw [h₁.goal, h₂.start]
    · exact if_neg (not_le.2 h)
  have m1 : Set.MapsTo (fun t : ℝ => 2 * t) (Set.Icc 0 (1 / 2)) (Set.Icc 0 1) := fun t ht => ⟨by linarith [ht.1], by linarith [ht.2]⟩
  have m2 : Set.MapsTo (fun t : ℝ => 2 * t - 1) (Set.Icc (1 / 2) 1) (Set.Icc 0 1) := fun t ht => ⟨by linarith [ht.1], by linarith [ht.2]⟩
  have hu : Set.Icc (0 : ℝ) (1 / 2) ∪ Set.Icc (1 / 2) 1 = Set.Icc 0 1 := Set.Icc_union_Icc_eq_Icc (by norm_num) (by norm_num)
  refine ⟨⟨?_, ?_, ?_, ?_⟩, ?_⟩
  · rw [← hu]
    refine ContinuousOn.union_of_isClosed ?_ ?_ isClosed_Icc isClosed_Icc
    · exact (h₁.continuous.comp (by fun_prop) m1).congr e1
    · exact (h₂.continuous.comp (by fun_prop) m2).congr e2
  · rw [e1 (by norm_num)]
    simp [h₁.start]
  · rw [e2 (by norm_num)]
    simp only [Function.comp]
    norm_num
    exact h₂.goal
  · intro t ht
    rw [← hu] at ht
    rcases ht with ht | ht
    · rw [e1 ht]
      exact h₁.clear _ (m1 ht)
    · rw [e2 ht]
      exact h₂.clear _ (m2 ht)
  · unfold LengthAtMost at *
    have hadd := eVariationOn.Icc_add_Icc (Net.concat γ₁ γ₂) (s := Set.univ) (a := 0) (b := 1 / 2) (c := 1) (by norm_num) (by norm_num) trivial
    simp only [Set.univ_inter] at hadd
    rw [← hadd, ENNReal.ofReal_add p₁ p₂, eVariationOn.congr e1, eVariationOn.congr e2]
    gcongr
    · exact (eVariationOn.comp_le_of_monotoneOn γ₁ _ (fun x _ y _ h => by linarith) m1).trans l₁
    · exact (eVariationOn.comp_le_of_monotoneOn γ₂ _ (fun x _ y _ h => by linarith) m2).trans l₂

end Verif.Net
