import Mathlib.Analysis.Convex.Radon
import Mathlib.Analysis.InnerProductSpace.Basic
import Mathlib.Combinatorics.SetFamily.Shatter
import Mathlib.LinearAlgebra.AffineSpace.FiniteDimensional
import Mathlib.Tactic.Linarith

/-!
The number of subsets that balls of one radius cut out of finitely many points (Radon's theorem and the Sauer-Shelah lemma).
-/

namespace Verif.Net

open Finset

variable {E : Type*} [NormedAddCommGroup E] [InnerProductSpace ℝ E]

theorem lt_of_mem_hull {S : Set E} {c c' p : E} (h : ∀ x ∈ S, dist x c < dist x c') (hp : p ∈ convexHull ℝ S) : dist p c < dist p c' := by
  have key : ∀ x : E, dist x c < dist x c' ↔ inner ℝ (c' - c) x < (‖c'‖ ^ 2 - ‖c‖ ^ 2) / 2 := by
    intro x
    rw [dist_eq_norm, dist_eq_norm, ← sq_lt_sq₀ (norm_nonneg _) (norm_nonneg _), norm_sub_sq_real, norm_sub_sq_real, inner_sub_left,
      real_inner_comm c' x, real_inner_comm c x]
    constructor <;> intro h <;> linarith
  have hsub : convexHull ℝ S ⊆ {x | inner ℝ (c' - c) x < (‖c'‖ ^ 2 - ‖c‖ ^ 2) / 2} := by
    apply convexHull_min
    · intro x hx
      exact (key x).1 (h x hx)
    · exact convex_halfSpace_lt (f := fun x => inner ℝ (c' - c) x) ⟨fun x y => inner_add_right _ _ _, fun r x => real_inner_smul_right _ _ _⟩ _
  exact (key p).2 (hsub hp)

/-- The indices of the points in a ball. -/
noncomputable def trace {ι : Type*} [Fintype ι] (x : ι → E) (s : ℝ) (c : E) : Finset ι := by
  classical exact univ.filter fun i => dist (x i) c < s

omit [InnerProductSpace ℝ E] in
theorem mem_trace {ι : Type*} [Fintype ι] (x : ι → E) (s : ℝ) (c : E) (i : ι) : i ∈ trace x s c ↔ dist (x i) c < s := by
  simp [trace]

theorem card_le_of_shattered [FiniteDimensional ℝ E] {ι : Type*} [Fintype ι] [DecidableEq ι] (x : ι → E) (s : ℝ) {𝒜 : Finset (Finset ι)}
    (h𝒜 : ∀ T ∈ 𝒜, ∃ c, T = trace x s c) {S : Finset ι} (hS : 𝒜.Shatters S) : #S ≤ Module.finrank ℝ E + 1 := by
  by_contra hlt
  push Not at hlt
  have hdep : ¬ AffineIndependent ℝ (fun i : S => x i) := by
    intro hind
    have := hind.card_le_finrank_succ
    simp only [Fintype.card_coe] at this
    have h2 := Submodule.finrank_le (vectorSpan ℝ (Set.range fun i : S => x i))
    omega
  obtain ⟨I, p, hp1, hp2⟩ := Convex.radon_partition hdep
  classical
  let T : Finset ι := S.filter fun i => ∃ h : i ∈ S, (⟨i, h⟩ : S) ∈ I
  obtain ⟨U, hU, hU'⟩ := hS (t := T) (filter_subset _ _)
  obtain ⟨V, hV, hV'⟩ := hS (t := S \ T) sdiff_subset
  obtain ⟨c, rfl⟩ := h𝒜 U hU
  obtain ⟨c', rfl⟩ := h𝒜 V hV
  have hI : ∀ i : S, i ∈ I → dist (x i) c < s ∧ s ≤ dist (x i) c' := by
    intro i hi
    have hT : (i : ι) ∈ T := by simp [T, hi]
    constructor
    · rw [← hU'] at hT
      exact (mem_trace _ _ _ _).1 (mem_inter.1 hT).2
    · by_contra hc
      have : (i : ι) ∈ S ∩ trace x s c' := mem_inter.2 ⟨i.2, (mem_trace _ _ _ _).2 (not_le.1 hc)⟩
      rw [hV'] at this
      exact (mem_sdiff.1 this).2 hT
  have hI' : ∀ i : S, i ∉ I → dist (x i) c' < s ∧ s ≤ dist (x i) c := by
    intro i hi
    have hT : (i : ι) ∉ T := by simp [T, hi]
    constructor
    · have : (i : ι) ∈ S \ T := mem_sdiff.2 ⟨i.2, hT⟩
      rw [← hV'] at this
      exact (mem_trace _ _ _ _).1 (mem_inter.1 this).2
    · by_contra hc
      have : (i : ι) ∈ S ∩ trace x s c := mem_inter.2 ⟨i.2, (mem_trace _ _ _ _).2 (not_le.1 hc)⟩
      rw [hU'] at this
      exact hT this
  have h1 := lt_of_mem_hull (c := c) (c' := c') (by
    rintro _ ⟨i, hi, rfl⟩
    exact lt_of_lt_of_le (hI i hi).1 (hI i hi).2) hp1
  have h2 := lt_of_mem_hull (c := c') (c' := c) (by
    rintro _ ⟨i, hi, rfl⟩
    exact lt_of_lt_of_le (hI' i hi).1 (hI' i hi).2) hp2
  linarith

/-- Balls of one radius cut at most `∑ C(n, i)` subsets, `i` up to dimension plus one, out of `n` points. -/
theorem card_traces [FiniteDimensional ℝ E] {ι : Type*} [Fintype ι] [DecidableEq ι] (x : ι → E) (s : ℝ) (𝒜 : Finset (Finset ι))
    (h𝒜 : ∀ T ∈ 𝒜, ∃ c, T = trace x s c) :
    #𝒜 ≤ ∑ i ∈ range (Module.finrank ℝ E + 1 + 1), (Fintype.card ι).choose i := by
  refine (card_le_card_shatterer 𝒜).trans ((card_shatterer_le_sum_vcDim (𝒜 := 𝒜)).trans ?_)
  apply sum_le_sum_of_subset
  intro i hi
  have : 𝒜.vcDim ≤ Module.finrank ℝ E + 1 := Finset.sup_le fun S hS => card_le_of_shattered x s h𝒜 (mem_shatterer.1 hS)
  simp only [mem_Iic] at hi
  simp only [mem_range]
  omega

end Verif.Net
