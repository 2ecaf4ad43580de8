import Mathlib.Analysis.SpecialFunctions.Pow.Real
import Verif.Lemmas.Traces

/-!
Counting the exchanges of two samples, coordinate by coordinate, after which no point of the first sample and many points of the second
one are in some ball.
-/

namespace Verif.Net

open Finset

variable {E : Type*}

/-- Exchange the two entries at the places marked by `σ`. -/
def exchange {m : ℕ} (σ : Fin m → Bool) (z : Fin m → E × E) : Fin m → E × E := fun i => if σ i then (z i).swap else z i

/-- All points of the double sample. -/
def points {m : ℕ} (z : Fin m → E × E) (i : Fin m × Bool) : E := if i.2 then (z i.1).2 else (z i.1).1

theorem exchange_fst {m : ℕ} (σ : Fin m → Bool) (z : Fin m → E × E) (i : Fin m) : (exchange σ z i).1 = points z (i, σ i) := by
  unfold exchange points
  cases σ i <;> simp

theorem exchange_snd {m : ℕ} (σ : Fin m → Bool) (z : Fin m → E × E) (i : Fin m) : (exchange σ z i).2 = points z (i, !σ i) := by
  unfold exchange points
  cases σ i <;> simp

/-- Exchanges that leave no index of `T` on the first side and at least `t` on the second. -/
noncomputable def good {m : ℕ} (T : Finset (Fin m × Bool)) (t : ℝ) : Finset (Fin m → Bool) := by
  classical exact univ.filter fun σ => (∀ i, (i, σ i) ∉ T) ∧ t ≤ #(univ.filter fun i => (i, !σ i) ∈ T)

theorem card_agree {m : ℕ} (I : Finset (Fin m)) (σ₀ : Fin m → Bool) (A : Finset (Fin m → Bool)) (hA : ∀ σ ∈ A, ∀ i ∈ I, σ i = σ₀ i) :
    #A ≤ 2 ^ (m - #I) := by
  have hcard : #(univ : Finset (((Iᶜ : Finset (Fin m)) : Type) → Bool)) = 2 ^ (m - #I) := by
    simp
  rw [← hcard]
  apply card_le_card_of_injOn (fun (σ : Fin m → Bool) (i : ((Iᶜ : Finset (Fin m)) : Type)) => σ i.1)
  · intro σ _
    simp
  · intro σ hσ τ hτ h
    funext i
    by_cases hi : i ∈ I
    · rw [hA σ hσ i hi, hA τ hτ i hi]
    · have := congrFun h ⟨i, mem_compl.2 hi⟩
      simpa using this

theorem card_good {m : ℕ} (T : Finset (Fin m × Bool)) (t : ℝ) : (#(good T t) : ℝ) ≤ 2 ^ (m : ℝ) * 2 ^ (-t) := by
  classical
  rcases (good T t).eq_empty_or_nonempty with h | ⟨σ₀, h⟩
  · rw [h]
    simp only [card_empty, Nat.cast_zero]
    positivity
  · have h0 := h
    simp only [good, mem_filter, mem_univ, true_and] at h0
    set I : Finset (Fin m) := univ.filter fun i => (i, !σ₀ i) ∈ T with hI
    have hle := card_agree I σ₀ (good T t) (by
      intro σ hσ i hi
      simp only [good, mem_filter, mem_univ, true_and] at hσ
      simp only [hI, mem_filter, mem_univ, true_and] at hi
      by_contra hne
      have : σ i = !σ₀ i := by
        cases h1 : σ i <;> cases h2 : σ₀ i <;> simp_all
      exact hσ.1 i (this ▸ hi))
    have hIm : #I ≤ m := by simpa using card_le_univ I
    calc (#(good T t) : ℝ) ≤ ((2 ^ (m - #I) : ℕ) : ℝ) := by exact_mod_cast hle
      _ = 2 ^ ((m : ℝ) - (#I : ℝ)) := by
        rw [← Nat.cast_sub hIm, Real.rpow_natCast]
        norm_cast
      _ ≤ 2 ^ ((m : ℝ) - t) := by
        apply Real.rpow_le_rpow_of_exponent_le (by norm_num)
        linarith [h0.2]
      _ = 2 ^ (m : ℝ) * 2 ^ (-t) := by
        rw [← Real.rpow_add (by norm_num)]
        congr 1

variable [NormedAddCommGroup E] [InnerProductSpace ℝ E]

/-- A double sample for which some ball misses the first half and holds at least `t` points of the second. -/
def Bad {m : ℕ} (D : Set E) (s t : ℝ) (z : Fin m → E × E) : Prop :=
  ∃ c ∈ D, (∀ i, s ≤ dist (z i).1 c) ∧ ∃ J : Finset (Fin m), t ≤ #J ∧ ∀ i ∈ J, dist (z i).2 c < s

open Classical in
theorem card_bad [FiniteDimensional ℝ E] {m : ℕ} (D : Set E) (s t : ℝ) (z : Fin m → E × E) :
    ((univ.filter fun σ : Fin m → Bool => Bad D s t (exchange σ z)).card : ℝ) ≤
      ((∑ i ∈ range (Module.finrank ℝ E + 1 + 1), (2 * m).choose i : ℕ) : ℝ) * (2 ^ (m : ℝ) * 2 ^ (-t)) := by
  let 𝒜 : Finset (Finset (Fin m × Bool)) := univ.filter fun T => ∃ c ∈ D, T = trace (points z) s c
  have hsub : (univ.filter fun σ : Fin m → Bool => Bad D s t (exchange σ z)) ⊆ 𝒜.biUnion fun T => good T t := by
    intro σ hσ
    simp only [mem_filter, mem_univ, true_and] at hσ
    obtain ⟨c, hc, h1, J, hJ, h2⟩ := hσ
    simp only [mem_biUnion]
    refine ⟨trace (points z) s c, ?_, ?_⟩
    · simp only [𝒜, mem_filter, mem_univ, true_and]
      exact ⟨c, hc, rfl⟩
    · simp only [good, mem_filter, mem_univ, true_and, mem_trace, not_lt, ← exchange_fst, ← exchange_snd]
      refine ⟨h1, hJ.trans ?_⟩
      exact_mod_cast card_le_card fun i hi => by simpa using h2 i hi
  have hA : #𝒜 ≤ ∑ i ∈ range (Module.finrank ℝ E + 1 + 1), (2 * m).choose i := by
    have := card_traces (points z) s 𝒜 (by
      intro T hT
      simp only [𝒜, mem_filter, mem_univ, true_and] at hT
      obtain ⟨c, _, h⟩ := hT
      exact ⟨c, h⟩)
    simpa [mul_comm] using this
  calc ((univ.filter fun σ : Fin m → Bool => Bad D s t (exchange σ z)).card : ℝ)
      ≤ (#(𝒜.biUnion fun T => good T t) : ℝ) := by exact_mod_cast card_le_card hsub
    _ ≤ ∑ T ∈ 𝒜, (#(good T t) : ℝ) := by exact_mod_cast card_biUnion_le
    _ ≤ ∑ T ∈ 𝒜, (2 ^ (m : ℝ) * 2 ^ (-t) : ℝ) := sum_le_sum fun T _ => card_good T t
    _ = (#𝒜 : ℝ) * (2 ^ (m : ℝ) * 2 ^ (-t)) := by rw [sum_const, nsmul_eq_mul]
    _ ≤ _ := by
      apply mul_le_mul_of_nonneg_right _ (by positivity)
      exact_mod_cast hA

end Verif.Net
