import Verif.Spec.Stopping
import Mathlib.Probability.Independence.Basic

/-! Independent draws after a place that does not look ahead. -/

namespace Verif.Net

open MeasureTheory ProbabilityTheory Verif.Spec

variable {Ω E : Type*} [MeasurableSpace Ω] [MeasurableSpace E] {Pr : Measure Ω} [IsProbabilityMeasure Pr] {U : ℕ → Ω → E}

/-- If each of the events `A n`, about the draws from the `n`-th on, has probability at most `c`, then so has the event at a place that does not look ahead. -/
theorem stopped (hU : ∀ i, Measurable (U i)) (hi : iIndepFun U Pr) {D : Ω → ℕ} (hD : NoLookAhead U D) {A : ℕ → Set Ω}
    (hA : ∀ n, MeasurableSet[⨆ i ∈ {i : ℕ | n ≤ i}, MeasurableSpace.comap (U i) inferInstance] (A n)) {c : ENNReal} (hc : ∀ n, Pr (A n) ≤ c) :
    Pr {ω | ω ∈ A (D ω)} ≤ c := by
  have hle : ∀ i, MeasurableSpace.comap (U i) inferInstance ≤ (inferInstance : MeasurableSpace Ω) := fun i => (hU i).comap_le
  have hDm : ∀ n, MeasurableSet {ω | D ω = n} := fun n => (iSup₂_le fun i _ => hle i) _ (hD n)
  have hset : {ω | ω ∈ A (D ω)} = ⋃ n, ({ω | D ω = n} ∩ A n) := by
    ext ω
    simp
  have hprod : ∀ n, Pr ({ω | D ω = n} ∩ A n) = Pr {ω | D ω = n} * Pr (A n) := by
    intro n
    have := indep_iSup_of_disjoint hle hi (S := {i : ℕ | i < n}) (T := {i : ℕ | n ≤ i}) (by
      rw [Set.disjoint_left]
      intro i h1 h2
      simp only [Set.mem_ofPred_eq] at h1 h2
      omega)
    exact (Indep_iff _ _ _).1 this _ _ (hD n) (hA n)
  have htot : ∑' n, Pr {ω | D ω = n} = 1 := by
    rw [← measure_iUnion (fun a b hab => Set.disjoint_left.2 fun ω h1 h2 => hab (h1.symm.trans h2)) hDm]
    rw [show (⋃ n, {ω | D ω = n}) = Set.univ by ext; simp, measure_univ]
  rw [hset]
  calc Pr (⋃ n, ({ω | D ω = n} ∩ A n)) ≤ ∑' n, Pr ({ω | D ω = n} ∩ A n) := measure_iUnion_le _
    _ = ∑' n, Pr {ω | D ω = n} * Pr (A n) := by simp_rw [hprod]
    _ ≤ ∑' n, Pr {ω | D ω = n} * c := ENNReal.tsum_le_tsum fun n => by gcongr; exact hc n
    _ = c := by rw [ENNReal.tsum_mul_right, htot, one_mul]

omit [MeasurableSpace Ω] in
theorem noLookAhead_const (d : ℕ) : NoLookAhead U fun _ => d := fun n => by
  by_cases h : d = n <;> simp [h]

omit [MeasurableSpace Ω] in
/-- A place that depends on the first draw. -/
theorem noLookAhead_first {B : Set E} (hB : MeasurableSet B) [DecidablePred (· ∈ B)] {d e : ℕ} (hd : 1 ≤ d) (he : 1 ≤ e) : NoLookAhead U fun ω => if U 0 ω ∈ B then d else e := by
  intro n
  rcases Nat.eq_zero_or_pos n with rfl | hn
  · convert MeasurableSet.empty
    ext ω
    simp only [Set.mem_ofPred_eq, Set.mem_empty_iff_false, iff_false]
    split_ifs <;> omega
  · have h0 : MeasurableSpace.comap (U 0) inferInstance ≤ ⨆ i ∈ {i : ℕ | i < n}, MeasurableSpace.comap (U i) inferInstance :=
      le_iSup₂_of_le (f := fun i (_ : i ∈ {i : ℕ | i < n}) => MeasurableSpace.comap (U i) inferInstance) 0 hn le_rfl
    apply h0
    refine ⟨{x | (if x ∈ B then d else e) = n}, ?_, rfl⟩
    by_cases h1 : d = n <;> by_cases h2 : e = n
    · convert MeasurableSet.univ using 1
      ext x; simp [h1, h2]
    · convert hB using 1
      ext x
      simp only [Set.mem_ofPred_eq]
      split_ifs <;> simp_all
    · convert hB.compl using 1
      ext x
      simp only [Set.mem_ofPred_eq, Set.mem_compl_iff]
      split_ifs <;> simp_all
    · convert MeasurableSet.empty using 1
      ext x
      simp only [Set.mem_ofPred_eq, Set.mem_empty_iff_false, iff_false]
      split_ifs <;> simp_all

end Verif.Net
