import Mathlib.MeasureTheory.Measure.Lebesgue.EqHaar
import Verif.Lemmas.GenericPosition

/-! Hops over samples have different lengths; chains that get far have two hops. -/

namespace Verif.Net

open MeasureTheory ProbabilityTheory Verif.Prm Verif.Spec

variable {n : ℕ} {Ω : Type*} [MeasurableSpace Ω] {Pr : Measure Ω} {X : ℕ → Ω → Space (n + 1)} {S : Set (Space (n + 1))}

theorem hop_ae [IsProbabilityMeasure Pr] (hX : IidUniform Pr X S) {i j k : ℕ} (hik : i ≠ k) (hjk : j ≠ k) :
    Pr {ω | dist (X i ω) (X j ω) = dist (X j ω) (X k ω)} = 0 := by
  have hind : IndepFun (fun ω => (X i ω, X j ω)) (X k) Pr := hX.indep.indepFun_prodMk hX.measurable i j k hik hjk
  have hij : Measurable fun ω => (X i ω, X j ω) := (hX.measurable i).prodMk (hX.measurable j)
  have hmap := (indepFun_iff_map_prod_eq_prod_map_map hij.aemeasurable (hX.measurable k).aemeasurable).1 hind
  have hm : MeasurableSet {q : (Space (n + 1) × Space (n + 1)) × Space (n + 1) | dist q.1.1 q.1.2 = dist q.1.2 q.2} :=
    measurableSet_eq_fun (measurable_fst.fst.dist measurable_fst.snd) (measurable_fst.snd.dist measurable_snd)
  have h1 : {ω | dist (X i ω) (X j ω) = dist (X j ω) (X k ω)} = (fun ω => ((X i ω, X j ω), X k ω)) ⁻¹'
      {q : (Space (n + 1) × Space (n + 1)) × Space (n + 1) | dist q.1.1 q.1.2 = dist q.1.2 q.2} := rfl
  rw [h1, ← Measure.map_apply (hij.prodMk (hX.measurable k)) hm, hmap, Measure.measure_prod_null hm]
  refine Filter.Eventually.of_forall fun v => ?_
  have h2 : Prod.mk v ⁻¹' {q : (Space (n + 1) × Space (n + 1)) × Space (n + 1) | dist q.1.1 q.1.2 = dist q.1.2 q.2} =
      Metric.sphere v.2 (dist v.1 v.2) := by
    ext y
    rw [Metric.mem_sphere]
    show dist v.1 v.2 = dist v.2 y ↔ _
    rw [dist_comm v.2 y, eq_comm]
  show Measure.map _ Pr _ = 0
  rw [h2, hX.uniform k]
  exact cond_absolutelyContinuous (Measure.addHaar_sphere _ _ _)

/-- Almost surely no two hops from one sample to two others have the same length. -/
theorem hops_ae [IsProbabilityMeasure Pr] (hX : IidUniform Pr X S) :
    Pr {ω | ∃ i j k, i ≠ k ∧ j ≠ k ∧ dist (X i ω) (X j ω) = dist (X j ω) (X k ω)} = 0 := by
  have h : {ω | ∃ i j k, i ≠ k ∧ j ≠ k ∧ dist (X i ω) (X j ω) = dist (X j ω) (X k ω)} ⊆
      ⋃ (i : ℕ) (j : ℕ) (k : ℕ), {ω | i ≠ k ∧ j ≠ k ∧ dist (X i ω) (X j ω) = dist (X j ω) (X k ω)} := by
    rintro ω ⟨i, j, k, h⟩
    simp only [Set.mem_iUnion]
    exact ⟨i, j, k, h⟩
  refine measure_mono_null h ?_
  simp only [measure_iUnion_null_iff]
  intro i j k
  by_cases hh : i ≠ k ∧ j ≠ k
  · exact measure_mono_null (fun ω hω => hω.2.2) (hop_ae hX hh.1 hh.2)
  · refine measure_mono_null (fun ω hω => ?_) measure_empty
    exact hh ⟨hω.1, hω.2.1⟩

/-- A chain stays within two points, or has two hops with three different points. -/
theorem chain_two_hops {P : Type*} {R : P → P → Prop} : ∀ (x : P) (l : List P), (x :: l).IsChain R →
    (∃ y, (y = x ∨ R x y) ∧ ∀ p ∈ x :: l, p = x ∨ p = y) ∨
    ∃ p q s, p ≠ q ∧ q ≠ s ∧ p ≠ s ∧ R p q ∧ R q s ∧ p ∈ x :: l ∧ q ∈ x :: l ∧ s ∈ x :: l := by
  intro x l
  induction l generalizing x with
  | nil => exact fun _ => Or.inl ⟨x, Or.inl rfl, by simp⟩
  | cons b l ih =>
    intro h
    rw [List.isChain_cons_cons] at h
    rcases ih b h.2 with ⟨y, hy, hall⟩ | ⟨p, q, s, h1, h2, h3, h4, h5, h6, h7, h8⟩
    · by_cases hxb : x = b
      · subst hxb
        refine Or.inl ⟨y, hy, fun p hp => ?_⟩
        rcases List.mem_cons.1 hp with rfl | hp
        · exact Or.inl rfl
        · exact hall p hp
      · by_cases hyb : y = b
        · subst hyb
          refine Or.inl ⟨y, Or.inr h.1, fun p hp => ?_⟩
          rcases List.mem_cons.1 hp with rfl | hp
          · exact Or.inl rfl
          · exact Or.inr ((hall p hp).elim id id)
        · by_cases hyx : y = x
          · subst hyx
            refine Or.inl ⟨b, Or.inr h.1, fun p hp => ?_⟩
            rcases List.mem_cons.1 hp with rfl | hp
            · exact Or.inl rfl
            · exact (hall p hp).symm
          · have hby : R b y := hy.resolve_left hyb
            by_cases hmem : y ∈ b :: l
            · exact Or.inr ⟨x, b, y, hxb, fun e => hyb e.symm, fun e => hyx e.symm, h.1, hby, by simp, by simp, List.mem_cons_of_mem _ hmem⟩
            · refine Or.inl ⟨b, Or.inr h.1, fun p hp => ?_⟩
              rcases List.mem_cons.1 hp with rfl | hp
              · exact Or.inl rfl
              · rcases hall p hp with rfl | rfl
                · exact Or.inr rfl
                · exact absurd hp hmem
    · exact Or.inr ⟨p, q, s, h1, h2, h3, h4, h5, List.mem_cons_of_mem _ h6, List.mem_cons_of_mem _ h7, List.mem_cons_of_mem _ h8⟩

end Verif.Net
