import Mathlib.Probability.Independence.Basic
import Verif.Lemmas.ClearPath
import Verif.Lemmas.KnnRadius

/-! Samples in general position: no two share a coordinate. -/

namespace Verif.Net

open MeasureTheory ProbabilityTheory Verif.Prm Verif.Spec

variable {dim : ℕ}

/-- No sample shares a coordinate with another one, or with `a` or `b`. -/
def General (S : List (Space dim)) (a b : Space dim) : Prop :=
  (∀ p ∈ S, ∀ i, p i ≠ a i ∧ p i ≠ b i) ∧ ∀ p ∈ S, ∀ q ∈ S, p ≠ q → ∀ i, p i ≠ q i

/-- A chain of good hops is a chain of samples for a planner whose checker accepts motions in general position. -/
theorem sampleChain_of_general {w : World (Space dim) ℝ} {F : Set (Space dim)} (hd : ∀ p q, w.dist p q = dist p q)
    (hch : ∀ p q, (∀ i, p i ≠ q i) → segment ℝ p q ⊆ F → w.check p q = true)
    {S pts : List (Space dim)} {r : ℝ} {a b : Space dim} (hgen : General S a b) (hne : pts ≠ []) (hS : ∀ p ∈ pts, p ∈ S)
    (hc : (a :: pts ++ [b]).IsChain fun p q => dist p q < r ∧ segment ℝ p q ⊆ F) :
    ∃ pts', w.SampleChain S r a b pts' ∧ pathLength dist (a :: pts' ++ [b]) = pathLength dist (a :: pts ++ [b]) ∧
      pts'.IsChain fun p q => w.dist p q < r := by
  cases pts with
  | nil => exact absurd rfl hne
  | cons p l =>
    rw [List.isChain_append] at hc
    obtain ⟨h1, -, h2⟩ := hc
    rw [List.isChain_cons_cons] at h1
    obtain ⟨l', c1, c2, c3, c4, -⟩ := compress (d := dist) (fun p => dist_self p) b l p h1.2
    have hmem : ∀ q ∈ p :: l', q ∈ S := by
      intro q hq
      rcases List.mem_cons.1 hq with rfl | hq
      · exact hS _ (by simp)
      · exact hS _ (by simp [c3 q hq])
    refine ⟨p :: l', ⟨by simp, hmem, ?_, ?_, ?_⟩, ?_, c1.imp fun _ _ h => by rw [hd]; exact h.1.1⟩
    · intro q hq
      cases hq
      refine ⟨?_, hch _ _ (fun i => ?_) h1.1.2⟩
      · rw [hd, dist_comm]
        exact h1.1.1.le
      · exact ((hgen.1 p (hmem p (by simp)) i).1).symm
    · intro q hq
      rw [c2] at hq
      have hq' : (a :: p :: l).getLast? = some q := by rwa [List.getLast?_cons_cons]
      obtain ⟨h3, h4⟩ := h2 q hq' b (by simp)
      have hqS : q ∈ S := hS q (List.mem_of_getLast? hq)
      refine ⟨by rw [hd]; exact h3.le, hch _ _ (fun i => ((hgen.1 q hqS i).2).symm) ?_⟩
      rw [segment_symm]
      exact h4
    · have hall : ∀ l : List (Space dim), (∀ q ∈ l, q ∈ S) →
          l.IsChain (fun a b => (dist a b < r ∧ segment ℝ a b ⊆ F) ∧ a ≠ b) →
          l.IsChain fun p q => w.dist p q ≤ r ∧ w.Accepted p q := by
        intro l hl hch'
        induction l with
        | nil => exact List.IsChain.nil
        | cons x l ih =>
          cases l with
          | nil => exact List.IsChain.singleton _
          | cons y l =>
            rw [List.isChain_cons_cons] at hch' ⊢
            refine ⟨⟨by rw [hd]; exact hch'.1.1.1.le, Or.inl (hch _ _ ?_ hch'.1.1.2)⟩, ih (fun q hq => hl q (by simp [hq])) hch'.2⟩
            exact hgen.2 x (hl x (by simp)) y (hl y (by simp)) hch'.1.2
      exact hall _ hmem c1
    · have e1 : ∀ m : List (Space dim), pathLength dist (a :: (p :: m) ++ [b]) = dist a p + pathLength dist (p :: m ++ [b]) := fun _ => rfl
      rw [e1, e1, c4]

variable {Ω : Type*} [MeasurableSpace Ω] {Pr : Measure Ω} {X : ℕ → Ω → Space dim} {S : Set (Space dim)}

theorem coord_null (i : Fin dim) (v : ℝ) : (volume : Measure (Space dim)) {x | x i = v} = 0 := by
  have h : {x : Space dim | x i = v} = (WithLp.ofLp : Space dim → Fin dim → ℝ) ⁻¹' {y | y i = v} := rfl
  rw [h]
  refine ((PiLp.volume_preserving_ofLp (Fin dim)).quasiMeasurePreserving).preimage_null ?_
  have h : {x : Fin dim → ℝ | x i = v} = (Function.eval i : (Fin dim → ℝ) → ℝ) ⁻¹' ({v} : Set ℝ) := rfl
  rw [h]
  exact (Measure.quasiMeasurePreserving_eval (fun _ : Fin dim => (volume : Measure ℝ)) i).preimage_null (by simp)

theorem coord_measurable (i : Fin dim) : Measurable fun x : Space dim => x i := by
  have : Measurable (WithLp.ofLp : Space dim → Fin dim → ℝ) := (PiLp.volume_preserving_ofLp (Fin dim)).measurable
  exact (measurable_pi_apply i).comp this

theorem coord_ae (hX : IidUniform Pr X S) (k : ℕ) (i : Fin dim) (v : ℝ) : Pr {ω | X k ω i = v} = 0 := by
  have h1 : {ω | X k ω i = v} = X k ⁻¹' {x | x i = v} := rfl
  have hm : MeasurableSet {x : Space dim | x i = v} := measurableSet_eq_fun (coord_measurable i) measurable_const
  rw [h1, ← Measure.map_apply (hX.measurable k) hm, hX.uniform k]
  exact cond_absolutelyContinuous (coord_null i v)

theorem coord_pair_ae [IsProbabilityMeasure Pr] (hX : IidUniform Pr X S) {k l : ℕ} (hkl : k ≠ l) (i : Fin dim) :
    Pr {ω | X k ω i = X l ω i} = 0 := by
  have hY : ∀ k, Measurable fun ω => X k ω i := fun k => (coord_measurable i).comp (hX.measurable k)
  have hind : IndepFun (fun ω => X k ω i) (fun ω => X l ω i) Pr :=
    (hX.indep.indepFun hkl).comp (coord_measurable i) (coord_measurable i)
  have hmap := (indepFun_iff_map_prod_eq_prod_map_map (hY k).aemeasurable (hY l).aemeasurable).1 hind
  have hm : MeasurableSet {q : ℝ × ℝ | q.1 = q.2} := measurableSet_eq_fun measurable_fst measurable_snd
  have h1 : {ω | X k ω i = X l ω i} = (fun ω => (X k ω i, X l ω i)) ⁻¹' {q : ℝ × ℝ | q.1 = q.2} := rfl
  rw [h1, ← Measure.map_apply ((hY k).prodMk (hY l)) hm, hmap, Measure.measure_prod_null hm]
  refine Filter.Eventually.of_forall fun v => ?_
  have h2 : Prod.mk v ⁻¹' {q : ℝ × ℝ | q.1 = q.2} = {v} := by
    ext y
    simp [eq_comm]
  show Measure.map _ Pr _ = 0
  rw [h2, Measure.map_apply (hY l) (measurableSet_singleton v)]
  exact coord_ae hX l i v

/-- Almost surely all samples are in general position. -/
theorem general_ae [IsProbabilityMeasure Pr] (hX : IidUniform Pr X S) (a b : Space dim) :
    Pr {ω | ¬ ((∀ k i, X k ω i ≠ a i ∧ X k ω i ≠ b i) ∧ ∀ k l, k ≠ l → ∀ i, X k ω i ≠ X l ω i)} = 0 := by
  have h : {ω | ¬ ((∀ k i, X k ω i ≠ a i ∧ X k ω i ≠ b i) ∧ ∀ k l, k ≠ l → ∀ i, X k ω i ≠ X l ω i)} ⊆
      (⋃ (k : ℕ) (i : Fin dim), ({ω | X k ω i = a i} ∪ {ω | X k ω i = b i})) ∪
        ⋃ (k : ℕ) (l : ℕ) (i : Fin dim), {ω | k ≠ l ∧ X k ω i = X l ω i} := by
    intro ω hω
    by_contra hn
    apply hω
    simp only [Set.mem_union, Set.mem_iUnion, Set.mem_ofPred_eq, not_or, not_exists, not_and] at hn
    exact ⟨fun k i => hn.1 k i, fun k l hkl i => hn.2 k l i hkl⟩
  refine measure_mono_null h (measure_union_null ?_ ?_)
  · simp only [measure_iUnion_null_iff]
    intro k i
    exact measure_union_null (coord_ae hX k i _) (coord_ae hX k i _)
  · simp only [measure_iUnion_null_iff]
    intro k l i
    by_cases hkl : k = l
    · simp [hkl]
    · exact measure_mono_null (fun ω hω => hω.2) (coord_pair_ae hX hkl i)

/-- The samples of a planner are in general position. -/
theorem general_fresh {x : ℕ → Space dim} {a b : Space dim}
    (h : (∀ k i, x k i ≠ a i ∧ x k i ≠ b i) ∧ ∀ k l, k ≠ l → ∀ i, x k i ≠ x l i) {T : List (Space dim)}
    (hT : ∀ p ∈ T, ∃ k, p = x k) : General T a b := by
  refine ⟨fun p hp i => ?_, fun p hp q hq hpq i => ?_⟩
  · obtain ⟨k, rfl⟩ := hT p hp
    exact h.1 k i
  · obtain ⟨k, rfl⟩ := hT p hp
    obtain ⟨l, rfl⟩ := hT q hq
    exact h.2 k l (fun e => hpq (by rw [e])) i

end Verif.Net
