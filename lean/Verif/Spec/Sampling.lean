import Mathlib.Probability.Distributions.Uniform
import Mathlib.Probability.Independence.Basic
import Mathlib.MeasureTheory.Measure.Haar.OfBasis
import Mathlib.MeasureTheory.Measure.Haar.InnerProductSpace
import Mathlib.Topology.EMetricSpace.BoundedVariation
import Mathlib.Analysis.Convex.Segment
import Verif.Spec.Generator

/-!
Specification notions for the guarantees that `bound.py` and `prm.py` give together: independent uniform samples, paths with
clearance, a planner for a free space in which motions are straight segments.
-/

namespace Verif.Spec

open MeasureTheory ProbabilityTheory Verif.Prm

/-- `ℝ^dim` with the Euclidean norm. -/
abbrev Space (dim : ℕ) := EuclideanSpace ℝ (Fin dim)

/-- The states that a sampler returns one after the other are independent and uniform in `S`. -/
structure IidUniform {Ω : Type*} [MeasurableSpace Ω] (Pr : Measure Ω) {dim : ℕ} (X : ℕ → Ω → Space dim) (S : Set (Space dim)) :
    Prop where
  measurable : ∀ i, Measurable (X i)
  indep : iIndepFun X Pr
  uniform : ∀ i, pdf.IsUniform (X i) S Pr volume

/-- A path `γ` from `a` to `b` over the time interval `[0, 1]` that keeps distance `δ` from everything outside `F`. -/
structure ClearPath {dim : ℕ} (F : Set (Space dim)) (δ : ℝ) (a b : Space dim) (γ : ℝ → Space dim) : Prop where
  continuous : ContinuousOn γ (Set.Icc 0 1)
  start : γ 0 = a
  goal : γ 1 = b
  clear : ∀ t ∈ Set.Icc (0 : ℝ) 1, Metric.ball (γ t) δ ⊆ F

/-- The path is rectifiable of length at most `L`. -/
def LengthAtMost {dim : ℕ} (γ : ℝ → Space dim) (L : ℝ) : Prop := eVariationOn γ (Set.Icc 0 1) ≤ ENNReal.ofReal L

/-- A planner in `ℝ^dim` with free space `F`, given the sampler results `x`: Euclidean distance, a motion checker that accepts every
straight motion inside `F`, and (`Sound`) a correct shortest-path search. -/
structure EuclideanWorld {dim : ℕ} (w : World (Space dim) ℝ) (F : Set (Space dim)) (x : ℕ → Space dim) : Prop where
  sound : w.Sound
  dist : ∀ p q, w.dist p q = dist p q
  draw : ∀ i, w.draw i = x i
  check : ∀ p q, segment ℝ p q ⊆ F → w.check p q = true

/-- A planner that has been given an environment's checker and sampler: Euclidean distance and a correct shortest-path search; `x i` is
the `i`-th state that the sampler returns. -/
structure EnvWorld {dim : ℕ} (w : World (Space dim) ℝ) (isMotionValid : (Fin dim → ℝ) → (Fin dim → ℝ) → Bool) (x : ℕ → Fin dim → ℝ) :
    Prop where
  sound : w.Sound
  dist : ∀ p q, w.dist p q = dist p q
  draw : ∀ i, w.draw i = WithLp.toLp 2 (x i)
  check : ∀ p q, w.check p q = isMotionValid (fun i => p i) fun i => q i

/-- A planner with exact, sorted nearest-neighbour tables and an edge generator that yields only existing edges (it may skip some). -/
structure KnnWorld {dim : ℕ} (w : World (Space dim) ℝ) : Prop where
  exact : ∀ S k, w.ExactTable S k (w.knn S k)
  sorted : ∀ S k, SortedRows (w.knn S k)
  visits : w.VisitsExisting

/-- Among the `m` draws from number `d` on: how many others are closer than `r` to the `i`-th one. -/
noncomputable def neighbours {Ω : Type*} {E : Type*} [PseudoMetricSpace E] (X : ℕ → Ω → E) (d m : ℕ) (r : ℝ) (ω : Ω) (i : ℕ) : ℕ :=
  ((Finset.range m).filter fun j => j ≠ i ∧ dist (X (d + j) ω) (X (d + i) ω) < r).card

end Verif.Spec
