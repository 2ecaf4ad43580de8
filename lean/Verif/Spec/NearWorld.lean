import Verif.Spec.Sampling
import Verif.Spec.TableDist

/-! What is assumed of a planner whose distances, and those of its nearest-neighbour library, are inexact. -/

namespace Verif.Spec

open Verif.Prm

/-- The planner's distances `w.dist` and the distances `td` in the neighbour tables have relative error `κ` and absolute error `α` between points of `B`, and a
point has distance 0 from itself. -/
structure NearDistances {E : Type*} [PseudoMetricSpace E] (w : World E ℝ) (td : E → E → ℝ) (κ α : ℝ) (B : Set E) : Prop where
  sound : w.SoundWith td
  dist : ∀ p ∈ B, ∀ q ∈ B, |w.dist p q - dist p q| ≤ κ * dist p q + α
  table : ∀ p ∈ B, ∀ q ∈ B, |td p q - Dist.dist p q| ≤ κ * Dist.dist p q + α
  dist_self : ∀ p, w.dist p p = 0
  table_self : ∀ p, td p p = 0

/-- As `EuclideanWorld`, with inexact distances: free space `F`, sampler results `x` in the bounds `B`, a checker that accepts every straight motion inside `F`. -/
structure NearWorld {dim : ℕ} (w : World (Space dim) ℝ) (td : Space dim → Space dim → ℝ) (κ α : ℝ) (F B : Set (Space dim)) (x : ℕ → Space dim) : Prop where
  near : NearDistances w td κ α B
  draw : ∀ i, w.draw i = x i
  inside : ∀ i, x i ∈ B
  check : ∀ p q, segment ℝ p q ⊆ F → w.check p q = true

/-- As `KnnWorld`, but the tables list the nearest neighbours in the distances `td` of the library. -/
structure NearKnn {E : Type*} (w : World E ℝ) (td : E → E → ℝ) : Prop where
  exact : ∀ S k, { w with dist := td }.ExactTable S k (w.knn S k)
  sorted : ∀ S k, SortedRows (w.knn S k)
  visits : w.VisitsExisting

end Verif.Spec
