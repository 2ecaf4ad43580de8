import Verif.Spec.NearWorld
import Verif.Model.Prm

/-! What is assumed of a k-NN planner in an environment when everything is rounded. -/

namespace Verif.Spec

open Verif.Prm

/-- A k-NN planner that has been given an environment's checker and sampler; `x i` is the `i`-th state that the sampler returns. The planner's distances and those of the
neighbour library have relative error `κ` and absolute error `α` between points of `B`, and the tables list the nearest neighbours in the distances of the library. -/
structure FloatKnnWorld {dim : ℕ} (w : World (Space dim) ℝ) (td : Space dim → Space dim → ℝ) (κ α : ℝ) (B : Set (Space dim))
    (isMotionValid : (Fin dim → ℝ) → (Fin dim → ℝ) → Bool) (x : ℕ → Fin dim → ℝ) : Prop where
  near : NearDistances w td κ α B
  knn : NearKnn w td
  draw : ∀ i, w.draw i = WithLp.toLp 2 (x i)
  check : ∀ p q, w.check p q = isMotionValid (fun i => p i) fun i => q i

end Verif.Spec
