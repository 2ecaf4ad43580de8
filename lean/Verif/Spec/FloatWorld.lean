import Verif.Spec.Sampling

/-! What is assumed of a planner that computes in floats. -/

namespace Verif.Spec

open Verif.Prm

/-- A planner that has been given an environment's checker and sampler and computes distances with a relative error of at most `κ`; `x i`
is the `i`-th state that the sampler returns. The shortest-path search is correct for the distances so computed. -/
structure FloatWorld {dim : ℕ} (w : World (Space dim) ℝ) (κ : ℝ) (isMotionValid : (Fin dim → ℝ) → (Fin dim → ℝ) → Bool)
    (x : ℕ → Fin dim → ℝ) : Prop where
  sound : w.Sound
  dist : ∀ p q, |w.dist p q - dist p q| ≤ κ * dist p q
  draw : ∀ i, w.draw i = WithLp.toLp 2 (x i)
  check : ∀ p q, w.check p q = isMotionValid (fun i => p i) fun i => q i

end Verif.Spec
