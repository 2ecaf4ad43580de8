import Mathlib.Algebra.BigOperators.Fin
import Mathlib.Data.Real.Basic

/-! Oriented boxes in space. -/

namespace Verif.Spec

/-- The solid box with the given center whose `k`-th axis is column `k` of `rot`, with half width `half k` along it. -/
def solidBox (center half : Fin 3 → ℝ) (rot : Fin 3 → Fin 3 → ℝ) : Set (Fin 3 → ℝ) :=
  {x | ∃ t : Fin 3 → ℝ, (∀ k, |t k| ≤ 1) ∧ ∀ r, x r = center r + ∑ k, t k * half k * rot r k}

/-- The columns of `rot` are orthogonal unit vectors. -/
def OrthonormalColumns (rot : Fin 3 → Fin 3 → ℝ) : Prop := ∀ i j, ∑ r, rot r i * rot r j = if i = j then 1 else 0

/-- The orientation mixes only axes with equal half widths (for example: a cube in any orientation, or any box with a diagonal
orientation matrix). -/
def MixesEqualAxes (half : Fin 3 → ℝ) (rot : Fin 3 → Fin 3 → ℝ) : Prop := ∀ r k, rot r k = 0 ∨ half r = half k

/-- The solid ellipsoid with the given center and half axes `half k` along the coordinate axes. -/
def solidEllipsoid (center half : Fin 3 → ℝ) : Set (Fin 3 → ℝ) :=
  {x | ∃ y : Fin 3 → ℝ, ∑ k, y k ^ 2 ≤ 1 ∧ ∀ r, x r = center r + half r * y r}

/-- The box between two corners in its own frame, moved to a pose. -/
def posedBox (lower upper position : Fin 3 → ℝ) (rot : Fin 3 → Fin 3 → ℝ) : Set (Fin 3 → ℝ) :=
  {x | ∃ y : Fin 3 → ℝ, (∀ k, lower k ≤ y k ∧ y k ≤ upper k) ∧ ∀ r, x r = position r + ∑ k, rot r k * y k}

end Verif.Spec
