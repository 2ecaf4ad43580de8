import Verif.Spec.Sat2D
import Mathlib.Analysis.SpecialFunctions.Sqrt

/-! What is assumed of a float dot product, and the quantities in which the claims about the separating-axis test in floats are stated. -/

namespace Verif.Spec

/-- `rd` rounds with relative error at most `u`, and absolute error at most `τ` near zero. -/
def Rounds (rd : ℝ → ℝ) (u τ : ℝ) : Prop := ∀ x, |rd x - x| ≤ u * |x| + τ

/-- A computed dot product is off by at most a few roundings of its terms. -/
def DotAccurate (dotR : ℝ × ℝ → ℝ × ℝ → ℝ) (u τ : ℝ) : Prop :=
  ∀ v w, |dotR v w - (v.1 * w.1 + v.2 * w.2)| ≤ 3 * u * (|v.1 * w.1| + |v.2 * w.2|) + 4 * τ

/-- The coordinates of the vertices are at most `R` in absolute value. -/
def InBox (R : ℝ) (vs : List (ℝ × ℝ)) : Prop := ∀ v ∈ vs, |v.1| ≤ R ∧ |v.2| ≤ R

/-- The polygon has a vertex, and every vertex is at least `ℓ` from the next one. -/
def LongEdges (ℓ : ℝ) (vs : List (ℝ × ℝ)) : Prop := vs ≠ [] ∧ ∀ p q, IsEdge vs p q → ℓ ≤ √((q.1 - p.1) ^ 2 + (q.2 - p.2) ^ 2)

/-- The line along the edge from `p` to `q` has on one side one polygon and, at distance at least `g` from it in the direction of the normal, the other. -/
def GapAlong (p q : ℝ × ℝ) (g : ℝ) (va vb : List (ℝ × ℝ)) : Prop :=
  (∀ a ∈ va, ∀ b ∈ vb, (q.2 - p.2) * a.1 - (q.1 - p.1) * a.2 + g * √((q.1 - p.1) ^ 2 + (q.2 - p.2) ^ 2) ≤ (q.2 - p.2) * b.1 - (q.1 - p.1) * b.2) ∨
  (∀ a ∈ va, ∀ b ∈ vb, (q.2 - p.2) * b.1 - (q.1 - p.1) * b.2 + g * √((q.1 - p.1) ^ 2 + (q.2 - p.2) ^ 2) ≤ (q.2 - p.2) * a.1 - (q.1 - p.1) * a.2)

/-- A polygon with `n` vertices, edges that are not tiny and coordinates up to `R`. -/
def FloatRow (n : ℕ) (R : ℝ) (vs : List (ℝ × ℝ)) : Prop := vs.length = n ∧ LongEdges (2 ^ (-400 : ℤ)) vs ∧ InBox R vs

/-- The robot and the obstacles as the motion check gets them: coordinates at most `R`, which is at least 1, edges of the robot that are not tiny compared with `R`, and
obstacles with as many vertices as the robot. -/
structure FloatBodies (R : ℝ) (robot : List (ℝ × ℝ)) (hulls : List (List (ℝ × ℝ))) : Prop where
  one : 1 ≤ R
  top : R ≤ 2 ^ (1000 : ℤ)
  edges : LongEdges (2 ^ (-40 : ℤ) * R) robot
  box : InBox R robot
  obstacles : ∀ o ∈ hulls, FloatRow robot.length R o

end Verif.Spec
