import Mathlib.Analysis.Convex.Hull
import Mathlib.Data.Real.Basic

/-! Polygons in the plane, given by their vertices in cyclic order. -/

namespace Verif.Spec

/-- The region spanned by a list of vertices: its convex hull. -/
def polygonHull (vs : List (ℝ × ℝ)) : Set (ℝ × ℝ) := convexHull ℝ {p | p ∈ vs}

/-- `q` follows `p` in the cyclic order of the vertices. -/
def IsEdge (vs : List (ℝ × ℝ)) (p q : ℝ × ℝ) : Prop :=
  ∃ i : ℕ, vs[i]? = some p ∧ vs[(i + 1) % vs.length]? = some q

/-- The polygon has a vertex, and no vertex is the same point as the next one. -/
def ProperEdges (vs : List (ℝ × ℝ)) : Prop := vs ≠ [] ∧ ∀ p q, IsEdge vs p q → p ≠ q

/-- Twice the signed area of the triangle `p q r`: positive when `p`, `q`, `r` is a left turn. -/
def turn (p q r : ℝ × ℝ) : ℝ := (q.1 - p.1) * (r.2 - p.2) - (q.2 - p.2) * (r.1 - p.1)

/-- A convex polygon, listed clockwise or counter-clockwise: every vertex is on the same side of (or on) every edge line, and the
vertices are not all on one line. -/
def ConvexPolygon (vs : List (ℝ × ℝ)) : Prop :=
  (∃ p ∈ vs, ∃ q ∈ vs, ∃ r ∈ vs, turn p q r ≠ 0) ∧
  ((∀ p q, IsEdge vs p q → ∀ r ∈ vs, 0 ≤ turn p q r) ∨ (∀ p q, IsEdge vs p q → ∀ r ∈ vs, turn p q r ≤ 0))

end Verif.Spec
