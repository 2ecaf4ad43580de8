import Verif.Model.BoundingBoxes
import Verif.Spec.Sat2D

/-! Solid bodies, and what the convex hull library promises. -/

namespace Verif.Spec

open Verif.Bag

/-- The points of an upright box in space. -/
def solid (o : Oobb) : Set (ℝ × ℝ × ℝ) :=
  {x | ∃ a b h : ℝ, o.aabb.lower.1 ≤ a ∧ a ≤ o.aabb.upper.1 ∧ o.aabb.lower.2.1 ≤ b ∧ b ≤ o.aabb.upper.2.1 ∧ o.aabb.lower.2.2 ≤ h ∧ h ≤ o.aabb.upper.2.2 ∧
    x = (o.pos.1 + Real.cos o.yaw * a - Real.sin o.yaw * b, o.pos.2.1 + Real.sin o.yaw * a + Real.cos o.yaw * b, o.pos.2.2 + h)}

/-- The points of a block of the width and depth of `shape`, with its reference point above `q`, between the heights `z0` and `z1`. -/
def blockAt (shape : Aabb) (z0 z1 : ℝ) (q : ℝ × ℝ) : Set (ℝ × ℝ × ℝ) :=
  {x | shape.lower.1 ≤ x.1 - q.1 ∧ x.1 - q.1 ≤ shape.upper.1 ∧ shape.lower.2.1 ≤ x.2.1 - q.2 ∧ x.2.1 - q.2 ≤ shape.upper.2.1 ∧ z0 ≤ x.2.2 ∧ x.2.2 ≤ z1}

/-- Width and depth are at least a millimetre. -/
def Wide (b : Aabb) : Prop := b.lower.1 + 1 / 1000 ≤ b.upper.1 ∧ b.lower.2.1 + 1 / 1000 ≤ b.upper.2.1

/-- A box that is less than a millimetre wide or deep. -/
def Thin (b : Aabb) : Prop :=
  (b.lower.1 ≤ b.upper.1 ∧ b.upper.1 < b.lower.1 + 1 / 1000) ∨ (b.lower.2.1 ≤ b.upper.2.1 ∧ b.upper.2.1 < b.lower.2.1 + 1 / 1000)

/-- `idx` lists the positions of the corners of the convex hull of `vs`: the points there are a convex polygon in cyclic order, no two are the
same, none of them lies in the hull of the other points of `vs`, and their hull has every point of `vs`. -/
def HullOrder (vs : List (ℝ × ℝ)) (idx : List ℕ) : Prop :=
  ∃ ws : List (ℝ × ℝ), List.Forall₂ (fun i w => vs[i]? = some w) idx ws ∧ ConvexPolygon ws ∧ ws.Nodup ∧
    (∀ w ∈ ws, w ∉ convexHull ℝ {v | v ∈ vs ∧ v ≠ w}) ∧ ∀ v ∈ vs, v ∈ polygonHull ws

/-- What the convex hull library promises: when the points have a convex hull with corners in cyclic order, it returns such an order (where it starts
and which way it goes round is left open). -/
def HullLibrary (order : List (ℝ × ℝ) → Except PyErr (List ℕ)) : Prop :=
  ∀ vs idx, HullOrder vs idx → ∃ idx', order vs = .ok idx' ∧ HullOrder vs idx'

end Verif.Spec
