import Mathlib.Topology.Connected.PathConnected
import Verif.Model.Holes

/-! Polygons as sets of points. -/

namespace Verif.Spec

open Verif.Holes

variable {S P : Type*} [TopologicalSpace P]

/-- shapely, with shapes read as closed sets of points: `covers` is inclusion, `difference` is the closure of the set difference, and the representative point lies in the interior if there is one. -/
structure Shapes (G : Shapely S P) (region : S → Set P) : Prop where
  covers : ∀ a b, G.covers a b = true ↔ region b ⊆ region a
  difference : ∀ a b, region (G.difference a b) = closure (region a \ region b)
  point : ∀ a x, G.pointOnSurface a = some x → x ∈ interior (region a)
  point_none : ∀ a, G.pointOnSurface a = none → interior (region a) = ∅

/-- The points of a polygon: inside the exterior ring, not strictly inside a hole. -/
def area (region : S → Set P) (p : Poly S) : Set P := {x | x ∈ region p.ext ∧ ∀ h ∈ p.holes, x ∉ interior (region h)}

/-- Shapely's validity: every ring bounds a regular closed set, holes lie inside the exterior ring and have no common inner points. -/
structure ValidPoly (region : S → Set P) (p : Poly S) : Prop where
  ext : closure (interior (region p.ext)) = region p.ext
  holes : ∀ h ∈ p.holes, closure (interior (region h)) = region h ∧ region h ⊆ region p.ext
  apart : p.holes.Pairwise fun h h' => Disjoint (interior (region h)) (interior (region h'))

/-- Two polygons of a multi-polygon: outside of each other, or one of them inside a hole of the other. -/
def Apart (region : S → Set P) (p q : Poly S) : Prop :=
  Disjoint (interior (region p.ext)) (interior (region q.ext)) ∨ (∃ h ∈ q.holes, region p.ext ⊆ region h) ∨ (∃ h ∈ p.holes, region q.ext ⊆ region h)

/-- A valid multi-polygon. -/
structure ValidMulti (region : S → Set P) (polys : List (Poly S)) : Prop where
  each : ∀ p ∈ polys, ValidPoly region p
  apart : polys.Pairwise (Apart region)

/-- The polygons of an argument. -/
def parts : Arg S → List (Poly S)
  | .multi polys => polys
  | .single poly => [poly]
  | .other => []

/-- The points in none of the polygons. -/
def Outside (region : S → Set P) (polys : List (Poly S)) : Set P := {x | ∀ q ∈ polys, x ∉ area region q}

/-- What the triangulation removes, starting from the points `pts`: everything that can be reached without touching a polygon. -/
def Removed (region : S → Set P) (polys : List (Poly S)) (pts : List P) : Set P := {y | ∃ x ∈ pts, JoinedIn (Outside region polys) x y}

end Verif.Spec
