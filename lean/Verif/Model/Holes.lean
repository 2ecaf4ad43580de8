import Mathlib.Data.List.Basic
import Verif.Model.Py

/-!
Model of the first half of `random_point_in_mpolygon` (sampler.py:21-59): which rings are given to the triangulation and which points mark the holes.
shapely is a parameter: a shape `S` is what shapely builds from one ring (or a difference of such), a point is `P`.
-/

namespace Verif.Holes

/-- The shapely functions that are used. `pointOnSurface` gives the empty point (`none`) for an empty shape; `get_coordinates` drops it. -/
structure Shapely (S P : Type*) where
  covers : S → S → Bool
  difference : S → S → S
  pointOnSurface : S → Option P

/-- A polygon: the shape inside its exterior ring, and the shapes inside its interior rings. -/
structure Poly (S : Type*) where
  ext : S
  holes : List S

variable {S P : Type*}

/-- `mpoly_interior_rings` of a multi-polygon (sampler.py:28-33): for every index the rings with this index of all polygons, those that do not exist (`None`) removed. -/
def interiorRings (polys : List (Poly S)) : List S :=
  let most := (polys.map fun p => p.holes.length).foldl max 0
  (List.range most).flatMap fun i => polys.filterMap fun p => p.holes[i]?

/-- The loop over the covered exteriors (sampler.py:36-46), for one interior shape: `covers` is evaluated on the shapes before the loop. -/
def cutOut (G : Shapely S P) (exts : List S) (hole : S) : S :=
  (exts.filter (G.covers hole)).foldl G.difference hole

/-- `interior_points` of a multi-polygon (sampler.py:22-48). -/
def multiHolePoints (G : Shapely S P) (polys : List (Poly S)) : List P :=
  (interiorRings polys).filterMap fun h => G.pointOnSurface (cutOut G (polys.map (·.ext)) h)

/-- `interior_points` of a single polygon (sampler.py:50-59). -/
def holePoints (G : Shapely S P) (poly : Poly S) : List P := poly.holes.filterMap G.pointOnSurface

/-- The argument: a multi-polygon, a polygon or something else. -/
inductive Arg (S : Type*) where
  | multi (polys : List (Poly S))
  | single (poly : Poly S)
  | other

/-- `mpoly_rings` and the `holes` entry of the data for `tr.triangulate` (sampler.py:21-63, 96-100). `far` is the point (-100, -100). -/
def holesEntry (G : Shapely S P) (far : P) : Arg S → Except PyErr (List S × List P)
  | .multi polys => .ok (polys.map (·.ext) ++ interiorRings polys, far :: multiHolePoints G polys)
  | .single poly => .ok (poly.ext :: poly.holes, far :: holePoints G poly)
  | .other => .error .notImplemented

end Verif.Holes
