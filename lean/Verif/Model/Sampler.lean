import Mathlib.Algebra.Order.Field.Basic
import Mathlib.Algebra.Order.Group.Unbundled.Abs
import Verif.Model.Py

/-!
Model of `random_point_in_mpolygon` (sampler.py): the boundary segments given to the triangulation, the triangle weights and the
drawn point. The triangulation itself, the geometry library (rings, hole points) and the random generator are not modelled: rings,
triangles and draws are arguments. Coordinates are an ordered field.
-/

namespace Verif.Sampler

/-- `np.delete(l, idx)` for indices that are in range (numpy raises IndexError otherwise); `p` is the position of the head. -/
def deleteFrom {α : Type*} (idx : List ℕ) : ℕ → List α → List α
  | _, [] => []
  | p, a :: l => if p ∈ idx then deleteFrom idx (p + 1) l else a :: deleteFrom idx (p + 1) l

/-- `np.insert(l, pos, vals)`: the values for a position come, in their order, before the element that was there; positions up to the
length are allowed (numpy raises IndexError otherwise). The insertions are given as pairs. -/
def insertFrom {α : Type*} (ins : List (ℕ × α)) : ℕ → List α → List α
  | p, [] => (ins.filter fun c => c.1 == p).map (·.2)
  | p, a :: l => (ins.filter fun c => c.1 == p).map (·.2) ++ a :: insertFrom ins (p + 1) l

/-- `np.cumsum`, started at `s`. -/
def cumsum : ℕ → List ℕ → List ℕ
  | _, [] => []
  | s, a :: l => (s + a) :: cumsum (s + a) l

/-- `a[0] -= 1`; on an empty array numpy raises IndexError. Numbers are natural: a ring has at least one point. -/
def decHead : List ℕ → List ℕ
  | [] => []
  | a :: l => (a - 1) :: l

/-- The indices of the vertices to drop (sampler.py:73-75), from the numbers of points of the closed rings. -/
def delVertIndices (numPts : List ℕ) : List ℕ := cumsum 0 (decHead numPts)

/-- `vertices` (sampler.py:66, 76). -/
def vertices {P : Type*} (rings : List (List P)) : List P :=
  deleteFrom (delVertIndices (rings.map List.length)) 0 rings.flatten

/-- `roll_indices` (sampler.py:79-81). -/
def rollIndices (numPts : List ℕ) : List ℕ := cumsum 0 (decHead (numPts.map (· - 1)))

/-- The positions for the insertion (sampler.py:88). -/
def insertPositions (numPts : List ℕ) : List ℕ :=
  List.zipWith (· - ·) (cumsum 0 (0 :: numPts.dropLast.map (· - 1))) (List.range numPts.length)

/-- `conn_to_arr` (sampler.py:85-90). -/
def connTo (numPts : List ℕ) (nVerts : ℕ) : List ℕ :=
  insertFrom ((insertPositions numPts).zip (rollIndices numPts)) 0 (deleteFrom (rollIndices numPts) 0 (List.range nVerts))

/-- `segments` (sampler.py:83-91). -/
def segments {P : Type*} (rings : List (List P)) : List (ℕ × ℕ) :=
  (List.range (vertices rings).length).zip (connTo (rings.map List.length) (vertices rings).length)

variable {K : Type*} [Field K] [LinearOrder K]

/-- A triangle by its three corners. -/
abbrev Triangle (K : Type*) := (K × K) × (K × K) × (K × K)

/-- One entry of `areas` before the division (sampler.py:124-126). -/
def area (t : Triangle K) : K :=
  1 / 2 * |t.1.1 * (t.2.1.2 - t.2.2.2) + t.2.1.1 * (t.2.2.2 - t.1.2) + t.2.2.1 * (t.1.2 - t.2.1.2)|

/-- `areas /= np.sum(areas)` (sampler.py:128-129). A zero sum gives NaN in numpy, which `rng.choice` refuses; here the value of a
division by zero is not used. -/
def weights (ts : List (Triangle K)) : List K := (ts.map area).map (· / (ts.map area).sum)

/-- Folding the unit square (sampler.py:132-135). -/
def fold (x y : K) : K × K := if x + y > 1 then (1 - x, 1 - y) else (x, y)

/-- shapely's `affine_transform` of a point with `[a, b, d, e, xoff, yoff]`. -/
def affine (m : K × K × K × K × K × K) (p : K × K) : K × K :=
  (m.1 * p.1 + m.2.1 * p.2 + m.2.2.2.2.1, m.2.2.1 * p.1 + m.2.2.2.1 * p.2 + m.2.2.2.2.2)

/-- The returned point for the draws `x`, `y` and the chosen triangle (sampler.py:131-140). -/
def pointIn (t : Triangle K) (x y : K) : K × K :=
  affine (t.2.1.1 - t.1.1, t.2.2.1 - t.1.1, t.2.1.2 - t.1.2, t.2.2.2 - t.1.2, t.1.1, t.1.2) (fold x y)

end Verif.Sampler
