import Mathlib.Algebra.BigOperators.Fin
import Mathlib.Data.Fin.VecNotation
import Verif.Model.Sat2D

/-!
Model of kuka_carry/separating_axis.py: the separating-axis test for oriented boxes in space, row by row. Coordinates are real
numbers; rounding is not modelled.
-/

namespace Verif.Sat3D

/-- A point or a vector of space. -/
abbrev V3 := Fin 3 → ℝ

/-- One row of the arrays of `separating_axis_theorem` (separating_axis.py:6-7, 52-60): center, half extents, orientation matrix
(`rot r k` is row `r`, column `k`). -/
structure Box where
  center : V3
  half : V3
  rot : Fin 3 → V3

/-- `orientations[:, :, k]` (separating_axis.py:12-15). -/
def Box.column (b : Box) (k : Fin 3) : V3 := fun r => b.rot r k

/-- `np.sum(v * axis, axis=-1)` (separating_axis.py:31-32). -/
def dot (v w : V3) : ℝ := v 0 * w 0 + v 1 * w 1 + v 2 * w 2

/-- `np.cross` (separating_axis.py:15). -/
def cross (v w : V3) : V3 := ![v 1 * w 2 - v 2 * w 1, v 2 * w 0 - v 0 * w 2, v 0 * w 1 - v 1 * w 0]

/-- separating_axis.py:16-18: divided by the norm unless that is zero. -/
noncomputable def unit (v : V3) : V3 := if 0 < √(dot v v) then fun r => v r / √(dot v v) else v

/-- The fifteen axes (separating_axis.py:10-19). Only their order differs from the array: the first six are listed box by box. -/
noncomputable def axes (a b : Box) : List V3 :=
  [a.column 0, a.column 1, a.column 2, b.column 0, b.column 1, b.column 2,
   unit (cross (a.column 0) (b.column 0)), unit (cross (a.column 0) (b.column 1)), unit (cross (a.column 0) (b.column 2)),
   unit (cross (a.column 1) (b.column 0)), unit (cross (a.column 1) (b.column 1)), unit (cross (a.column 1) (b.column 2)),
   unit (cross (a.column 2) (b.column 0)), unit (cross (a.column 2) (b.column 1)), unit (cross (a.column 2) (b.column 2))]

/-- `signs` (separating_axis.py:46-47). -/
def signs : List V3 :=
  [![-1, -1, -1], ![-1, -1, 1], ![-1, 1, -1], ![-1, 1, 1], ![1, -1, -1], ![1, -1, 1], ![1, 1, -1], ![1, 1, 1]]

/-- `compute_vertices_vectorized` (separating_axis.py:45-52): the half extents are broadcast along the rows of the orientation. -/
def vertices (b : Box) : List V3 :=
  signs.map fun s r => b.center r + ∑ k, b.half r * s k * b.rot r k

/-- `np.max` / `np.min` of the eight projections (separating_axis.py:34-37). -/
noncomputable def projMax (vs : List V3) (axis : V3) : ℝ :=
  match Sat2D.pyMax (vs.map fun v => dot v axis) with
  | .ok m => m
  | .error _ => 0

/-- See `projMax`. -/
noncomputable def projMin (vs : List V3) (axis : V3) : ℝ :=
  match Sat2D.pyMin (vs.map fun v => dot v axis) with
  | .ok m => m
  | .error _ => 0

/-- One row of `separating_axis_theorem` (separating_axis.py:4-42): true is "collision". -/
noncomputable def sat (a b : Box) : Bool :=
  (axes a b).foldl (fun acc axis =>
    acc && !(decide (projMax (vertices a) axis < projMin (vertices b) axis) ||
      decide (projMax (vertices b) axis < projMin (vertices a) axis))) true

/-- `OBB.from_oobb` (separating_axis.py:65-68), with `pbu.get_aabb_extent` the difference of the corners and `pose` given by position and
orientation matrix. -/
noncomputable def fromOobb (lower upper position : V3) (rot : Fin 3 → V3) : Box :=
  ⟨position, fun r => (upper r - lower r) / 2, rot⟩

/-- A pose: position and orientation matrix (`pbu.Pose`). -/
structure Pose where
  position : V3
  rot : Fin 3 → V3

/-- A configuration of the held object: position and Euler angles (run.py:63-64). -/
abbrev Conf := Fin 6 → ℝ

/-- `np.linalg.norm(start-goal, axis=1)` for one row (run.py:81). -/
noncomputable def confDist (s g : Conf) : ℝ := √(∑ i, (s i - g i) ^ 2)

/-- `num_steps` (run.py:81): one count for the whole batch; `np.max` raises `ValueError` on an empty batch; `int` of a nonnegative
number is its floor. -/
noncomputable def numSteps (rows : List (Conf × Conf)) : Except PyErr ℕ := do
  let m ← Sat2D.pyMax (rows.map fun r => confDist r.1 r.2)
  .ok ⌊m / (3 / 100)⌋₊

/-- An obstacle or the held object: `pbu.OOBB` is a box between two corners and a pose. -/
structure Oobb where
  lower : V3
  upper : V3
  pose : Pose

/-- `OBB.from_oobb` on the record. -/
noncomputable def Oobb.box (o : Oobb) : Box := fromOobb o.lower o.upper o.pose.position o.pose.rot

/-- `obb_interps[i][interp_idx]` (run.py:94). -/
def item {α : Type} (l : List α) (j : ℕ) : Except PyErr α :=
  match l[j]? with
  | some a => .ok a
  | none => .error .index

/-- kuka's `BagOfBoundingBoxes.is_motion_valid` (kuka_carry/run.py:77-101). `interp s g m` stands for `pbu.interpolate_poses` between the
poses built from the two configurations with `num_steps=m`; it is not modelled. -/
noncomputable def isMotionValid (interp : Conf → Conf → ℕ → List Pose) (lower upper : V3) (obstacles : List Oobb)
    (rows : List (Conf × Conf)) : Except PyErr (List Bool) := do
  let n ← numSteps rows
  let obbInterps : List (List Box) := rows.map fun r => (interp r.1 r.2 (n + 2)).map fun p => (Oobb.mk lower upper p).box
  let row0 ← item obbInterps 0
  let poseStacks ← (List.range row0.length).mapM fun j => obbInterps.mapM fun l => item l j
  .ok (obstacles.foldl (fun valids o => poseStacks.foldl (fun valids column => List.zipWith (fun v p => v && !sat o.box p) valids column) valids)
    (rows.map fun _ => true))

/-- The sampling bounds of the position (run.py:43-61): least and greatest coordinate over the obstacle corners (`verts`, from
`pbu.get_oobb_vertices`) and the start position. -/
noncomputable def extents (verts : List V3) (start : V3) (r : Fin 3) : Except PyErr (ℝ × ℝ) := do
  let lo ← Sat2D.pyMin ((verts ++ [start]).map fun v => v r)
  let hi ← Sat2D.pyMax ((verts ++ [start]).map fun v => v r)
  .ok (lo, hi)

/-- `sample_from_env` (run.py:63-64) for one coordinate: `random.uniform(lo, hi)` is `lo + (hi - lo) * u` with `u` from the generator. -/
def sampleCoord (b : ℝ × ℝ) (u : ℝ) : ℝ := b.1 + (b.2 - b.1) * u

end Verif.Sat3D
