import Mathlib.Algebra.Order.Floor.Ring
import Mathlib.Analysis.InnerProductSpace.PiL2
import Mathlib.Data.List.ProdSigma
import Verif.Model.Py
import Verif.Model.Sat2D

/-!
Model of turtlebot_move/streams.py: the motion check of `BagOfBoundingBoxes`, the removal of duplicate box corners and the
interpolation of a path. Coordinates are real numbers. pybullet and the plan execution are not modelled; robot and
obstacle polygons are arguments here, for how they are made see `Verif.Model.BoundingBoxes`.
-/

namespace Verif.Turtlebot

open Verif.Sat2D

/-- The smallest coordinate change over the vertices, for both coordinates: `np.min(np.abs(robot_start_verts - robot_goal_verts), axis=1)` for one motion
(streams.py:92-96). -/
noncomputable def vertexMove (robot : List V2) (m : V2 × V2) : Except PyErr (List ℝ) := do
  let x ← pyMin (robot.map fun v => |v.1 + m.1.1 - (v.1 + m.2.1)|)
  let y ← pyMin (robot.map fun v => |v.2 + m.1.2 - (v.2 + m.2.2)|)
  return [x, y]

/-- `num_steps` (streams.py:96): one number for the whole batch; `np.max` of an empty array raises ValueError. -/
noncomputable def numSteps (robot : List V2) (motions : List (V2 × V2)) : Except PyErr ℕ := do
  let mins ← motions.mapM (vertexMove robot)
  let m ← pyMax mins.flatten
  return ⌊m / (8 / 100)⌋₊ + 2

/-- `np.linspace(0, 1, n)` for n ≥ 2 (streams.py:97). -/
noncomputable def alphas (n : ℕ) : List ℝ := (List.range n).map fun (k : ℕ) => (k : ℝ) / ((n : ℝ) - 1)

/-- `interm_verts` of one motion (streams.py:99). -/
def intermVerts (robot : List V2) (m : V2 × V2) (α : ℝ) : List V2 :=
  robot.map fun v => (v.1 + m.1.1 + α * (v.1 + m.2.1 - (v.1 + m.1.1)), v.2 + m.1.2 + α * (v.2 + m.2.2 - (v.2 + m.1.2)))

/-- `BagOfBoundingBoxes.is_motion_valid` (streams.py:89-101); `hulls` are the obstacle polygons. -/
noncomputable def isMotionValid (robot : List V2) (hulls : List (List V2)) (motions : List (V2 × V2)) : Except PyErr (List Bool) := do
  let n ← numSteps robot motions
  (hulls ×ˢ alphas n).foldlM (fun valids (c : List V2 × ℝ) => do
    let hits ← vecSat robot.length (motions.map fun m => intermVerts robot m c.2) (List.replicate motions.length c.1)
    return List.zipWith (fun v h => v && !h) valids hits) (List.replicate motions.length true)

/-- The inner loops of `oobb_flat_vertices` (streams.py:74-85): a corner is kept when it is not closer than 0.001 to a corner kept
before. -/
noncomputable def flatten2d (verts : List (ℝ × ℝ × ℝ)) : List V2 :=
  verts.foldl (fun kept v =>
    if kept.any (fun k => decide (√((v.1 - k.1) ^ 2 + (v.2.1 - k.2) ^ 2) < 1 / 1000)) then kept else kept ++ [(v.1, v.2.1)]) []

/-- `oobb_flat_vertices` (streams.py:72-87). -/
noncomputable def oobbFlatVertices (verts : List (ℝ × ℝ × ℝ)) : Except PyErr (List V2) :=
  if (flatten2d verts).length = 4 then .ok (flatten2d verts) else .error .assertion

variable {E : Type} [NormedAddCommGroup E] [NormedSpace ℝ E]

/-- `np.linspace(start, end, n, endpoint=False)[1:]` (streams.py:226). -/
noncomputable def innerPoints (start stop : E) (n : ℕ) : List E :=
  ((List.range n).map fun (k : ℕ) => start + (k : ℝ) • ((n : ℝ)⁻¹ • (stop - start))).drop 1

/-- The points appended for one piece of the path (streams.py:220-228). Only for a positive threshold (division by a zero threshold
raises OverflowError in `int`, a negative one gives a negative count). -/
noncomputable def piece (threshold : ℝ) (start stop : E) : List E :=
  if threshold < ‖stop - start‖ then innerPoints start stop (⌈‖stop - start‖ / threshold⌉₊ - 1 + 2) ++ [stop] else [stop]

/-- The loop over the pieces (streams.py:220-228). -/
noncomputable def pieces (threshold : ℝ) : List E → List E
  | [] => []
  | [_] => []
  | a :: b :: l => piece threshold a b ++ pieces threshold (b :: l)

/-- `interpolate_vectors` (streams.py:215-230): IndexError for an empty path. -/
noncomputable def interpolateVectors (vectors : List E) (threshold : ℝ) : Except PyErr (List E) :=
  match vectors with
  | [] => .error .index
  | v :: l => .ok (v :: pieces threshold (v :: l))

end Verif.Turtlebot
