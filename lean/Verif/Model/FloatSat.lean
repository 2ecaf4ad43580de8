import Verif.Model.Float64
import Verif.Model.Turtlebot

/-!
The batched separating-axis test of turtlebot_move/separating_axis.py and the motion check of turtlebot_move/streams.py in float arithmetic: `rd` rounds
the result of each operation (`Float64.fl` for binary64). The dot products of `np.einsum` are a parameter, because einsum may use fused multiply-add
instructions. Infinities do not occur in the model: a vector whose computed norm is zero has no axis, like a nan axis.
-/

namespace Verif.FloatSat

open Verif.Sat2D

/-- `vec_normalize` on one vector (separating_axis.py:96-98): `np.linalg.norm` along an axis is the root of the sum of the squares. -/
noncomputable def vecNormalizeR (rd : ℝ → ℝ) (v : V2) : Option V2 :=
  let s := rd (√(rd (rd (v.1 * v.1) + rd (v.2 * v.2))))
  if s = 0 then none else some (rd (v.1 / s), rd (v.2 / s))

/-- `vec_vertices_to_edges` (separating_axis.py:109-110). -/
def vecVerticesToEdgesR (rd : ℝ → ℝ) (batch : List (List V2)) : List (List V2) :=
  batch.map fun vs => List.zipWith (fun q p => (rd (q.1 - p.1), rd (q.2 - p.2))) (vs.rotate 1) vs

/-- `vec_normalize(vec_orthogonal(edges))` (separating_axis.py:106-107, 125-126); changing a sign is exact. -/
noncomputable def vecAxesR (rd : ℝ → ℝ) (edges : List (List V2)) : List (List (Option V2)) :=
  edges.map fun row => row.map fun e => vecNormalizeR rd (e.2, -e.1)

/-- `vec_project` (separating_axis.py:112-115) for one row; `dotR` is the dot product that `np.einsum` computes. -/
noncomputable def vecProjectR (dotR : V2 → V2 → ℝ) (vs : List V2) (axes : List (Option V2)) : Except PyErr (List (Option (ℝ × ℝ))) :=
  axes.mapM fun
    | none => if vs = [] then .error .value else .ok none
    | some a => do
      let dots := vs.map fun v => dotR v a
      let lo ← pyMin dots
      let hi ← pyMax dots
      return some (lo, hi)

/-- One pass of the loop of `vec_separating_axis_theorem` (separating_axis.py:129-134). -/
noncomputable def vecPassR (dotR : V2 → V2 → ℝ) (pa pb : List (List V2)) (axesA axesB : List (List (Option V2))) (results : List Bool) (i : ℕ) :
    Except PyErr (List Bool) := do
  let colA ← column axesA i
  let colB ← column axesB i
  let axis := List.zipWith (fun a b => [a, b]) colA colB
  let projA ← (pa.zip axis).mapM fun r => vecProjectR dotR r.1 r.2
  let projB ← (pb.zip axis).mapM fun r => vecProjectR dotR r.1 r.2
  let overlapping := List.zipWith (fun p q => List.zipWith vecOverlap p q) projA projB
  return List.zipWith (fun r o => r && o.all id) results overlapping

/-- `vec_separating_axis_theorem` (separating_axis.py:121-136); see `Sat2D.vecSat`. -/
noncomputable def vecSatR (rd : ℝ → ℝ) (dotR : V2 → V2 → ℝ) (n : ℕ) (pa pb : List (List V2)) : Except PyErr (List Bool) := do
  let axesA := vecAxesR rd (vecVerticesToEdgesR rd pa)
  let axesB := vecAxesR rd (vecVerticesToEdgesR rd pb)
  if pa.length ≠ pb.length then throw .value
  (List.range n).foldlM (vecPassR dotR pa pb axesA axesB) (List.replicate pa.length true)

/-- The dot product with two rounded products and a rounded sum: `np.einsum` without fused operations (separating_axis.py:114). -/
noncomputable def dotPlain (rd : ℝ → ℝ) (v w : V2) : ℝ := rd (rd (v.1 * w.1) + rd (v.2 * w.2))

/-- The dot product with a fused multiply-add: the second product is not rounded (separating_axis.py:114). -/
noncomputable def dotFused (rd : ℝ → ℝ) (v w : V2) : ℝ := rd (rd (v.1 * w.1) + v.2 * w.2)

/-- `robot_start_verts` or `robot_goal_verts` of one motion (streams.py:92-95). -/
def vertsAt (rd : ℝ → ℝ) (robot : List V2) (p : V2) : List V2 := robot.map fun v => (rd (v.1 + p.1), rd (v.2 + p.2))

/-- The smallest coordinate change over the vertices, for both coordinates, of one motion (streams.py:96); `np.abs` is exact. -/
noncomputable def vertexMoveR (rd : ℝ → ℝ) (robot : List V2) (m : V2 × V2) : Except PyErr (List ℝ) := do
  let x ← pyMin (List.zipWith (fun v w => |rd (v.1 - w.1)|) (vertsAt rd robot m.1) (vertsAt rd robot m.2))
  let y ← pyMin (List.zipWith (fun v w => |rd (v.2 - w.2)|) (vertsAt rd robot m.1) (vertsAt rd robot m.2))
  return [x, y]

/-- `num_steps` (streams.py:96); the literal 0.08 is the float nearest to 0.08. -/
noncomputable def numStepsR (rd : ℝ → ℝ) (robot : List V2) (motions : List (V2 × V2)) : Except PyErr ℕ := do
  let mins ← motions.mapM (vertexMoveR rd robot)
  let m ← pyMax mins.flatten
  return ⌊rd (m / rd (8 / 100))⌋₊ + 2

/-- `np.linspace(0, 1, n)` for n ≥ 2 (streams.py:97): multiples of the rounded step, and the last number is set to 1. -/
noncomputable def alphasR (rd : ℝ → ℝ) (n : ℕ) : List ℝ :=
  (List.range n).map fun (k : ℕ) => if k + 1 = n then 1 else rd ((k : ℝ) * rd (1 / ((n : ℝ) - 1)))

/-- `interm_verts` of one motion (streams.py:99). -/
def intermVertsR (rd : ℝ → ℝ) (robot : List V2) (m : V2 × V2) (α : ℝ) : List V2 :=
  List.zipWith (fun v w => (rd (v.1 + rd (α * rd (w.1 - v.1))), rd (v.2 + rd (α * rd (w.2 - v.2))))) (vertsAt rd robot m.1) (vertsAt rd robot m.2)

/-- `BagOfBoundingBoxes.is_motion_valid` (streams.py:89-101). -/
noncomputable def isMotionValidR (rd : ℝ → ℝ) (dotR : V2 → V2 → ℝ) (robot : List V2) (hulls : List (List V2)) (motions : List (V2 × V2)) :
    Except PyErr (List Bool) := do
  let n ← numStepsR rd robot motions
  (hulls ×ˢ alphasR rd n).foldlM (fun valids (c : List V2 × ℝ) => do
    let hits ← vecSatR rd dotR robot.length (motions.map fun m => intermVertsR rd robot m c.2) (List.replicate motions.length c.1)
    return List.zipWith (fun v h => v && !h) valids hits) (List.replicate motions.length true)

end Verif.FloatSat
