import Mathlib.Analysis.SpecialFunctions.Sqrt
import Verif.Model.Py

/-!
Model of turtlebot_move/separating_axis.py: the scalar and the batched separating-axis test for polygons in the plane.
Coordinates are real numbers; rounding is not modelled. A division by a zero norm raises ZeroDivisionError for Python floats (scalar
version); in numpy arrays it gives nan, and all comparisons with nan are false (batched version).
-/

namespace Verif.Sat2D

/-- A point or a vector of the plane. -/
abbrev V2 := ℝ × ℝ

/-- `min(l)` and `np.min(l)`; ValueError for an empty list. -/
noncomputable def pyMin : List ℝ → Except PyErr ℝ
  | [] => .error .value
  | a :: l => .ok (l.foldl min a)

/-- `max(l)` and `np.max(l)`; ValueError for an empty list. -/
noncomputable def pyMax : List ℝ → Except PyErr ℝ
  | [] => .error .value
  | a :: l => .ok (l.foldl max a)

/-- `normalize` (separating_axis.py:27-32). -/
noncomputable def normalize (v : V2) : Except PyErr V2 :=
  if √(v.1 ^ 2 + v.2 ^ 2) = 0 then .error .zeroDivision
  else .ok (v.1 / √(v.1 ^ 2 + v.2 ^ 2), v.2 / √(v.1 ^ 2 + v.2 ^ 2))

/-- `dot` (separating_axis.py:35-39). -/
def dot (v w : V2) : ℝ := v.1 * w.1 + v.2 * w.2

/-- `edge_direction` (separating_axis.py:42-46). -/
def edgeDirection (p q : V2) : V2 := (q.1 - p.1, q.2 - p.2)

/-- `orthogonal` (separating_axis.py:49-53). -/
def orthogonal (v : V2) : V2 := (v.2, -v.1)

/-- `vertices_to_edges` (separating_axis.py:56-63). The indices are always in range. -/
def verticesToEdges (vs : List V2) : List V2 :=
  (List.range vs.length).map fun i => edgeDirection (vs.getD i 0) (vs.getD ((i + 1) % vs.length) 0)

/-- `project` (separating_axis.py:66-71). -/
noncomputable def project (vs : List V2) (axis : V2) : Except PyErr (ℝ × ℝ) := do
  let dots := vs.map fun v => dot v axis
  let lo ← pyMin dots
  let hi ← pyMax dots
  return (lo, hi)

/-- `overlap` (separating_axis.py:74-78); `min` and `max` of the two-element lists are taken again. -/
noncomputable def overlap (p q : ℝ × ℝ) : Bool :=
  decide (min p.1 p.2 ≤ max q.1 q.2) && decide (min q.1 q.2 ≤ max p.1 p.2)

/-- The loop over the axes (separating_axis.py:85-93). -/
noncomputable def testAxes (va vb : List V2) : List V2 → Except PyErr Bool
  | [] => .ok true
  | axis :: axes => do
    let pa ← project va axis
    let pb ← project vb axis
    if !overlap pa pb then return false
    testAxes va vb axes

/-- `separating_axis_theorem` (separating_axis.py:81-93). -/
noncomputable def sat (va vb : List V2) : Except PyErr Bool := do
  let edges := verticesToEdges va ++ verticesToEdges vb
  let axes ← edges.mapM fun e => normalize (orthogonal e)
  testAxes va vb axes

/-! ### Batched version. A batch is a list of rows; `none` as an axis is a vector of nan. -/

/-- `vec_normalize` on one vector (separating_axis.py:96-98): 0/0 is nan in both coordinates. -/
noncomputable def vecNormalize (v : V2) : Option V2 :=
  if √(v.1 ^ 2 + v.2 ^ 2) = 0 then none
  else some (v.1 / √(v.1 ^ 2 + v.2 ^ 2), v.2 / √(v.1 ^ 2 + v.2 ^ 2))

/-- `vec_vertices_to_edges` (separating_axis.py:109-110): `np.roll(vertices, -1, axis=1) - vertices`. -/
def vecVerticesToEdges (batch : List (List V2)) : List (List V2) :=
  batch.map fun vs => List.zipWith (fun q p => (q.1 - p.1, q.2 - p.2)) (vs.rotate 1) vs

/-- `vec_normalize(vec_orthogonal(edges))` (separating_axis.py:106-107, 125-126). -/
noncomputable def vecAxes (edges : List (List V2)) : List (List (Option V2)) :=
  edges.map fun row => row.map fun e => vecNormalize (e.2, -e.1)

/-- `vec_project` (separating_axis.py:112-115) for one row of the batch and its list of axes: the extremes of all dot products with
each axis; nan for a nan axis. `np.min` of an empty axis raises ValueError. -/
noncomputable def vecProject (vs : List V2) (axes : List (Option V2)) : Except PyErr (List (Option (ℝ × ℝ))) :=
  axes.mapM fun
    | none => if vs = [] then .error .value else .ok none
    | some a => do
      let dots := vs.map fun v => v.1 * a.1 + v.2 * a.2
      let lo ← pyMin dots
      let hi ← pyMax dots
      return some (lo, hi)

/-- `vec_overlap` on one entry (separating_axis.py:117-119); comparisons with nan are false. -/
noncomputable def vecOverlap : Option (ℝ × ℝ) → Option (ℝ × ℝ) → Bool
  | some p, some q => decide (p.1 ≤ q.2) && decide (q.1 ≤ p.2)
  | _, _ => false

/-- `axes[:, i]` for a whole batch: IndexError when a row has no entry `i`. -/
def column {α : Type} (batch : List (List α)) (i : ℕ) : Except PyErr (List α) :=
  batch.mapM fun row => match row[i]? with
    | some a => .ok a
    | none => .error .index

/-- One pass of the loop of `vec_separating_axis_theorem` (separating_axis.py:129-134): column `i` of both lists of axes, for all rows of the batch. -/
noncomputable def vecPass (pa pb : List (List V2)) (axesA axesB : List (List (Option V2))) (results : List Bool) (i : ℕ) :
    Except PyErr (List Bool) := do
  let colA ← column axesA i
  let colB ← column axesB i
  let axis := List.zipWith (fun a b => [a, b]) colA colB
  let projA ← (pa.zip axis).mapM fun r => vecProject r.1 r.2
  let projB ← (pb.zip axis).mapM fun r => vecProject r.1 r.2
  let overlapping := List.zipWith (fun p q => List.zipWith vecOverlap p q) projA projB
  return List.zipWith (fun r o => r && o.all id) results overlapping

/-- `vec_separating_axis_theorem` (separating_axis.py:121-136). `n` is `polygons_a.shape[1]`, the number of vertices of each polygon in the
first batch. Both arguments are arrays: all rows of a batch have the same number of vertices. Batches of different sizes raise ValueError
in the concatenation. -/
noncomputable def vecSat (n : ℕ) (pa pb : List (List V2)) : Except PyErr (List Bool) := do
  let axesA := vecAxes (vecVerticesToEdges pa)
  let axesB := vecAxes (vecVerticesToEdges pb)
  if pa.length ≠ pb.length then throw .value
  (List.range n).foldlM (vecPass pa pb axesA axesB) (List.replicate pa.length true)

end Verif.Sat2D
