import Mathlib.Analysis.SpecialFunctions.Trigonometric.Basic
import Verif.Model.Hallway
import Verif.Model.Turtlebot

/-!
Model of turtlebot_move/streams.py: how `BagOfBoundingBoxes` is built from the bounding boxes of the robot and of the obstacles, and which box
the planner takes for the robot. Coordinates are real numbers. The obstacles stand upright: their pose is a position and a turn around the vertical
axis. `ConvexHull` of scipy is a parameter.
-/

namespace Verif.Bag

open Verif.Sat2D

/-- `AABB` of pybullet_tools: the lower and the upper corner. -/
structure Aabb where
  lower : ℝ × ℝ × ℝ
  upper : ℝ × ℝ × ℝ

/-- `OOBB` of pybullet_tools: a box and its pose (streams.py:51, 141). Simplified: the pose is a position and a yaw angle. -/
structure Oobb where
  aabb : Aabb
  pos : ℝ × ℝ × ℝ
  yaw : ℝ

/-- `get_aabb_vertices` of pybullet_tools: the eight corners, last coordinate fastest (used by streams.py:46, 74). -/
def aabbVertices (b : Aabb) : List (ℝ × ℝ × ℝ) :=
  [(b.lower.1, b.lower.2.1, b.lower.2.2), (b.lower.1, b.lower.2.1, b.upper.2.2), (b.lower.1, b.upper.2.1, b.lower.2.2), (b.lower.1, b.upper.2.1, b.upper.2.2),
   (b.upper.1, b.lower.2.1, b.lower.2.2), (b.upper.1, b.lower.2.1, b.upper.2.2), (b.upper.1, b.upper.2.1, b.lower.2.2), (b.upper.1, b.upper.2.1, b.upper.2.2)]

/-- `tform_point` of pybullet_tools for a position and a yaw angle. -/
noncomputable def tformPoint (o : Oobb) (v : ℝ × ℝ × ℝ) : ℝ × ℝ × ℝ :=
  (o.pos.1 + Real.cos o.yaw * v.1 - Real.sin o.yaw * v.2.1, o.pos.2.1 + Real.sin o.yaw * v.1 + Real.cos o.yaw * v.2.1, o.pos.2.2 + v.2.2)

/-- `get_oobb_vertices` of pybullet_tools (used by streams.py:46, 74). -/
noncomputable def oobbVertices (o : Oobb) : List (ℝ × ℝ × ℝ) := (aabbVertices o.aabb).map (tformPoint o)

/-- `hull` (streams.py:31-36). `order` is `ConvexHull(vertices).vertices`. -/
def hull (order : List V2 → Except PyErr (List ℕ)) (vertices : List V2) : Except PyErr (List V2) := do
  let idx ← order vertices
  idx.mapM fun i => match vertices[i]? with
    | some v => .ok v
    | none => .error .index

/-- `extents` (streams.py:54-63): unpacking `zip(*vertices)` of no vertices raises ValueError, as `min` does here. -/
noncomputable def extents (vertices : List (ℝ × ℝ × ℝ)) : Except PyErr ((ℝ × ℝ) × (ℝ × ℝ) × (ℝ × ℝ)) := do
  let minX ← pyMin (vertices.map (·.1))
  let maxX ← pyMax (vertices.map (·.1))
  let minY ← pyMin (vertices.map (·.2.1))
  let maxY ← pyMax (vertices.map (·.2.1))
  let minZ ← pyMin (vertices.map (·.2.2))
  let maxZ ← pyMax (vertices.map (·.2.2))
  return ((minX, maxX), (minY, maxY), (minZ, maxZ))

/-- The fields of `BagOfBoundingBoxes` that sampling and checking read. -/
structure Env where
  bounds : (ℝ × ℝ) × (ℝ × ℝ) × (ℝ × ℝ)
  robotVerts : List V2
  obstacleHulls : List (List V2)

/-- `BagOfBoundingBoxes.__init__` (streams.py:43-52). Simplified: the random generator and the limits, which nothing reads, are left out. -/
noncomputable def make (order : List V2 → Except PyErr (List ℕ)) (robotShape : Aabb) (obstacles : List Oobb) : Except PyErr Env := do
  let bounds ← extents (obstacles.flatMap oobbVertices)
  let flat ← Turtlebot.oobbFlatVertices (oobbVertices ⟨robotShape, (0, 0, 0), 0⟩)
  let robotVerts ← hull order flat
  let obstacleHulls ← obstacles.mapM fun o => do
    let flat ← Turtlebot.oobbFlatVertices (oobbVertices o)
    hull order flat
  return ⟨bounds, robotVerts, obstacleHulls⟩

/-- `BagOfBoundingBoxes.is_motion_valid` (streams.py:89-101) of a built environment. -/
noncomputable def Env.isMotionValid (env : Env) (motions : List (V2 × V2)) : Except PyErr (List Bool) :=
  Turtlebot.isMotionValid env.robotVerts env.obstacleHulls motions

/-- `sample_from_env` (streams.py:65-67) of a built environment, for two draws of `random.random()`. -/
def Env.sample (env : Env) (u : V2) : V2 :=
  (env.bounds.1.1 + (env.bounds.1.2 - env.bounds.1.1) * u.1, env.bounds.2.1.1 + (env.bounds.2.1.2 - env.bounds.2.1.1) * u.2)

/-- `aabb_from_extent_center(get_aabb_extent(b))` (streams.py:144, 146): a box of the same size around the origin. -/
noncomputable def recentred (b : Aabb) : Aabb :=
  ⟨(-((b.upper.1 - b.lower.1) / 2), -((b.upper.2.1 - b.lower.2.1) / 2), -((b.upper.2.2 - b.lower.2.2) / 2)),
    ((b.upper.1 - b.lower.1) / 2, (b.upper.2.1 - b.lower.2.1) / 2, (b.upper.2.2 - b.lower.2.2) / 2)⟩

/-- The environment that the stream builds for a query (streams.py:140-146, 161): the shape is that of the held object, if there is one. -/
noncomputable def queryEnv (order : List V2 → Except PyErr (List ℕ)) (rover : Aabb) (held : Option Aabb) (obstacles : List Oobb) : Except PyErr Env :=
  make order (recentred (held.getD rover)) obstacles

/-- The bounding box of a wall made by `create_box(w, l, height)` and `set_point(.., Point(x, y, z))` (problems.py:204-255, 316-367, 410-430), as `get_oobb` reports it. -/
noncomputable def wall (height z : ℝ) (b : Hallway.Box) : Oobb :=
  ⟨⟨(-(b.w / 2), -(b.l / 2), -(height / 2)), (b.w / 2, b.l / 2, height / 2)⟩, (b.x, b.y, z), 0⟩

end Verif.Bag
