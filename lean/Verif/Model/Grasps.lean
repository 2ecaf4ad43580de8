import Mathlib.Analysis.SpecialFunctions.Trigonometric.Basic
import Mathlib.Data.Matrix.Mul
import Mathlib.LinearAlgebra.Matrix.Notation

/-!
Model of the grasps of kuka_carry: kuka_primitives.py:54-81, 329-342, over the reals. `pbu.Pose` is a rotation matrix and a translation.
-/

namespace Verif.Grasps

abbrev V := Fin 3 → ℝ

/-- A pose. -/
@[ext] structure Frame where
  R : Matrix (Fin 3) (Fin 3) ℝ
  t : V

/-- `multiply` of the library. -/
def Frame.mul (a b : Frame) : Frame := ⟨a.R * b.R, a.R.mulVec b.t + a.t⟩

/-- `invert` of the library. -/
def Frame.inv (a : Frame) : Frame := ⟨a.R.transpose, -(a.R.transpose.mulVec a.t)⟩

/-- `Pose()`. -/
def Frame.unit : Frame := ⟨1, 0⟩

/-- `Pose(point=[x, y, z])`. -/
def Frame.shift (t : V) : Frame := ⟨1, t⟩

/-- `Pose(euler=[0, 0, a])`. -/
noncomputable def Frame.yaw (a : ℝ) : Frame := ⟨!![Real.cos a, -Real.sin a, 0; Real.sin a, Real.cos a, 0; 0, 0, 1], 0⟩

/-- `Pose(euler=[0, a, 0])`. -/
noncomputable def Frame.pitch (a : ℝ) : Frame := ⟨!![Real.cos a, 0, Real.sin a; 0, 1, 0; -Real.sin a, 0, Real.cos a], 0⟩

/-- `get_top_grasps` (kuka_primitives.py:54-72); `center` and `w`, `l`, `h` are the answer of `approximate_as_prism`. -/
noncomputable def topGrasps (center : V) (w l h : ℝ) (under : Bool) (tool body : Frame) (maxWidth graspLength : ℝ) : List Frame :=
  let reflectZ := Frame.pitch Real.pi
  let translateZ := Frame.shift ![0, 0, h / 2 - graspLength]
  let translateCenter := Frame.shift (body.t - center)
  let n := if under then 2 else 1
  let one := fun rotateZ : Frame => ((((tool.mul translateZ).mul rotateZ).mul reflectZ).mul translateCenter).mul body
  (if w ≤ maxWidth then (List.range n).map fun i : ℕ => one (.yaw (Real.pi / 2 + i * Real.pi)) else []) ++
    (if l ≤ maxWidth then (List.range n).map fun i : ℕ => one (.yaw (i * Real.pi)) else [])

/-- `GRASP_INFO["top"]` (kuka_primitives.py:74-81) for a body whose width and length are at most `maxWidth`; the program has infinity there. -/
noncomputable def graspInfoTop (center : V) (w l h maxWidth : ℝ) : List Frame := topGrasps center w l h true .unit .unit maxWidth 0

/-- `approach_pose` (kuka_primitives.py:79). -/
noncomputable def approach : Frame := .shift ![0, 0, 1 / 100]

/-- `end_effector_from_body` of the library: the tool's pose when the body is at `body` and held with `grasp`. -/
def endEffector (body grasp : Frame) : Frame := body.mul grasp.inv

end Verif.Grasps
