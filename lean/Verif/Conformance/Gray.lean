import Verif.Model.Gray
import Mathlib.Data.Rat.Floor

/-!
The project's own tests of `GrayCodeWalls` (tests/test_envs.py), asked of the model, with rational numbers in place of floats. These are
checks of the model on a few inputs, not properties: they show that the model gives the answers that the authors of the code expect.
-/

namespace Verif.Conformance

open Verif.Gray

/-- `GrayCodeWalls(dim, length, thickness)` of a test. -/
def made (n length : ℕ) (thickness : ℚ) : GrayCodeWalls ℚ n :=
  match GrayCodeWalls.init n length thickness with
  | .ok e => e
  | .error _ => ⟨[], 0, 0, fun _ => 0, fun _ => 0, 0, [], [], [], 0⟩

/-- The environment of tests/test_envs.py:11. -/
def thin : GrayCodeWalls ℚ 2 := made 2 4 0
/-- The environment of tests/test_envs.py:160. -/
def thick : GrayCodeWalls ℚ 2 := made 2 4 (1 / 10)
/-- The environments of tests/test_envs.py:296, 300. -/
def odd : GrayCodeWalls ℚ 2 := made 2 3 (1 / 10)
@[inherit_doc odd] def even : GrayCodeWalls ℚ 2 := made 2 2 (1 / 10)
/-- The environments of tests/test_envs.py:447, 452. -/
def flat : GrayCodeWalls ℚ 1 := made 1 2 (3 / 8)
@[inherit_doc flat] def regression : GrayCodeWalls ℚ 1 := made 1 2 (1 / 10)

/-- Points of the plane and of space. -/
abbrev p2 (x y : ℚ) : Fin 2 → ℚ := ![x, y]
@[inherit_doc p2] abbrev p3 (x y z : ℚ) : Fin 3 → ℚ := ![x, y, z]

/-- A point as the list of its coordinates, so that it can be compared. -/
def listed {n : ℕ} (r : Except PyErr (Fin n → ℚ)) : Except PyErr (List ℚ) := r.map List.ofFn

/-- test_graph_connects_start_and_end, test_graph_is_linear (tests/test_envs.py:22-35). -/
theorem test_graph : thin.cubes.head? = some ![0, 0, 0] ∧ thin.cubes.getLast? = some ![3, 0, 0] ∧
    ∀ c ∈ thin.cubes, (((edges thin.cubes).filter fun e => decide (e.1 = c ∨ e.2 = c)).length =
      if c = ![0, 0, 0] ∨ c = ![3, 0, 0] then 1 else 2) := by decide +kernel

/-- test_cube_centers (tests/test_envs.py:37-45). -/
theorem test_cube_centers : ∀ c ∈ gray 3, distanceToWall thin (fun i => 1 / 2 + (c i : ℚ)) = .ok ((1 / 2 : ℚ) : WithTop ℚ) := by decide +kernel

/-- test_walls_are_where_we_want_them (tests/test_envs.py:47-87). -/
theorem test_walls : distanceToWall thin (p3 (1 / 2) (1 / 2) (8 / 10)) = .ok ((1 / 2 : ℚ) : WithTop ℚ) ∧
    distanceToWall thin (p3 (1 / 2) (1 / 2) (1 / 10)) = .ok ((1 / 10 : ℚ) : WithTop ℚ) ∧
    distanceToWall thin (p3 (1 / 2) (1 / 2) (11 / 10)) = .ok ((1 / 2 : ℚ) : WithTop ℚ) ∧
    distanceToWall thin (p3 (1 / 2) (9 / 10) (3 / 2)) = .ok ((1 / 2 : ℚ) : WithTop ℚ) ∧
    distanceToWall thin (p3 (95 / 100) (3 / 2) (1 / 2)) = .ok ((1 / 2 : ℚ) : WithTop ℚ) := by decide +kernel

/-- test_end_block_sampling_transform_no_thickness, test_mid_block_sampling_transform_no_thickness (tests/test_envs.py:89-156). -/
theorem test_transform_no_thickness :
    listed (transformSample thin (p3 0 0 0) ![3, 0, 0] .center) = .ok [3, 0, 0] ∧
    listed (transformSample thin (p3 0 0 0) ![3, 0, 0] .passage1) = .ok [3, 0, 1] ∧
    listed (transformSample thin (p3 0 0 0) ![2, 1, 1] .passage1) = .ok [2, 1, 1] ∧
    listed (transformSample thin (p3 0 0 0) ![2, 1, 1] .center) = .ok [2, 1, 1] ∧
    listed (transformSample thin (p3 0 0 0) ![2, 1, 1] .passage2) = .ok [2, 1, 1] := by decide +kernel

/-- test_end_block_sampling_transform (tests/test_envs.py:162-207). -/
theorem test_end_block_sampling_transform :
    listed (transformSample thick (p3 0 0 0) ![0, 0, 0] .center) = .ok [1 / 10, 1 / 10, 1 / 10] ∧
    listed (transformSample thick (p3 0 0 0) ![0, 0, 0] .passage1) = .ok [1 / 10, 1 / 10, 9 / 10] ∧
    listed (transformSample thick (p3 (1 / 2) (1 / 2) (1 / 2)) ![0, 0, 0] .center) = .ok [1 / 2, 1 / 2, 1 / 2] ∧
    listed (transformSample thick (p3 (1 / 2) (1 / 2) (1 / 2)) ![0, 0, 0] .passage1) = .ok [1 / 2, 1 / 2, 95 / 100] := by decide +kernel

/-- test_mid_block_sampling_transform (tests/test_envs.py:209-279). -/
theorem test_mid_block_sampling_transform :
    listed (transformSample thick (p3 0 0 0) ![2, 0, 1] .passage1) = .ok [21 / 10, 1 / 10, 1] ∧
    listed (transformSample thick (p3 0 0 0) ![2, 0, 1] .center) = .ok [21 / 10, 1 / 10, 11 / 10] ∧
    listed (transformSample thick (p3 0 0 0) ![2, 0, 1] .passage2) = .ok [21 / 10, 9 / 10, 11 / 10] ∧
    listed (transformSample thick (p3 (1 / 2) (1 / 2) (1 / 2)) ![2, 0, 1] .passage1) = .ok [5 / 2, 1 / 2, 105 / 100] ∧
    listed (transformSample thick (p3 (1 / 2) (1 / 2) (1 / 2)) ![2, 0, 1] .center) = .ok [5 / 2, 1 / 2, 3 / 2] ∧
    listed (transformSample thick (p3 (1 / 2) (1 / 2) (1 / 2)) ![2, 0, 1] .passage2) = .ok [5 / 2, 95 / 100, 3 / 2] := by decide +kernel

/-- test_first_cube (tests/test_envs.py:306-324): the ten points of `linspace(0, 1 / 22, 10)`. -/
theorem test_first_cube : ∀ i : Fin 10,
    listed (curvePoint odd ((i : ℚ) / 9 / 22)) = .ok [1 / 2, 1 / 2, 1 / 2 + (i : ℚ) / 18] := by decide +kernel

/-- test_last_cube_odd_length, test_last_cube_even_length (tests/test_envs.py:326-357) collect errors but assert nothing. They expect the
third coordinate to fall on the way back from the last centre. In both environments it rises, towards the neighbouring cube. -/
theorem test_last_cube : ∀ i : Fin 10,
    listed (curvePoint odd (1 - (i : ℚ) / 9 / 22)) = .ok [5 / 2, 3 / 2, 1 / 2 + (i : ℚ) / 18] ∧
    listed (curvePoint even (1 - (i : ℚ) / 9 / 14)) = .ok [3 / 2, 1 / 2, 1 / 2 + (i : ℚ) / 18] := by decide +kernel

/-- test_mid_cube_entry_leg (tests/test_envs.py:359-394). -/
theorem test_mid_cube_entry_leg : ∀ i : Fin 10,
    listed (curvePoint odd (4 / 22 - (i : ℚ) / 9 / 22)) = .ok [1 / 2, 3 / 2 - (i : ℚ) / 18, 3 / 2] ∧
    listed (curvePoint odd (8 / 22 - (i : ℚ) / 9 / 22)) = .ok [3 / 2 - (i : ℚ) / 18, 3 / 2, 1 / 2] := by decide +kernel

/-- test_mid_cube_exit_leg (tests/test_envs.py:396-429). -/
theorem test_mid_cube_exit_leg : ∀ i : Fin 10,
    listed (curvePoint odd (4 / 22 + (i : ℚ) / 9 / 22)) = .ok [1 / 2, 3 / 2, 3 / 2 - (i : ℚ) / 18] ∧
    listed (curvePoint odd (8 / 22 + (i : ℚ) / 9 / 22)) = .ok [3 / 2, 3 / 2, 1 / 2 + (i : ℚ) / 18] := by decide +kernel

/-- test_cube_transition (tests/test_envs.py:431-443). -/
theorem test_cube_transition : ∀ i : Fin 7, (even.cubes.zip even.cubes.tail)[i.val]?.map (fun e => Except.ok (List.ofFn fun j =>
      (((e.1 j : ℚ) + 1 / 2) + ((e.2 j : ℚ) + 1 / 2)) / 2)) =
    some (listed <| curvePoint even ((1 / 2 + (i : ℚ)) / 7)) := by decide +kernel

/-- The motions of TestGrayCodeEnvMotionValidityChecker that are accepted (tests/test_envs.py:464-467, 479-494, 501-504). -/
theorem test_motion_accepted :
    isMotionValid flat (p2 (4 / 10) (4 / 10)) (p2 (6 / 10) (6 / 10)) 9 = some (.ok true) ∧
    isMotionValid flat (p2 (1 / 2) (1 / 2)) (p2 (1 / 2) (3 / 2)) 9 = some (.ok true) ∧
    isMotionValid flat (p2 (1 / 2) (5 / 4)) (p2 (3 / 2) (5 / 4)) 9 = some (.ok true) ∧
    isMotionValid flat (p2 (376 / 1000) (99 / 100)) (p2 (99 / 100) (1624 / 1000)) 9 = some (.ok true) ∧
    isMotionValid flat (p2 (376 / 1000) (99 / 100)) (p2 (101 / 100) (1624 / 1000)) 9 = some (.ok true) := by decide +kernel

/-- Those that are rejected (tests/test_envs.py:454-462, 469-477, 496-499, 506-519). -/
theorem test_motion_rejected :
    isMotionValid flat (p2 (4 / 10) (4 / 10)) (p2 (626 / 1000) (1 / 2)) 9 = some (.ok false) ∧
    isMotionValid flat (p2 (626 / 1000) (1 / 2)) (p2 (4 / 10) (4 / 10)) 9 = some (.ok false) ∧
    isMotionValid flat (p2 (374 / 1000) (4 / 10)) (p2 (6 / 10) (626 / 1000)) 9 = some (.ok false) ∧
    isMotionValid flat (p2 (624 / 1000) (376 / 1000)) (p2 (99 / 100) (1376 / 1000)) 9 = some (.ok false) ∧
    isMotionValid flat (p2 (1 / 2) (1 / 2)) (p2 (3 / 2) (16 / 10)) 9 = some (.ok false) ∧
    isMotionValid flat (p2 (1 / 2) (1 / 2)) (p2 1 (1 / 2)) 9 = some (.ok false) ∧
    isMotionValid flat (p2 (1 / 2) (1 / 2)) (p2 1 (4 / 10)) 9 = some (.ok false) ∧
    isMotionValid regression (p2 (1127 / 1000) (26 / 100)) (p2 (802 / 1000) (3702 / 10000)) 9 = some (.ok false) := by decide +kernel

end Verif.Conformance
