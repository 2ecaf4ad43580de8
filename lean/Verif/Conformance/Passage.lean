import Verif.Model.Envs
import Verif.Model.Util

/-! The project's own tests of the narrow passage and of the intersection test, asked of the model over the rationals.
These are checks of the model on the literals of the tests, not proofs of properties. -/

namespace Verif.Conformance
open Verif.Envs Verif.Util

/-- tests/test_envs.py:546: `NarrowPassage(2, 0.1, 1999)`. -/
def hallway : NarrowPassage ℚ 1 := NarrowPassage.init 1 (1 / 10)

/-- test_corner_clip, test_end_to_end_clip (tests/test_envs.py:548-558). -/
theorem test_hallway_rejected :
    hallway.isMotionValid ![14 / 10, 4 / 10] ![0, 0] = false ∧
    hallway.isMotionValid ![14 / 10, 4 / 10] ![-14 / 10, 4 / 10] = false := by decide +kernel

/-- test_hallway_connects, test_hallway_up_down, test_end1_connects (tests/test_envs.py:560-573). -/
theorem test_hallway_accepted :
    hallway.isMotionValid ![-1 / 2, 0] ![1 / 2, 0] = true ∧
    hallway.isMotionValid ![1 / 100, 5 / 100] ![0, -5 / 100] = true ∧
    hallway.isMotionValid ![-1 / 2, 0] ![-1, 0] = true := by decide +kernel

/-- TestIntersection (tests/test_utils.py:119-154). -/
theorem test_intersection :
    detectIntersect ((1 / 100, -5 / 100) : ℚ × ℚ) (0, 5 / 100) (-1 / 2, 1 / 10) (1 / 2, 11 / 100) = false ∧
    detectIntersect ((-1 / 2, 1 / 10) : ℚ × ℚ) (1 / 2, 1 / 10) (0, -5 / 100) (0, 15 / 100) = true ∧
    detectIntersect ((-1 / 2, -1 / 10) : ℚ × ℚ) (1 / 2, -1 / 10) (0, -5 / 100) (0, 15 / 100) = false ∧
    detectIntersect ((-1 / 2, -1 / 2) : ℚ × ℚ) (1 / 2, 1 / 2) (1 / 2, -1 / 2) (-1 / 2, 1 / 2) = true := by decide +kernel

end Verif.Conformance
