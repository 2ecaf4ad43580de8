import Verif.Model.Batch
import Verif.Model.FloatSat

/-! The turtlebot's motion check in float arithmetic as the checker of a roadmap. -/

namespace Verif.FloatSat

/-- The turtlebot's `is_motion_valid` in float arithmetic as the checker that the roadmap calls on whole batches (streams.py:89-101, 166-170); `pos` gives the two coordinates
of a configuration. -/
noncomputable def batchR {P : Type*} (rd : ℝ → ℝ) (dotR : Sat2D.V2 → Sat2D.V2 → ℝ) (pos : P → Sat2D.V2) (robot : List Sat2D.V2) (hulls : List (List Sat2D.V2)) :
    Prm.Batch P :=
  fun ms => isMotionValidR rd dotR robot hulls (ms.map fun m => (pos m.1, pos m.2))

end Verif.FloatSat
