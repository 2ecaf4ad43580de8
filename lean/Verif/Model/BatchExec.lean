import Verif.Model.Batch
import Verif.Model.RoverExec

/-!
Model of the motion streams of turtlebot_move (streams.py:117-211) with the motion checker as it is called: with whole batches. `Verif.Model.RoverExec` has the same functions
with a checker for single motions.
-/

namespace Verif.RoverExec

open Verif.Strips Verif.Anytime Verif.Turtlebot

variable {α K F E : Type} [LinearOrder K] [Field F] [LinearOrder F] [FloorSemiring F] [NormedAddCommGroup E] [NormedSpace ℝ E]

/-- `test` and `test_holding` of `get_anytime_motion_fn` (streams.py:127-211); see `motionStream`. `check` is `prm_env_2d.is_motion_valid` for the shape in use (streams.py:89-101, 161-170). -/
noncomputable def motionStreamB (w : Prm.World E K) (check : Prm.Batch E) (o : Options F) (start goal : E) (drawn fuel : ℕ) : Option (Except PyErr (Option (List E))) :=
  match planB w check start goal o.minS o.maxS (fun x => x * o.factor) 32 false drawn fuel with
  | none => none
  | some (_, .error e) => some (.error e)
  | some (_, .ok none) => some (.ok none)
  | some (_, .ok (some path)) => if o.teleport then some (.ok (some path)) else some ((interpolateVectors path (25 / 1000)).map some)

/-- A fact that a stream may certify (stream.pddl:1-19); see `Streamed`. `check none` is the checker for the rover's shape, `check (some o)` that for the shape of `o`. -/
def StreamedB (w : Option α → Prm.World E K) (check : Option α → Prm.Batch E) (opt : Options F) (val : Values α E) : RoverFact α → Prop
  | .motion _ q1 t q2 => ∃ drawn fuel, motionStreamB (w none) (check none) opt (val.conf q1) (val.conf q2) drawn fuel = some (.ok (some (val.traj t)))
  | .motionHolding _ q1 t q2 o => ∃ drawn fuel, motionStreamB (w (some o)) (check (some o)) opt (val.conf q1) (val.conf q2) drawn fuel = some (.ok (some (val.traj t)))
  | .kin _ p q => val.conf q = ik (val.pose p)
  | .conf _ _ => True
  | _ => False

end Verif.RoverExec
