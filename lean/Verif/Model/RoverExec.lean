import Verif.Model.Anytime
import Verif.Model.Commands
import Verif.Model.Turtlebot

/-!
Model of the streams of turtlebot_move as the planner sees them (streams.py:117-211, stream.pddl), and of the execution of a command list.
Configurations and poses are given by their place in the plane `E`: the joints of a configuration are the coordinates x and y of the
base (problems.py:289), the heading of the robot never changes, and the height of an object is not changed by anything.
-/

namespace Verif.RoverExec

open Verif.Strips Verif.Commands Verif.Anytime Verif.Turtlebot

variable {α K F E : Type} [LinearOrder K] [Field F] [LinearOrder F] [FloorSemiring F] [NormedAddCommGroup E] [NormedSpace ℝ E]

/-- The values behind the objects of the planner: `conf.values`, `pose.pose[0][:2]`, and the waypoints of a trajectory. -/
structure Values (α E : Type) where
  conf : α → E
  pose : α → E
  traj : α → List E

/-- The options of `get_anytime_motion_fn` (streams.py:117-126). -/
structure Options (F : Type) where
  teleport : Bool
  minS : ℕ
  maxS : ℕ
  factor : F

/-- `test` and `test_holding` of `get_anytime_motion_fn` (streams.py:127-211). `w` contains the motion checker for the shape in use, which is that of the held object if there is one
and otherwise that of the rover (streams.py:140-145). `none`: the loop has not ended after `fuel` passes; `.ok none`: no motion. -/
noncomputable def motionStream (w : Prm.World E K) (o : Options F) (start goal : E) (drawn fuel : ℕ) : Option (Except PyErr (Option (List E))) :=
  match plan w start goal o.minS o.maxS o.factor 32 false drawn fuel with
  | none => none
  | some (_, .error e) => some (.error e)
  | some (_, .ok none) => some (.ok none)
  | some (_, .ok (some path)) => if o.teleport then some (.ok (some path)) else some ((interpolateVectors path (25 / 1000)).map some)

/-- `get_ik` (streams.py:110-115): the values of the configuration for a pose. -/
def ik (pose : E) : E := pose

/-- A fact that a stream may certify (stream.pddl:1-19): its output was returned by the function of the stream for the values of its inputs, for some state of the random generator. `w none` is the world for the
rover's shape, `w (some o)` for that of `o`. -/
def Streamed (w : Option α → Prm.World E K) (opt : Options F) (val : Values α E) : RoverFact α → Prop
  | .motion _ q1 t q2 => ∃ drawn fuel, motionStream (w none) opt (val.conf q1) (val.conf q2) drawn fuel = some (.ok (some (val.traj t)))
  | .motionHolding _ q1 t q2 o => ∃ drawn fuel, motionStream (w (some o)) opt (val.conf q1) (val.conf q2) drawn fuel = some (.ok (some (val.traj t)))
  | .kin _ p q => val.conf q = ik (val.pose p)
  | .conf _ _ => True
  | _ => False

/-- The simulated world: where the rover and the objects are, and which object is attached. -/
structure Sim (α E : Type) where
  rover : E
  obj : α → E
  held : Option α

/-- A straight movement of the rover: the world before it, and where it leads. -/
structure Leg (α E : Type) where
  before : Sim α E
  stop : E

variable [DecidableEq α]

/-- The rover is put at a waypoint (`apply_commands`, run.py:264-265, on the configurations of a `Trajectory`); an attached object keeps its place relative to the rover. -/
def Sim.moveTo (s : Sim α E) (p : E) : Sim α E :=
  { s with rover := p, obj := fun o => if s.held = some o then s.obj o + (p - s.rover) else s.obj o }

/-- The waypoints of a trajectory one after the other: the movements, and the world afterwards. -/
def drive (s : Sim α E) : List E → List (Leg α E) × Sim α E
  | [] => ([], s)
  | p :: l => let r := drive (s.moveTo p) l; (⟨s, p⟩ :: r.1, r.2)

/-- One command (turtlebot_move/run.py:260-265). `Attach` and `Detach` of the library only change what is attached. -/
def command (val : Values α E) (s : Sim α E) : RoverCommand α → List (Leg α E) × Sim α E
  | .motion t => drive s (val.traj t)
  | .attach _ o => ([], { s with held := some o })
  | .detach _ _ => ([], { s with held := none })

/-- The command list (turtlebot_move/run.py:260-265). -/
def execute (val : Values α E) (s : Sim α E) : List (RoverCommand α) → List (Leg α E) × Sim α E
  | [] => ([], s)
  | c :: l => let r := command val s c; let r' := execute val r.2 l; (r.1 ++ r'.1, r'.2)

/-- The world in which the commands are executed (`saver.restore()`, run.py:256): rover at the initial configuration, objects at their initial poses. -/
def Sim.Initial (p : RoverProblem α) (val : Values α E) (s : Sim α E) : Prop :=
  s.rover = val.conf p.initConf ∧ s.held = none ∧ ∀ r ∈ p.rows, s.obj r.1 = val.pose r.2.1

end Verif.RoverExec
