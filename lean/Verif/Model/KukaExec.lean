import Verif.Model.Batch
import Verif.Model.Commands
import Verif.Model.KukaWorld

/-!
Model of the execution of a kuka plan (kuka_carry/run.py:646-703, kuka_primitives.py:174-190, 296-300) with the motions that the streams return (kuka_carry/run.py:119-245, stream.pddl).
The objects of the planner include the bodies. Poses are a group; the conversions `to_flat` and `pbu.Pose(pbu.Point(..), pbu.Euler(..))` (run.py:112-113, 231) are the identity.
-/

namespace Verif.KukaExec

open Verif.Strips Verif.Commands

variable {α P C J L K F : Type} [LinearOrder K] [Field F] [LinearOrder F] [FloorSemiring F]

/-- The values behind the objects of the planner (kuka_primitives.py:91-168, 271-277): joints of a `BodyConf`, pose of a `BodyPose`, pose of a `BodyGrasp`, entries of a `Command`. -/
structure Values (α P C J L : Type) where
  conf : α → C
  pose : α → P
  grasp : α → P
  cmd : α → Option (List (Item α C J P L))

/-- Robot, joints, fixed bodies and options of the streams (kuka_carry/run.py:119-128, 306-315), the library (see `KukaWorld.Sim`), the pose `fk c` of the tool for joints `c`, the roadmap world of
a body with its motion checker, which judges whole batches (run.py:77-101, 169-178), and for every insertion the attempts of the inverse kinematics (see `ikFn`). -/
structure Streams (α P C J K F : Type) where
  robot : α
  joints : J
  fixed : List α
  teleport : Bool
  approach : P
  fk : C → P
  sim : KukaWorld.Sim α P C (α × P)
  roadmap : α → Prm.World P K
  check : α → Prm.Batch P
  attempt : α → ℕ → P → Option C
  minS : ℕ
  maxS : ℕ
  factor : F

variable [DecidableEq α] [DecidableEq J] [Group P]

/-- `get_free_motion_gen` and `get_holding_motion_gen` (kuka_primitives.py:414-464) returned the command of `t`, for some state of the simulator and some facts. -/
def Moves (e : Streams α P C J K F) (val : Values α P C J L) (held : List (α × P)) (q1 t q2 : α) : Prop :=
  ∃ w fluents path, KukaWorld.motion e.sim e.fixed e.teleport held (⟨e.robot, e.joints, val.conf q1⟩ : KukaWorld.BodyConf α J C) ⟨e.robot, e.joints, val.conf q2⟩ fluents w = .ok (some path) ∧
    val.cmd t = some [.path ⟨e.robot, path, e.joints, held⟩]

/-- `get_insert_motion_gen` (run.py:130-245) returned the command of `t`. Start and goal are where the body is when it is held in the two configurations (run.py:132-137). -/
def Inserts (e : Streams α P C J K F) (val : Values α P C J L) (q1 t q2 o g : α) : Prop :=
  let start := e.fk (val.conf q1) * val.grasp g
  let goal := e.fk (val.conf q2) * val.grasp g
  ∃ drawn fuel counts path l, Anytime.planB (e.roadmap o) (e.check o) start goal e.minS e.maxS (fun x => x * e.factor) 32 true drawn fuel = some (counts, .ok (some (start :: path ++ [goal]))) ∧
    insertion (e.attempt t) e.approach (val.grasp g) start path goal = .ok l ∧ val.cmd t = some [.path ⟨e.robot, l.map Prod.snd, e.joints, [(o, val.grasp g)]⟩]

/-- A fact that a stream may certify (kuka_carry/stream.pddl). -/
def Streamed (e : Streams α P C J K F) (val : Values α P C J L) : KukaFact α → Prop
  | .freeMotion q1 t q2 => Moves e val [] q1 t q2
  | .holdingMotion q1 t q2 o g => Moves e val [(o, val.grasp g)] q1 t q2
  | .insertMotion q1 t q2 o g => Inserts e val q1 t q2 o g
  | _ => False

/-- `refine_path(body, joints, path, num_steps)` of the library: for every two consecutive configurations the configurations `between` them, of which the last is the second of the two. The first
configuration of the path is not shown again. -/
def refinePath (between : C → C → List C) : List C → List C
  | a :: b :: rest => between a b ++ refinePath between (b :: rest)
  | _ => []

/-- `Command.refine` and `refine` of its entries (kuka_primitives.py:212-218, 247-248, 306-309). -/
def refine (between : C → C → List C) (items : List (Item α C J P L)) : List (Item α C J P L) :=
  items.map fun
    | .path p => .path { p with path := refinePath between p.path }
    | i => i

/-- What the simulator shows: joints of the robot and poses of the bodies. -/
structure Scene (α P C : Type) where
  conf : C
  pose : α → P

omit [DecidableEq J] in
/-- One configuration of `BodyPath.iterator` (kuka_primitives.py:185-190): the joints are set, then every attached body is put where the tool holds it (`Attachment.assign` of the library). -/
def Scene.visit (fk : C → P) (s : Scene α P C) (v : α × J × C × List (α × P)) : Scene α P C :=
  ⟨v.2.2.1, v.2.2.2.foldl (fun pose a => Function.update pose a.1 (fk v.2.2.1 * a.2)) s.pose⟩

omit [DecidableEq J] in
/-- `Command.execute` (kuka_primitives.py:296-300). -/
def execute (fk : C → P) (s : Scene α P C) (items : List (Item α C J P L)) : Scene α P C := (visits items).foldl (Scene.visit fk) s

end Verif.KukaExec
