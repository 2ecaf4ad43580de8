import Verif.Model.KukaExec

/-! What is assumed of the library and the problem when a kuka plan is executed, and where objects then are. -/

namespace Verif.KukaExec

open Verif.Strips Verif.Commands

variable {α P C J L K F : Type} [LinearOrder K] [Field F] [LinearOrder F] [FloorSemiring F] [DecidableEq α] [DecidableEq J] [Group P]

/-- The library: `SimOk`, with `fk` for where the tool is; `plan_joint_motion` returns at least two configurations; inverse kinematics is correct, and finds a configuration for the two ends of
every insertion; refining a segment ends at its end. -/
structure Library (e : Streams α P C J K F) (val : Values α P C J L) (certified : Set (KukaFact α)) (between : C → C → List C) : Prop where
  plan : ∀ w goal obstacles held path, e.sim.plan w goal obstacles held = some path → path.head? = some w.conf ∧ path.getLast? = some goal ∧ 2 ≤ path.length
  ik : ∀ t k x c, e.attempt t k x = some c → e.fk c = x
  ends : ∀ q1 t q2 o g, .insertMotion q1 t q2 o g ∈ certified → ∀ q ∈ [q1, q2], ∀ k, e.attempt t k (e.approach * (e.fk (val.conf q) * val.grasp g * (val.grasp g)⁻¹)) ≠ none
  between : ∀ a b, (between a b).getLast? = some b

/-- The facts `Kin` of the problem are true (kuka_carry/run.py:341-348, 365-381; this is C99): in the configuration the tool is at the approach pose for the pose of the object. -/
def KinOk (e : Streams α P C J K F) (val : Values α P C J L) (p : KukaProblem α) : Prop :=
  ∀ o x g q, .kin o x g q ∈ p.init → e.fk (val.conf q) = e.approach * (val.pose x * (val.grasp g)⁻¹)

/-- The world at the beginning (kuka_carry/run.py:324-338): the robot in the start configuration, the objects at their initial poses. -/
def Scene.Initial (p : KukaProblem α) (val : Values α P C J L) (s : Scene α P C) : Prop :=
  s.conf = val.conf p.startConf ∧ ∀ b ∈ p.bodies, s.pose b.body = val.pose b.pose

/-- The object of `b` is planned to be at `x` and is at `p`: right where it was in the beginning, one approach offset away from `x` if that is the pose before insertion, and two offsets away if it is the
pose after insertion. -/
structure Rests (approach : P) (val : Values α P C J L) (b : KukaBody α) (x : α) (p : P) : Prop where
  first : x = b.pose → p = val.pose x
  before : ∀ sk post qpre qpost, b.insert = some (sk, post, x, qpre, qpost) → p = approach * val.pose x
  after : ∀ sk pre qpre qpost, b.insert = some (sk, x, pre, qpre, qpost) → p = approach * (approach * val.pose x)

end Verif.KukaExec
