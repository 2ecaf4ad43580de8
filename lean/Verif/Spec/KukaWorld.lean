import Verif.Model.KukaWorld

/-! What is expected of the library and of the streams of kuka_carry. -/

namespace Verif.Spec

open Verif.KukaWorld

variable {B P C G : Type*}

/-- The library: `reach q t` says that the tool is at `t` when the joints are `q`; `heldCollide g c o p` that the body held with grasp `g` at joints `c` touches object `o` at pose `p`.
Collision of two objects is symmetric; a solution of the inverse kinematics reaches the target and the robot is left in it; a planned path leads from the robot's joints to the goal and
neither the robot nor a held body touches an obstacle in it. -/
structure SimOk (s : Sim B P C G) (reach : C → P → Prop) (heldCollide : G → C → B → P → Bool) : Prop where
  symm : ∀ a p b q, s.collide a p b q = s.collide b q a p
  ik : ∀ n c t q c', s.invKin n c t = (some q, c') → c' = q ∧ reach q t
  plan : ∀ w goal obstacles held path, s.plan w goal obstacles held = some path →
    path.head? = some w.conf ∧ path.getLast? = some goal ∧
      ∀ c ∈ path, ∀ o ∈ obstacles, s.robotCollide c o (w.pose o) = false ∧ ∀ g ∈ held, heldCollide g c o (w.pose o) = false

/-- With joints `q` the tool is at `t` and the robot touches none of the bodies `fixed`. -/
def Good (s : Sim B P C G) (reach : C → P → Prop) (fixed : List B) (pose : B → P) (t : P) (q : C) : Prop :=
  reach q t ∧ ∀ o ∈ fixed, s.robotCollide q o (pose o) = false

/-- Facts as they occur in a state: every object has one pose, and it is a pose of that object. -/
structure PoseFacts (fixed : List B) (fluents : List (Fluent B P)) : Prop where
  own : ∀ f ∈ fluents, f.poseBody = f.object
  one : (fluents.map (·.object)).Nodup
  fixed : ∀ f ∈ fluents, f.object ∉ fixed

end Verif.Spec
