import Mathlib.Analysis.Real.Pi.Bounds
import Mathlib.Logic.Function.Basic
import Verif.Model.Py

/-!
Model of the streams and of the world building of kuka_carry: kuka_primitives.py:345-464 and kuka_carry/run.py:336-386, 564-578.
pybullet and pybullet_tools are a parameter (`Sim`). Poses are a group: `pbu.multiply` is the product.
-/

namespace Verif.KukaWorld

/-- State of the simulator: poses of the objects (the robot's base does not move), joints of the robot, and how many random numbers were used. -/
structure World (B P C : Type*) where
  pose : B → P
  conf : C
  drawn : ℕ

/-- What is used of the library.
* `sample_placement(body, surface, theta=θ)` with the random numbers at position `n` answers `placement n θ body surface` and leaves the body at that pose; if it answers
  `None` it leaves the body at `left n θ body surface`.
* `inverse_kinematics(robot, link, target)` from the joints `c` answers the first part of `invKin n c target` and leaves the robot in the second.
* `plan_joint_motion` answers `plan w goal obstacles attachments` in world `w`. -/
structure Sim (B P C G : Type*) where
  collide : B → P → B → P → Bool
  robotCollide : C → B → P → Bool
  placement : ℕ → ℝ → B → B → Option P
  left : ℕ → ℝ → B → B → P
  theta : ℕ → ℝ
  sample : ℕ → C
  invKin : ℕ → C → P → Option C × C
  plan : World B P C → C → List B → List G → Option (List C)

variable {B P C G : Type*} [DecidableEq B]

/-- One `sample_placement`: the new world and the answer. -/
def samplePlacement (s : Sim B P C G) (θ : ℝ) (body surface : B) (w : World B P C) : World B P C × Option P :=
  match s.placement w.drawn θ body surface with
  | none => ({ w with pose := Function.update w.pose body (s.left w.drawn θ body surface), drawn := w.drawn + 1 }, none)
  | some p => ({ w with pose := Function.update w.pose body p, drawn := w.drawn + 1 }, some p)

/-- `any(pairwise_collision(body, b) for b in obstacles)` (kuka_primitives.py:349, 361). -/
def anyCollision (s : Sim B P C G) (w : World B P C) (body : B) (obstacles : List B) : Bool :=
  obstacles.any fun b => s.collide body (w.pose body) b (w.pose b)

/-- `any(pairwise_collision(robot, b) for b in obstacles)` (kuka_primitives.py:379-381). -/
def anyRobotCollision (s : Sim B P C G) (w : World B P C) (obstacles : List B) : Bool :=
  obstacles.any fun b => s.robotCollide w.conf b (w.pose b)

/-- One pass of `get_stable_gen`'s loop (kuka_primitives.py:358-364), up to its first `yield`. `links[surface]` is left out: every body has an entry (run.py:559). -/
def stableStep (s : Sim B P C G) (fixed obstacles : List B) (body surface : B) (w : World B P C) : Step (World B P C) (P × World B P C) :=
  match samplePlacement s (s.theta w.drawn) body surface w with
  | (w, none) => .next w
  | (w, some p) => if anyCollision s w body (fixed ++ obstacles) then .next w else .done (p, w)

/-- `get_fixed_stable_gen` (kuka_primitives.py:345-352) up to its first `yield`; `none`: it yields nothing. -/
def fixedStable (s : Sim B P C G) (fixed : List B) (body surface : B) : List ℝ → World B P C → World B P C × Option P
  | [], w => (w, none)
  | θ :: rest, w =>
    match samplePlacement s θ body surface w with
    | (w, none) => fixedStable s fixed body surface rest w
    | (w, some p) => if anyCollision s w body fixed then fixedStable s fixed body surface rest w else (w, some p)

/-- `get_ik_fn` with `randomize=True` (kuka_primitives.py:369-394); `target` is the approach pose. `set_joint_positions`, `inverse_kinematics`, collision test of the robot as it is then. -/
def ikFn (s : Sim B P C G) (fixed : List B) (target : P) : ℕ → World B P C → World B P C × Option C
  | 0, w => (w, none)
  | attempts + 1, w =>
    let (q, c) := s.invKin w.drawn (s.sample w.drawn) target
    let w := { w with conf := c, drawn := w.drawn + 1 }
    match q with
    | none => ikFn s fixed target attempts w
    | some q => if anyRobotCollision s w fixed then ikFn s fixed target attempts w else (w, some q)

variable [Group P]

/-- `end_effector_from_body` and `approach_from_grasp` of the library (kuka_primitives.py:373-374). -/
def approachPose (approach grasp pose : P) : P := approach * (pose * grasp⁻¹)

/-- The `while(True)` loop for one object (run.py:567-577), at most `k` passes. -/
def placeOne (s : Sim B P C G) (approach : P) (grasp : B → P) (fixed placed : List B) (body surface : B) (fuel : ℕ) : ℕ → World B P C → Option (World B P C)
  | 0, _ => none
  | k + 1, w =>
    match loop (stableStep s fixed placed body surface) fuel w with
    | none => none
    | some (p, w) =>
      let w := { w with pose := Function.update w.pose body p }
      match ikFn s fixed (approachPose approach (grasp body) p) 10 w with
      | (w, none) => placeOne s approach grasp fixed placed body surface fuel k w
      | (w, some _) => some w

/-- The loop over all objects (run.py:564-577). -/
def placeAll (s : Sim B P C G) (approach : P) (grasp : B → P) (fixed : List B) (surface : B) (fuel : ℕ) : List B → List B → World B P C → Option (World B P C)
  | [], _, w => some w
  | body :: rest, placed, w =>
    match placeOne s approach grasp fixed placed body surface fuel fuel w with
    | none => none
    | some w => placeAll s approach grasp fixed surface fuel rest (placed ++ [body]) w

/-- What the facts about the initial pose of one object contain (run.py:339-348). -/
structure Start (B P C : Type*) where
  body : B
  pose : P
  conf : C

/-- The first loop of `pddlstream_from_problem` (run.py:336-348); `none`: `return None`. -/
def startFacts (s : Sim B P C G) (approach : P) (grasp : B → P) (fixed : List B) : List B → World B P C → World B P C × Option (List (Start B P C))
  | [], w => (w, some [])
  | body :: rest, w =>
    match ikFn s fixed (approachPose approach (grasp body) (w.pose body)) 10 w with
    | (w', none) => (w', none)
    | (w', some q) =>
      match startFacts s approach grasp fixed rest w' with
      | (w'', none) => (w'', none)
      | (w'', some l) => (w'', some (⟨body, w.pose body, q⟩ :: l))

/-- What the facts about the insertion of one object contain (run.py:365-381). -/
structure Insert (B P C : Type*) where
  body : B
  sink : B
  post : P
  pre : P
  preConf : C
  postConf : C

/-- The second loop (run.py:359-386): `for ... in stable_gen(body, sink)` returns or breaks in its first pass; if there is none the assertion fails. `lift` is
`Pose(Point(x=0.02, z=0.14))`. -/
noncomputable def insertFacts (s : Sim B P C G) (approach lift : P) (grasp : B → P) (fixed : List B) : List (B × B) → World B P C → World B P C × Except PyErr (Option (List (Insert B P C)))
  | [], w => (w, .ok (some []))
  | (body, sink) :: rest, w =>
    match fixedStable s fixed body sink [0, Real.pi / 2, Real.pi, -Real.pi / 2] w with
    | (w, none) => (w, .error .assertion)
    | (w, some post) =>
      let pre := lift * post
      match ikFn s fixed (approachPose approach (grasp body) pre) 10 w with
      | (w, preConf) =>
        match ikFn s fixed (approachPose approach (grasp body) post) 10 w with
        | (w, postConf) =>
          match preConf, postConf with
          | some q1, some q2 =>
            match insertFacts s approach lift grasp fixed rest w with
            | (w, .ok (some l)) => (w, .ok (some (⟨body, sink, post, pre, q1, q2⟩ :: l)))
            | (w, r) => (w, r)
          | _, _ => (w, .ok none)

/-- A fluent fact: its name, and for `atpose` the object and the `BodyPose`, that is the body and the pose given to it. -/
structure Fluent (B P : Type*) where
  name : String
  object : B
  poseBody : B
  pose : P

omit [Group P] in
/-- `assign_fluent_state` (kuka_primitives.py:401-411): the new poses and the obstacles. -/
def assignFluents : List (Fluent B P) → (B → P) → Except PyErr ((B → P) × List B)
  | [], pose => .ok (pose, [])
  | f :: rest, pose =>
    if f.name = "atpose" then
      match assignFluents rest (Function.update pose f.poseBody f.pose) with
      | .error e => .error e
      | .ok (pose, l) => .ok (pose, f.object :: l)
    else .error .value

/-- `BodyConf` (kuka_primitives.py:149-168): whose joints, which ones, and their values. -/
structure BodyConf (R J C : Type*) where
  body : R
  joints : J
  configuration : C

/-- `get_free_motion_gen` and `get_holding_motion_gen` (kuka_primitives.py:414-464); `held` is empty for the first and contains the grasp for the second. Returns the
path of the command. -/
def motion {R J : Type*} [DecidableEq R] [DecidableEq J] (s : Sim B P C G) (fixed : List B) (teleport : Bool) (held : List G) (conf1 conf2 : BodyConf R J C) (fluents : List (Fluent B P)) (w : World B P C) :
    Except PyErr (Option (List C)) :=
  if conf1.body = conf2.body ∧ conf1.joints = conf2.joints then
    if teleport then .ok (some [conf1.configuration, conf2.configuration])
    else
      match assignFluents fluents w.pose with
      | .error e => .error e
      | .ok (pose, l) => .ok (s.plan { w with pose, conf := conf1.configuration } conf2.configuration (fixed ++ l) held)
  else .error .assertion

end Verif.KukaWorld
