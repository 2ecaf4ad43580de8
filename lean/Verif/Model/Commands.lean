import Verif.Model.Py
import Verif.Model.Strips

/-!
Model of the command lists of the two manipulation experiments: turning a plan into commands, reversing commands, and the trajectory of an
insertion.
-/

namespace Verif.Commands

open Verif.Strips

/-! ### turtlebot_move/run.py -/

/-- What `post_process` puts into the list (turtlebot_move/run.py:153-159): the trajectory `t` of the action, `Attach(v, body=o)`,
`Detach(v, body=o)`. The arguments `arm` and `grasp` are constants and left out. -/
inductive RoverCommand (α : Type) where
  | motion (t : α)
  | attach (v o : α)
  | detach (v o : α)
  deriving DecidableEq

/-- One entry `(name, args)` of a plan as returned by the planner; the order of the arguments is that of the action's parameters
(turtlebot_move/domain.pddl:27, 43). -/
def roverItem {α : Type} : RoverAction α → String × List α
  | .pick v q1 t q2 p o => ("pick", [v, q1, t, q2, p, o])
  | .place v q1 t q2 p o => ("place", [v, q1, t, q2, p, o])

/-- The dictionary `attachments`; `none`: no such key. -/
abbrev Attachments (α : Type) := α → Option α

/-- The loop of `post_process` (turtlebot_move/run.py:151-162). Printing is left out. -/
def postLoop {α : Type} [DecidableEq α] : Attachments α → List (RoverCommand α) → List (String × List α) → Except PyErr (List (RoverCommand α))
  | _, commands, [] => .ok commands
  | attachments, commands, (name, args) :: plan =>
    if name = "pick" then
      match args with
      | [v, _, t, _, _, o] => postLoop (fun k => if k = v then some o else attachments k) (commands ++ [.motion t, .attach v o]) plan
      | _ => .error .value
    else if name = "place" then
      match args with
      | [v, _, t, _, _, _] =>
        match attachments v with
        | none => .error .key
        | some b => postLoop attachments (commands ++ [.motion t, .detach v b]) plan
      | _ => .error .value
    else .error .value

/-- `post_process(problem, plan)` (turtlebot_move/run.py:146-163). -/
def postProcess {α : Type} [DecidableEq α] : Option (List (String × List α)) → Except PyErr (Option (List (RoverCommand α)))
  | none => .ok none
  | some plan => (postLoop (fun _ => none) [] plan).map some

/-! ### kuka_carry/kuka_primitives.py -/

/-- `BodyPath` (kuka_primitives.py:170-177): body, path, joints, attachments. An attachment is given by its body and the rest of the grasp. -/
structure BodyPath (B C J G : Type) where
  body : B
  path : List C
  joints : J
  attachments : List (B × G)

/-- Entries of a command's list `body_paths`: `BodyPath`, `Attach` and `Detach` (kuka_primitives.py:169-269). -/
inductive Item (B C J G L : Type) where
  | path (p : BodyPath B C J G)
  | attach (body robot : B) (link : L)
  | detach (body robot : B) (link : L)

variable {B C J G L : Type}

/-- `BodyPath.reverse` (kuka_primitives.py:220-221). -/
def BodyPath.reverse (p : BodyPath B C J G) : BodyPath B C J G := ⟨p.body, p.path.reverse, p.joints, p.attachments⟩

/-- `reverse` of the three classes (kuka_primitives.py:220-221, 260-261, 268-269). -/
def Item.reverse : Item B C J G L → Item B C J G L
  | .path p => .path p.reverse
  | .attach b r l => .detach b r l
  | .detach b r l => .attach b r l

/-- `Command.reverse` (kuka_primitives.py:311-314). A command is its list `body_paths`; the running number `index` is left out. -/
def reverse (c : List (Item B C J G L)) : List (Item B C J G L) := c.reverse.map Item.reverse

/-- `bodies()` of the three classes (kuka_primitives.py:179-180, 241-242), as lists. -/
def Item.bodies : Item B C J G L → List B
  | .path p => p.body :: p.attachments.map Prod.fst
  | .attach b r _ => [b, r]
  | .detach b r _ => [b, r]

/-- `Command.bodies` (kuka_primitives.py:279-280), as a list. -/
def bodies (c : List (Item B C J G L)) : List B := c.flatMap Item.bodies

/-- What `iterator()` shows: for each configuration of a path the body is put there with its attachments; nothing for attach and detach
(kuka_primitives.py:182-190, 244-245). -/
def Item.visits : Item B C J G L → List (B × J × C × List (B × G))
  | .path p => p.path.map fun c => (p.body, p.joints, c, p.attachments)
  | _ => []

/-- What `Command.execute` and `Command.step` show (kuka_primitives.py:290-300). -/
def visits (c : List (Item B C J G L)) : List (B × J × C × List (B × G)) := c.flatMap Item.visits

/-- Effect of `control()` on the set of fixed constraints of the simulator (kuka_primitives.py:256-258, 265-266): `add_fixed_constraint`
and `remove_fixed_constraint` of the library, which add a constraint and remove those between the two bodies at that link. Motion of the
bodies under control is not modelled. -/
def Item.control : Item B C J G L → Set (B × B × L) → Set (B × B × L)
  | .path _, s => s
  | .attach b r l, s => {x | x ∈ s ∨ x = (b, r, l)}
  | .detach b r l, s => {x | x ∈ s ∧ x ≠ (b, r, l)}

/-- `Command.control` (kuka_primitives.py:302-304). -/
def runControl (c : List (Item B C J G L)) (s : Set (B × B × L)) : Set (B × B × L) := c.foldl (fun s i => i.control s) s

/-! ### kuka_carry/run.py -/

/-- One entry `(name, args)` of a kuka plan; the order of the arguments is that of the action's parameters (kuka_carry/domain.pddl:31-85). -/
def kukaItem {α : Type} : KukaAction α → String × List α
  | .moveFree q1 q2 t => ("move_free", [q1, q2, t])
  | .moveHolding q1 q2 o g t => ("move_holding", [q1, q2, o, g, t])
  | .moveInsert q1 q2 o g t => ("move_insert", [q1, q2, o, g, t])
  | .pick o p g q => ("pick", [o, p, g, q])
  | .place o p g q => ("place", [o, p, g, q])
  | .clean o r _ => ("clean", [o, r])
  | .cook o r _ => ("cook", [o, r])

/-- `postprocess_plan` (kuka_carry/run.py:580-585). `attr` gives the attribute `body_paths` of an argument; `none`: it has none. -/
def postprocessPlan {α : Type} (attr : α → Option (List (Item B C J G L))) : List (String × List α) → Except PyErr (List (Item B C J G L))
  | [] => .ok []
  | (name, args) :: plan =>
    if name ∈ ["move", "move_free", "move_holding", "move_insert"] then
      match args.getLast? with
      | none => .error .index
      | some t =>
        match attr t with
        | none => .error .attribute
        | some l => (postprocessPlan attr plan).map (l ++ ·)
    else postprocessPlan attr plan

/-- `get_ik_fn(robot, body, pose, grasp, randomize=False)` with its default `fixed=[]` (kuka_primitives.py:369-394): up to ten attempts of
the library's `inverse_kinematics` for the approach pose, which is `approach * (pose * grasp⁻¹)` (`end_effector_from_body`,
`approach_from_grasp` of the library). `attempt` is one attempt; it may depend on the state of the simulator, which is represented by the
number of attempts made so far. Returns the number of attempts made and the configuration. -/
def ikFn {P : Type} [Mul P] [Inv P] (attempt : ℕ → P → Option C) (approach grasp pose : P) : ℕ → ℕ → ℕ × Option C
  | made, 0 => (made, none)
  | made, n + 1 =>
    match attempt made (approach * (pose * grasp⁻¹)) with
    | none => ikFn attempt approach grasp pose (made + 1) n
    | some c => (made + 1, some c)

/-- The loop that turns poses into configurations (kuka_carry/run.py:229-238): poses without a configuration are left out. -/
def confPath {P : Type} [Mul P] [Inv P] (attempt : ℕ → P → Option C) (approach grasp : P) : ℕ → List P → List (P × C)
  | _, [] => []
  | made, pose :: rest =>
    match ikFn attempt approach grasp pose made 10 with
    | (made', none) => confPath attempt approach grasp made' rest
    | (made', some c) => (pose, c) :: confPath attempt approach grasp made' rest

/-- The end of the insertion stream (kuka_carry/run.py:209-243): `whole_path` is start, roadmap path and goal; `conf_joints` is not bound
if there is no configuration for any of them. The poses are kept beside the configurations; they are not part of the program. -/
def insertion {P : Type} [Mul P] [Inv P] (attempt : ℕ → P → Option C) (approach grasp start : P) (path : List P) (goal : P) :
    Except PyErr (List (P × C)) :=
  match confPath attempt approach grasp 0 ([start] ++ path ++ [goal]) with
  | [] => .error .unbound
  | l => .ok l

end Verif.Commands
