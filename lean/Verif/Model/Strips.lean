import Mathlib.Data.Set.Basic

/-!
Model of the planning domains of the two manipulation experiments (PDDL). The domains are untyped, so all objects are of one type.
-/

namespace Verif.Strips

/-- A ground action: preconditions, added and deleted facts. The domains use no negative preconditions (`:strips :equality`). -/
structure Op (F : Type) where
  pre : List F
  add : List F
  del : List F

/-- The preconditions hold. -/
def Op.Applicable {F : Type} (a : Op F) (s : Set F) : Prop := ∀ f ∈ a.pre, f ∈ s

/-- Effects in PDDL: deletions first, then additions. -/
def Op.apply {F : Type} (a : Op F) (s : Set F) : Set F := {f | (f ∈ s ∧ f ∉ a.del) ∨ f ∈ a.add}

/-- The plan can be executed from `s` and leads to `s'`. -/
def Executes {A F : Type} (op : A → Op F) : Set F → List A → Set F → Prop
  | s, [], s' => s' = s
  | s, a :: plan, s' => (op a).Applicable s ∧ Executes op ((op a).apply s) plan s'

/-! ### turtlebot_move -/

/-- turtlebot_move/domain.pddl:4-16. -/
inductive RoverFact (α : Type) where
  | target (o : α)
  | conf (v q : α)
  | motion (v q1 t q2 : α)
  | hfree
  | atConf (v q : α)
  | pose (o p : α)
  | atPose (o p : α)
  | holding (o : α)
  | kin (o p q : α)
  | rover (r : α)
  | motionHolding (v q1 t q2 o : α)

/-- turtlebot_move/domain.pddl:26-58. -/
inductive RoverAction (α : Type) where
  | pick (v q1 t q2 p o : α)
  | place (v q1 t q2 p o : α)

open RoverFact in
/-- turtlebot_move/domain.pddl:26-58. -/
def RoverAction.op {α : Type} : RoverAction α → Op (RoverFact α)
  | .pick v q1 t q2 p o =>
    { pre := [rover v, motion v q1 t q2, atConf v q1, atPose o p, kin o p q2, target o, hfree]
      add := [atConf v q2, holding o]
      del := [atConf v q1, hfree, atPose o p] }
  | .place v q1 t q2 p o =>
    { pre := [rover v, motionHolding v q1 t q2 o, atConf v q1, holding o, target o, pose o p, kin o p q2]
      add := [atConf v q2, hfree, atPose o p]
      del := [atConf v q1, holding o] }

/-- The fields of the problem used for the initial state (turtlebot_move/run.py:112-127). -/
structure RoverProblem (α : Type) where
  rover : α
  initConf : α
  targets : List α
  initPoses : List α
  goalPoses : List α

/-- `zip(problem.targets, problem.target_init_poses, problem.target_goal_poses)` (run.py:121). -/
def RoverProblem.rows {α : Type} (p : RoverProblem α) : List (α × α × α) := p.targets.zip (p.initPoses.zip p.goalPoses)

/-- `init` of `pddlstream_from_problem` (turtlebot_move/run.py:110-125). -/
def RoverProblem.init {α : Type} (p : RoverProblem α) : List (RoverFact α) :=
  [.hfree] ++ ([.rover p.rover] ++ [.conf p.rover p.initConf, .atConf p.rover p.initConf] ++
    p.rows.flatMap fun r => [.target r.1, .pose r.1 r.2.2, .pose r.1 r.2.1, .atPose r.1 r.2.1])

open RoverFact in
/-- `goal_literals` (turtlebot_move/run.py:121-128), a conjunction. -/
def RoverProblem.goal {α : Type} (p : RoverProblem α) : List (RoverFact α) := p.rows.map fun r => atPose r.1 r.2.2

/-- Facts certified by streams (turtlebot_move/stream.pddl). -/
def RoverFact.Certified {α : Type} : RoverFact α → Prop
  | .motion .. | .motionHolding .. | .kin .. | .conf .. => True
  | _ => False

/-- The planner's state at the start: the initial facts and what the streams have certified. All certified facts of a run are there from
the start: they are never deleted and never forbid an action. -/
def RoverProblem.start {α : Type} (p : RoverProblem α) (certified : Set (RoverFact α)) : Set (RoverFact α) :=
  {f | f ∈ p.init ∨ f ∈ certified}

/-! ### kuka_carry -/

/-- kuka_carry/domain.pddl:3-29. The derived predicates `On` and `Holding` are not stored in the state. -/
inductive KukaFact (α : Type) where
  | stackable (o r : α)
  | sink (r : α)
  | stove (r : α)
  | pose (o p : α)
  | grasp (o g : α)
  | graspable (o : α)
  | conf (q : α)
  | kin (o p g q : α)
  | freeMotion (q1 t q2 : α)
  | holdingMotion (q1 t q2 o g : α)
  | insertMotion (q1 t q2 o g : α)
  | preInsert (q : α)
  | postInsert (q : α)
  | supported (o p r : α)
  | atPose (o p : α)
  | atGrasp (o g : α)
  | handEmpty
  | atConf (q : α)
  | canMove
  | cleaned (o : α)
  | cooked (o : α)

/-- kuka_carry/domain.pddl:31-85. For `clean` and `cook` the parameter `p` is the witness of the derived predicate
`On` (domain.pddl:87-90). -/
inductive KukaAction (α : Type) where
  | moveFree (q1 q2 t : α)
  | moveHolding (q1 q2 o g t : α)
  | moveInsert (q1 q2 o g t : α)
  | pick (o p g q : α)
  | place (o p g q : α)
  | clean (o r p : α)
  | cook (o r p : α)

open KukaFact in
/-- kuka_carry/domain.pddl:31-85. -/
def KukaAction.op {α : Type} : KukaAction α → Op (KukaFact α)
  | .moveFree q1 q2 t =>
    { pre := [freeMotion q1 t q2, atConf q1, handEmpty, canMove], add := [atConf q2], del := [atConf q1, canMove] }
  | .moveHolding q1 q2 o g t =>
    { pre := [holdingMotion q1 t q2 o g, atConf q1, atGrasp o g, canMove], add := [atConf q2], del := [atConf q1, canMove] }
  | .moveInsert q1 q2 o g t =>
    { pre := [insertMotion q1 t q2 o g, atConf q1, atGrasp o g, canMove], add := [atConf q2], del := [atConf q1, canMove] }
  | .pick o p g q =>
    { pre := [kin o p g q, atPose o p, handEmpty, atConf q], add := [atGrasp o g, canMove], del := [atPose o p, handEmpty] }
  | .place o p g q =>
    { pre := [kin o p g q, atGrasp o g, atConf q], add := [atPose o p, handEmpty, canMove], del := [atGrasp o g] }
  | .clean o r p =>
    { pre := [stackable o r, sink r, supported o p r, atPose o p], add := [cleaned o], del := [] }
  | .cook o r p =>
    { pre := [stackable o r, stove r, supported o p r, atPose o p, cleaned o], add := [cooked o], del := [cleaned o] }

/-- What `pddlstream_from_problem` computes for one movable body with the simulator (kuka_carry/run.py:336-384): grasp, initial pose,
configuration for grasping it there; for a body with a sink also the sink, the two insertion poses and their configurations. -/
structure KukaBody (α : Type) where
  body : α
  grasp : α
  pose : α
  conf : α
  surfaces : List (α × Bool)
  insert : Option (α × α × α × α × α)

/-- Facts for one body (run.py:343-355 and 373-381): `surfaces` are the sinks, with the answer of `is_placement`; `insert` is sink, post-
and pre-insertion pose, pre- and post-insertion configuration. The two loops of the code are merged per body; only the order of the list
differs. -/
def KukaBody.facts {α : Type} (b : KukaBody α) : List (KukaFact α) :=
  [.grasp b.body b.grasp, .graspable b.body, .pose b.body b.pose, .atPose b.body b.pose, .conf b.conf, .kin b.body b.pose b.grasp b.conf] ++
  (b.surfaces.flatMap fun s => .stackable b.body s.1 :: if s.2 then [.supported b.body b.pose s.1] else []) ++
  match b.insert with
  | none => []
  | some (sk, post, pre, qpre, qpost) =>
    [.pose b.body post, .pose b.body pre, .supported b.body post sk, .conf qpre, .conf qpost, .kin b.body pre b.grasp qpre,
      .kin b.body post b.grasp qpost, .preInsert qpre, .postInsert qpost]

/-- The kuka problem: initial configuration, movable bodies, fixed sinks and stoves. -/
structure KukaProblem (α : Type) where
  startConf : α
  bodies : List (KukaBody α)
  sinks : List α
  stoves : List α

open KukaFact in
/-- `init` of `pddlstream_from_problem` (kuka_carry/run.py:325-392). -/
def KukaProblem.init {α : Type} (p : KukaProblem α) : List (KukaFact α) :=
  [canMove, conf p.startConf, atConf p.startConf, handEmpty] ++ p.bodies.flatMap KukaBody.facts ++ p.sinks.map sink ++ p.stoves.map stove

open KukaFact in
/-- `goal` (kuka_carry/run.py:394-396), a conjunction. -/
def KukaProblem.goal {α : Type} (p : KukaProblem α) : List (KukaFact α) := atConf p.startConf :: p.bodies.map fun b => cleaned b.body

/-- The facts certified by the streams together with their domain conditions (kuka_carry/stream.pddl), relative to the facts known. That
a motion is certified only for the poses of the other objects at that time (`:fluents`) is not modelled: more plans are considered. -/
def KukaFact.Certified {α : Type} (known : Set (KukaFact α)) : KukaFact α → Prop
  | .freeMotion q1 _ q2 => .conf q1 ∈ known ∧ .conf q2 ∈ known
  | .holdingMotion q1 _ q2 o g => .conf q1 ∈ known ∧ .conf q2 ∈ known ∧ .grasp o g ∈ known ∧ .preInsert q2 ∈ known
  | .insertMotion q1 _ q2 o g => .conf q1 ∈ known ∧ .conf q2 ∈ known ∧ .grasp o g ∈ known ∧ .preInsert q1 ∈ known ∧ .postInsert q2 ∈ known
  | _ => False

/-- See `RoverProblem.start`. -/
def KukaProblem.start {α : Type} (p : KukaProblem α) (certified : Set (KukaFact α)) : Set (KukaFact α) :=
  {f | f ∈ p.init ∨ f ∈ certified}

end Verif.Strips
