import Verif.Model.KukaExec

/-!
Model of `get_movable_collision_test` (kuka_primitives.py:470-488). `touch s a b` is the answer of `pairwise_collision(a, b)` of the library in the scene `s`.
-/

namespace Verif.CollisionTest

open Verif.Commands Verif.KukaExec

variable {α P C J L : Type} [DecidableEq α] [Group P]

/-- One step of an iterator (see `Item.visits`): body, joints, configuration, attachments. -/
abbrev Visit (α P C J : Type) := α × J × C × List (α × P)

/-- The inner loop (kuka_primitives.py:480-485): the answer, if there is one, and the scene that is left. `DEBUG_FAILURE` is off. -/
def walk (fk : C → P) (touch : Scene α P C → α → α → Bool) (moving : List α) (body : α) : Scene α P C → List (Visit α P C J) → Bool × Scene α P C
  | s, [] => (false, s)
  | s, v :: rest =>
    let s' := s.visit fk v
    if moving.any fun m => touch s' m body then (true, s') else walk fk touch moving body s' rest

/-- The outer loop (kuka_primitives.py:475-486). -/
def overPaths (fk : C → P) (touch : Scene α P C → α → α → Bool) (body : α) : Scene α P C → List (Item α C J P L) → Bool × Scene α P C
  | s, [] => (false, s)
  | s, i :: rest =>
    if body ∈ i.bodies then overPaths fk touch body s rest
    else
      let r := walk fk touch i.bodies body s i.visits
      if r.1 then r else overPaths fk touch body r.2 rest

/-- `test(command, body, pose)` (kuka_primitives.py:471-486). -/
def movableTest (fk : C → P) (touch : Scene α P C → α → α → Bool) (s : Scene α P C) (command : List (Item α C J P L)) (body : α) (pose : P) : Bool × Scene α P C :=
  if body ∈ bodies command then (false, s)
  else overPaths fk touch body { s with pose := Function.update s.pose body pose } command

end Verif.CollisionTest
