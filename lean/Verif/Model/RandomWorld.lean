import Verif.Model.Placement

/-!
Model of `random_obstacles` (turtlebot_move/problems.py:442-483), seen from above as in `Verif.Model.Hallway`. The walls are created, but neither placed against nor handed on. The two robot models are
given by their footprints at the start and at the goal (the second one at scale 2).
-/

namespace Verif.RandomWorld

open Verif.Placement Verif.Hallway

/-- The bodies that `sample_placements` gets to see: boxes, the floor, and the two robots. -/
inductive Body where
  | box (i : ℕ)
  | floor
  | rover
  | rover2
  deriving DecidableEq

/-- The footprint of a box (problems.py:460) at a position: sides of `mound_height`. -/
def square (p : P3) : Set (ℝ × ℝ) := {x | |x.1 - p 0| ≤ 1 / 20 ∧ |x.2 - p 1| ≤ 1 / 20}

/-- Two footprints are at most `d` apart. -/
def Close (A B : Set (ℝ × ℝ)) (d : ℝ) : Prop := ∃ x ∈ A, ∃ y ∈ B, Real.sqrt ((x.1 - y.1) ^ 2 + (x.2 - y.2) ^ 2) ≤ d

/-- What pybullet knows: boxes of `mound_height`, `mound_height`, `4 * mound_height` (problems.py:460), a floor of 5 by 5 (447-448). Everything stands on the floor. -/
noncomputable def yard (foot foot2 : Set (ℝ × ℝ)) : Scene Body :=
  { center := fun _ => 0
    extent := fun
      | .box _ => ![1 / 10, 1 / 10, 4 / 10]
      | _ => 0
    aabb := fun
      | .floor => (![-5 / 2, -5 / 2, -1 / 1000], ![5 / 2, 5 / 2, 0])
      | _ => (0, 0)
    near := fun b p o q d =>
      open Classical in
      match b, o with
      | .box _, .box _ => decide (Close (square p) (square q) d)
      | .box _, .rover => decide (Close (square p) foot d)
      | .box _, .rover2 => decide (Close (square p) foot2 d)
      | _, _ => false }

/-- `random_obstacles(n, ..)` (problems.py:442-483): where the boxes are, and what the planner gets. The answer of `sample_placements` is not looked at, and no obstacles are handed on (481, 483). -/
noncomputable def randomObstacles (n : ℕ) (foot foot2 : Set (ℝ × ℝ)) (u : ℕ → ℝ × ℝ) (fuel : ℕ) : Option (List P3 × Problem) :=
  let boxes := (List.range n).map Body.box
  match samplePlacements (yard foot foot2) u (fun _ => 1 / 100) fuel (boxes.map fun b => (b, .floor)) [.rover, .rover2] ⟨fun _ => 0, 0⟩ with
  | none => none
  | some (_, st) => some (boxes.map st.pos, { obstacles := [], sizes := [], start := (7 / 4, -7 / 4), goal := some (-7 / 4, 7 / 4), gap := 0 })

end Verif.RandomWorld
