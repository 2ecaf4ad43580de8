import Mathlib.Analysis.SpecialFunctions.Pow.Real
import Mathlib.Logic.Function.Basic
import Verif.Model.Py
import Verif.Model.Hallway

/-!
Model of the placement of objects in turtlebot_move/problems.py:49-101 and of its use in `hallway_manip`. Bodies are not rotated (`theta = 0`), so a pose is
a position. pybullet's bounding boxes and distance test are a parameter (`Scene`). The surfaces do not move.
-/

namespace Verif.Placement

abbrev P3 := Fin 3 → ℝ

/-- What pybullet knows about the bodies. -/
structure Scene (β : Type*) where
  /-- centre of the bounding box when the body is at the origin -/
  center : β → P3
  extent : β → P3
  /-- bounding box of a surface -/
  aabb : β → P3 × P3
  /-- `pairwise_collision(b, o, max_distance=d)` for `b` at `p` and `o` at `q`: the bodies are at most `d` apart -/
  near : β → P3 → β → P3 → ℝ → Bool

variable {β : Type*} [DecidableEq β]

/-- `sample_placement_on_aabb` (problems.py:49-78) with `attempts` attempts and the draw `u` of `sample_aabb` (`np.random.uniform` between the corners; an attempt
without a draw does not depend on anything random). `aabb_empty` is "some upper bound is smaller than the lower one". Returns the new positions and the pose. -/
noncomputable def onAABB (s : Scene β) (b : β) (box : P3 × P3) (percent epsilon : ℝ) (u : ℝ × ℝ) : ℕ → (β → P3) → (β → P3) × Option P3
  | 0, pos => (pos, none)
  | attempts + 1, pos =>
    let pos := Function.update pos b 0
    let lower := fun i => box.1 i + percent * s.extent b i / 2
    let upper := fun i => box.2 i - percent * s.extent b i / 2
    if upper 0 < lower 0 ∨ upper 1 < lower 1 then onAABB s b box percent epsilon u attempts pos
    else
      let x := lower 0 + (upper 0 - lower 0) * u.1
      let y := lower 1 + (upper 1 - lower 1) * u.2
      let z := box.2 2 + s.extent b 2 / 2 + epsilon
      let point : P3 := ![x, y, z] + (0 - s.center b)
      (Function.update pos b point, some point)

/-- Positions of all bodies and the number of draws so far. -/
structure State (β : Type*) where
  pos : β → P3
  drawn : ℕ

/-- One pass of `while True` (problems.py:93-100), with `sample_placement` (81-83) inlined; the Boolean is `False` for `return False` and `True` for `break`. -/
noncomputable def attempt (s : Scene β) (u : ℕ → ℝ × ℝ) (b surface : β) (minDistance : ℝ) (obstacles : List β) (st : State β) :
    Step (State β) (Bool × State β) :=
  match onAABB s b (s.aabb surface) 1 (1 / 1000) (u st.drawn) 50 st.pos with
  | (pos, none) => .done (false, { st with pos })
  | (pos, some _) =>
    let st := { pos, drawn := st.drawn + 1 }
    if (obstacles.filter fun o => !decide (o = b ∨ o = surface)).any fun o => s.near b (pos b) o (pos o) minDistance then .next st
    else .done (true, st)

/-- `sample_placements` (problems.py:86-101) for a list of obstacles; `items` are the entries of the dictionary `body_surfaces`, at most `fuel` passes for each body. -/
noncomputable def samplePlacements (s : Scene β) (u : ℕ → ℝ × ℝ) (minDistance : β → ℝ) (fuel : ℕ) :
    List (β × β) → List β → State β → Option (Bool × State β)
  | [], _, st => some (true, st)
  | (b, surface) :: items, obstacles, st =>
    match loop (attempt s u b surface (minDistance b) obstacles) fuel st with
    | none => none
    | some (false, st') => some (false, st')
    | some (true, st') => samplePlacements s u minDistance fuel items (obstacles ++ [b]) st'

/-- The bodies of the hallway world, numbered in the order of creation; the hallway floor and the robot are not used. -/
inductive Thing where
  | target (i : ℕ)
  | wall (i : ℕ)
  | floor1
  | floor2
  deriving DecidableEq

open Verif.Hallway

/-- The bodies of `hallway_manip`: cylinders of height 0.1 (problems.py:191-199), walls of height 0.1 (204-255), floors of height 0.001 (257-267). Cylinders and
walls stand on the floor, so their distance is their distance seen from above. -/
noncomputable def scene (P : Problem) : Scene Thing :=
  let radius := fun i => P.sizes.getD i 0
  { center := fun _ => 0
    extent := fun
      | .target i => ![2 * radius i, 2 * radius i, 1 / 10]
      | _ => 0
    aabb := fun
      | .floor1 => (![-hallLength / 2 - 3 / 2, 0, -1 / 1000], ![-hallLength / 2, 3 / 2, 0])
      | .floor2 => (![hallLength / 2, 0, -1 / 1000], ![hallLength / 2 + 3 / 2, 3 / 2, 0])
      | _ => (0, 0)
    near := fun b p o q d =>
      open Classical in
      match b, o with
      | .target i, .target j => decide (Real.sqrt ((p 0 - q 0) ^ 2 + (p 1 - q 1) ^ 2) ≤ radius i + radius j + d)
      | .target i, .wall j => match P.obstacles[j]? with
        | none => false
        | some o => decide (∃ x y : ℝ, |x - o.x| ≤ o.w / 2 ∧ |y - o.y| ≤ o.l / 2 ∧ Real.sqrt ((p 0 - x) ^ 2 + (p 1 - y) ^ 2) ≤ radius i + d)
      | _, _ => false }

/-- The goal and initial poses of the targets (problems.py:276-282); the two return values of `sample_placements` are not looked at. -/
noncomputable def placeTargets (P : Problem) (u : ℕ → ℝ × ℝ) (fuel : ℕ) : Option (List P3 × List P3) :=
  let targets := (List.range P.sizes.length).map Thing.target
  let walls := (List.range P.obstacles.length).map Thing.wall
  match samplePlacements (scene P) u (fun _ => 1 / 100) fuel (targets.map fun t => (t, .floor1)) walls ⟨fun _ => 0, 0⟩ with
  | none => none
  | some (_, st) =>
    match samplePlacements (scene P) u (fun _ => 1 / 100) fuel (targets.map fun t => (t, .floor2)) walls st with
    | none => none
    | some (_, st') => some (targets.map st.pos, targets.map st'.pos)

end Verif.Placement
