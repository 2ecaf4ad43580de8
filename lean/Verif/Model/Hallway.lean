import Mathlib.Analysis.SpecialFunctions.Pow.Real
import Verif.Model.Py
import Verif.Model.Sat2D

/-!
Model of the turtlebot worlds of turtlebot_move/problems.py, seen from above. Coordinates are real numbers. A body made by `create_box` and moved by
`set_point` is the rectangle around its centre; heights, colours, the floors (which are no obstacles) and the robot model are left out.
The first definition of `hallway` (problems.py:131-171) is replaced by the second one (305-396) when the file is loaded and is not modelled.
-/

namespace Verif.Hallway

open Verif.Sat2D

/-- `create_box(w, l, ..)` with `set_point(.., Point(x, y, ..))`, seen from above. -/
structure Box where
  x : ℝ
  y : ℝ
  w : ℝ
  l : ℝ

/-- The corners of a box in cyclic order, as `hull(oobb_flat_vertices(obstacle))` gives them (streams.py:52; the hull library may start at
another corner, which changes no answer: `C132_worlds`). -/
noncomputable def Box.corners (b : Box) : List V2 :=
  [(b.x - b.w / 2, b.y - b.l / 2), (b.x + b.w / 2, b.y - b.l / 2), (b.x + b.w / 2, b.y + b.l / 2), (b.x - b.w / 2, b.y + b.l / 2)]

/-- `mound_height`, `wall_thickness` (problems.py:177, 181, 308, 312, 402). -/
noncomputable def thick : ℝ := 1 / 10

/-- `hallway_length` (problems.py:180, 311). -/
def hallLength : ℝ := 3

/-- `BOT_RADIUS` (problems.py:17). -/
noncomputable def botRadius : ℝ := 179 / 1000

/-- The list `obstacles` of two rooms and a hallway (problems.py:204-255 and, with another room length, 316-367). -/
noncomputable def rooms (room hall : ℝ) : List Box :=
  let flap := (room - hall) / 2
  [ ⟨-hallLength / 2 - room / 2, 0, room + thick, thick⟩,                                -- room1_front_wall
    ⟨-hallLength / 2 - room / 2, room, room + thick, thick⟩,                             -- room1_back_wall
    ⟨-hallLength / 2 - room - thick / 2, room / 2, thick, room + thick⟩,                 -- room1_left_wall
    ⟨-hallLength / 2, room / 2 + hall / 2 + flap / 2, thick, flap + thick⟩,              -- room1_flap1
    ⟨hallLength / 2, flap / 2, thick, flap + thick⟩,                                     -- room2_flap1
    ⟨hallLength / 2 + room / 2, room, room + thick, thick⟩,                              -- room2_front_wall
    ⟨hallLength / 2 + room / 2, 0, room + thick, thick⟩,                                 -- room2_back_wall
    ⟨hallLength / 2 + room + thick / 2, room / 2, thick, room + thick⟩,                  -- room2_right_wall
    ⟨-hallLength / 2, room / 2 - hall / 2 - flap / 2, thick, flap + thick⟩,              -- room1_flap2
    ⟨hallLength / 2, room - flap / 2, thick, flap + thick⟩,                              -- room2_flap2
    ⟨0, room / 2 + hall / 2, hallLength, thick⟩,                                         -- hallway_top_wall
    ⟨0, room / 2 - hall / 2, hallLength, thick⟩ ]                                        -- hallway_bottom_wall

/-- What the planner gets of a `RoversProblem` (problems.py:117-128). -/
structure Problem where
  obstacles : List Box
  sizes : List ℝ
  start : V2
  goal : Option V2
  gap : ℝ

/-- `target_radius` (problems.py:196) for a draw `u` of `np.random.uniform(0, 1)`. -/
noncomputable def targetRadius (lo hi u : ℝ) : ℝ := lo + (hi - lo) * (1 - (1 - u) ^ (1 / 4 : ℝ))

/-- `target_sizes` (problems.py:187-199); `u i` is the i-th draw. -/
noncomputable def targetSizes (scale : ℝ) (num : ℕ) (u : ℕ → ℝ) : List ℝ :=
  let lo := scale * botRadius
  let hi := lo + 1 / 10
  hi :: (List.range (num - 1)).map fun i => targetRadius lo hi (u i)

/-- `hallway_manip` (problems.py:174-303) without the placement of the targets (that is `samplePlacements`). -/
noncomputable def hallwayManip (scale dd : ℝ) (num : ℕ) (u : ℕ → ℝ) : Except PyErr Problem := do
  if num = 0 then throw .assertion
  let sizes := targetSizes scale num u
  let gap := (← pyMax sizes) * 2 + dd
  let hall := gap + thick
  return { obstacles := rooms (3 / 2) hall, sizes, start := (-hallLength / 2 - (3 / 2) / 2, (3 / 2) / 2), goal := none, gap }

/-- The second `hallway` (problems.py:305-396); `hallway_gap` keeps its default 0. -/
noncomputable def hallway (scale dd : ℝ) : Problem :=
  { obstacles := rooms 1 (scale * botRadius * 2 + thick + dd), sizes := [], start := (-hallLength / 2 - 1 / 2, 1 / 2),
    goal := some (hallLength / 2 + 1 / 2, 1 / 2), gap := 0 }

/-- `corner` (problems.py:399-439): four walls and a box in the middle. -/
noncomputable def corner (scale dd : ℝ) : Problem :=
  let ext : ℝ := 3
  let robot := botRadius * scale
  let offset := robot + thick
  let box := (ext / 2 - (thick + 2 * robot)) * 2 - dd
  { obstacles := [⟨0, ext / 2, ext + thick, thick⟩, ⟨0, -ext / 2, ext + thick, thick⟩, ⟨ext / 2, 0, thick, ext + thick⟩,
      ⟨-ext / 2, 0, thick, ext + thick⟩, ⟨0, 0, box, box⟩],
    sizes := [], start := (ext / 2 - offset, -ext / 2 + offset), goal := some (-ext / 2 + offset, ext / 2 - offset), gap := 0 }

/-- `BagOfBoundingBoxes.extents` (streams.py:46, 54-63) in the plane: the smallest and largest coordinates of the corners. -/
noncomputable def extents (obstacles : List Box) : Except PyErr ((ℝ × ℝ) × (ℝ × ℝ)) := do
  let vs := obstacles.flatMap Box.corners
  return ((← pyMin (vs.map (·.1)), ← pyMax (vs.map (·.1))), (← pyMin (vs.map (·.2)), ← pyMax (vs.map (·.2))))

/-- `sample_from_env` (streams.py:65-67) for two draws of `random.random()`. -/
def sampleFromEnv (bounds : (ℝ × ℝ) × (ℝ × ℝ)) (u : V2) : V2 :=
  (bounds.1.1 + (bounds.1.2 - bounds.1.1) * u.1, bounds.2.1 + (bounds.2.2 - bounds.2.1) * u.2)

end Verif.Hallway
