import Mathlib.Data.Real.Basic
import Verif.Spec.Sat2D
import Verif.Spec.Sampling
import Verif.Model.Turtlebot
import Verif.Model.Hallway

/-! Regions of the turtlebot worlds. -/

namespace Verif.Spec

open Verif.Hallway

/-- The points covered by a box. -/
def Box.region (b : Box) : Set (ℝ × ℝ) := {p | |p.1 - b.x| ≤ b.w / 2 ∧ |p.2 - b.y| ≤ b.l / 2}

/-- The rectangle with the given lower and upper corner. -/
def rectangle (x0 x1 y0 y1 : ℝ) : Set (ℝ × ℝ) := {p | x0 ≤ p.1 ∧ p.1 ≤ x1 ∧ y0 ≤ p.2 ∧ p.2 ≤ y1}

/-- The two square rooms of side `room` and the hallway of length 3 and width `hall` between them: the three floors of problems.py:257-267
and 369-379. -/
def house (room hall : ℝ) : Set (ℝ × ℝ) :=
  rectangle (-3 / 2 - room) (-3 / 2) 0 room ∪ rectangle (-3 / 2) (3 / 2) (room / 2 - hall / 2) (room / 2 + hall / 2) ∪
    rectangle (3 / 2) (3 / 2 + room) 0 room

/-- The body `body` (a set of points, given relative to its reference point) with the reference point at `p` touches none of the obstacles. -/
def FreeAt (obstacles : List Box) (body : Set (ℝ × ℝ)) (p : ℝ × ℝ) : Prop :=
  ∀ o ∈ obstacles, ∀ v ∈ body, (v.1 + p.1, v.2 + p.2) ∉ Box.region o

/-- The axis-parallel rectangle with half-widths `a` and `b` around the reference point. -/
def block (a b : ℝ) : Set (ℝ × ℝ) := {v | |v.1| ≤ a ∧ |v.2| ≤ b}

/-- The positions in the plane at which the body is free. -/
def freeSet (obstacles : List Box) (body : Set (ℝ × ℝ)) : Set (Space 2) := {x | FreeAt obstacles body (x 0, x 1)}

/-- A point of the plane as an element of Euclidean space. -/
noncomputable def plane (p : ℝ × ℝ) : Space 2 := WithLp.toLp 2 fun i => if i = 0 then p.1 else p.2

/-- The motion check of the turtlebot, given robot and obstacle polygons, has accepted the motion from `p` to `q` in some batch. -/
def Accepted (robot : List (ℝ × ℝ)) (hulls : List (List (ℝ × ℝ))) (p q : ℝ × ℝ) : Prop :=
  ∃ (motions : List ((ℝ × ℝ) × (ℝ × ℝ))) (rs : List Bool) (i : ℕ),
    Turtlebot.isMotionValid robot hulls motions = .ok rs ∧ motions[i]? = some (p, q) ∧ rs[i]? = some true

/-- A planner that has been given the turtlebot's motion check and sampler: Euclidean distance, a correct shortest-path search, `x i` is the `i`-th state that
the sampler returns, and a motion that the check accepts whichever other motions are in the batch is accepted. -/
structure TurtleWorld (w : Prm.World (Space 2) ℝ) (robot : List (ℝ × ℝ)) (hulls : List (List (ℝ × ℝ))) (x : ℕ → ℝ × ℝ) : Prop where
  sound : w.Sound
  dist : ∀ p q, w.dist p q = dist p q
  draw : ∀ i, w.draw i = plane (x i)
  check : ∀ p q : Space 2, (∀ (motions : List ((ℝ × ℝ) × (ℝ × ℝ))) (i : ℕ), motions[i]? = some ((p 0, p 1), (q 0, q 1)) →
    ∃ rs, Turtlebot.isMotionValid robot hulls motions = .ok rs ∧ rs[i]? = some true) → w.check p q = true

end Verif.Spec
