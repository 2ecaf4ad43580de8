import Verif.Spec.Hallway
import Verif.Spec.Prm

/-! Vocabulary for executed motions in the hallway world. -/

namespace Verif.Spec

open Verif.Sat2D

/-- A robot polygon: convex, not flat, with four vertices, around its reference point. -/
def Footprint (robot : List (ℝ × ℝ)) : Prop :=
  ConvexPolygon robot ∧ ProperEdges robot ∧ robot.length = 4 ∧ (0, 0) ∈ polygonHull robot

/-- A planner whose accepted motions were accepted by the turtlebot's motion check, in whatever batch. -/
structure TurtleChecked (w : Prm.World (Space 2) ℝ) (robot : List (ℝ × ℝ)) (hulls : List (List (ℝ × ℝ))) : Prop where
  sound : w.Sound
  check : ∀ p q : Space 2, w.check p q = true → Accepted robot hulls (p 0, p 1) (q 0, q 1)

end Verif.Spec
