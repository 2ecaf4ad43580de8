import Verif.Model.RoverExec
import Verif.Spec.Prm
import Mathlib.Analysis.Convex.Segment

/-! Vocabulary for executed motions. -/

namespace Verif.Spec

open Verif.RoverExec

/-- The movement from `p` to `q` is part of a motion that was accepted. -/
def Covered {K E : Type} [NormedAddCommGroup E] [NormedSpace ℝ E] (w : Prm.World E K) (p q : E) : Prop := ∃ a b, w.Accepted a b ∧ segment ℝ p q ⊆ segment ℝ a b

/-- The legs join up, from one place to another. -/
def Joined {α E : Type} (p : E) : List (Leg α E) → E → Prop
  | [], q => q = p
  | l :: legs, q => l.before.rover = p ∧ Joined l.stop legs q

end Verif.Spec
