import Mathlib.Analysis.Normed.Group.Basic

/-! Polylines. -/

namespace Verif.Spec

/-- The length of a polyline. -/
def polyLength {E : Type*} [NormedAddCommGroup E] : List E → ℝ
  | a :: b :: l => dist a b + polyLength (b :: l)
  | _ => 0

end Verif.Spec
