import Verif.Model.Float64

/-! Neighbouring floats. -/

namespace Verif.Spec

open Verif.Float64

/-- `b` is the next float after `a`. -/
def NextFloat (a b : ℝ) : Prop := IsFloat a ∧ IsFloat b ∧ a < b ∧ ∀ c, IsFloat c → ¬ (a < c ∧ c < b)

end Verif.Spec
