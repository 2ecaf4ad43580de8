import Verif.Model.Bin

/-! Solids and clearances. -/

namespace Verif.Spec

open Verif.Bin

variable {K : Type*} [Field K] [LinearOrder K]

/-- The points of a box. -/
def Covers (l : Link K) (x : Fin 3 → K) : Prop := ∀ j, l.center j - l.half j ≤ x j ∧ x j ≤ l.center j + l.half j

/-- The interior of a box. -/
def Inside (l : Link K) (x : Fin 3 → K) : Prop := ∀ j, l.center j - l.half j < x j ∧ x j < l.center j + l.half j

/-- Lower and upper end of a container of the given size in each coordinate: it stands on the ground, centered. -/
def lowEnd (dims : Fin 3 → K) (j : Fin 3) : K := if j = 2 then 0 else -dims j / 2
@[inherit_doc lowEnd] def highEnd (dims : Fin 3 → K) (j : Fin 3) : K := if j = 2 then dims 2 else dims j / 2

/-- The outer block of a container. -/
def Block (dims : Fin 3 → K) (x : Fin 3 → K) : Prop := ∀ j, lowEnd dims j ≤ x j ∧ x j ≤ highEnd dims j

/-- The outer block of a container of the given size that stands at `at'`, as a box. -/
def outer (dims at' : Fin 3 → K) : Link K := ⟨fun j => at' j + if j = 2 then dims 2 / 2 else 0, fun j => dims j / 2⟩

/-- An object of width `w` whose center is at `c` in the first coordinate stays between the ends `a` and `b`. -/
def FitsBetween (a b w c : K) : Prop := a ≤ c - w / 2 ∧ c + w / 2 ≤ b

/-- The object, centered between `a` and `b`, may be shifted by up to `r` to either side. -/
def HasClearance (a b w r : K) : Prop := ∀ s, |s| ≤ r → FitsBetween a b w ((a + b) / 2 + s)

end Verif.Spec
