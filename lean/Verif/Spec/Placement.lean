import Verif.Model.Placement
import Verif.Spec.Hallway

/-! What a placement of objects on surfaces should guarantee. -/

namespace Verif.Spec

open Verif.Placement

/-- The bounding box of body `b` at position `p` lies, seen from above, inside the box of the surface, and its lower side is one millimetre above the upper side of the
surface. -/
def OnSurface {β : Type*} (s : Scene β) (b surface : β) (p : P3) : Prop :=
  (∀ i : Fin 3, i ≠ 2 → (s.aabb surface).1 i ≤ p i + s.center b i - s.extent b i / 2 ∧ p i + s.center b i + s.extent b i / 2 ≤ (s.aabb surface).2 i) ∧
    p 2 + s.center b 2 - s.extent b 2 / 2 = (s.aabb surface).2 2 + 1 / 1000

/-- The body is not wider than the surface. -/
def Fits {β : Type*} (s : Scene β) (b surface : β) : Prop :=
  ∀ i : Fin 3, i ≠ 2 → s.extent b i ≤ (s.aabb surface).2 i - (s.aabb surface).1 i

/-- The position for which the middle of the body's lower side is the point of the surface (shrunk by half the size of the body on every side) that the two random numbers
select, one millimetre above it. -/
noncomputable def placeOf {β : Type*} (s : Scene β) (b surface : β) (u : ℝ × ℝ) : P3 := fun i =>
  (if i = 0 then (s.aabb surface).1 0 + s.extent b 0 / 2 + ((s.aabb surface).2 0 - (s.aabb surface).1 0 - s.extent b 0) * u.1
   else if i = 1 then (s.aabb surface).1 1 + s.extent b 1 / 2 + ((s.aabb surface).2 1 - (s.aabb surface).1 1 - s.extent b 1) * u.2
   else (s.aabb surface).2 2 + s.extent b 2 / 2 + 1 / 1000) - s.center b i

/-- Random numbers between 0 and 1. -/
def Draws2 (u : ℕ → ℝ × ℝ) : Prop := ∀ n, 0 ≤ (u n).1 ∧ (u n).1 ≤ 1 ∧ 0 ≤ (u n).2 ∧ (u n).2 ≤ 1

/-- Distance of two positions, seen from above. -/
noncomputable def flatDist (p : P3) (q : ℝ × ℝ) : ℝ := Real.sqrt ((p 0 - q.1) ^ 2 + (p 1 - q.2) ^ 2)

/-- Target `i`, a disc of radius `P.sizes[i]`, is at `ps[i]`: all targets stand inside the room between `x0` and `x1` (its other coordinate ranges from 0 to 3/2), more than 0.01
away from all walls and from each other. -/
structure WellPlaced (P : Hallway.Problem) (x0 x1 : ℝ) (ps : List P3) : Prop where
  length : ps.length = P.sizes.length
  room : ∀ (i : ℕ) (r : ℝ) (p : P3), P.sizes[i]? = some r → ps[i]? = some p → x0 + r ≤ p 0 ∧ p 0 ≤ x1 - r ∧ r ≤ p 1 ∧ p 1 ≤ 3 / 2 - r ∧ p 2 = 0.051
  walls : ∀ (i : ℕ) (r : ℝ) (p : P3), P.sizes[i]? = some r → ps[i]? = some p → ∀ o ∈ P.obstacles, ∀ q ∈ Box.region o, r + 0.01 < flatDist p q
  targets : ∀ (i j : ℕ) (r r' : ℝ) (p p' : P3), i ≠ j → P.sizes[i]? = some r → ps[i]? = some p → P.sizes[j]? = some r' → ps[j]? = some p' →
    r + r' + 0.01 < flatDist p (p' 0, p' 1)

end Verif.Spec
