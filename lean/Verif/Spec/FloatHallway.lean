import Verif.Model.FloatSat
import Verif.Spec.FloatSat
import Verif.Spec.Hallway

/-! The walls as the float motion check gets them. -/

namespace Verif.Spec

open Verif.Hallway

/-- The polygons are, corner by corner, within `ε` of the boxes in each coordinate. -/
def NearWalls (ε : ℝ) (obstacles : List Box) (hulls : List (List (ℝ × ℝ))) : Prop :=
  List.Forall₂ (fun (o : Box) (vs : List (ℝ × ℝ)) => List.Forall₂ (fun c v : ℝ × ℝ => |v.1 - c.1| ≤ ε ∧ |v.2 - c.2| ≤ ε) o.corners vs) obstacles hulls

/-- The polygons are axis-parallel rectangles. -/
def Rectangles (hulls : List (List (ℝ × ℝ))) : Prop :=
  ∀ o ∈ hulls, ∃ x0 y0 x1 y1 : ℝ, x0 < x1 ∧ y0 < y1 ∧ o = [(x0, y0), (x1, y0), (x1, y1), (x0, y1)]

/-- The float motion check has accepted the motion from `p` to `q` in some batch of motions with coordinates up to `R`. -/
def AcceptedR (dotR : ℝ × ℝ → ℝ × ℝ → ℝ) (R : ℝ) (robot : List (ℝ × ℝ)) (hulls : List (List (ℝ × ℝ))) (p q : ℝ × ℝ) : Prop :=
  ∃ (motions : List ((ℝ × ℝ) × (ℝ × ℝ))) (rs : List Bool) (i : ℕ), (∀ m ∈ motions, (|m.1.1| ≤ R ∧ |m.1.2| ≤ R) ∧ |m.2.1| ≤ R ∧ |m.2.2| ≤ R) ∧
    FloatSat.isMotionValidR Float64.fl dotR robot hulls motions = .ok rs ∧ motions[i]? = some (p, q) ∧ rs[i]? = some true

/-- Within `e` of the two rooms and the hallway. -/
def NearHouse (room hall e : ℝ) (p : ℝ × ℝ) : Prop := ∃ q ∈ house room hall, |p.1 - q.1| ≤ e ∧ p.2 = q.2

/-- The corners of the boxes, rounded. -/
noncomputable def roundedWalls (obstacles : List Box) : List (List (ℝ × ℝ)) := obstacles.map fun o => o.corners.map fun v => (Float64.fl v.1, Float64.fl v.2)

end Verif.Spec
