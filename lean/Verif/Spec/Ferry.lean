import Verif.Spec.HallwayExec
import Verif.Model.Strips

/-! The plan that carries the targets of a turtlebot task one after the other to their goals. -/

namespace Verif.Spec

open Verif.Strips

/-- A position inside one of the two rooms (of side 3/2, at both ends of the hallway) where a box with half-widths `a` and `b` keeps distance `δ` from the walls. -/
def Spot (a b δ : ℝ) (p : ℝ × ℝ) : Prop := 31 / 20 + a + δ ≤ |p.1| ∧ |p.1| ≤ 3 - a - δ ∧ |p.2 - 3 / 4| ≤ 7 / 10 - b - δ

variable {α : Type}

/-- Drive to the first target, carry it to its goal, and so on. `conf x` is the configuration that `sample-ik` returned for the pose `x`, `traj j` the `j`-th trajectory, `rows` the targets with their first and last poses. -/
def ferryPlan (rover : α) (conf : α → α) (traj : ℕ → α) : α → ℕ → List (α × α × α) → List (RoverAction α)
  | _, _, [] => []
  | q, j, r :: rows => .pick rover q (traj j) (conf r.2.1) r.2.1 r.1 :: .place rover (conf r.2.1) (traj (j + 1)) (conf r.2.2) r.2.2 r.1 ::
      ferryPlan rover conf traj (conf r.2.2) (j + 2) rows

/-- The facts that the streams have to certify for it. -/
def ferryFacts (rover : α) (conf : α → α) (traj : ℕ → α) : α → ℕ → List (α × α × α) → List (RoverFact α)
  | _, _, [] => []
  | q, j, r :: rows => .motion rover q (traj j) (conf r.2.1) :: .kin r.1 r.2.1 (conf r.2.1) ::
      .motionHolding rover (conf r.2.1) (traj (j + 1)) (conf r.2.2) r.1 :: .kin r.1 r.2.2 (conf r.2.2) :: ferryFacts rover conf traj (conf r.2.2) (j + 2) rows

/-- The calls of the motion streams for it, in order: what is held, first and last configuration. -/
def ferryCalls (conf : α → α) : α → List (α × α × α) → List (Option α × α × α)
  | _, [] => []
  | q, r :: rows => (none, q, conf r.2.1) :: (some r.1, conf r.2.1, conf r.2.2) :: ferryCalls conf (conf r.2.2) rows

end Verif.Spec
