import Mathlib.Analysis.InnerProductSpace.PiL2
import Mathlib.Analysis.Convex.Segment
import Mathlib.MeasureTheory.Measure.Lebesgue.Basic

/-!
Specifications of the environments of `nonasymptotic/envs.py`, taken from the class documentation: which configurations
are free, and what the reference path is. Dimension is `n + 1`; coordinate `0` is the direction of travel.
-/

namespace Verif.Spec

/-- A configuration is in the corridor: within `delta` of the path's first coordinates, and within `delta` of the axis in
the others. -/
def InCorridor {K : Type*} [Field K] [LinearOrder K] {n : ℕ} (delta length : K) (x : Fin (n + 1) → K) : Prop :=
  -delta ≤ x 0 ∧ x 0 ≤ length + delta ∧ ∀ i : Fin n, -delta ≤ x i.succ ∧ x i.succ ≤ delta

/-- The end of the straight reference path of the given length, which starts in the origin. -/
noncomputable def pathEnd (n : ℕ) (length : ℝ) : EuclideanSpace ℝ (Fin (n + 1)) :=
  EuclideanSpace.single 0 length

/-- The narrow-passage free space (class documentation, envs.py:366-375):
`[-1.5, -0.5] × [-0.5, 0.5]^(d-1) ∪ [-0.5, 0.5] × [-c, c]^(d-1) ∪ [0.5, 1.5] × [-0.5, 0.5]^(d-1)`. -/
def NarrowFree {K : Type*} [Field K] [LinearOrder K] {n : ℕ} (c : K) (x : Fin (n + 1) → K) : Prop :=
  (-3 / 2 ≤ x 0 ∧ x 0 ≤ -1 / 2 ∧ ∀ i : Fin n, -1 / 2 ≤ x i.succ ∧ x i.succ ≤ 1 / 2) ∨
  (-1 / 2 ≤ x 0 ∧ x 0 ≤ 1 / 2 ∧ ∀ i : Fin n, -c ≤ x i.succ ∧ x i.succ ≤ c) ∨
  (1 / 2 ≤ x 0 ∧ x 0 ≤ 3 / 2 ∧ ∀ i : Fin n, -1 / 2 ≤ x i.succ ∧ x i.succ ≤ 1 / 2)

/-- A configuration touches an obstacle: it is beside the passage and some other coordinate is in one of the two closed
blocks `[c, 0.5]` and `[-0.5, -c]`. -/
def NarrowObstacle {K : Type*} [Field K] [LinearOrder K] {n : ℕ} (c : K) (x : Fin (n + 1) → K) : Prop :=
  -1 / 2 ≤ x 0 ∧ x 0 ≤ 1 / 2 ∧ ∃ i : Fin n, (c ≤ x i.succ ∧ x i.succ ≤ 1 / 2) ∨ (-1 / 2 ≤ x i.succ ∧ x i.succ ≤ -c)

/-- No projection of the motion to the first and another coordinate is a point or runs along the line through a wall. -/
def Transversal {K : Type*} [Field K] [LinearOrder K] {n : ℕ} (c : K) (a b : Fin (n + 1) → K) : Prop :=
  ∀ i : Fin n, (a 0 ≠ b 0 ∨ a i.succ ≠ b i.succ) ∧
    ¬ (a 0 = b 0 ∧ (a 0 = -1 / 2 ∨ a 0 = 1 / 2)) ∧
    ¬ (a i.succ = b i.succ ∧ (a i.succ = c ∨ a i.succ = -c))

/-- A configuration is at most `η` away from an obstacle (in every coordinate): as `NarrowObstacle`, with the blocks larger by `η`. -/
def NarrowNear {K : Type*} [Field K] [LinearOrder K] {n : ℕ} (η c : K) (x : Fin (n + 1) → K) : Prop :=
  -1 / 2 - η ≤ x 0 ∧ x 0 ≤ 1 / 2 + η ∧
    ∃ i : Fin n, (c - η ≤ x i.succ ∧ x i.succ ≤ 1 / 2 + η) ∨ (-1 / 2 - η ≤ x i.succ ∧ x i.succ ≤ -c + η)

end Verif.Spec
