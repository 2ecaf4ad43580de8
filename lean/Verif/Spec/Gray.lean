import Mathlib.Algebra.Order.Floor.Ring

/-!
Specification for the Gray-code corridor: adjacency of unit cubes, and which points of a cube are free.
-/

namespace Verif.Spec

/-- Two unit cubes share a face: they differ by exactly one in exactly one coordinate. -/
def CubeAdj {d : ℕ} (c c' : Fin d → ℤ) : Prop :=
  ∃ j, (c' j = c j + 1 ∨ c' j = c j - 1) ∧ ∀ i, i ≠ j → c' i = c i

/-- The `k`-th and `(k+1)`-st entry of a list. -/
def Consecutive {α : Type*} (l : List α) (a b : α) : Prop := ∃ k, l[k]? = some a ∧ l[k + 1]? = some b

/-- The cubes before and behind `c` in the corridor. -/
def Neighbour {d : ℕ} (cubes : List (Fin d → ℤ)) (c nb : Fin d → ℤ) : Prop :=
  Consecutive cubes c nb ∨ Consecutive cubes nb c

/-- The point keeps the distance `th` from every wall of the cube `c`; there is no wall towards a neighbour. -/
def ClearOfWalls {K : Type*} [Field K] [LinearOrder K] {d : ℕ} (cubes : List (Fin d → ℤ)) (th : K) (c : Fin d → ℤ)
    (x : Fin d → K) : Prop :=
  ∀ i, ((c i : K) + th ≤ x i ∨ ∃ nb, Neighbour cubes c nb ∧ nb i = c i - 1) ∧
       (x i ≤ (c i : K) + 1 - th ∨ ∃ nb, Neighbour cubes c nb ∧ nb i = c i + 1)

/-- The point is in the closed unit cube with lower corner `c`. -/
def InCube {K : Type*} [Field K] [LinearOrder K] {d : ℕ} (c : Fin d → ℤ) (x : Fin d → K) : Prop :=
  ∀ i, (c i : K) ≤ x i ∧ x i ≤ (c i : K) + 1

/-- A free configuration: in a cube of the corridor and clear of that cube's walls. -/
def GrayFree {K : Type*} [Field K] [LinearOrder K] {d : ℕ} (cubes : List (Fin d → ℤ)) (th : K) (x : Fin d → K) : Prop :=
  ∃ c ∈ cubes, InCube c x ∧ ClearOfWalls cubes th c x

/-- A free configuration that leaves the middle of its cube in at most one direction: in the box in the middle of a cube or in one of
the openings towards the cubes before and behind it. -/
def GrayCore {K : Type*} [Field K] [LinearOrder K] {d : ℕ} (cubes : List (Fin d → ℤ)) (th : K) (x : Fin d → K) : Prop :=
  ∃ c ∈ cubes, InCube c x ∧ ClearOfWalls cubes th c x ∧ ∃ j, ∀ i, i ≠ j → (c i : K) + th ≤ x i ∧ x i ≤ (c i : K) + 1 - th

/-- The curve at arclength `s`: on the segment between the centres of the two cubes around `s`, at distance `s - k` from the
centre of the `k`-th cube. -/
def OnCentreLine {K : Type*} [Field K] [LinearOrder K] {d : ℕ} (cubes : List (Fin d → ℤ)) (s : K) (x : Fin d → K) : Prop :=
  ∀ (k : ℕ) (c c' : Fin d → ℤ), cubes[k]? = some c → cubes[k + 1]? = some c' → (k : K) ≤ s → s ≤ (k : K) + 1 →
    x = fun i => (c i : K) + 1 / 2 + (s - k) * ((c' i : K) - (c i : K))

/-- Going along the list from entry `a` to entry `b` (forwards or backwards) no coordinate changes twice: a coordinate that
changes on the way changes to its final value. -/
def DirectRoute {d : ℕ} (cubes : List (Fin d → ℤ)) (a b : ℕ) : Prop :=
  ∀ (k : ℕ) (c c' g : Fin d → ℤ), cubes[k]? = some c → cubes[k + 1]? = some c' → cubes[b]? = some g → ∀ i, c i ≠ c' i →
    (a ≤ k → k < b → g i = c' i) ∧ (b ≤ k → k < a → g i = c i)

/-- The last step of the route from `a` to `b` goes in the positive direction. -/
def LastStepUp {d : ℕ} (cubes : List (Fin d → ℤ)) (a b : ℕ) : Prop :=
  ∀ p g : Fin d → ℤ, cubes[b]? = some g → (a < b ∧ cubes[b - 1]? = some p ∨ b < a ∧ cubes[b + 1]? = some p) → ∀ i, p i ≤ g i

end Verif.Spec
