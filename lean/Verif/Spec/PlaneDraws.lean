import Mathlib.Probability.Distributions.Uniform
import Mathlib.Probability.Independence.Basic
import Verif.Spec.Placement

/-! Successive draws of two random numbers, and what a sequence of draws must be like for a search among them to end. -/

namespace Verif.Spec

open MeasureTheory ProbabilityTheory

/-- Successive independent pairs of draws, uniform between 0 and 1 (`np.random.uniform` for the two sides of a box). -/
structure PlaneDraws {Ω : Type*} [MeasurableSpace Ω] (Pr : Measure Ω) (U : ℕ → Ω → ℝ × ℝ) : Prop where
  measurable : ∀ i, Measurable (U i)
  indep : iIndepFun U Pr
  uniform : ∀ i, pdf.IsUniform (U i) (Set.Icc 0 1) Pr volume

/-- The draws come everywhere again and again: every open set that meets the inside of the unit square contains infinitely many of them. -/
def Everywhere (u : ℕ → ℝ × ℝ) : Prop :=
  ∀ U : Set (ℝ × ℝ), IsOpen U → (U ∩ Set.Ioo 0 1 ×ˢ Set.Ioo 0 1).Nonempty → ∀ N, ∃ n ≥ N, u n ∈ U

open Verif.Placement in
/-- There is room for every body: whatever places on their surfaces the bodies before it got, an open set of draws puts it away from everything that it must stay away from. -/
def AlwaysRoom {β : Type*} (s : Scene β) (minDistance : β → ℝ) (items : List (β × β)) (obstacles : List β) (pos : β → P3) : Prop :=
  ∀ before b surface after, items = before ++ (b, surface) :: after → ∀ pos' : β → P3, (∀ x ∈ before, OnSurface s x.1 x.2 (pos' x.1)) → (∀ o, o ∉ before.map Prod.fst → pos' o = pos o) →
    ∃ V : Set (ℝ × ℝ), IsOpen V ∧ (V ∩ Set.Ioo 0 1 ×ˢ Set.Ioo 0 1).Nonempty ∧
      ∀ x ∈ V, ∀ o ∈ obstacles ++ before.map Prod.fst, o ≠ b → o ≠ surface → s.near b (placeOf s b surface x) o (pos' o) (minDistance b) = false

end Verif.Spec
