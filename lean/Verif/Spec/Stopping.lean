import Mathlib.MeasureTheory.MeasurableSpace.Constructions

/-! Places in a sequence of random draws that depend on the draws before. -/

namespace Verif.Spec

open MeasureTheory

/-- `D` does not look ahead: whether it is `n` is decided by the draws before the `n`-th. (What a program has drawn so far when it makes its next call.) -/
def NoLookAhead {Ω E : Type*} [MeasurableSpace E] (U : ℕ → Ω → E) (D : Ω → ℕ) : Prop :=
  ∀ n, MeasurableSet[⨆ i ∈ {i : ℕ | i < n}, MeasurableSpace.comap (U i) inferInstance] {ω | D ω = n}

end Verif.Spec
