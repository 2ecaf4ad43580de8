import Mathlib.Analysis.Convex.Segment

/-!
Geometric specifications. `segment K a b` is Mathlib's closed segment.
-/

namespace Verif.Spec

/-- Two closed planar segments have a common point. -/
def SharePoint (K : Type*) [Field K] [LinearOrder K] (a b c d : K × K) : Prop :=
  ∃ p, p ∈ segment K a b ∧ p ∈ segment K c d

/-- The directions of the two segments are parallel (or one of them is zero). -/
def Parallel {K : Type*} [Field K] (a b c d : K × K) : Prop :=
  (b.1 - a.1) * (d.2 - c.2) = (b.2 - a.2) * (d.1 - c.1)

end Verif.Spec
