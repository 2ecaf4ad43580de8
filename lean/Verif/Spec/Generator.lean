import Verif.Spec.Prm

/-! What the guarantees of the k-NN PRM need of networkit's edge generator. -/

namespace Verif.Prm

variable {P K : Type*} [LinearOrder K]

/-- The edge generator of networkit yields only edges that are in the roadmap when the loop over it begins, each with its weight and in either direction. It may skip
edges, and in particular edges that are to be removed, because the loop removes edges while the generator runs. -/
def World.VisitsExisting (w : World P K) : Prop :=
  ∀ E r, ∀ e ∈ w.visits E r, ∃ f ∈ E, f.joins e.u e.v = true ∧ f.w = e.w

/-- The same planner with an edge generator that yields every edge. -/
def World.steady (w : World P K) : World P K := { w with visits := fun E _ => E }

end Verif.Prm
