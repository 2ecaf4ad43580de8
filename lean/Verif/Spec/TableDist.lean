import Verif.Spec.Prm

/-!
Specification notions for planners whose neighbour tables carry other distances than the ones that the planner computes for a query: the
nearest-neighbour libraries compute in single precision, the planner in double precision.
-/

namespace Verif.Prm

variable {P K : Type*} [LinearOrder K] [AddCommGroup K]

/-- A neighbour table of `samples` with the distances `td`: one row for each sample, existing ids. -/
def TableOf (td : P → P → K) (samples : List P) (t : Table K) : Prop :=
  t.length = samples.length ∧
    ∀ (i : ℕ) (row : List (ℕ × K)), t[i]? = some row → ∀ c ∈ row, ∃ p q, samples[i]? = some p ∧ samples[c.1]? = some q ∧ c.2 = td p q

/-- As `World.Sound`, but the tables have the distances `td` of the library instead of those that the planner computes. -/
structure World.SoundWith (w : World P K) (td : P → P → K) : Prop where
  dist_symm : ∀ p q, w.dist p q = w.dist q p
  dist_nonneg : ∀ p q, 0 ≤ w.dist p q
  td_symm : ∀ p q, td p q = td q p
  td_nonneg : ∀ p q, 0 ≤ td p q
  dijkstra : DijkstraCorrect w.shortest
  knn : ∀ samples k, TableOf td samples (w.knn samples k)
  knnUpdate : ∀ samples new k, TableOf td (samples ++ new) (w.knnUpdate samples new k)

/-- The length of the chain `start`, samples, `goal`: the library's distances between the samples, the planner's at the two ends. -/
def routeLength (dist td : P → P → K) (start goal : P) : List P → K
  | [] => 0
  | p :: l => dist start p + pathLength td (p :: l) + dist ((p :: l).getLast (List.cons_ne_nil p l)) goal

end Verif.Prm
