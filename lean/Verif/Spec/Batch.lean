import Verif.Model.Batch
import Verif.Spec.Prm

/-! Vocabulary for motion checkers that judge whole batches. -/

namespace Verif.Prm

variable {P K : Type*} [LinearOrder K]

/-- The checker answers for every batch with at least one motion, with one answer for each motion. In every batch it accepts the motions of `lo`, and it accepts no others than
those of `hi`. About the motions in between nothing is said: the answer may depend on the batch. -/
structure Batch.Between (check : Batch P) (lo hi : P → P → Bool) : Prop where
  total : ∀ ms, ms ≠ [] → ∃ rs, check ms = .ok rs
  length : ∀ ms rs, check ms = .ok rs → rs.length = ms.length
  lower : ∀ ms rs (i : ℕ) p q, check ms = .ok rs → ms[i]? = some (p, q) → lo p q = true → rs[i]? = some true
  upper : ∀ ms rs (i : ℕ) p q, check ms = .ok rs → ms[i]? = some (p, q) → rs[i]? = some true → hi p q = true

/-- The checker judges every motion by itself, also when there is none. -/
def Batch.Rowwise (check : Batch P) (f : P → P → Bool) : Prop := ∀ ms, check ms = .ok (ms.map fun m => f m.1 m.2)

/-- The same world with a checker for single motions. -/
def World.withCheck (w : World P K) (f : P → P → Bool) : World P K := { w with check := f }

/-- A sample among `samples` is within `r` of `q`. -/
def World.InReach (w : World P K) (samples : List P) (r : K) (q : P) : Prop := ∃ p ∈ samples, w.dist p q ≤ r

/-- After a growth of a new roadmap to `n` samples, one of them is within the certified radius of `q`. (The check of single motions plays no role for this.) -/
def World.Reached (w : World P K) (k : ℕ) (tr : Bool) (d n : ℕ) (q : P) : Prop :=
  ∃ x, ((Knn.init k tr d).grow w n).1.certified = some x ∧ w.InReach (w.fresh (d + 1) n) x q

end Verif.Prm
