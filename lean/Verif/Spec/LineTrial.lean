import Verif.Model.LineTrial

/-! The radii that the straight-line trial chooses from. -/

namespace Verif.Prm

variable {P K : Type*} [LinearOrder K]

/-- `r` is the distance of a sample from one of its nearest neighbours, and no larger than the distance of any sample from its last one. -/
def World.KeptRadius (w : World P K) (S : List P) (maxK : ℕ) (r : K) : Prop :=
  let t := w.knn S (min (S.length - 1) maxK)
  (∃ row ∈ t, ∃ j, (j, r) ∈ row) ∧ ∀ row ∈ t, ∀ x, row.getLast? = some x → r ≤ x.2

/-- All these radii, ascending. -/
def World.KeptRadii (w : World P K) (S : List P) (maxK : ℕ) (l : List K) : Prop :=
  l.Pairwise (· < ·) ∧ ∀ r, r ∈ l ↔ w.KeptRadius S maxK r

/-- The first number of samples for which other than two or three radii are kept satisfies `p`. -/
def FirstOther (kept : ℕ → List K) (sched : List ℕ) (p : ℕ → Prop) : Prop :=
  ∃ pre n post, sched = pre ++ n :: post ∧ (∀ m ∈ pre, (kept m).length = 2 ∨ (kept m).length = 3) ∧
    (kept n).length ≠ 2 ∧ (kept n).length ≠ 3 ∧ p (kept n).length

end Verif.Prm
