import Verif.Model.NarrowTrial
import Verif.Spec.Prm

/-! What the narrow-passage trial is about: solvable settings, the lengths of the accepted connections, what a row says. -/

namespace Verif.Prm

variable {P K : Type*} [LinearOrder K]

/-- Start and goal are connected by accepted hops of length at most `r` over the samples. -/
def World.Solvable (w : World P K) (S : List P) (start goal : P) (r : K) : Prop := ∃ pts, w.SampleChain S r start goal pts

/-- `r` is the length of an accepted connection between samples, no longer than `maxR`. (A sample counts as connected with itself if the
checker accepts the motion from it to itself.) -/
def World.Connection (w : World P K) (S : List P) (maxR r : K) : Prop :=
  ∃ (i j : ℕ) (p q : P), S[i]? = some p ∧ S[j]? = some q ∧ w.check p q = true ∧ w.dist p q = r ∧ r ≤ maxR

/-- `d` is the length of a shortest chain for `r`. -/
def World.Shortest [AddCommGroup K] (w : World P K) (S : List P) (start goal : P) (r d : K) : Prop :=
  (∃ pts, w.SampleChain S r start goal pts ∧ pathLength w.dist (start :: pts ++ [goal]) = d) ∧
    ∀ pts, w.SampleChain S r start goal pts → d ≤ pathLength w.dist (start :: pts ++ [goal])

end Verif.Prm

namespace Verif.Exps

open Verif.Prm

variable {P K : Type} [LinearOrder K] [AddCommGroup K]

/-- The value of a column is this number. -/
def HasNum (row : List (Val (WithTop K))) (name : String) (x : K) : Prop := cell narrowColumns row name = some (.num (x : WithTop K))

/-- The value of a column is NaN. -/
def HasNan (row : List (Val (WithTop K))) (name : String) : Prop := cell narrowColumns row name = some .nan

/-- What a row of the radius trial says about `n` samples `S`: nothing without a connection; with connections of one length only,
whether this length solves the problem; else, if the problem is not solved with the largest radius, the longest connection; if it is
solved, two adjacent lengths, of which the lower one does not solve it unless it is the shortest, the upper one does solve it unless it
is the longest, and the length of a shortest path for the upper one (or for the largest radius in its place). -/
structure RadiusRow (w : World P K) (S : List P) (start goal : P) (maxR : K) (n : ℕ) (row : List (Val (WithTop K))) : Prop where
  samples : cell narrowColumns row "n_samples" = some (.int n)
  without : (¬ ∃ r, w.Connection S maxR r) → HasNan row "conn_lb" ∧ HasNan row "conn_ub"
  one : ∀ c, (∀ r, w.Connection S maxR r ↔ r = c) →
    (w.Solvable S start goal c → HasNan row "conn_lb" ∧ HasNum row "conn_ub" c ∧
      ∃ d, HasNum row "thresh_path_dist" d ∧ w.Shortest S start goal c d) ∧
    (¬ w.Solvable S start goal c → HasNum row "conn_lb" c ∧ HasNan row "conn_ub" ∧ HasNan row "thresh_path_dist")
  many : ∀ a b, w.Connection S maxR a → w.Connection S maxR b → a < b →
    (¬ w.Solvable S start goal maxR → HasNan row "conn_ub" ∧ HasNan row "thresh_path_dist" ∧
      ∃ top, HasNum row "conn_lb" top ∧ w.Connection S maxR top ∧ ∀ c, w.Connection S maxR c → c ≤ top) ∧
    (w.Solvable S start goal maxR → ∃ lo hi, HasNum row "conn_lb" lo ∧ HasNum row "conn_ub" hi ∧
      w.Connection S maxR lo ∧ w.Connection S maxR hi ∧ lo < hi ∧ (∀ c, w.Connection S maxR c → c ≤ lo ∨ hi ≤ c) ∧
      (w.Solvable S start goal lo → ∀ c, w.Connection S maxR c → lo ≤ c) ∧
      ∃ r d, HasNum row "thresh_path_dist" d ∧ w.Shortest S start goal r d ∧
        (r = hi ∨ (r = maxR ∧ ∀ c, w.Connection S maxR c → c ≤ hi)))

end Verif.Exps

/-! ### The k-NN roadmap -/

namespace Verif.Prm

variable {P K : Type*} [LinearOrder K]

/-- Sample `j` is in the neighbour list of sample `i`. -/
def Listed (t : Table K) (i j : ℕ) : Prop := ∃ row : List (ℕ × K), t[i]? = some row ∧ ∃ d, (j, d) ∈ row

/-- Sample `j` is in the neighbour list of sample `i`, behind the first `k`. -/
def Behind (t : Table K) (k i j : ℕ) : Prop := ∃ row : List (ℕ × K), t[i]? = some row ∧ ∃ d, (j, d) ∈ row.drop k

/-- The connections that remain with `k` neighbours: one lists the other and that motion is accepted, and neither has the other behind
its first `k`. -/
def World.Kept (w : World P K) (S : List P) (t : Table K) (k i j : ℕ) : Prop :=
  ((w.accepts S i j = true ∧ Listed t i j) ∨ (w.accepts S j i = true ∧ Listed t j i)) ∧ ¬ Behind t k i j ∧ ¬ Behind t k j i

/-- A way from start to goal over samples whose connections remain with `k` of `maxK` neighbours; start and goal are connected with
samples up to the certified radius. -/
def World.KnnRoute (w : World P K) (S : List P) (maxK : ℕ) (start goal : P) (k : ℕ) (pts : List P) : Prop :=
  ∃ r g ids, Knn.certify (w.knn S (min (S.length - 1) maxK)) = .ok r ∧
    (∀ i j, g.Adj i j ↔ w.Kept S (w.knn S (min (S.length - 1) maxK)) k i j) ∧ w.Route S g r start goal ids pts

/-- There is such a way. -/
def World.KnnSolvable (w : World P K) (S : List P) (maxK : ℕ) (start goal : P) (k : ℕ) : Prop :=
  ∃ pts, w.KnnRoute S maxK start goal k pts

/-- `d` is the length of a shortest such way. -/
def World.KnnShortest [AddCommGroup K] (w : World P K) (S : List P) (maxK : ℕ) (start goal : P) (k : ℕ) (d : K) : Prop :=
  (∃ pts, w.KnnRoute S maxK start goal k pts ∧ pathLength w.dist (start :: pts ++ [goal]) = d) ∧
    ∀ pts, w.KnnRoute S maxK start goal k pts → d ≤ pathLength w.dist (start :: pts ++ [goal])

end Verif.Prm

namespace Verif.Exps

open Verif.Prm

/-- What a row of the k-NN trial says about `n` samples `S`: if the problem is not solved with `maxK` neighbours, the largest power of
two as failing; if it is, two adjacent powers of two, of which the lower one does not solve the problem unless it is 4, the upper one
does unless it is the last one, and the length of a shortest path for the upper one (or for `maxK` in place of the last). -/
structure KnnRow {P K : Type} [LinearOrder K] [AddCommGroup K] [NatCast K] (w : World P K) (S : List P) (start goal : P) (maxK L : ℕ) (n : ℕ)
    (row : List (Val (WithTop K))) : Prop where
  samples : cell narrowColumns row "n_samples" = some (.int n)
  unsolved : ¬ w.KnnSolvable S maxK start goal maxK →
    HasNum row "conn_lb" ((2 ^ L : ℕ) : K) ∧ HasNan row "conn_ub" ∧ HasNan row "thresh_path_dist"
  solved : w.KnnSolvable S maxK start goal maxK → ∃ e, 2 ≤ e ∧ e < L ∧
    HasNum row "conn_lb" ((2 ^ e : ℕ) : K) ∧ HasNum row "conn_ub" ((2 ^ (e + 1) : ℕ) : K) ∧
    (w.KnnSolvable S maxK start goal (2 ^ e) → e = 2) ∧ (e + 1 < L → w.KnnSolvable S maxK start goal (2 ^ (e + 1))) ∧
    ∃ d, HasNum row "thresh_path_dist" d ∧ w.KnnShortest S maxK start goal (if e + 1 < L then 2 ^ (e + 1) else maxK) d

end Verif.Exps
