import Mathlib.Algebra.Order.Group.Defs
import Mathlib.Data.List.Chain
import Verif.Model.Prm

/-!
Specification notions for roadmaps: what the outside world is assumed to do (`World.Sound`), which motions are allowed, chains of
points and their length.
-/

namespace Verif.Prm

variable {P K : Type*} [LinearOrder K]

/-- There is a roadmap edge between `i` and `j`. -/
def NkGraph.Adj (g : NkGraph K) (i j : ℕ) : Prop := ∃ e ∈ g.edges, (e.u = i ∧ e.v = j) ∨ (e.u = j ∧ e.v = i)

/-- There is a roadmap edge of weight `d` between `i` and `j`. -/
def NkGraph.AdjW (g : NkGraph K) (i j : ℕ) (d : K) : Prop :=
  ∃ e ∈ g.edges, ((e.u = i ∧ e.v = j) ∨ (e.u = j ∧ e.v = i)) ∧ e.w = d

/-- The motion between `p` and `q` was accepted in at least one direction. -/
def World.Accepted (w : World P K) (p q : P) : Prop := w.check p q = true ∨ w.check q p = true

/-- Every edge joins two samples, has their distance as weight, and its motion was accepted in at least one direction. -/
def World.Checked (w : World P K) (samples : List P) (g : NkGraph K) : Prop :=
  ∀ i j d, g.AdjW i j d → ∃ p q, samples[i]? = some p ∧ samples[j]? = some q ∧ d = w.dist p q ∧ w.Accepted p q

/-- The graph is the radius graph of the samples, for distances at most `r`. -/
def World.IsRadiusGraph (w : World P K) (samples : List P) (r : K) (g : NkGraph K) : Prop :=
  ∀ i j, i ≠ j → (g.Adj i j ↔ ∃ p q, samples[i]? = some p ∧ samples[j]? = some q ∧ w.dist p q ≤ r ∧ w.Accepted p q)

section Length
variable [AddCommGroup K]

/-- Length of the chain through the given points. -/
def pathLength (dist : P → P → K) : List P → K
  | p :: q :: l => dist p q + pathLength dist (q :: l)
  | _ => 0

/-- `Walk E a p b d`: a walk along the edges `E` from `a` to `b` with inner vertices `p` and total weight `d`. -/
inductive Walk (E : List (Edge K)) : ℕ → List ℕ → ℕ → K → Prop
  | edge {a b : ℕ} (e : Edge K) (he : e ∈ E) (hab : e.joins a b = true) : Walk E a [] b e.w
  | cons {a c b : ℕ} {p : List ℕ} {d : K} (e : Edge K) (he : e ∈ E) (hac : e.joins a c = true) (t : Walk E c p b d) :
      Walk E a (c :: p) b (e.w + d)

/-- What is assumed of networkit's bidirectional Dijkstra: for different end points and nonnegative weights it returns a shortest
walk without repeated vertices if there is any walk, and otherwise infinite distance and an empty path. -/
def DijkstraCorrect (shortest : List (Edge K) → ℕ → ℕ → WithTop K × List ℕ) : Prop :=
  ∀ E s t, s ≠ t → (∀ e ∈ E, 0 ≤ e.w) →
    ((∃ d : K, (shortest E s t).1 = d ∧ Walk E s (shortest E s t).2 t d ∧ (s :: (shortest E s t).2 ++ [t]).Nodup ∧
        ∀ p d', Walk E s p t d' → d ≤ d') ∨
      ((∀ p d', ¬ Walk E s p t d') ∧ shortest E s t = (⊤, [])))

/-- A neighbour table of `samples`: one row for each sample, existing ids, true distances. (Nothing is said about which neighbours
are listed.) -/
def World.TrueTable (w : World P K) (samples : List P) (t : Table K) : Prop :=
  t.length = samples.length ∧
    ∀ (i : ℕ) (row : List (ℕ × K)), t[i]? = some row → ∀ c ∈ row, ∃ p q, samples[i]? = some p ∧ samples[c.1]? = some q ∧ c.2 = w.dist p q

/-- Assumptions on the outside world: a symmetric nonnegative distance, true neighbour tables, a correct Dijkstra. Checker, sampler
and the choice of neighbours are arbitrary. -/
structure World.Sound (w : World P K) : Prop where
  dist_symm : ∀ p q, w.dist p q = w.dist q p
  dist_nonneg : ∀ p q, 0 ≤ w.dist p q
  dijkstra : DijkstraCorrect w.shortest
  knn_true : ∀ samples k, w.TrueTable samples (w.knn samples k)
  knnUpdate_true : ∀ samples new k, w.TrueTable (samples ++ new) (w.knnUpdate samples new k)

end Length

/-- `q` is connected to sample `i`: near enough and the motion from `q` is accepted. -/
def World.Linked (w : World P K) (samples : List P) (r : K) (q : P) (i : ℕ) : Prop :=
  ∃ p, samples[i]? = some p ∧ w.dist p q ≤ r ∧ w.check q p = true

/-- A chain through the roadmap: start, the samples `pts` with indices `ids` (at least one), goal. -/
structure World.Route (w : World P K) (samples : List P) (g : NkGraph K) (r : K) (start goal : P) (ids : List ℕ) (pts : List P) :
    Prop where
  nonempty : ids ≠ []
  points : List.Forall₂ (fun i p => samples[i]? = some p) ids pts
  first : ∀ i, ids.head? = some i → w.Linked samples r start i
  last : ∀ i, ids.getLast? = some i → w.Linked samples r goal i
  edges : ids.IsChain g.Adj

/-- A chain start, samples (at least one), goal in which every hop is accepted and no longer than `r`; the motions at the ends are
asked from start and from goal. -/
structure World.SampleChain (w : World P K) (samples : List P) (r : K) (start goal : P) (pts : List P) : Prop where
  nonempty : pts ≠ []
  samples : ∀ p ∈ pts, p ∈ samples
  first : ∀ p, pts.head? = some p → w.dist p start ≤ r ∧ w.check start p = true
  last : ∀ p, pts.getLast? = some p → w.dist p goal ≤ r ∧ w.check goal p = true
  hops : pts.IsChain fun p q => w.dist p q ≤ r ∧ w.Accepted p q

/-- The radius that was set last in a history. -/
def lastRadius (r : K) : List (Full.Op P K) → K
  | [] => r
  | .setRadius r' :: ops => lastRadius r' ops
  | _ :: ops => lastRadius r ops

/-- Two roadmaps have the same vertices, edges and weights. -/
def NkGraph.Same (g h : NkGraph K) : Prop := (∀ v, g.hasNode v = h.hasNode v) ∧ g.edges = h.edges

/-- The edge generator of networkit yields existing edges and does not miss an edge that is to be removed, although edges are
removed while it runs. -/
def World.VisitsAll (w : World P K) : Prop :=
  ∀ E r, (∀ e ∈ w.visits E r, e ∈ E) ∧ ∀ e ∈ E, r ≤ e.w → e ∈ w.visits E r

/-- Exact nearest neighbours: a sample that is not listed in row `i` is at least as far from sample `i` as all listed ones. -/
def World.ExactKnn (w : World P K) : Prop :=
  ∀ (samples : List P) (k i j : ℕ) (row : List (ℕ × K)) (p q : P), (w.knn samples k)[i]? = some row → samples[i]? = some p →
    samples[j]? = some q → j ≠ i → (∀ d, (j, d) ∉ row) → ∀ c ∈ row, c.2 ≤ w.dist p q

/-- Exact table of the `k` nearest neighbours: row `i` has `min k (n - 1)` different samples other than `i` itself, and a sample that
is not listed is at least as far from sample `i` as all listed ones. -/
structure World.ExactTable (w : World P K) (samples : List P) (k : ℕ) (t : Table K) : Prop where
  near : ∀ (i j : ℕ) (row : List (ℕ × K)) (p q : P), t[i]? = some row → samples[i]? = some p → samples[j]? = some q → j ≠ i →
    (∀ d, (j, d) ∉ row) → ∀ c ∈ row, c.2 ≤ w.dist p q
  full : ∀ (i : ℕ) (row : List (ℕ × K)), t[i]? = some row → row.length = min k (samples.length - 1)
  distinct : ∀ (i : ℕ) (row : List (ℕ × K)), t[i]? = some row → (row.map (·.1)).Nodup ∧ ∀ c ∈ row, c.1 ≠ i

/-- Rows are sorted by distance. -/
def SortedRows (t : Table K) : Prop := ∀ row ∈ t, row.Pairwise fun a b => a.2 ≤ b.2

/-- All accepted motions between different samples closer than `r` are edges. -/
def World.ContainsRadiusGraph (w : World P K) (samples : List P) (r : K) (g : NkGraph K) : Prop :=
  ∀ (i j : ℕ) (p q : P), i ≠ j → samples[i]? = some p → samples[j]? = some q → w.dist p q < r → w.Accepted p q → g.Adj i j

end Verif.Prm
