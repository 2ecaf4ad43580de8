import Mathlib.Data.List.Sort
import Verif.Model.ExpTrials
import Verif.Model.Prm

/-!
Model of the whole narrow-passage trial (run_narrow_passage_clearance_trial.py:20-217) on the roadmap objects themselves, in place of
the oracle of `Verif.Model.ExpTrials`: growth along the schedule, bisection over the settings with queries in between, rows, table.

Simplifications: numbers of a table are `WithTop K`, where `⊤` is `np.inf`; the times that the clock gives are arguments; the final
`prm.reset()` (narrow:197) has no effect on the result and is left out.
-/

namespace Verif.Exps

open Verif.Prm

variable {σ C P K : Type} [LinearOrder K]

/-- `np.unique` of an array of numbers: sorted, each value once (narrow:62). -/
def unique (ds : List K) : List K := (ds.insertionSort (· ≤ ·)).dedup

/-- What the trial does with its roadmap: grow it (and get the list of settings), set a connection parameter and query. -/
structure Driver (σ C P K : Type) where
  grow : ℕ → σ → σ × Except PyErr (List C)
  test : C → σ → σ × Except PyErr (WithTop K × List P)

/-- narrow:60-62 (growth at the largest radius) and narrow:106, 126, 156 with 110, 127, 158 (set a radius, query). -/
def radiusDriver (w : World P K) (start goal : P) (maxR : K) : Driver (Full P K) K P K where
  grow n s := match ({ s with connR := maxR } : Full P K).grow w n with
    | (s', .error e) => (s', .error e)
    | (s', .ok ds) => (s', .ok (unique ds))
  test r s := match s.setRadius w r with
    | (s', .error e) => (s', .error e)
    | (s', .ok _) => s'.query w start goal

/-- narrow:54-56 (growth with all neighbours; `L` is the rounded logarithm of `max_connections`) and narrow:102, 153 with 110, 158. -/
def knnDriver (w : World P K) (start goal : P) (L : ℕ) : Driver (Knn P K) ℕ P K where
  grow n s := match ({ s with k := s.maxK } : Knn P K).grow w n with
    | (s', .error e) => (s', .error e)
    | (s', .ok _) => (s', .ok (nnKs L))
  test k s := match s.setNeighbors k with
    | (s', .error e) => (s', .error e)
    | (s', .ok _) => s'.query w start goal

/-- `dist, path = prm.query_best_solution(...)`, `path_len = len(path)`: nothing for an empty path (narrow:110-118, 127-140, 158-166). -/
def answer (a : WithTop K × List P) : Option (WithTop K × ℕ) := if a.2.isEmpty then none else some (a.1, a.2.length)

/-- The body of the bisection loop (narrow:97-166), with the roadmap as a part of the state. -/
def trialBody (D : Driver σ C P K) (t : PrmType) (conns : List C) (maxConn : C) (x : σ × Bis (WithTop K)) :
    Step (σ × Bis (WithTop K)) (σ × Except PyErr (Found (WithTop K))) :=
  let s := x.2
  if s.lb + 1 = s.ub then
    if s.ub ≥ (conns.length : ℤ) - 1 then
      match D.test maxConn x.1 with
      | (y, .error e) => .done (y, .error e)
      | (y, .ok a) => match answer a with
        | none => .done (y, .ok ⟨some ((conns.length : ℤ) - 1), none, s.path, "no paths found for all connection settings"⟩)
        | some p => .done (y, .ok ⟨some s.lb, some s.ub, some p, ""⟩)
    else .done (x.1, .ok ⟨some s.lb, some s.ub, s.path, ""⟩)
  else if s.lb ≥ s.ub then
    if t = .radius ∧ s.lb = s.ub then
      match pyGet conns (-1) with
      | .error e => .done (x.1, .error e)
      | .ok c => match D.test c x.1 with
        | (y, .error e) => .done (y, .error e)
        | (y, .ok a) => match answer a with
          | none => .done (y, .ok ⟨some ((conns.length : ℤ) - 1), none, s.path, "only one connection; and no path found."⟩)
          | some p => .done (y, .ok ⟨none, some ((conns.length : ℤ) - 1), some p, "only one connection; and path found!"⟩)
    else .done (x.1, .ok ⟨some s.lb, some s.ub, s.path,
      "something went wrong... rad_lb is not supposed to be >= rad_ub and we have more than one conn"⟩)
  else
    match pyGet conns (middle s.lb s.ub) with
    | .error e => .done (x.1, .error e)
    | .ok c => match D.test c x.1 with
      | (y, .error e) => .done (y, .error e)
      | (y, .ok a) => match answer a with
        | some p => .next (y, ⟨s.lb, middle s.lb s.ub, some p⟩)
        | none => .next (y, ⟨middle s.lb s.ub, s.ub, s.path⟩)

/-- What is given to a trial besides the roadmap and the schedule. -/
structure Setup (C K : Type) where
  type : PrmType
  dim : ℕ
  delta : K
  seed : ℤ
  /-- `max_connections` -/
  maxConn : C
  /-- a setting as a number of the table -/
  value : C → K
  /-- `build_runtime` and `check_runtime` of the passes -/
  times : ℕ → K × K

/-- One pass of the loop over the schedule (narrow:48-194), number `i`. The bisection gets as much fuel as there are settings, and one
more, which suffices (C108). -/
def Driver.round (D : Driver σ C P K) (u : Setup C (WithTop K)) (i n : ℕ) (s : σ) : σ × Except PyErr (List (Val (WithTop K))) :=
  match D.grow n s with
  | (s', .error e) => (s', .error e)
  | (s', .ok conns) =>
    let r : Round (WithTop K) := ⟨conns.map u.value, fun _ => none, (u.times i).1, (u.times i).2⟩
    if u.type = .radius ∧ conns.length = 0 then (s', narrowRow u.type u.dim u.delta u.seed n r ⟨none, none, none, ""⟩)
    else match loop (trialBody D u.type conns u.maxConn) (conns.length + 1) (s', narrowStart conns) with
      | none => (s', .error .runtime)
      | some (s'', .error e) => (s'', .error e)
      | some (s'', .ok f) => (s'', narrowRow u.type u.dim u.delta u.seed n r f)

/-- The rows along the schedule (narrow:47-194). -/
def Driver.rows (D : Driver σ C P K) (u : Setup C (WithTop K)) : ℕ → List ℕ → σ → Except PyErr (List (List (Val (WithTop K))))
  | _, [], _ => .ok []
  | i, n :: ns, s =>
    match D.round u i n s with
    | (_, .error e) => .error e
    | (s', .ok row) =>
      match D.rows u (i + 1) ns s' with
      | .error e => .error e
      | .ok rows => .ok (row :: rows)

/-- The trial from the schedule to the table (narrow:44-217). -/
def Driver.trial (D : Driver σ C P K) (u : Setup C (WithTop K)) (sched : List ℕ) (s : σ) :
    Except PyErr (List (List (Option (Val (WithTop K))))) :=
  match D.rows u 0 sched s with
  | .error e => .error e
  | .ok rows => dataFrame narrowColumns rows

/-- `narrow_passage_clearance(..., prm_type='radius', max_connections=maxR)` (narrow:20-217), for a sampler that stands at `d`. -/
def radiusTrial (w : World P K) (start goal : P) (dim : ℕ) (δ : K) (seed : ℤ) (maxR : K) (times : ℕ → WithTop K × WithTop K) (sched : List ℕ)
    (d : ℕ) : Except PyErr (List (List (Option (Val (WithTop K))))) :=
  (radiusDriver w start goal maxR).trial ⟨.radius, dim, δ, seed, maxR, fun r => (r : WithTop K), times⟩ sched (Full.init maxR d)

/-- `narrow_passage_clearance(..., prm_type='knn', max_connections=maxK)` (narrow:20-217); `L` is `round(math.log2(maxK))`. -/
def knnTrial [NatCast K] (w : World P K) (start goal : P) (dim : ℕ) (δ : K) (seed : ℤ) (maxK L : ℕ) (times : ℕ → WithTop K × WithTop K)
    (sched : List ℕ) (d : ℕ) : Except PyErr (List (List (Option (Val (WithTop K))))) :=
  (knnDriver w start goal L).trial ⟨.knn, dim, δ, seed, maxK, fun k => ((k : K) : WithTop K), times⟩ sched (Knn.init maxK false d)

end Verif.Exps
