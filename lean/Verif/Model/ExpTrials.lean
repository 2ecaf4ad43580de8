import Mathlib.Algebra.Order.Ring.Int
import Verif.Model.ExpTasks

/-!
Model of the trials of the experiments: the bisections, the recorded rows (run_narrow_passage_clearance_trial.py:20-217,
run_straight_line_optimality_trial.py:42-141, run_knn_radius_trial.py:15-48). The roadmap is an oracle: `solve c` is what
`query_best_solution` gives after setting the connection parameter to `c` (`none` for an empty path, else length and number of
points). Times are arguments.
-/

namespace Verif.Exps

/-- Python indexing with an integer, also a negative one. -/
def pyGet {α : Type*} (l : List α) (i : ℤ) : Except PyErr α :=
  let j := if i < 0 then i + l.length else i
  if j < 0 then .error .index
  else match l[j.toNat]? with
    | some a => .ok a
    | none => .error .index

/-- `int((lb + ub) / 2)`; the numbers are not negative when it is evaluated. -/
def middle (lb ub : ℤ) : ℤ := (lb + ub) / 2

/-- `2 ** np.arange(2, round(math.log2(max_connections)) + 1)` (narrow:56); `L` is the rounded logarithm. -/
def nnKs (L : ℕ) : List ℕ := (List.range' 2 (L + 1 - 2)).map (2 ^ ·)

variable {C K : Type}

/-- What the bisection of the narrow-passage trial leaves in its variables; `none` is `np.nan`. -/
structure Found (K : Type) where
  lb : Option ℤ
  ub : Option ℤ
  path : Option (K × ℕ)
  info : String
deriving DecidableEq

/-- Local variables of the bisection. -/
structure Bis (K : Type) where
  lb : ℤ
  ub : ℤ
  path : Option (K × ℕ)

/-- The body of the bisection loop of the narrow-passage trial (narrow:96-166); `conns` is `nn_ks` or `nn_rads`, `maxConn` is
`max_connections`. Indexing can raise. -/
def narrowBody (t : PrmType) (conns : List C) (maxConn : C) (solve : C → Option (K × ℕ)) (s : Bis K) : Step (Bis K) (Except PyErr (Found K)) :=
  if s.lb + 1 = s.ub then
    if s.ub ≥ (conns.length : ℤ) - 1 then
      match solve maxConn with
      | none => .done (.ok ⟨some ((conns.length : ℤ) - 1), none, s.path, "no paths found for all connection settings"⟩)
      | some p => .done (.ok ⟨some s.lb, some s.ub, some p, ""⟩)
    else .done (.ok ⟨some s.lb, some s.ub, s.path, ""⟩)
  else if s.lb ≥ s.ub then
    if t = .radius ∧ s.lb = s.ub then
      match pyGet conns (-1) with
      | .error e => .done (.error e)
      | .ok c => match solve c with
        | none => .done (.ok ⟨some ((conns.length : ℤ) - 1), none, s.path, "only one connection; and no path found."⟩)
        | some p => .done (.ok ⟨none, some ((conns.length : ℤ) - 1), some p, "only one connection; and path found!"⟩)
    else .done (.ok ⟨some s.lb, some s.ub, s.path,
      "something went wrong... rad_lb is not supposed to be >= rad_ub and we have more than one conn"⟩)
  else
    match pyGet conns (middle s.lb s.ub) with
    | .error e => .done (.error e)
    | .ok c => match solve c with
      | some p => .next ⟨s.lb, middle s.lb s.ub, some p⟩
      | none => .next ⟨middle s.lb s.ub, s.ub, s.path⟩

/-- The local variables before the loop (narrow:57-58, 63-64, 93-95). -/
def narrowStart (conns : List C) : Bis K := ⟨0, (conns.length : ℤ) - 1, none⟩

/-- The body of the bisection loop of the straight-line trial (straight_line:84-110); `passes` is the completeness check for the
radius with the given index, `true` in the result means that the warning was recorded. -/
def lineBody (rads : List K) (passes : K → Bool) (s : ℤ × ℤ) : Step (ℤ × ℤ) (Except PyErr (ℤ × ℤ × Bool)) :=
  if s.1 + 1 = s.2 then .done (.ok (s.1, s.2, false))
  else if s.1 ≥ s.2 then .done (.ok (s.1, s.2, true))
  else match pyGet rads (middle s.1 s.2) with
    | .error e => .done (.error e)
    | .ok r => if passes r then .next (s.1, middle s.1 s.2) else .next (middle s.1 s.2, s.2)

/-- `nn_rads[:np.searchsorted(nn_rads, eff_radius_ub, side='right')]` on an ascending list (straight_line:71). -/
def truncateTo [LinearOrder K] (rads : List K) (eff : K) : List K := rads.takeWhile fun r => decide (r ≤ eff)

/-- A cell of a recorded table. -/
inductive Val (K : Type) where
  | str (s : String)
  | num (x : K)
  | int (n : ℤ)
  | nan
deriving DecidableEq

/-- The column names of the narrow-passage trial (narrow:202-215). -/
def narrowColumns : List String := ["prm_type", "dim", "delta_clearance", "n_samples", "conn_lb", "conn_ub", "thresh_path_dist",
  "thresh_path_len", "build_time", "check_time", "info", "seed"]

/-- `str` of the roadmap type. -/
def PrmType.name : PrmType → String
  | .radius => "radius"
  | .knn => "knn"

/-- What one pass through the schedule sees: the connection values, the path oracle, the times. -/
structure Round (K : Type) where
  conns : List K
  solve : K → Option (K × ℕ)
  buildTime : K
  checkTime : K

/-- The value recorded for an index (narrow:171-179). -/
def connAt (conns : List K) : Option ℤ → Except PyErr (Val K)
  | none => .ok .nan
  | some i => do return .num (← pyGet conns i)

/-- The row recorded for one sample size (narrow:69-82, 181-194). `found` is the result of the bisection. -/
def narrowRow (t : PrmType) (dim : ℕ) (δ : K) (seed : ℤ) (n : ℕ) (r : Round K) (found : Found K) : Except PyErr (List (Val K)) :=
  if t = .radius ∧ r.conns.length = 0 then
    .ok [.str t.name, .int dim, .num δ, .int n, .nan, .nan, .num r.buildTime, .int 0, .str "no connections made", .int seed]
  else do
    let lo ← connAt r.conns found.lb
    let hi ← connAt r.conns found.ub
    let d := match found.path with
      | none => Val.nan
      | some p => .num p.1
    let l := match found.path with
      | none => Val.nan
      | some p => .int p.2
    return [.str t.name, .int dim, .num δ, .int n, lo, hi, d, l, .num r.buildTime, .num r.checkTime, .str found.info, .int seed]

/-- `pd.DataFrame(rows, columns=...)` of a list of tuples: shorter rows are filled up at the end (`none`); if the longest row does not
have one value per column, ValueError; no rows at all give an empty table. -/
def dataFrame {V : Type} (columns : List String) (rows : List (List V)) : Except PyErr (List (List (Option V))) :=
  if rows = [] then .ok []
  else
    let width := (rows.map List.length).foldl max 0
    if width ≠ columns.length then .error .value
    else .ok (rows.map fun r => r.map some ++ List.replicate (width - r.length) none)

/-- The value of a named column. -/
def cell {V : Type} (columns : List String) (row : List V) (name : String) : Option V := row[columns.idxOf name]?

/-- The columns of the k-NN trial (knn:42-46). -/
def knnColumns : List String := ["dim", "n_samples", "n_neighbors", "eff_rad", "build_time", "delta_clearance", "seed"]

/-- The largest entry; ValueError for none (`np.max` of an empty list). -/
def maxOf : List ℕ → Except PyErr ℕ
  | [] => .error .value
  | a :: l => .ok (l.foldl max a)

/-- The smallest entry; ValueError for none. -/
def minOf [LinearOrder K] : List K → Except PyErr K
  | [] => .error .value
  | a :: l => .ok (l.foldl min a)

/-- `dist_list[:, j]`. -/
def column {α : Type*} (rows : List (List α)) (j : ℤ) : Except PyErr (List α) := rows.mapM fun r => pyGet r j

/-- The inner loop over the neighbour schedule (knn:34-40). -/
def knnRows [LinearOrder K] (dim : ℕ) (δ : K) (seed : ℤ) (s : ℕ) (dists : List (List K)) (buildTime : K) :
    List ℕ → Except PyErr (List (List (Val K)))
  | [] => .ok []
  | nn :: rest =>
    if nn > s then .ok []
    else do
      let col ← column dists ((nn : ℤ) - 1)
      let eff ← minOf col
      let more ← knnRows dim δ seed s dists buildTime rest
      return [.int dim, .int s, .int nn, .num eff, .num buildTime, .num δ, .int seed] :: more

/-- One sample size of the k-NN trial (knn:20-40); `graph k` is the distance table of the back end for `k` neighbours. -/
def knnRound [LinearOrder K] (dim : ℕ) (δ : K) (seed : ℤ) (neighborSchedule : List ℕ) (s : ℕ) (graph : ℕ → List (List K)) (buildTime : K) :
    Except PyErr (List (List (Val K))) := do
  let k ← maxOf (neighborSchedule.filter fun nn => decide (nn < s))
  knnRows dim δ seed s (graph k) buildTime neighborSchedule

end Verif.Exps
