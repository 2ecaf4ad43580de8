import Verif.Model.NarrowTrial
import Verif.Model.Envs

/-!
Model of the whole straight-line trial (run_straight_line_optimality_trial.py:43-142) on the k-NN roadmap and the environment: growth
along the schedule, bisection with the completeness check of the environment, rows.

Simplifications: the times that the clock gives are left out, and so are the columns `dim`, `delta_clearance` and `seed`, which hold the
arguments; the final `prm.reset()` (straight_line:122) has no effect on the result.
-/

namespace Verif.Exps

open Verif.Prm

variable {P K : Type} [LinearOrder K]

/-- A row (straight_line:117-119, 127-136): `n_samples`, `rad_lbs`, `rad_ubs`, `info`. -/
structure LineRow (K : Type) where
  samples : ℕ
  lb : K
  ub : K
  info : String
deriving DecidableEq

/-- `eff_radius_ub, nn_rads = prm.grow_to_n_samples(n_samples)` and the truncation (straight_line:70-71; prm.py:406, 425). Without
`truncate_to_eff_rad` nothing is returned, which cannot be unpacked. -/
def lineGrow (w : World P K) (n : ℕ) (s : Knn P K) : Knn P K × Except PyErr (List K) :=
  match s.grow w n with
  | (s', .error e) => (s', .error e)
  | (s', .ok ()) =>
    match s'.truncate, s'.certified, s'.master with
    | true, some eff, some table => (s', .ok (truncateTo (unique (table.flatten.map Prod.snd)) eff))
    | _, _, _ => (s', .error .type)

/-- The body of the bisection loop (straight_line:84-110) with a check that can raise; `note` is the text for a timeout at a radius. -/
def lineCheckBody (rads : List K) (note : K → String) (check : K → Except PyErr (Bool × String)) (s : ℤ × ℤ × String) :
    Step (ℤ × ℤ × String) (Except PyErr (ℤ × ℤ × String)) :=
  let (lb, ub, info) := s
  if lb + 1 = ub then .done (.ok (lb, ub, info))
  else if lb ≥ ub then .done (.ok (lb, ub, "something went wrong... rad_lb is not supposed to be >= rad_ub"))
  else match pyGet rads (middle lb ub) with
    | .error e => .done (.error e)
    | .ok r => match check r with
      | .error e => .done (.error e)
      | .ok (complete, edInfo) =>
        let info := if edInfo = "timed out" then info ++ note r else info
        if complete then .next (lb, middle lb ub, info) else .next (middle lb ub, ub, info)

/-- One pass over the schedule (straight_line:65-119). -/
def lineRound (w : World P K) (note : K → String) (check : Knn P K → K → Except PyErr (Bool × String)) (n : ℕ) (s : Knn P K) : Knn P K × Except PyErr (LineRow K) :=
  match lineGrow w n s with
  | (s', .error e) => (s', .error e)
  | (s', .ok rads) =>
    match loop (lineCheckBody rads note (check s')) (rads.length + 1) (1, (rads.length : ℤ) - 1, "") with
    | none => (s', .error .runtime)
    | some (.error e) => (s', .error e)
    | some (.ok (lb, ub, info)) =>
      match pyGet rads lb with
      | .error e => (s', .error e)
      | .ok lo => match pyGet rads ub with
        | .error e => (s', .error e)
        | .ok hi => (s', .ok ⟨n, lo, hi, info⟩)

/-- The rows along the schedule (straight_line:65-119). -/
def lineRows (w : World P K) (note : K → String) (check : Knn P K → K → Except PyErr (Bool × String)) : List ℕ → Knn P K → Except PyErr (List (LineRow K))
  | [], _ => .ok []
  | n :: ns, s =>
    match lineRound w note check n s with
    | (_, .error e) => .error e
    | (s', .ok row) =>
      match lineRows w note check ns s' with
      | .error e => .error e
      | .ok rows => .ok (row :: rows)

/-- The trial (straight_line:43-142): `tol` is the tolerance for a radius (straight_line:93-95), `rest` the other arguments of the check
(straight_line:96-99). -/
def lineTrial [Field K] {d : ℕ} {Args : Type} (w : World P K) (e : Envs.StraightLine K d) (tol : K → K) (note : K → String) (rest : Args) (maxK : ℕ) (sched : List ℕ)
    (drawn : ℕ) : Except PyErr (List (LineRow K)) :=
  lineRows w note (fun prm r => e.isPrmEpsilonDeltaComplete prm (tol r) rest) sched (Knn.init maxK true drawn)

end Verif.Exps
