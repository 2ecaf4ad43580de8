import Mathlib.Algebra.Order.Floor.Semiring
import Mathlib.Algebra.Order.Field.Basic
import Verif.Model.Prm
import Verif.Model.Bound
import Verif.Model.Float64

/-!
Model of the anytime planning loop of turtlebot_move/streams.py and kuka_carry/run.py on top of the model of the k-NN roadmap.
The sample count `num_samples` is a float in Python as soon as it was multiplied by a float factor. `plan` multiplies in an ordered field
and does not round (this is exact for the integer factors of the command line); `planR` rounds each product to the nearest float.
A negative factor is not of interest: `int` is modelled by the floor of nonnegative numbers.
-/

namespace Verif.Anytime

open Verif.Prm

/-- Local variables of the loop (streams.py:171-178). `path = none`: not assigned yet. `counts` lists the arguments of the calls of
`grow_to_n_samples` so far; it is not part of the program, only of the model. -/
structure Vars (P K F : Type*) where
  prm : Knn P K
  num : F
  path : Option (List P)
  counts : List ℕ

variable {P K F : Type*} [LinearOrder K] [Field F] [LinearOrder F] [FloorSemiring F]

/-- One pass of `while(num_samples<max_samples+1)` (streams.py:172-178, kuka_carry/run.py:182-196); `scale` is the multiplication
`num_samples*factor`. The comparison of a float with an integer is exact in Python, and so is `int`. -/
def bodyBy (w : World P K) (start goal : P) (maxS : ℕ) (scale : F → F) (s : Vars P K F) :
    Step (Vars P K F) (Vars P K F × Except PyErr Unit) :=
  if s.num < (maxS : F) + 1 then
    let n := ⌊s.num⌋₊
    let grown := s.prm.grow w n
    let s1 := { s with prm := grown.1, counts := s.counts ++ [n] }
    match grown.2 with
    | .error e => .done (s1, .error e)
    | .ok () =>
      let asked := grown.1.query w start goal
      match asked.2 with
      | .error e => .done ({ s1 with prm := asked.1 }, .error e)
      | .ok (_, path) =>
        let s2 := { s1 with prm := asked.1, path := some path }
        if 0 < path.length then .done (s2, .ok ()) else .next { s2 with num := scale s.num }
  else .done (s, .ok ())

/-- The pass with exact products (streams.py:172-178). -/
def body (w : World P K) (start goal : P) (maxS : ℕ) (factor : F) (s : Vars P K F) :
    Step (Vars P K F) (Vars P K F × Except PyErr Unit) :=
  bodyBy w start goal maxS (fun x => x * factor) s

/-- What the loop leaves behind (streams.py:181-200): no path variable, an empty path, or a path between start and goal. -/
def finish (start goal : P) (path : Option (List P)) : Except PyErr (Option (List P)) :=
  match path with
  | none => .error .unbound
  | some [] => .ok none
  | some (p :: l) => .ok (some (start :: (p :: l) ++ [goal]))

/-- `get_anytime_motion_fn(...)` up to the interpolation (streams.py:161-200), for a roadmap with parameter `k` (32 in the code): the
counts that were tried and the answer, `none` for "no path" (the kuka version raises SubplanFailed instead of returning None,
run.py:200-203). `drawn` is the position of the random generator. -/
def planBy (w : World P K) (start goal : P) (minS maxS : ℕ) (scale : F → F) (k : ℕ) (truncate : Bool) (drawn fuel : ℕ) :
    Option (List ℕ × Except PyErr (Option (List P))) :=
  if w.check start start = false then some ([], .error .assertion)
  else if w.check goal goal = false then some ([], .error .assertion)
  else
    match loop (bodyBy w start goal maxS scale) fuel ⟨Knn.init k truncate drawn, minS, none, []⟩ with
    | none => none
    | some (s, .error e) => some (s.counts, .error e)
    | some (s, .ok ()) => some (s.counts, finish start goal s.path)

/-- The planning call with exact products (streams.py:161-200). -/
def plan (w : World P K) (start goal : P) (minS maxS : ℕ) (factor : F) (k : ℕ) (truncate : Bool) (drawn fuel : ℕ) :
    Option (List ℕ × Except PyErr (Option (List P))) :=
  planBy w start goal minS maxS (fun x => x * factor) k truncate drawn fuel

/-- `num_samples*factor` for a float factor (streams.py:178, kuka_carry/run.py:196): the product, rounded. An integer `num_samples`
below `2 ^ 53` is converted to a float without error first. -/
noncomputable def scaleR (factor x : ℝ) : ℝ := Float64.fl (x * factor)

/-- The planning call with rounded products (streams.py:161-200). -/
noncomputable def planR (w : World P K) (start goal : P) (minS maxS : ℕ) (factor : ℝ) (k : ℕ) (truncate : Bool) (drawn fuel : ℕ) :
    Option (List ℕ × Except PyErr (Option (List P))) :=
  planBy w start goal minS maxS (scaleR factor) k truncate drawn fuel

/-- `delta` of the adaptive mode (streams.py:149-150). -/
noncomputable def turtleDelta (gap lower upper : ℝ) : ℝ := gap - (upper - lower) + 5 / 100

/-- Sample range of the adaptive mode (streams.py:152-153): `(min_samples, max_samples)`. -/
noncomputable def adaptiveRange (delta : ℝ) (fuel : ℕ) : Option (Except PyErr (ℕ × ℕ)) :=
  match Bound.numericalBound delta (99 / 100) 16 2 none fuel with
  | none => none
  | some (.error e) => some (.error e)
  | some (.ok (N, _)) => some (.ok (N - 1, N))

end Verif.Anytime
