import Verif.Model.Envs
import Verif.Model.Float64

/-!
`detect_intersect` and `NarrowPassage.is_motion_valid` with rounded arithmetic: every numpy operation is one ufunc call and rounds its
result by `rd`. With `rd = fl` this is the arithmetic of float64, with `rd = id` the one of `Verif.Model.Util`.
-/

namespace Verif.Util

/-- util.py:4-5 `cross_2d`, for one row. Two products and a difference, each of them rounded. -/
def cross2dR (rd : ℝ → ℝ) (v w : ℝ × ℝ) : ℝ := rd (rd (v.1 * w.2) - rd (v.2 * w.1))

/-- A difference of two rows of length two. -/
def subR (rd : ℝ → ℝ) (v w : ℝ × ℝ) : ℝ × ℝ := (rd (v.1 - w.1), rd (v.2 - w.2))

/-- util.py:8-54 `detect_intersect`, for one row. As in `detectIntersect`, a division by zero gives inf or nan, for which at least one of
the four comparisons is false. (A quotient that is too large for float64 is inf in numpy and a number above 1 here: the comparisons come
out the same.) -/
noncomputable def detectIntersectR (rd : ℝ → ℝ) (s1e1 s1e2 s2e1 s2e2 : ℝ × ℝ) : Bool :=
  let s1Dir := subR rd s1e2 s1e1
  let s2Dir := subR rd s2e2 s2e1
  let crossDir := cross2dR rd s1Dir s2Dir
  let unnormed1 := cross2dR rd (subR rd s2e1 s1e1) s2Dir
  let unnormed2 := cross2dR rd (subR rd s2e1 s1e1) s1Dir
  let isCollinear := decide (crossDir = 0) && decide (unnormed2 = 0)
  let isCleanlyIntersecting :=
    if crossDir = 0 then false
    else
      let c1 := rd (unnormed1 / crossDir)
      let c2 := rd (unnormed2 / crossDir)
      decide (0 ≤ c1) && decide (c1 ≤ 1) && decide (0 ≤ c2) && decide (c2 ≤ 1)
  isCleanlyIntersecting || isCollinear

end Verif.Util

namespace Verif.Envs

open Verif.Util

/-- envs.py:430-456 `NarrowPassage.is_motion_valid` for one row. The walls are those of `NarrowPassage.init` (envs.py:407-414: the
numbers 0.5, -0.5, the clearance and its negative, all of them floats). -/
noncomputable def NarrowPassage.isMotionValidR {n : ℕ} (rd : ℝ → ℝ) (e : NarrowPassage ℝ n) (start goal : Fin (n + 1) → ℝ) : Bool :=
  let isColliding := (List.finRange n).foldl (fun coll i =>
    let startProj := (start 0, start i.succ)
    let goalProj := (goal 0, goal i.succ)
    e.collLines.foldl (fun coll c => coll || detectIntersectR rd startProj goalProj c.1 c.2) coll) false
  !isColliding

/-- numpy's `rng.random()`, with which `rng.uniform` draws: 53 random bits divided by `2 ^ 53`. The number `u` in [0, 1) stands for an
endless row of random bits, of which the first 53 are taken. -/
noncomputable def random53 (u : ℝ) : ℝ := ⌊u * 2 ^ 53⌋ / 2 ^ 53

/-- numpy's `rng.uniform(lb, ub)`: `lb + (ub - lb) * u` for draws `u` from [0, 1), with the three operations rounded. -/
def uniformR {n : ℕ} (rd : ℝ → ℝ) (lb ub u : Fin (n + 1) → ℝ) : Fin (n + 1) → ℝ :=
  fun i => rd (lb i + rd (rd (ub i - lb i) * u i))

/-- envs.py:417-422 `NarrowPassage.sample_from_env`: `r` is the box drawn, `u` the draw. (The weights with which a box is drawn are not
rounded.) -/
def NarrowPassage.sampleR {n : ℕ} (rd : ℝ → ℝ) (e : NarrowPassage ℝ n) (r : Region) (u : Fin (n + 1) → ℝ) : Fin (n + 1) → ℝ :=
  match r with
  | .left => uniformR rd e.leftLb e.leftUb u
  | .right => uniformR rd e.rightLb e.rightUb u
  | .hall => uniformR rd e.hallLb e.hallUb u

/-- run_narrow_passage_clearance_trial.py:87-89 `query_start`, with the operations rounded. (`ones * 0.5` is exact.) -/
noncomputable def narrowStartR (rd : ℝ → ℝ) (n : ℕ) (deltaClear : ℝ) : Fin (n + 1) → ℝ := fun i => rd (headRest (-1) 0 i - rd (1 / 2 - deltaClear))

/-- run_narrow_passage_clearance_trial.py:87-90 `query_end`, with the operations rounded. -/
noncomputable def narrowGoalR (rd : ℝ → ℝ) (n : ℕ) (deltaClear : ℝ) : Fin (n + 1) → ℝ := fun i => rd (headRest 1 0 i + rd (1 / 2 - deltaClear))

/-- envs.py:61-73 `StraightLine.__init__` with the one sum rounded. -/
noncomputable def StraightLine.initR (rd : ℝ → ℝ) (n : ℕ) (delta length : ℝ) : Except PyErr (StraightLine ℝ n) :=
  if ¬ (2 ≤ n + 1) then .error .assertion
  else if ¬ (0 ≤ delta) then .error .assertion
  else .ok {
    boundsLower := headRest (-delta) (-delta)
    boundsUpper := headRest (rd (length + delta)) delta
    lineDir := headRest 1 0
    length := length }

/-- envs.py:75-76 `StraightLine.sample_from_env` with rounded arithmetic; `u` is the random draw. -/
def StraightLine.sampleR {n : ℕ} (rd : ℝ → ℝ) (e : StraightLine ℝ n) (u : Fin (n + 1) → ℝ) : Fin (n + 1) → ℝ :=
  uniformR rd e.boundsLower e.boundsUpper u

/-- envs.py:78-82 `StraightLine.arclength_to_curve_point` with rounded arithmetic. -/
noncomputable def StraightLine.curvePointR {n : ℕ} (rd : ℝ → ℝ) (e : StraightLine ℝ n) (tNormed : ℝ) : Fin (n + 1) → ℝ :=
  let t := clip tNormed 0 1
  headRest (rd (0 + rd (t * e.length))) 0

end Verif.Envs
