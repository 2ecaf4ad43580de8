import Mathlib.Analysis.InnerProductSpace.PiL2
import Verif.Model.Py
import Verif.Model.Util

/-!
Model of `StraightLine` and `NarrowPassage` from `nonasymptotic/envs.py`. A configuration of a `dim`-dimensional
environment, `dim = n + 1`, is a function `Fin (n + 1) → K` (or a list where Python does not check the dimension).
Rows of a numpy batch are independent, so batch methods are modelled for one row.
-/

namespace Verif.Envs

open Verif.Util

/-- numpy `np.clip(x, lo, hi)`, which is `np.minimum(np.maximum(x, lo), hi)`. -/
def clip {K : Type*} [LinearOrder K] (x lo hi : K) : K := min (max x lo) hi

/-- numpy `[a] + [b] * n` as a vector. -/
def headRest {K : Type*} {n : ℕ} (a b : K) : Fin (n + 1) → K := Fin.cons a fun _ => b

/-- numpy `rng.uniform(low, high)`: `low + (high - low) * u` for a draw `u` from `[0, 1)` in each coordinate. -/
def uniform {K : Type*} [Field K] {n : ℕ} (lo hi u : Fin n → K) : Fin n → K := fun i => lo i + (hi i - lo i) * u i

section StraightLine

variable {K : Type*} [Field K] [LinearOrder K]

/-- envs.py:61-73 the fields of a `StraightLine` of dimension `n + 1`. -/
structure StraightLine (K : Type*) (n : ℕ) where
  boundsLower : Fin (n + 1) → K
  boundsUpper : Fin (n + 1) → K
  lineDir : Fin (n + 1) → K
  length : K

/-- envs.py:61-73 `StraightLine.__init__`; the two assertions come first. -/
def StraightLine.init (n : ℕ) (delta length : K) : Except PyErr (StraightLine K n) :=
  if ¬ (2 ≤ n + 1) then .error .assertion
  else if ¬ (0 ≤ delta) then .error .assertion
  else .ok {
    boundsLower := headRest (-delta) (-delta)
    boundsUpper := headRest (length + delta) delta
    lineDir := headRest 1 0
    length := length }

variable {n : ℕ}

/-- envs.py:75-76 `StraightLine.sample_from_env`; `u` is the random draw. -/
def StraightLine.sample (e : StraightLine K n) (u : Fin (n + 1) → K) : Fin (n + 1) → K :=
  uniform e.boundsLower e.boundsUpper u

/-- envs.py:78-82 `StraightLine.arclength_to_curve_point`. -/
def StraightLine.curvePoint (e : StraightLine K n) (tNormed : K) : Fin (n + 1) → K :=
  let t := clip tNormed 0 1
  headRest (0 + t * e.length) 0

/-- envs.py:84-95 `StraightLine.is_motion_valid` for one row. -/
def StraightLine.isMotionValid (e : StraightLine K n) (start goal : Fin (n + 1) → K) : Bool :=
  let startValid := decide (∀ i, e.boundsLower i ≤ start i) && decide (∀ i, start i ≤ e.boundsUpper i)
  let goalValid := decide (∀ i, e.boundsLower i ≤ goal i) && decide (∀ i, goal i ≤ e.boundsUpper i)
  startValid && goalValid

/-- envs.py:97-99 `StraightLine.distance_to_path` for one row. -/
noncomputable def StraightLine.distanceToPath (e : StraightLine ℝ n) (p : Fin (n + 1) → ℝ) : ℝ :=
  let projClipped := clip (p 0) 0 e.length
  ‖(WithLp.toLp 2 fun i => p i - projClipped * e.lineDir i : EuclideanSpace ℝ (Fin (n + 1)))‖

/-- envs.py:101-103 `StraightLine.is_prm_epsilon_delta_complete`: the first statement raises; everything behind it
(lines 105-357) is unreachable and not modelled. -/
def StraightLine.isPrmEpsilonDeltaComplete {Prm Args : Type*} (_e : StraightLine K n) (_prm : Prm) (_tol : K) (_rest : Args) :
    Except PyErr (Bool × String) := .error .notImplemented

/-- envs.py:359-362 `StraightLine.volume`. -/
def StraightLine.volume (e : StraightLine K n) : K := ∏ i, |e.boundsUpper i - e.boundsLower i|

end StraightLine

section NarrowPassage

variable {K : Type*} [Field K] [LinearOrder K]

/-- envs.py:376-415 the fields of a `NarrowPassage` of dimension `n + 1`. -/
structure NarrowPassage (K : Type*) (n : ℕ) where
  leftLb : Fin (n + 1) → K
  leftUb : Fin (n + 1) → K
  rightLb : Fin (n + 1) → K
  rightUb : Fin (n + 1) → K
  hallLb : Fin (n + 1) → K
  hallUb : Fin (n + 1) → K
  vol : K
  pLeft : K
  pRight : K
  pHall : K
  lineDir : List K
  collLines : List ((K × K) × (K × K))

/-- The side of a box given by its corners, product of the side lengths (envs.py:388-392). -/
def boxVol {n : ℕ} (lb ub : Fin (n + 1) → K) : K := ∏ i, |ub i - lb i|

/-- envs.py:376-415 `NarrowPassage.__init__`. The division in line 395 cannot be by zero, since the left box has volume 1. -/
def NarrowPassage.init (n : ℕ) (c : K) : NarrowPassage K n :=
  let leftLb : Fin (n + 1) → K := headRest (-3 / 2) (-1 / 2)
  let leftUb : Fin (n + 1) → K := headRest (-1 / 2) (1 / 2)
  let rightLb : Fin (n + 1) → K := headRest (1 / 2) (-1 / 2)
  let rightUb : Fin (n + 1) → K := headRest (3 / 2) (1 / 2)
  let hallLb : Fin (n + 1) → K := headRest (-1 / 2) (-c)
  let hallUb : Fin (n + 1) → K := headRest (1 / 2) c
  let leftVol := boxVol leftLb leftUb
  let rightVol := boxVol rightLb rightUb
  let hallVol := boxVol hallLb hallUb
  let vol := leftVol + rightVol + hallVol
  { leftLb, leftUb, rightLb, rightUb, hallLb, hallUb, vol
    pLeft := leftVol / vol
    pRight := rightVol / vol
    pHall := hallVol / vol
    lineDir := 1 :: List.replicate (n + 1) 0
    collLines := [
      ((-1 / 2, c), (-1 / 2, 1 / 2)),
      ((-1 / 2, -c), (-1 / 2, -1 / 2)),
      ((-1 / 2, c), (1 / 2, c)),
      ((-1 / 2, -c), (1 / 2, -c)),
      ((1 / 2, c), (1 / 2, 1 / 2)),
      ((1 / 2, -c), (1 / 2, -1 / 2))] }

variable {n : ℕ}

/-- The outcome of `rng.choice(self.lined_up_bounds, p=...)` in envs.py:421. -/
inductive Region where
  | left | right | hall

/-- envs.py:417-422 `NarrowPassage.sample_from_env`: `r` is the box drawn, `u` the uniform draw. -/
def NarrowPassage.sample (e : NarrowPassage K n) (r : Region) (u : Fin (n + 1) → K) : Fin (n + 1) → K :=
  match r with
  | .left => uniform e.leftLb e.leftUb u
  | .right => uniform e.rightLb e.rightUb u
  | .hall => uniform e.hallLb e.hallUb u

/-- envs.py:424-428 `NarrowPassage.arclength_to_curve_point`, a numpy array, here as a list. -/
def NarrowPassage.curvePoint (_e : NarrowPassage K n) (tNormed : K) : List K :=
  let t := clip tNormed 0 1
  (-1 / 2 + t) :: List.replicate (n + 1) 0

/-- envs.py:430-456 `NarrowPassage.is_motion_valid` for one row. -/
def NarrowPassage.isMotionValid (e : NarrowPassage K n) (start goal : Fin (n + 1) → K) : Bool :=
  let isColliding := (List.finRange n).foldl (fun coll i =>
    let startProj := (start 0, start i.succ)
    let goalProj := (goal 0, goal i.succ)
    e.collLines.foldl (fun coll c => coll || detectIntersect startProj goalProj c.1 c.2) coll) false
  !isColliding

/-- numpy broadcasting of `a - b` for two one-dimensional arrays. -/
def broadcastSub (a b : List K) : Except PyErr (List K) :=
  if a.length = b.length then .ok (List.zipWith (· - ·) a b)
  else match a, b with
    | [x], _ => .ok (b.map (x - ·))
    | _, [y] => .ok (a.map (· - y))
    | _, _ => .error .value

/-- envs.py:461-463 `NarrowPassage.distance_to_path` for one row, which may be a list of any length. -/
noncomputable def NarrowPassage.distanceToPath (e : NarrowPassage ℝ n) (p : List ℝ) : Except PyErr ℝ :=
  match p with
  | [] => .error .index
  | x :: _ =>
    let projClipped := clip x 0 1
    match broadcastSub p (e.lineDir.map (projClipped * ·)) with
    | .error err => .error err
    | .ok d => .ok (Real.sqrt (d.map (· ^ 2)).sum)

/-- envs.py:458-459 `NarrowPassage.is_prm_epsilon_delta_complete`. -/
def NarrowPassage.isPrmEpsilonDeltaComplete {Prm : Type*} (_e : NarrowPassage K n) (_prm : Prm) (_tol : K) :
    Except PyErr (Bool × String) := .error .notImplemented

/-- envs.py:465-467 `NarrowPassage.volume`. -/
def NarrowPassage.volume (e : NarrowPassage K n) : K := e.vol

end NarrowPassage

end Verif.Envs
