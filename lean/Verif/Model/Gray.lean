import Mathlib.Algebra.Order.Floor.Ring
import Mathlib.Algebra.BigOperators.Fin
import Verif.Model.Py

/-!
Model of `GrayCodeWalls` from `nonasymptotic/envs.py` (lines 470-780). The dimension is `n + 1`, cubes are integer vectors,
points are vectors over a linearly ordered field `K` with a floor function. Infinite walls (`±np.inf`) are `⊤` of `WithTop K`.
-/

namespace Verif.Gray

/-- The strings produced by `sympy.combinatorics.graycode.GrayCode(n).generate_gray()` (external; the binary reflected
Gray code), read as integer tuples (envs.py:480-483). -/
def gray : (n : ℕ) → List (Fin n → ℤ)
  | 0 => [Fin.elim0]
  | n + 1 => (gray n).map (Fin.cons 0) ++ (gray n).reverse.map (Fin.cons 1)

/-- envs.py:760-768 `_prepend_coord`. -/
def prependCoord {n : ℕ} (coord : ℤ) (l : List (Fin n → ℤ)) : List (Fin (n + 1) → ℤ) := l.map (Fin.cons coord)

/-- envs.py:485-493 `no_walls_linear_list`. -/
def order (n length : ℕ) : List (Fin (n + 1) → ℤ) :=
  (List.range length).flatMap fun (i : ℕ) =>
    if i % 2 = 0 then prependCoord (i : ℤ) (gray n) else prependCoord (i : ℤ) (gray n).reverse

/-- envs.py:495-500 the edges of `no_walls_graph`. -/
def edges {n : ℕ} (l : List (Fin (n + 1) → ℤ)) : List ((Fin (n + 1) → ℤ) × (Fin (n + 1) → ℤ)) := l.zip l.tail

/-- networkx `DiGraph.predecessors(c)`, which raises for an unknown node. -/
def predecessors {n : ℕ} (l : List (Fin (n + 1) → ℤ)) (c : Fin (n + 1) → ℤ) : Except PyErr (List (Fin (n + 1) → ℤ)) :=
  if c ∈ l then .ok (((edges l).filter (·.2 = c)).map (·.1)) else .error .key

/-- networkx `DiGraph.successors(c)`, which raises for an unknown node. -/
def successors {n : ℕ} (l : List (Fin (n + 1) → ℤ)) (c : Fin (n + 1) → ℤ) : Except PyErr (List (Fin (n + 1) → ℤ)) :=
  if c ∈ l then .ok (((edges l).filter (·.1 = c)).map (·.2)) else .error .key

/-- envs.py:474-549 the fields of `GrayCodeWalls` that other methods use. -/
structure GrayCodeWalls (K : Type*) (n : ℕ) where
  cubes : List (Fin (n + 1) → ℤ)
  length : ℕ
  thickness : K
  cubeCenterLengths : Fin (n + 1) → K
  openWallLengths : Fin (n + 1) → K
  nNodes : ℕ
  cuboidPmf : List K
  midPmf : List K
  endPmf : List K
  curveArclength : K

variable {K : Type*} [Field K] [LinearOrder K] {n : ℕ}

/-- envs.py:474-549 `GrayCodeWalls.__init__` in dimension `n + 1`. -/
def GrayCodeWalls.init (n length : ℕ) (thickness : K) : Except PyErr (GrayCodeWalls K n) :=
  if ¬ (2 ≤ n + 1) then .error .assertion
  else if ¬ (0 < length) then .error .assertion
  else
    let cubes := order n length
    let center : Fin (n + 1) → K := fun _ => 1 * (1 - 2 * thickness)
    let openWall : Fin (n + 1) → K := Fin.cons thickness fun _ => 1 * (1 - 2 * thickness)
    let volCenter := ∏ i, center i
    let volOpenWall := ∏ i, openWall i
    let volEnd := volCenter + volOpenWall
    let volMid := volCenter + 2 * volOpenWall
    let nNodes := cubes.length
    let total := ((nNodes : K) - 2) * volMid + 2 * volEnd
    let pEnd := volEnd / total
    let pMid := volMid / total
    .ok {
      cubes, length, thickness, nNodes
      cubeCenterLengths := center
      openWallLengths := openWall
      cuboidPmf := [pEnd] ++ List.replicate (nNodes - 2) pMid ++ [pEnd]
      midPmf := [volOpenWall / volMid, volCenter / volMid, volOpenWall / volMid]
      endPmf := [volCenter / volEnd, volOpenWall / volEnd]
      curveArclength := 1 / 2 * (1 + 2 * ((nNodes : K) - 2) + 1) }

/-- envs.py:746-758 `_unblock_wall` on the pair (open low walls, open high walls): the wall towards the neighbour is
opened. `np.where` yields one index, since neighbouring cubes differ in one coordinate. -/
def unblockWall (c nb : Fin (n + 1) → ℤ) (w : (Fin (n + 1) → Bool) × (Fin (n + 1) → Bool)) :
    (Fin (n + 1) → Bool) × (Fin (n + 1) → Bool) :=
  (fun i => w.1 i || decide (nb i - c i < 0), fun i => w.2 i || decide (0 < nb i - c i))

/-- envs.py:559-577 `_distance_to_wall_in_cube`. -/
def distanceToWallInCube (e : GrayCodeWalls K n) (c : Fin (n + 1) → ℤ) (x : Fin (n + 1) → K) : Except PyErr (WithTop K) :=
  match predecessors e.cubes c, successors e.cubes c with
  | .ok ps, .ok ss =>
    let opened := (ps ++ ss).foldl (fun w nb => unblockWall c nb w) (fun _ => false, fun _ => false)
    let xc : Fin (n + 1) → K := fun i => x i - ((c i : K) + 1 / 2)
    let low : Fin (n + 1) → WithTop K := fun i => if opened.1 i then ⊤ else ((xc i - -1 / 2 : K) : WithTop K)
    let high : Fin (n + 1) → WithTop K := fun i => if opened.2 i then ⊤ else ((1 / 2 - xc i : K) : WithTop K)
    .ok ((min (Finset.univ.inf low) (Finset.univ.inf high)).map (· - e.thickness))
  | .error err, _ => .error err
  | _, .error err => .error err

variable [FloorRing K]

/-- `np.floor(x).astype('int64')`. -/
def floorCube (x : Fin (n + 1) → K) : Fin (n + 1) → ℤ := fun i => ⌊x i⌋

/-- envs.py:551-557 `distance_to_wall`. -/
def distanceToWall (e : GrayCodeWalls K n) (x : Fin (n + 1) → K) : Except PyErr (WithTop K) :=
  distanceToWallInCube e (floorCube x) x

/-- The two enumerations of envs.py:771-779. -/
inductive CubeRegion where
  | center | passage1 | passage2
  deriving DecidableEq

/-- Index of the coordinate in which two cubes differ (`np.where(open_wall_dir)`, the first such index). -/
def dirIndex (d : Fin (n + 1) → ℤ) : Except PyErr (Fin (n + 1)) :=
  match (List.finRange (n + 1)).find? (fun i => d i ≠ 0) with
  | some i => .ok i
  | none => .error .value

omit [FloorRing K] in
/-- envs.py:706-740 `_transform_sample_to_global_frame`; `passage1` also stands for `EndCuboidRegions.PASSAGE`. -/
def transformSample (e : GrayCodeWalls K n) (u : Fin (n + 1) → K) (c : Fin (n + 1) → ℤ) (r : CubeRegion) :
    Except PyErr (Fin (n + 1) → K) :=
  match r with
  | .center =>
    let s : Fin (n + 1) → K := fun i => u i * e.cubeCenterLengths i - e.cubeCenterLengths i / 2
    .ok fun i => s i + (c i : K) + 1 / 2
  | _ =>
    let s : Fin (n + 1) → K := fun i => u i * e.openWallLengths i
    let ix := if r = .passage1 then 0 else 1
    match predecessors e.cubes c, successors e.cubes c with
    | .ok ps, .ok ss =>
      match (ps ++ ss)[ix]? with
      | none => .error .index
      | some adj =>
        let dir : Fin (n + 1) → ℤ := fun i => adj i - c i
        match dirIndex dir with
        | .error err => .error err
        | .ok j =>
          -- swap entries 0 and j
          let swapped : Fin (n + 1) → K := fun i => if i = j then s 0 else if i = 0 then s j else s i
          let translation : Fin (n + 1) → K := fun i =>
            if i = j then (if 0 < dir j then 1 / 2 - e.thickness else -1 / 2) else -1 / 2 + e.thickness
          .ok fun i => swapped i + translation i + (c i : K) + 1 / 2
    | .error err, _ => .error err
    | _, .error err => .error err

omit [FloorRing K] in
/-- envs.py:579-600 `sample_from_env`: `ix` is the cuboid drawn, `rix` the region drawn, `u` the uniform draw. -/
def sample (e : GrayCodeWalls K n) (ix rix : ℕ) (u : Fin (n + 1) → K) : Except PyErr (Fin (n + 1) → K) :=
  match e.cubes[ix]? with
  | none => .error .index
  | some c =>
    if some c = e.cubes[0]? ∨ some c = e.cubes.getLast? then
      match [CubeRegion.center, CubeRegion.passage1][rix]? with
      | none => .error .index
      | some r => transformSample e u c r
    else
      match [CubeRegion.passage1, CubeRegion.center, CubeRegion.passage2][rix]? with
      | none => .error .index
      | some r => transformSample e u c r

omit [FloorRing K] in
/-- The weights from which the region is drawn for cuboid `ix` (envs.py:585-595). -/
def regionPmf (e : GrayCodeWalls K n) (ix : ℕ) : List K :=
  if e.cubes[ix]? = e.cubes[0]? ∨ e.cubes[ix]? = e.cubes.getLast? then e.endPmf else e.midPmf

omit [FloorRing K] in
/-- envs.py:602-604 `start_point`. -/
def startPoint (_e : GrayCodeWalls K n) : Fin (n + 1) → K := fun _ => 1 / 2

omit [FloorRing K] in
/-- envs.py:606-607 `end_point`. -/
def endPoint (e : GrayCodeWalls K n) : Except PyErr (Fin (n + 1) → K) :=
  match e.cubes.getLast? with
  | none => .error .index
  | some c => .ok fun i => (c i : K) + 1 / 2

/-- envs.py:609-642 `arclength_to_curve_point`. `t_leg` is a nonnegative integer, `t_leg == 1` and so on compare integers. -/
def curvePoint (e : GrayCodeWalls K n) (tNormed : K) : Except PyErr (Fin (n + 1) → K) :=
  let t := min (max tNormed 0) 1 * e.curveArclength
  let tLeg : ℤ := if t ≤ 0 then 1 else ⌈t / (1 / 2)⌉
  if tLeg = 1 then
    .ok fun i => if i = Fin.last n then 1 / 2 + t else 1 / 2
  else if tLeg = 1 + 2 * ((e.cubes.length : ℤ) - 2) + 1 then
    match e.cubes.getLast? with
    | none => .error .index
    | some c =>
      let tBackup := 1 / 2 - (t - ((tLeg : K) - 1) * (1 / 2))
      .ok fun i => (c i : K) + 1 / 2 + if i = Fin.last n then tBackup else 0
  else
    match e.cubes[(tLeg / 2).toNat]? with
    | none => .error .index
    | some c =>
      if tLeg % 2 = 0 then
        let tBackup := 1 / 2 - (t - ((tLeg : K) - 1) * (1 / 2))
        match predecessors e.cubes c with
        | .ok (p :: _) => .ok fun i => (c i : K) + 1 / 2 + tBackup * ((p i : K) - (c i : K))
        | .ok [] => .error .stopIteration
        | .error err => .error err
      else
        let tForward := t - ((tLeg : K) - 1) * (1 / 2)
        match successors e.cubes c with
        | .ok (s :: _) => .ok fun i => (c i : K) + 1 / 2 + tForward * ((s i : K) - (c i : K))
        | .ok [] => .error .stopIteration
        | .error err => .error err

omit [FloorRing K] in
/-- `x < 0.0` for a distance. -/
def distNeg (d : WithTop K) : Bool := decide (d < 0)

/-- envs.py:660-695, one pass of the loop of `is_motion_valid` over `(start, start_cube)`. `none` for `start` stands for
a vector with nan and inf entries: it arises when a coordinate difference is zero and `t` is `inf`; every later `t` is then
nan, and the final wall lookup fails. -/
def motionBody (e : GrayCodeWalls K n) (goal : Fin (n + 1) → K) (goalCube : Fin (n + 1) → ℤ) (forward : Bool)
    (st : Option (Fin (n + 1) → K) × (Fin (n + 1) → ℤ)) :
    Step (Option (Fin (n + 1) → K) × (Fin (n + 1) → ℤ)) (Except PyErr Bool) :=
  let startCube := st.2
  if startCube = goalCube then
    -- line 698
    match st.1 with
    | none => .done (.error .key)
    | some start =>
      match distanceToWall e start, distanceToWall e goal with
      | .ok d1, .ok d2 => .done (.ok (!distNeg d1 && !distNeg d2))
      | .ok d1, .error err => if distNeg d1 then .done (.ok false) else .done (.error err)
      | .error err, _ => .done (.error err)
  else
    match (if forward then successors e.cubes startCube else predecessors e.cubes startCube) with
    | .error err => .done (.error err)
    | .ok [] => .done (.error .stopIteration)
    | .ok (nextCube :: _) =>
      match dirIndex (fun i => nextCube i - startCube i) with
      | .error err => .done (.error err)
      | .ok j =>
        match st.1 with
        | none => .done (.ok false)
        | some start =>
          let between : K := ((startCube j : K) + 1 / 2 + ((goalCube j : K) + 1 / 2)) / 2
          let num := between - start j
          let den := goal j - start j
          if den = 0 then
            if num ≤ 0 then .done (.ok false)
            else
              match distanceToWallInCube e startCube start with
              | .error err => .done (.error err)
              | .ok d => if distNeg d then .done (.ok false) else .next (none, nextCube)
          else
            let t := num / den
            if t ≤ 0 then .done (.ok false)
            else
              let m : Fin (n + 1) → K := fun i => (goal i - start i) * t + start i
              match distanceToWallInCube e startCube start, distanceToWallInCube e startCube m with
              | .ok d1, .ok d2 => if distNeg d1 || distNeg d2 then .done (.ok false) else .next (some m, nextCube)
              | .error err, _ => .done (.error err)
              | .ok d1, .error err => if distNeg d1 then .done (.ok false) else .done (.error err)

/-- envs.py:647-698 `is_motion_valid`. The graph is a simple path, so the values of `nx.dfs_successors` from the start cube
are the singletons of the cubes behind it; an unknown start cube raises. -/
def isMotionValid (e : GrayCodeWalls K n) (start goal : Fin (n + 1) → K) (fuel : ℕ) : Option (Except PyErr Bool) :=
  let startCube := floorCube start
  let goalCube := floorCube goal
  if startCube ∉ e.cubes then some (.error .key)
  else
    let forward := decide (goalCube ∈ (e.cubes.dropWhile (· ≠ startCube)).tail)
    loop (motionBody e goal goalCube forward) fuel (some start, startCube)

end Verif.Gray
