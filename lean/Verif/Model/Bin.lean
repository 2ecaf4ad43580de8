import Mathlib.Algebra.Order.Field.Basic
import Mathlib.Data.List.FinRange
import Mathlib.Data.List.Sort
import Mathlib.Data.Fin.VecNotation

/-!
Model of the containers of the kuka experiment: their geometry, their arrangement, and the clearance computed from them. Lengths are
elements of an ordered field; rounding is not modelled.
-/

namespace Verif.Bin

variable {K : Type*} [Field K] [LinearOrder K]

/-- An axis-parallel box, given by its center and its half extents (`pbu.OOBB` of a box geometry with an unrotated pose). -/
structure Link (K : Type*) where
  center : Fin 3 → K
  half : Fin 3 → K

/-- `create_hollow_shapes` (kuka_carry/run.py:269-294): for each index in turn and each of its signs in ascending order a slab of the given
thickness. `get_box_geometry` halves the extents. The lengths are floats: with integer lengths numpy would round the thickness. -/
def hollowShapes (indices : Fin 3 → List ℤ) (dims : Fin 3 → K) (thickness : K) : List (Link K) :=
  (List.finRange 3).flatMap fun index =>
    ((indices index).insertionSort (· ≤ ·)).map fun sign : ℤ =>
      { center := fun j => (if j = 2 then dims 2 / 2 else 0) + (if j = index then (sign : K) * (dims index - thickness) / 2 else 0)
        half := fun j => (if j = index then thickness else dims j) / 2 }

/-- `SHAPE_INDICES` (run.py:423-430); `cubby` to `y_walls`. -/
def tray : Fin 3 → List ℤ := ![[-1, 1], [-1, 1], [-1]]
@[inherit_doc tray] def bin : Fin 3 → List ℤ := ![[-1, 1], [-1, 1], [-1]]
@[inherit_doc tray] def cubby : Fin 3 → List ℤ := ![[-1], [-1, 1], [-1, 1]]
@[inherit_doc tray] def fence : Fin 3 → List ℤ := ![[-1, 1], [-1, 1], []]
@[inherit_doc tray] def xWalls : Fin 3 → List ℤ := ![[-1, 1], [], [-1]]
@[inherit_doc tray] def yWalls : Fin 3 → List ℤ := ![[], [-1, 1], [-1]]

/-- `pbu.multiply(bin_pose, local_oobb[1])` for the unrotated pose of a bin (run.py:540-545). -/
def Link.moved (at' : Fin 3 → K) (l : Link K) : Link K := { l with center := fun j => at' j + l.center j }

/-- Index of the placement surface of a sink (run.py:559). -/
def bottomLink : ℕ := 4

/-- `hallway_size` (run.py:141-145) from the boxes of the two walls `WALL_LINK_1 = 0` and `WALL_LINK_2 = 2`; `none`: IndexError. -/
def hallway (links : List (Link K)) : Option K :=
  match links[0]?, links[2]? with
  | some w1, some w2 => some (w2.center 0 + w2.half 0 - w1.center 0 + -w1.half 0)
  | _, _ => none

/-- `delta` (run.py:155) for an object whose bounding box reaches from `lower` to `upper` in the first coordinate. -/
def delta (hallwaySize lower upper buffer : K) : K := hallwaySize - ((upper - lower) + buffer) / 2

/-- Outer width of the containers (run.py:526-527), `min_gap` being the option `--delta`. -/
def containerWidth (minGap : K) : K := 6 / 100 + minGap

/-- Width of the largest object (run.py:514, 523). -/
def largestObject : K := 6 / 100

/-- Wall thickness: default of `create_hollow_shapes` (run.py:269), used by `load_world`. -/
def wallThickness : K := 1 / 100

/-- Positions of the bins (run.py:529-536): `itertools.product` of the two grids, shifted. -/
def binPositions (nx ny : ℕ) (width length cx cy : K) : List (Fin 3 → K) :=
  (List.range nx).flatMap fun i : ℕ => (List.range ny).map fun j : ℕ => ![(i : K) * width + cx, (j : K) * length + cy, 0]

/-- `bin_center` (run.py:533). -/
def binCenter (ny : ℕ) (length : K) : K × K := (-68 / 100, -(length * ((ny : K) - 1)) / 2)

/-- `'sink' in name`. -/
def isSinkName (name : String) : Bool := name.toList.tails.any fun t => "sink".toList.isPrefixOf t

/-- `sinks` (run.py:333): the fixed bodies with "sink" in their name; `fixed` is the stove followed by the bins (run.py:562). -/
def sinks {B : Type*} (name : B → String) (stove : B) (bins : List B) : List B := (stove :: bins).filter fun b => isSinkName (name b)

/-- The pairs of `for body, sink in zip(movable, sinks)` (run.py:359), which decide where each body is inserted. -/
def targets {B : Type*} (name : B → String) (stove : B) (bins movable : List B) : List (B × B) := movable.zip (sinks name stove bins)

/-- `body_obstacle_map` (run.py:402): a dictionary from `zip(movable, sink_obstacle_oobbs)`; the last entry for a key counts. -/
def obstacleMap {B O : Type*} [DecidableEq B] (movable : List B) (boxes : List O) (body : B) : Option O :=
  ((movable.zip boxes).reverse.find? fun x => x.1 = body).map Prod.snd

end Verif.Bin
