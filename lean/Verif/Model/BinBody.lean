import Verif.Model.Bin
import Verif.Model.Py
import Mathlib.Algebra.Group.TypeTags.Basic
import Mathlib.Algebra.Group.Pi.Basic

/-!
Model of the bodies that the kuka experiment creates for its containers in PyBullet (kuka_carry/run.py:432-505, 528-551).

A pose is an element of a group, `pbu.multiply` is its product. Colours, masses and joint axes are left out (all masses are 0, all joints
fixed), and so is the visual shape, which has the size of the collision shape. PyBullet is modelled as documented: the position of a link is
relative to its parent, and parent `0` is the base, parent `i` the link `i - 1`.
-/

namespace Verif.Bin

variable {G S : Type*} [Group G]

/-- An argument of `p.createMultiBody` for one link: `linkParentIndices`, `linkPositions` with `linkOrientations`, `linkCollisionShapeIndices`. -/
structure LinkSpec (G S : Type*) where
  parent : ℕ
  rel : G
  shape : S

/-- A body of the simulator. The base has no shape (run.py:445-446). -/
structure MultiBody (G S : Type*) where
  base : G
  links : List (LinkSpec G S)

/-- Poses of the base and of the links: the pose of the parent times the relative pose. -/
def MultiBody.frames (b : MultiBody G S) : List G :=
  b.links.foldl (fun fs l => fs ++ [fs[l.parent]?.getD b.base * l.rel]) [b.base]

/-- Shape and pose of link `i` as the simulator has it (`p.getLinkState`, `p.getCollisionShapeData`). -/
def MultiBody.link (b : MultiBody G S) (i : ℕ) : Option (S × G) :=
  match b.links[i]?, b.frames[i + 1]? with
  | some l, some f => some (l.shape, f)
  | _, _ => none

/-- `create_link_body` (run.py:432-494): one link per geometry, all with parent index 0, the base at the origin. -/
def createLinkBody (geoms : List S) (poses : List G) : Except PyErr (MultiBody G S) :=
  if geoms.length = poses.length then
    .ok ⟨1, (geoms.zip poses).map fun x => ⟨0, x.2, x.1⟩⟩
  else .error .assertion

/-- `create_hollow` (run.py:498-505) for the shapes of `create_hollow_shapes`, which also are the boxes (run.py:288-293):
`zip(*shapes)` cannot be unpacked if there are no shapes. -/
def createHollow (shapes : List (S × G)) : Except PyErr (MultiBody G S × List (S × G)) :=
  match shapes with
  | [] => .error .value
  | _ => match createLinkBody (shapes.map Prod.fst) (shapes.map Prod.snd) with
    | .error e => .error e
    | .ok b => .ok (b, shapes)

/-- One container of `load_world` (run.py:538-550): the body, moved to its pose by `set_pose`, and its boxes. -/
def loadBin (shapes : List (S × G)) (pose : G) : Except PyErr (MultiBody G S × List (S × G)) :=
  match createHollow shapes with
  | .error e => .error e
  | .ok (b, boxes) => .ok ({ b with base := pose }, boxes.map fun x => (x.1, pose * x.2))

/-- The containers of `load_world` (run.py:537-550), each with its boxes. -/
def loadBins (shapes : List (S × G)) (poses : List G) : Except PyErr (List (MultiBody G S × List (S × G))) :=
  poses.mapM (loadBin shapes)

/-- The shapes of `create_hollow_shapes` with their unrotated poses. -/
def shapesOf {K : Type*} (links : List (Link K)) : List ((Fin 3 → K) × Multiplicative (Fin 3 → K)) :=
  links.map fun l => (l.half, .ofAdd l.center)

/-- `placement_links` (run.py:559): the link on which objects are put, if any. -/
def placementLink (name : String) : Option ℕ := if isSinkName name then some bottomLink else none

end Verif.Bin
