import Verif.Model.KukaWorld

/-!
Model of the part of kuka_carry's `main` around the solver (run.py:638-696): worlds are loaded until a problem can be made of one, the world
is saved, and restored after solving.

Simplifications: a new world has the same names for its bodies as the one before (PyBullet gives new numbers), the bodies that
`load_world` creates stand where `loaded` says, and the loops of `load_world` take at most `fuel` passes.
-/

namespace Verif.KukaWorld

variable {B P C G : Type*} [DecidableEq B] [Group P]

/-- What is given: simulator, approach offset, lift, grasps, fixed bodies, the stove, objects, pairs of object and sink, poses of newly
loaded bodies, joints of the loaded robot, `DEFAULT_ARM_POS`. -/
structure Setup (B P C G : Type*) where
  sim : Sim B P C G
  approach : P
  lift : P
  grasp : B → P
  fixed : List B
  stove : B
  movable : List B
  pairs : List (B × B)
  loaded : B → P
  robotLoaded : C
  arm : C

/-- What is known when a problem was made: the saved world, the facts with the initial configuration, and the world as it is then. -/
structure Ready (B P C : Type*) where
  saved : World B P C
  startConf : C
  starts : List (Start B P C)
  inserts : List (Insert B P C)
  now : World B P C

/-- One pass of the loop (run.py:638-676). `load_world` begins with new bodies; the random numbers go on. Outcomes: the loops of `load_world`
do not end within `fuel` passes; an error; no problem, so that all bodies are removed; a problem. -/
noncomputable def attempt (u : Setup B P C G) (fuel drawn : ℕ) : Option (Except PyErr (ℕ ⊕ Ready B P C)) :=
  match placeAll u.sim u.approach u.grasp u.fixed u.stove fuel u.movable [] ⟨u.loaded, u.robotLoaded, drawn⟩ with
  | none => none
  | some saved =>
    let w : World B P C := { saved with conf := u.arm }
    match startFacts u.sim u.approach u.grasp u.fixed u.movable w with
    | (w, none) => some (.ok (.inl w.drawn))
    | (w, some starts) =>
      match insertFacts u.sim u.approach u.lift u.grasp u.fixed u.pairs w with
      | (_, .error e) => some (.error e)
      | (w, .ok none) => some (.ok (.inl w.drawn))
      | (w, .ok (some inserts)) => some (.ok (.inr ⟨saved, u.arm, starts, inserts, w⟩))

/-- The loop (run.py:638-676), at most `k` passes. -/
noncomputable def setup (u : Setup B P C G) (fuel : ℕ) : ℕ → ℕ → Option (Except PyErr (Ready B P C))
  | 0, _ => none
  | k + 1, drawn =>
    match attempt u fuel drawn with
    | none => none
    | some (.error e) => some (.error e)
    | some (.ok (.inl drawn)) => setup u fuel k drawn
    | some (.ok (.inr r)) => some (.ok r)

/-- `saver.restore()` (run.py:645, 688): poses and joints as they were; the random numbers go on. -/
def restore (saver w : World B P C) : World B P C := { saver with drawn := w.drawn }

/-- The world in which the plan is executed (run.py:688-696): whatever the solver and its streams did before (`after`), the saved world is
restored, then the arm is moved to `DEFAULT_ARM_POS`. -/
def beforeExecution (u : Setup B P C G) (r : Ready B P C) (after : World B P C) : World B P C := { restore r.saved after with conf := u.arm }

end Verif.KukaWorld
