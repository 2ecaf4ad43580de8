import Verif.Model.Commands

/-! Vocabulary for command lists. -/

namespace Verif.Spec

open Verif.Strips Verif.Commands

/-- The attach and detach commands of a list. -/
def grasps {α : Type} (l : List (RoverCommand α)) : List (RoverCommand α) :=
  l.filter fun c => match c with
    | .motion _ => false
    | _ => true

/-- The trajectories of a list. -/
def motions {α : Type} (l : List (RoverCommand α)) : List α :=
  l.filterMap fun c => match c with
    | .motion t => some t
    | _ => none

/-- Attach and detach alternate, and each detach is for the body of the attach before it and the same robot. -/
inductive Paired {α : Type} : List (RoverCommand α) → Prop where
  | none : Paired []
  | one (v o : α) : Paired [.attach v o]
  | more (v o : α) (l : List (RoverCommand α)) : Paired l → Paired (.attach v o :: .detach v o :: l)

/-- The commands of one action: drive along its trajectory, then take or release its object. -/
def commandsOf {α : Type} : RoverAction α → List (RoverCommand α)
  | .pick v _ t _ _ o => [.motion t, .attach v o]
  | .place v _ t _ _ o => [.motion t, .detach v o]

/-- Legs `(from, to)` that lead from `q` to `q'` without a gap. -/
def Linked {α : Type} (q : α) : List (α × α) → α → Prop
  | [], q' => q = q'
  | (a, b) :: legs, q' => a = q ∧ Linked b legs q'

/-- Each attach of the command adds a constraint that is not there yet, each detach removes one that is there. -/
def Tidy {B C J G L : Type} : List (Item B C J G L) → Set (B × B × L) → Prop
  | [], _ => True
  | .path _ :: c, s => Tidy c s
  | .attach b r l :: c, s => (b, r, l) ∉ s ∧ Tidy c {x | x ∈ s ∨ x = (b, r, l)}
  | .detach b r l :: c, s => (b, r, l) ∈ s ∧ Tidy c {x | x ∈ s ∧ x ≠ (b, r, l)}

end Verif.Spec
