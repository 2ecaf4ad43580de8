import Mathlib.Data.Set.Basic
import Mathlib.Data.List.Nodup
import Verif.Model.Strips

/-! Consistent worlds and orderings of actions, in the vocabulary of the planning domains. -/

namespace Verif.Spec

open Verif.Strips

/-- The rover is at exactly one configuration; its hand is free or holds exactly one object; each target is held or at exactly one pose. -/
structure RoverConsistent {α : Type} (rover : α) (s : Set (RoverFact α)) : Prop where
  conf : ∃ q, .atConf rover q ∈ s ∧ ∀ v q', .atConf v q' ∈ s → v = rover ∧ q' = q
  hand : (.hfree ∈ s ∧ ∀ o, .holding o ∉ s) ∨ (.hfree ∉ s ∧ ∃ o, .holding o ∈ s ∧ ∀ o', .holding o' ∈ s → o' = o)
  target : ∀ o, .target o ∈ s → (.holding o ∈ s ∧ ∀ p, .atPose o p ∉ s) ∨ (.holding o ∉ s ∧ ∃ p, .atPose o p ∈ s ∧ ∀ p', .atPose o p' ∈ s → p' = p)

/-- The arm is at exactly one configuration; the hand is empty or holds exactly one object with one grasp; each of the bodies is held or at
exactly one pose. -/
structure KukaConsistent {α : Type} (bodies : List α) (s : Set (KukaFact α)) : Prop where
  conf : ∃ q, .atConf q ∈ s ∧ ∀ q', .atConf q' ∈ s → q' = q
  hand : (.handEmpty ∈ s ∧ ∀ o g, .atGrasp o g ∉ s) ∨
    (.handEmpty ∉ s ∧ ∃ o g, .atGrasp o g ∈ s ∧ ∀ o' g', .atGrasp o' g' ∈ s → o' = o ∧ g' = g)
  body : ∀ o ∈ bodies, ((∃ g, .atGrasp o g ∈ s) ∧ ∀ p, .atPose o p ∉ s) ∨
    ((∀ g, .atGrasp o g ∉ s) ∧ ∃ p, .atPose o p ∈ s ∧ ∀ p', .atPose o p' ∈ s → p' = p)

/-- The arm moves. -/
def IsMove {α : Type} : KukaAction α → Prop
  | .moveFree .. | .moveHolding .. | .moveInsert .. => True
  | _ => False

/-- Something is picked up or put down. -/
def IsTransfer {α : Type} : KukaAction α → Prop
  | .pick .. | .place .. => True
  | _ => False

/-- All configurations and all poses of the problem, and the bodies, are different objects. -/
structure KukaDistinct {α : Type} (p : KukaProblem α) : Prop where
  bodies : (p.bodies.map KukaBody.body).Nodup
  confs : (p.bodies.flatMap fun b => b.conf :: match b.insert with
    | none => []
    | some (_, _, _, qpre, qpost) => [qpre, qpost]).Nodup
  poses : (p.bodies.flatMap fun b => b.pose :: match b.insert with
    | none => []
    | some (_, post, pre, _, _) => [post, pre]).Nodup

end Verif.Spec
