import Verif.Model.Jobs

/-! What is expected of the experiment scripts. -/

namespace Verif.Spec

open Verif.Jobs

/-- The directory belongs to an experiment with this name: the name, an underscore and a time. -/
def Named {α : Type*} (name : Name) (d : Dir α) : Prop := ∃ stamp : Name, d.path = name ++ '_' :: stamp

/-- Directory `d` is the most recently modified one among those that satisfy `P`. -/
def Newest {α : Type*} (dirs : List (Dir α)) (P : Dir α → Prop) (d : Dir α) : Prop := d ∈ dirs ∧ P d ∧ ∀ d' ∈ dirs, P d' → d'.mtime ≤ d.mtime

end Verif.Spec
