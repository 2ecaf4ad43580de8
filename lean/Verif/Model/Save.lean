import Verif.Model.Prm

/-!
Model of `SimplePRM.save` (nonasymptotic/prm.py:168-178). The networkit binary format keeps node ids, edges and weights, the numpy format
keeps the array; both are external.
-/

namespace Verif.Prm

variable {P K : Type*}

/-- What a file holds. -/
inductive File (P K : Type*) where
  | graph (g : NkGraph K)
  | array (S : List P)
deriving DecidableEq

/-- The files that `save` writes, in order, and how it ends (prm.py:168-178); `RuntimeWarning` is raised, not warned. -/
def save (samples : Option (List P)) (graph : Option (NkGraph K)) (path : String) : List (String × File P K) × Except PyErr Unit :=
  match graph with
  | none => ([], .error .runtime)
  | some g =>
    match samples with
    | none => ([(path ++ ".nkb", .graph g)], .ok ())
    | some S => ([(path ++ ".nkb", .graph g), (path ++ ".npy", .array S)], .ok ())

end Verif.Prm
