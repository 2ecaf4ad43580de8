import Verif.Model.Prm

/-!
Model of `query_all_graph_connections`, `_compute_spsp` and `_distance_in_graph` (prm.py:94-116, 179-194, 310-311, 503-510, 612-620).
The all-pairs shortest-path routine of networkit (`SPSP`) is the parameter `D`: the distance it computes between two vertices.
-/

namespace Verif.Prm

variable {P K : Type} [LinearOrder K]

/-- `np.tile(ids, m)`. -/
def tile {α : Type*} (ids : List α) (m : ℕ) : List α := (List.replicate m ids).flatten

/-- `np.repeat(ids, m)`. -/
def repeatEach {α : Type*} (ids : List α) (m : ℕ) : List α := ids.flatMap (List.replicate m)

/-- `prm_sols_in_and_outs` (prm.py:101-104), the rows of the transposed array. -/
def inAndOuts (sn gn : List ℕ) : List (ℕ × ℕ) := (tile sn gn.length).zip (repeatEach gn sn.length)

/-- Indexing an array with an array of indices: IndexError if one is out of range. -/
def takeAll {α : Type*} (l : List α) (ids : List ℕ) : Except PyErr (List α) :=
  ids.mapM fun i => match l[i]? with
    | some a => .ok a
    | none => .error .index

/-- What `_distance_in_graph` gives: an array, or an exception object that is returned and not raised. -/
inductive Distances (K : Type*) where
  | array (ds : List (WithTop K))
  | exceptionObject (e : PyErr)
deriving DecidableEq

/-- `query_all_graph_connections` (prm.py:94-116) after the two calls of `_query_samples`. -/
def queryAll (samples : List P) (sn gn : List ℕ) (distanceInGraph : List ℕ → List ℕ → Except PyErr (Distances K)) :
    Except PyErr (List (P × P) × Distances K × List (ℕ × ℕ)) := do
  let pairs := inAndOuts sn gn
  let ds ← distanceInGraph (pairs.map (·.1)) (pairs.map (·.2))
  let ins ← takeAll samples (pairs.map (·.1))
  let outs ← takeAll samples (pairs.map (·.2))
  return (ins.zip outs, ds, pairs)

/-- The pair `g_sp_lookup`, `sample_to_lookup_ind`. -/
structure Lookup (K : Type*) where
  rows : List (List (WithTop K))
  ind : List ℕ

/-- `sample_to_lookup_ind[samples_to_spsp] = np.arange(...)` on an array filled with `n_samples` (prm.py:188-192). -/
def lookupIndices (n : ℕ) (sel : List ℕ) : List ℕ := sel.zipIdx.foldl (fun a c => a.set c.1 c.2) (List.replicate n n)

/-- `_compute_spsp` (prm.py:179-194). -/
def computeSpsp (D : ℕ → ℕ → WithTop K) (n : ℕ) (sel : List ℕ) : Lookup K :=
  ⟨sel.map fun a => sel.map fun b => D a b, lookupIndices n sel⟩

/-- One entry of the lookup (prm.py:507-510, 617-620). -/
def Lookup.entry (l : Lookup K) (s g : ℕ) : Except PyErr (WithTop K) :=
  match l.ind[s]?, l.ind[g]? with
  | some i, some j =>
    match l.rows[i]? with
    | some row => match row[j]? with
      | some d => .ok d
      | none => .error .index
    | none => .error .index
  | _, _ => .error .index

/-- `_distance_in_graph` of the k-NN and the radius PRM (prm.py:503-510, 612-620); without a table `None` is subscripted. -/
def distanceInGraph (inMpExpMode : Bool) (l : Option (Lookup K)) (starts goals : List ℕ) : Except PyErr (Distances K) :=
  if inMpExpMode = false then .error .notImplemented
  else match l with
    | none => .error .type
    | some l => do
      let ds ← (starts.zip goals).mapM fun c => l.entry c.1 c.2
      return .array ds

/-- `_distance_in_graph` of the full radius PRM (prm.py:310-311) returns the exception instead of raising it. -/
def fullDistanceInGraph (_starts _goals : List ℕ) : Except PyErr (Distances K) := .ok (.exceptionObject .notImplemented)

/-- `np.arange(n_samples)[dist_samples_to_line <= r]` (prm.py:414-415, 446-447, 470-471, 596). -/
def nearPath (sdf : P → K) (samples : List P) (r : K) : List ℕ :=
  (samples.zipIdx.filter fun c => decide (sdf c.1 ≤ r)).map (·.2)

end Verif.Prm
