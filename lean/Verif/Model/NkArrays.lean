import Verif.Model.Graph

/-!
How networkit's edge generator runs over its adjacency arrays while edges are removed. networkit is external and this is our reading
of its source (`EdgeIteratorBase`, `Graph::removeEdge`): an edge is reported at its smaller end; removing an entry moves the last
entry of the array into its place. Used to show what the assumption `World.VisitsAll`
rules out, and that `World.VisitsExisting` can be met.
-/

namespace Verif.Prm

variable {K : Type*} [LinearOrder K]

/-- Adjacency arrays: entry `u` lists the neighbours of `u` with weights. -/
abbrev Adjacency (K : Type*) := List (List (ℕ × K))

/-- Append an entry to the array of `u`. -/
def pushAt (a : Adjacency K) (u : ℕ) (x : ℕ × K) : Adjacency K := a.modify u (· ++ [x])

/-- The arrays after adding the edges in order; a self-loop has one entry. -/
def arraysOf (n : ℕ) (E : List (Edge K)) : Adjacency K :=
  E.foldl (fun a e => if e.u = e.v then pushAt a e.u (e.v, e.w) else pushAt (pushAt a e.u (e.v, e.w)) e.v (e.u, e.w))
    (List.replicate n [])

/-- `erase`: the last entry moves to the place of the removed one. -/
def swapErase (l : List (ℕ × K)) (i : ℕ) : List (ℕ × K) :=
  match l.getLast? with
  | none => l
  | some x => (l.set i x).dropLast

/-- `removeEdge(u, v)` when the entry of `v` in the array of `u` is at `i`. -/
def arraysRemove (a : Adjacency K) (u v i : ℕ) : Adjacency K :=
  let a' := a.modify u (swapErase · i)
  if u = v then a' else a'.modify v fun l => swapErase l (l.findIdx (·.1 == u))

/-- The edges reported from position `(u, i)` on, those of weight at least `r` being removed on the way. -/
def arrayRun (r : K) : ℕ → Adjacency K → ℕ → ℕ → List (Edge K)
  | 0, _, _, _ => []
  | fuel + 1, a, u, i =>
    match a[u]? with
    | none => []
    | some l =>
      match l[i]? with
      | none => arrayRun r fuel a (u + 1) 0
      | some (v, x) =>
        if v < u then arrayRun r fuel a u (i + 1)
        else ⟨u, v, x⟩ :: arrayRun r fuel (if r ≤ x then arraysRemove a u v i else a) u (i + 1)

/-- The edges that the generator yields. -/
def arrayVisits (E : List (Edge K)) (r : K) : List (Edge K) :=
  let n := (E.map fun e => max e.u e.v + 1).foldl max 0
  arrayRun r (2 * E.length + n + 1) (arraysOf n E) 0 0

end Verif.Prm
