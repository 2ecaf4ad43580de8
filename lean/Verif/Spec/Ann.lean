import Verif.Model.Ann

/-! Specification of the nearest-neighbour back ends. -/

namespace Verif.Ann

/-- Half the squared Euclidean distance, which is what kgraph writes. -/
noncomputable def halfSq (a b : List ℝ) : ℝ := ((List.zipWith (fun x y => (x - y) ^ 2) a b).sum) / 2

/-- Euclidean distance. -/
noncomputable def euclid (a b : List ℝ) : ℝ := Real.sqrt ((List.zipWith (fun x y => (x - y) ^ 2) a b).sum)

/-- `line` is what kgraph writes for one point with the neighbours `pairs`: their number, then ids and distances interleaved. -/
inductive WrittenPairs {Tok : Type} (lib : KGraphLib Tok) : List Tok → List (ℕ × ℝ) → Prop
  | nil : WrittenPairs lib [] []
  | cons {a b : Tok} {i : ℕ} {d : ℝ} {l : List Tok} {ps : List (ℕ × ℝ)} (ha : lib.int a = some i) (hb : lib.float b = some d)
      (h : WrittenPairs lib l ps) : WrittenPairs lib (a :: b :: l) ((i, d) :: ps)

/-- `lines` is a file with a first line and then one line per point. -/
def Written {Tok : Type} (lib : KGraphLib Tok) (lines : List (List Tok)) (neighbours : List (List (ℕ × ℝ))) : Prop :=
  ∃ header rest, lines = header :: rest ∧
    List.Forall₂ (fun line ps => ∃ count l, line = count :: l ∧ WrittenPairs lib l ps) rest neighbours

/-- A table with `k` neighbours and their Euclidean distances for every row. -/
def KTable (k : ℕ) (data : Arr) (t : List (List ℕ) × List (List ℝ)) : Prop :=
  t.1.length = data.rows.length ∧ t.2.length = data.rows.length ∧
    ∀ (i : ℕ) (ids : List ℕ) (ds : List ℝ), t.1[i]? = some ids → t.2[i]? = some ds →
      ids.length = k ∧ (∀ j ∈ ids, j < data.rows.length) ∧ ds = ids.map fun j => euclid (data.rows[i]?.getD []) (data.rows[j]?.getD [])

/-- What is expected of pynndescent: an index holds data and a number of neighbours, updating appends to the data, and the neighbour graph is a table for the data. -/
structure PynnKeeps {Index : Type} (lib : PynnLib Index) (holds : Index → Arr → ℕ → Prop) : Prop where
  build : ∀ data k, holds (lib.build data k) data k
  update : ∀ i data k fresh, holds i data k → fresh.cols = data.cols → holds (lib.update i fresh) ⟨data.cols, data.rows ++ fresh.rows⟩ k
  graph : ∀ i data k, holds i data k → KTable k data (lib.graph i)

end Verif.Ann
