import Mathlib.Analysis.SpecialFunctions.Pow.Real
import Verif.Model.Py

/-!
Model of the nearest-neighbour back ends (ann.py). The libraries `kgraph` and `pynndescent` are parameters. Coordinates are real
numbers: the rounding to float32 is in `Verif.Model.FloatAnn`. `line.split()` is taken to have been done: a line of the text file is its list of
tokens.
-/

namespace Verif.Ann

/-- A two-dimensional numpy array: the number of columns and the rows. -/
structure Arr where
  cols : ℕ
  rows : List (List ℝ)

/-- All rows have the length of the shape. -/
def Arr.Wf (a : Arr) : Prop := ∀ r ∈ a.rows, r.length = a.cols

/-- `np.ceil(given_dim / 4).astype(int) * 4` (ann.py:51). -/
def embeddedDim (d : ℕ) : ℕ := ⌈(d : ℚ) / 4⌉₊ * 4

/-- Assigning a row to the first columns of a row of zeros of width `c` (ann.py:52-53, 89-92). -/
def padRow (c : ℕ) (r : List ℝ) : List ℝ := r ++ List.replicate (c - r.length) 0

/-- `embedded_data` (ann.py:50-53). -/
def embed (data : Arr) : Arr := ⟨embeddedDim data.cols, data.rows.map (padRow (embeddedDim data.cols))⟩

/-- `l[::2]`; then `line[1::2]` is `evens (line.drop 1)` and `line[2::2]` is `evens (line.drop 2)`. -/
def evens {α : Type*} : List α → List α
  | [] => []
  | [a] => [a]
  | a :: _ :: l => a :: evens l

/-- What the kgraph library and the number parsers give: `text data k` is the saved file, as lines of tokens. -/
structure KGraphLib (Tok : Type) where
  text : Arr → ℕ → List (List Tok)
  int : Tok → Option ℕ
  float : Tok → Option ℝ

variable {Tok : Type}

/-- `np.array(rows, dtype=...)` of a list of token lists: all rows must have the same length and all tokens must parse, else
ValueError. -/
def toArray {α : Type} (parse : Tok → Option α) (rows : List (List Tok)) : Except PyErr (List (List α)) :=
  if ∀ r ∈ rows, ∀ r' ∈ rows, r.length = r'.length then
    match rows.mapM fun r => r.mapM parse with
    | some t => .ok t
    | none => .error .value
  else .error .value

/-- Parsing the text file (ann.py:62-79). -/
noncomputable def parse (lib : KGraphLib Tok) (k : ℕ) (lines : List (List Tok)) :
    Except PyErr (List (List ℕ) × List (List ℝ)) := do
  let edges := (lines.drop 1).map fun line => (evens (line.drop 1)).take k
  let dists := (lines.drop 1).map fun line => (evens (line.drop 2)).take k
  let e ← toArray lib.int edges
  let d ← toArray lib.float dists
  return (e, d.map fun r => r.map fun x => Real.sqrt (x * 2))

/-- A `KGraphANN` object (ann.py:40-45). -/
structure KGraph where
  k : Option ℕ
  data : Arr

/-- `KGraphANN.__init__`; the embedded data are `None` there, which no code reads while `k_neighbors` is `None`. -/
def KGraph.init : KGraph := ⟨none, ⟨0, []⟩⟩

/-- `KGraphANN.new_graph_from_data` (ann.py:47-79). -/
noncomputable def KGraph.newGraph (lib : KGraphLib Tok) (_s : KGraph) (data : Arr) (k : ℕ) :
    KGraph × Except PyErr (List (List ℕ) × List (List ℝ)) :=
  (⟨some k, embed data⟩, parse lib k (lib.text (embed data) k))

/-- `KGraphANN.update_graph_with_data` (ann.py:81-94). An array that is too wide cannot be assigned: ValueError. (The broadcast of a
single column into zero columns is left out.) -/
noncomputable def KGraph.update (lib : KGraphLib Tok) (s : KGraph) (fresh : Arr) :
    KGraph × Except PyErr (List (List ℕ) × List (List ℝ)) :=
  match s.k with
  | none => (s, .error .runtime)
  | some k =>
    if s.data.cols < fresh.cols then (s, .error .value)
    else s.newGraph lib ⟨s.data.cols, s.data.rows ++ fresh.rows.map (padRow s.data.cols)⟩ k

/-- The pynndescent library: building an index, updating it, reading its neighbour graph. -/
structure PynnLib (Index : Type) where
  build : Arr → ℕ → Index
  update : Index → Arr → Index
  graph : Index → List (List ℕ) × List (List ℝ)

/-- `PyNNDescentANN.new_graph_from_data` (ann.py:101-112). -/
def Pynn.newGraph {Index : Type} (lib : PynnLib Index) (_s : Option Index) (data : Arr) (k : ℕ) :
    Option Index × Except PyErr (List (List ℕ) × List (List ℝ)) :=
  (some (lib.build data k), .ok (lib.graph (lib.build data k)))

/-- `PyNNDescentANN.update_graph_with_data` (ann.py:114-121). -/
def Pynn.update {Index : Type} (lib : PynnLib Index) (s : Option Index) (fresh : Arr) :
    Option Index × Except PyErr (List (List ℕ) × List (List ℝ)) :=
  match s with
  | none => (s, .error .runtime)
  | some i => (some (lib.update i fresh), .ok (lib.graph (lib.update i fresh)))

/-- The two back ends. -/
inductive BackEnd where
  | pynndescent
  | kgraph
deriving DecidableEq

/-- `get_ann` (ann.py:124-141). -/
def getAnn (kgraphAvailable : Bool) (name : String) : Except PyErr BackEnd :=
  if name = "pynndescent" then .ok .pynndescent
  else if name = "kgraph" then (if kgraphAvailable then .ok .kgraph else .ok .pynndescent)
  else .error .notImplemented

/-- A call of one of the two methods. -/
inductive Call where
  | new (data : Arr) (k : ℕ)
  | update (fresh : Arr)

/-- An object after a sequence of calls (raised exceptions are caught by the caller). -/
noncomputable def KGraph.after (lib : KGraphLib Tok) (calls : List Call) : KGraph :=
  calls.foldl (fun s c => match c with
    | .new data k => (s.newGraph lib data k).1
    | .update fresh => (s.update lib fresh).1) KGraph.init

/-- The same for pynndescent. -/
def Pynn.after {Index : Type} (lib : PynnLib Index) (calls : List Call) : Option Index :=
  calls.foldl (fun s c => match c with
    | .new data k => (Pynn.newGraph lib s data k).1
    | .update fresh => (Pynn.update lib s fresh).1) none

end Verif.Ann
