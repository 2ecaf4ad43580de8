import Verif.Model.Ann
import Verif.Model.Float32

/-!
The kgraph back end with its single precision (ann.py:47-94): data and distances are rounded to binary32. The data given are float64 arrays, whose numbers are real
numbers here; what the library computes, prints and reads back as text is the parameter `lib`.
-/

namespace Verif.Ann

open Verif

variable {Tok : Type}

/-- `data.astype('float32')` (ann.py:53). -/
noncomputable def Arr.single (a : Arr) : Arr := ⟨a.cols, a.rows.map (·.map Float32.fl)⟩

/-- Parsing the text file (ann.py:62-79): the distances become a float32 array, and doubling it and taking roots give float32 arrays again. -/
noncomputable def parse32 (lib : KGraphLib Tok) (k : ℕ) (lines : List (List Tok)) :
    Except PyErr (List (List ℕ) × List (List ℝ)) := do
  let edges := (lines.drop 1).map fun line => (evens (line.drop 1)).take k
  let dists := (lines.drop 1).map fun line => (evens (line.drop 2)).take k
  let e ← toArray lib.int edges
  let d ← toArray lib.float dists
  return (e, d.map fun r => r.map fun x => Float32.fl (Real.sqrt (Float32.fl (Float32.fl x * 2))))

/-- `KGraphANN.new_graph_from_data` (ann.py:47-79). The rounded rows are put into a float64 array of zeros. -/
noncomputable def KGraph.newGraph32 (lib : KGraphLib Tok) (_s : KGraph) (data : Arr) (k : ℕ) :
    KGraph × Except PyErr (List (List ℕ) × List (List ℝ)) :=
  (⟨some k, embed data.single⟩, parse32 lib k (lib.text (embed data.single) k))

/-- `KGraphANN.update_graph_with_data` (ann.py:81-94): the fresh rows are not rounded before they are put behind the old ones. -/
noncomputable def KGraph.update32 (lib : KGraphLib Tok) (s : KGraph) (fresh : Arr) :
    KGraph × Except PyErr (List (List ℕ) × List (List ℝ)) :=
  match s.k with
  | none => (s, .error .runtime)
  | some k =>
    if s.data.cols < fresh.cols then (s, .error .value)
    else s.newGraph32 lib ⟨s.data.cols, s.data.rows ++ fresh.rows.map (padRow s.data.cols)⟩ k

/-- An object after a sequence of calls (raised exceptions are caught by the caller) (ann.py:40-94). -/
noncomputable def KGraph.after32 (lib : KGraphLib Tok) (calls : List Call) : KGraph :=
  calls.foldl (fun s c => match c with
    | .new data k => (s.newGraph32 lib data k).1
    | .update fresh => (s.update32 lib fresh).1) KGraph.init

end Verif.Ann
