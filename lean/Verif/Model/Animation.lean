import Verif.Model.Py
import Mathlib.Data.List.Basic

/-!
Model of the animation of a roadmap and a solution (`animate_knn_prm`, nonasymptotic/prm.py:636-716).

A canvas holds what the artists show. Simplifications: axes limits, sizes and transparency are left out; `int(a / b)` is the rounded down
quotient (exact for numbers below 2 ^ 53); batch sizes are not negative. The animation is drawn without blitting, so the artists that
`update` returns do not matter. `FuncAnimation` draws the first frame once more before it begins.
-/

namespace Verif.Anim

variable {P : Type*}

/-- Colours of the artists. -/
inductive Colour where
  | blue | lime | red
deriving DecidableEq

/-- A frame (prm.py:656-676). -/
inductive Frame where
  | sampling (upTo : ℕ)
  | connecting (edges : List (ℕ × ℕ))
  | pathing (i : ℕ)
  | nonPathing
  | hold
deriving DecidableEq

/-- What is to be seen: the points, their colour, and the lines in the order in which they were drawn (prm.py:678-679). -/
structure Canvas (P : Type*) where
  points : List P
  pointColour : Colour
  lines : List ((P × P) × Colour)
deriving DecidableEq

/-- The empty canvas (prm.py:678-679). -/
def Canvas.empty : Canvas P := ⟨[], .blue, []⟩

/-- `all_edges[i * b:(i + 1) * b]` (prm.py:665). -/
def slice (l : List (ℕ × ℕ)) (b i : ℕ) : List (ℕ × ℕ) := (l.drop (i * b)).take b

/-- The frames (prm.py:653-676); `n` and `E` are the vertices and edges of the roadmap, `m` is the number of points of the solution. -/
def frames (n : ℕ) (E : List (ℕ × ℕ)) (m nodeBatches edgeBatches : ℕ) : Except PyErr (List Frame) :=
  if nodeBatches = 0 then .error .zeroDivision
  else if edgeBatches = 0 then .error .zeroDivision
  else
    let sampling := (List.range (n / nodeBatches + 1)).map fun i => Frame.sampling ((i + 1) * nodeBatches)
    let connecting := (List.range (E.length / edgeBatches + 1)).map fun i => Frame.connecting (slice E edgeBatches i)
    let path := if 0 < m then (List.range (m - 1)).map Frame.pathing else List.replicate 10 Frame.nonPathing
    .ok (sampling ++ connecting ++ path ++ List.replicate 20 Frame.hold)

/-- The loop over the edges of a frame (prm.py:689-694). -/
def drawEdges (S : List P) : List (ℕ × ℕ) → Canvas P → Except PyErr (Canvas P)
  | [], c => .ok c
  | e :: es, c => match S[e.1]?, S[e.2]? with
    | some u, some v => drawEdges S es { c with lines := c.lines ++ [((u, v), .blue)] }
    | _, _ => .error .index

/-- `update` (prm.py:681-714). -/
def update (S sol : List P) (c : Canvas P) : Frame → Except PyErr (Canvas P)
  | .sampling k => .ok { c with points := S.take k }
  | .connecting es => drawEdges S es c
  | .pathing i => match sol[i]?, sol[i + 1]? with
    | some u, some v => .ok { c with lines := c.lines ++ [((u, v), .lime)] }
    | _, _ => .error .index
  | .nonPathing => .ok { c with pointColour := .red, lines := c.lines.map fun l => (l.1, .red) }
  | .hold => .ok c

/-- Drawing frames one after the other. -/
def play (S sol : List P) : List Frame → Canvas P → Except PyErr (Canvas P)
  | [], c => .ok c
  | f :: fs, c => match update S sol c f with
    | .error e => .error e
    | .ok c' => play S sol fs c'

/-- The canvas after the whole animation (prm.py:716), the first frame being drawn once more at the beginning. -/
def animate (S : List P) (n : ℕ) (E : List (ℕ × ℕ)) (sol : List P) (nodeBatches edgeBatches : ℕ) : Except PyErr (Canvas P) :=
  match frames n E sol.length nodeBatches edgeBatches with
  | .error e => .error e
  | .ok fs => play S sol (fs.head?.toList ++ fs) .empty

end Verif.Anim
