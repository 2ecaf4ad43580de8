import Mathlib.Order.Basic
import Mathlib.Data.List.Basic

/-!
Reference model of the part of `networkit.Graph` that `nonasymptotic/prm.py` uses: an undirected weighted graph whose node ids
are never reused. networkit itself is external; this file is part of the trusted base.
-/

namespace Verif.Prm

/-- An undirected weighted edge. -/
structure Edge (K : Type*) where
  u : ℕ
  v : ℕ
  w : K
  deriving DecidableEq

/-- The edge joins `a` and `b`. -/
def Edge.joins {K : Type*} (e : Edge K) (a b : ℕ) : Bool := (e.u == a && e.v == b) || (e.u == b && e.v == a)

/-- The edge has the end `a`. -/
def Edge.touches {K : Type*} (e : Edge K) (a : ℕ) : Bool := e.u == a || e.v == a

/-- `nk.Graph`: ids below `bound` were handed out, those in `removed` were removed again; edges in order of insertion. -/
structure NkGraph (K : Type*) where
  bound : ℕ
  removed : List ℕ
  edges : List (Edge K)
  deriving DecidableEq

variable {K : Type*}

namespace NkGraph

/-- `nk.Graph(n, weighted=True)` (prm.py:144, 253). -/
def new (n : ℕ) : NkGraph K := ⟨n, [], []⟩

/-- `hasNode`. -/
def hasNode (g : NkGraph K) (v : ℕ) : Bool := v < g.bound && !g.removed.contains v

/-- `numberOfNodes()` (prm.py:163). -/
def numberOfNodes (g : NkGraph K) : ℕ := ((List.range g.bound).filter g.hasNode).length

/-- `numberOfEdges()` (prm.py:166). -/
def numberOfEdges (g : NkGraph K) : ℕ := g.edges.length

/-- `addNodes(k)`; for `k ≥ 1` it returns the last new id, which is `bound + k - 1` (prm.py:71, 577). -/
def addNodes (g : NkGraph K) (k : ℕ) : NkGraph K := { g with bound := g.bound + k }

/-- `hasEdge(u, v)` (prm.py:430). -/
def hasEdge (g : NkGraph K) (u v : ℕ) : Bool := g.edges.any (·.joins u v)

/-- `addEdge(u, v, w)` (prm.py:77, 80). networkit raises for an unknown node; C25 shows that all ids used exist. -/
def addEdge (g : NkGraph K) (u v : ℕ) (w : K) : NkGraph K := { g with edges := g.edges ++ [⟨u, v, w⟩] }

/-- `addEdge(u, v, w, checkMultiEdge=True)` (prm.py:155, 258): nothing happens if the edge exists. -/
def addEdgeOnce (g : NkGraph K) (u v : ℕ) (w : K) : NkGraph K := if g.hasEdge u v then g else g.addEdge u v w

/-- `removeEdge(u, v)` (prm.py:431, 458): removes one edge between `u` and `v`. -/
def removeEdge (g : NkGraph K) (u v : ℕ) : NkGraph K := { g with edges := g.edges.eraseP (·.joins u v) }

/-- `removeNode(v)` (prm.py:89, 90): the node and its edges disappear, the id is not reused. -/
def removeNode (g : NkGraph K) (v : ℕ) : NkGraph K :=
  { g with removed := v :: g.removed, edges := g.edges.filter (!·.touches v) }

/-- `GraphTools.merge(g, g')` (prm.py:581): adds the nodes of `g'` that `g` does not have (removed ids come back) and the edges
of `g'` that `g` does not have. -/
def merge (g g' : NkGraph K) : NkGraph K :=
  g'.edges.foldl (fun h e => h.addEdgeOnce e.u e.v e.w)
    { bound := max g.bound g'.bound
      removed := (List.range (max g.bound g'.bound)).filter fun v => !(g.hasNode v || g'.hasNode v)
      edges := g.edges }

end NkGraph

end Verif.Prm
