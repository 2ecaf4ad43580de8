import Mathlib.Order.Lattice
import Mathlib.Order.WithBot
import Mathlib.Algebra.Group.Defs
import Verif.Model.Py
import Verif.Model.Graph

/-!
Model of `nonasymptotic/prm.py`: the three roadmap classes as state machines. Everything the classes are given from outside is a
field of `World` and arbitrary: motion checker, sampler, distance, nearest-neighbour tables, shortest-path search and the order in
which the edge generator of networkit runs. A method returns the new object state (also when it raises) and its outcome.

Simplifications: sample counts and neighbour counts are natural numbers; `sdf_to_path` and the shortest-path tables of the
`in_mp_exp_mode` flag (off by default) are modelled apart from the state machines, in `Verif.Model.PrmTables`; `verbose` output and
the file name of the cache are dropped, the cache file itself is the field `cache`.
-/

namespace Verif.Prm

/-- Neighbour table of the ANN index: row `i` lists (neighbour id, reported distance); the two arrays `edge_arr`, `dist_arr` of the
code, zipped. -/
abbrev Table (K : Type*) := List (List (ℕ × K))

/-- What a PRM object is given from outside. -/
structure World (P K : Type*) where
  /-- `motion_validity_checker`, one row (prm.py:20). The vectorised call maps it over the rows. -/
  check : P → P → Bool
  /-- `valid_state_sampler`: the `i`-th state that the sampler returns (prm.py:21). -/
  draw : ℕ → P
  /-- `np.linalg.norm` of the difference. -/
  dist : P → P → K
  /-- `ann_builder.new_graph_from_data(samples, k)` (prm.py:396, 545, 589). -/
  knn : List P → ℕ → Table K
  /-- `ann.update_graph_with_data(new)` of an index holding the first argument, built with `k` (prm.py:576). -/
  knnUpdate : List P → List P → ℕ → Table K
  /-- `nk.distance.BidirectionalDijkstra(g, s, t)`: distance and inner vertices of the path (prm.py:82-86). -/
  shortest : List (Edge K) → ℕ → ℕ → WithTop K × List ℕ
  /-- The edges that `iterEdgesWeights()` yields while those of weight at least `r` are removed on the way (prm.py:462-464). -/
  visits : List (Edge K) → K → List (Edge K)

variable {P K : Type*} [LinearOrder K]

/-- The checker on two sample indices. -/
def World.accepts (w : World P K) (samples : List P) (i j : ℕ) : Bool :=
  match samples[i]?, samples[j]? with
  | some p, some q => w.check p q
  | _, _ => false

/-- The edge loop of prm.py:147-158 and 252-257: a graph on `n` vertices with the accepted candidates, each pair once. -/
def World.connect (w : World P K) (samples : List P) (n : ℕ) (cands : List (ℕ × ℕ × K)) : NkGraph K :=
  (cands.filter fun c => w.accepts samples c.1 c.2.1).foldl (fun g c => g.addEdgeOnce c.1 c.2.1 c.2.2) (NkGraph.new n)

/-- `starts`, `goals`, `dists` of prm.py:130-132, zipped. -/
def candidates (t : Table K) (start : ℕ) : List (ℕ × ℕ × K) :=
  (t.zipIdx.drop start).flatMap fun r => r.1.map fun c => (r.2, c.1, c.2)

/-- `dists <= threshold_rad` (prm.py:134), `none` is `np.inf`. -/
def within (thr : Option K) (d : K) : Bool :=
  match thr with
  | none => true
  | some r => d ≤ r

/-- `_nn_edge_list_and_dist_list_to_nk_prm_graph` (prm.py:117-160). -/
def World.tableGraph (w : World P K) (samples : List P) (t : Table K) (start : ℕ) (thr : Option K) : Except PyErr (NkGraph K) :=
  let cs := (candidates t start).filter fun c => within thr c.2.2
  if cs.all fun c => c.1 < samples.length && c.2.1 < samples.length then .ok (w.connect samples t.length cs) else .error .index

/-- `_query_samples` (prm.py:298-308, 490-501, 599-610) for the radius `r`. -/
def World.querySamples (w : World P K) (samples : List P) (r : K) (q : P) : List (ℕ × K) :=
  (samples.zipIdx.filter fun c => decide (w.dist c.1 q ≤ r) && w.check q c.1).map fun c => (c.2, w.dist c.1 q)

/-- `for s_neighbor, d_sn in zip(...): addEdge(i, s_neighbor, w=d_sn)` (prm.py:76-80). -/
def linkTo (i : ℕ) (nbs : List (ℕ × K)) (g : NkGraph K) : NkGraph K := nbs.foldl (fun h c => h.addEdge i c.1 c.2) g

/-- `query_best_solution` from prm.py:71 on. -/
def World.solve (w : World P K) (samples : List P) (g : NkGraph K) (sn gn : List (ℕ × K)) :
    NkGraph K × Except PyErr (WithTop K × List P) :=
  let iStart := g.bound
  let iGoal := g.bound + 1
  let h := linkTo iGoal gn (linkTo iStart sn (g.addNodes 2))
  let sol := w.shortest h.edges iStart iGoal
  if sol.2.all (· < samples.length) then
    ((h.removeNode iStart).removeNode iGoal, .ok (sol.1, sol.2.filterMap (samples[·]?)))
  else (h, .error .index)

/-- `n` fresh states, the next one being number `c` (prm.py:218-219, 231-232). -/
def World.fresh (w : World P K) (c n : ℕ) : List P := (List.range n).map fun i => w.draw (c + i)

/-- `num_vertices()` (prm.py:162-163). -/
def numVertices (g : Option (NkGraph K)) : ℕ := (g.map NkGraph.numberOfNodes).getD 0

/-- `num_edges()` (prm.py:165-166). -/
def numEdges (g : Option (NkGraph K)) : ℕ := (g.map NkGraph.numberOfEdges).getD 0

/-! ## SimpleFullConnRadiusPRM -/

/-- `SimpleFullConnRadiusPRM` (prm.py:197-211); `drawn` counts the states drawn from the sampler so far. -/
structure Full (P K : Type*) where
  connR : K
  samples : Option (List P)
  graph : Option (NkGraph K)
  drawn : ℕ

namespace Full

/-- `__init__` (prm.py:198-211); one state is drawn for its size. -/
def init (r : K) (drawn : ℕ) : Full P K := ⟨r, none, none, drawn + 1⟩

/-- All index pairs in the order of `repeat` (outer) and `tile` (inner), with their distance (prm.py:237-244). -/
def pairs (w : World P K) (samples : List P) : List (ℕ × ℕ × K) :=
  samples.zipIdx.flatMap fun a => samples.zipIdx.map fun b => (a.2, b.2, w.dist b.1 a.1)

/-- prm.py:236-265: rebuild the roadmap on the current samples. -/
def rebuild (w : World P K) (s : Full P K) (samples : List P) : Full P K × Except PyErr (List K) :=
  let cs := (pairs w samples).filter fun c => decide (c.2.2 ≤ s.connR)
  ({ s with samples := some samples, graph := some (w.connect samples samples.length cs) },
    .ok ((cs.filter fun c => w.accepts samples c.1 c.2.1).map (·.2.2)))

/-- `grow_to_n_samples` (prm.py:213-265). -/
def grow (w : World P K) (n : ℕ) (s : Full P K) : Full P K × Except PyErr (List K) :=
  match s.samples with
  | none => rebuild w { s with drawn := s.drawn + n } (w.fresh s.drawn n)
  | some old =>
    if n < old.length then (s, .error .arithmetic)
    else rebuild w { s with drawn := s.drawn + (n - old.length) } (old ++ w.fresh s.drawn (n - old.length))

/-- `set_connection_radius` (prm.py:267-274); the radius is stored before the samples are looked at. -/
def setRadius (w : World P K) (r : K) (s : Full P K) : Full P K × Except PyErr (List K) :=
  match s.samples with
  | none => ({ s with connR := r }, .error .attribute)
  | some old => grow w old.length { s with connR := r }

/-- `reset` (prm.py:290-296). -/
def reset (s : Full P K) : Full P K := { s with samples := none, graph := none }

/-- `query_best_solution` (prm.py:62-92). -/
def query (w : World P K) (start goal : P) (s : Full P K) : Full P K × Except PyErr (WithTop K × List P) :=
  match s.samples, s.graph with
  | some samples, some g =>
    let r := w.solve samples g (w.querySamples samples s.connR start) (w.querySamples samples s.connR goal)
    ({ s with graph := some r.1 }, r.2)
  | none, _ => (s, .error .type)
  | some _, none => (s, .error .attribute)

/-- The public calls. -/
inductive Op (P K : Type*) where
  | grow (n : ℕ)
  | setRadius (r : K)
  | query (start goal : P)
  | reset

/-- The state after a call. -/
def step (w : World P K) (s : Full P K) : Op P K → Full P K
  | .grow n => (s.grow w n).1
  | .setRadius r => (s.setRadius w r).1
  | .query a b => (s.query w a b).1
  | .reset => s.reset

/-- The state after a history of calls (exceptions caught by the caller). -/
def run (w : World P K) (s : Full P K) (ops : List (Op P K)) : Full P K := ops.foldl (step w) s

end Full

/-! ## SimpleNearestNeighborRadiusPRM -/

/-- `SimpleNearestNeighborRadiusPRM` (prm.py:322-354); `cache` is the graph in the temporary file, `master` the pair
`master_edges`, `master_dists`. -/
structure Knn (P K : Type*) where
  maxK : ℕ
  k : ℕ
  truncate : Bool
  connR : Option K
  certified : Option K
  samples : Option (List P)
  graph : Option (NkGraph K)
  master : Option (Table K)
  cache : Option (NkGraph K)
  drawn : ℕ

namespace Knn

/-- `__init__` (prm.py:331-354). -/
def init (k : ℕ) (truncate : Bool) (drawn : ℕ) : Knn P K :=
  ⟨k, k, truncate, none, none, none, none, none, none, drawn + 1⟩

/-- `np.min(self.master_dists[:, -1])` (prm.py:406): IndexError for rows of length 0, ValueError without rows. -/
def certify (t : Table K) : Except PyErr K :=
  match t.mapM (fun row => row.getLast?) with
  | none => .error .index
  | some [] => .error .value
  | some (c :: cs) => .ok (cs.foldl (fun m d => min m d.2) c.2)

/-- `self.conn_r is not None and new_conn_r > self.conn_r` (prm.py:458). -/
def mustReload (connR : Option K) (r : K) : Bool :=
  match connR with
  | some c => c < r
  | none => false

/-- `set_connection_radius` (prm.py:451-466). -/
def setRadius (w : World P K) (r : K) (s : Knn P K) : Knn P K × Except PyErr Unit :=
  match s.certified with
  | none => (s, .error .type)
  | some _ =>
    if mustReload s.connR r && s.cache.isNone then (s, .error .runtime)
    else
      let start := if mustReload s.connR r then s.cache else s.graph
      match start with
      | none => ({ s with graph := start }, .error .attribute)
      | some g =>
        let g' := ((w.visits g.edges r).filter fun e => decide (r ≤ e.w)).foldl (fun h e => h.removeEdge e.u e.v) g
        ({ s with graph := some g', connR := some r }, .ok ())

/-- prm.py:389-425: index, master graph, cache file, certified radius, truncation. -/
def rebuild (w : World P K) (s : Knn P K) (samples : List P) : Knn P K × Except PyErr Unit :=
  let table := w.knn samples (min (samples.length - 1) s.k)
  let s1 := { s with samples := some samples, master := some table }
  match w.tableGraph samples table 0 none with
  | .error e => (s1, .error e)
  | .ok g =>
    let s2 := { s1 with cache := some g, graph := some g }
    match certify table with
    | .error e => (s2, .error e)
    | .ok c =>
      let s3 := { s2 with certified := some c }
      if s3.truncate then s3.setRadius w c else (s3, .ok ())

/-- `grow_to_n_samples` (prm.py:364-425); the radius is cleared before anything is checked. -/
def grow (w : World P K) (n : ℕ) (s : Knn P K) : Knn P K × Except PyErr Unit :=
  let s0 := { s with connR := none }
  match s0.samples with
  | none => rebuild w { s0 with drawn := s0.drawn + n } (w.fresh s0.drawn n)
  | some old =>
    if n ≤ old.length then (s0, .error .arithmetic)
    else rebuild w { s0 with drawn := s0.drawn + (n - old.length) } (old ++ w.fresh s0.drawn (n - old.length))

/-- The pairs (u, v) of `enumerate(master_edges[:, k:])` (prm.py:436-438). -/
def tails (t : Table K) (k : ℕ) : List (ℕ × ℕ) := t.zipIdx.flatMap fun r => (r.1.drop k).map fun c => (r.2, c.1)

/-- `if hasEdge(u, v): removeEdge(u, v)` for all pairs (prm.py:437-440). -/
def throwAway (ps : List (ℕ × ℕ)) (g : NkGraph K) : NkGraph K :=
  ps.foldl (fun h p => if h.hasEdge p.1 p.2 then h.removeEdge p.1 p.2 else h) g

/-- `set_nearest_neighbors` (prm.py:427-442). -/
def setNeighbors (k : ℕ) (s : Knn P K) : Knn P K × Except PyErr Unit :=
  if s.maxK < k then (s, .error .arithmetic)
  else if s.k < k && s.cache.isNone then (s, .error .runtime)
  else
    let s1 := if s.k < k then { s with graph := s.cache } else s
    match s1.master with
    | none => (s1, .error .type)
    | some t =>
      match s1.graph with
      | none => if (tails t k).isEmpty then ({ s1 with k := k }, .ok ()) else (s1, .error .attribute)
      | some g => ({ s1 with graph := some (throwAway (tails t k) g), k := k }, .ok ())

/-- `reset` (prm.py:475-488): neighbour count and master arrays stay. -/
def reset (s : Knn P K) : Knn P K :=
  { s with connR := none, certified := none, samples := none, graph := none, cache := none }

/-- `query_best_solution` (prm.py:62-92) with `_query_samples` (prm.py:490-501): the current radius, else the certified one. -/
def query (w : World P K) (start goal : P) (s : Knn P K) : Knn P K × Except PyErr (WithTop K × List P) :=
  match s.samples, s.connR.or s.certified, s.graph with
  | none, _, _ => (s, .error .type)
  | some _, none, _ => (s, .error .type)
  | some _, some _, none => (s, .error .attribute)
  | some samples, some r, some g =>
    let x := w.solve samples g (w.querySamples samples r start) (w.querySamples samples r goal)
    ({ s with graph := some x.1 }, x.2)

/-- The public calls. -/
inductive Op (P K : Type*) where
  | grow (n : ℕ)
  | setRadius (r : K)
  | setNeighbors (k : ℕ)
  | query (start goal : P)
  | reset

/-- The state after a call. -/
def step (w : World P K) (s : Knn P K) : Op P K → Knn P K
  | .grow n => (s.grow w n).1
  | .setRadius r => (s.setRadius w r).1
  | .setNeighbors k => (s.setNeighbors k).1
  | .query a b => (s.query w a b).1
  | .reset => s.reset

/-- The state after a history of calls (exceptions caught by the caller). -/
def run (w : World P K) (s : Knn P K) (ops : List (Op P K)) : Knn P K := ops.foldl (step w) s

end Knn

/-! ## SimpleRadiusPRM -/

/-- `SimpleRadiusPRM` (prm.py:513-538); `ann` holds the data and the neighbour count of the index object. -/
structure Rad (P K : Type*) where
  connR : K
  k : ℕ
  maxK : ℕ
  samples : Option (List P)
  graph : Option (NkGraph K)
  ann : Option (List P × ℕ)
  drawn : ℕ

namespace Rad

/-- `__init__` (prm.py:514-538). -/
def init (r : K) (maxK drawn : ℕ) : Rad P K := ⟨r, 16, maxK, none, none, none, drawn + 1⟩

/-- `np.all(dists[:, -1] >= conn_r)` (prm.py:549); rows of length 0 do not occur (the code would raise IndexError). -/
def allLast (p : K → Bool) (t : Table K) : Bool := t.all fun row => (row.getLast?.map fun c => p c.2).getD true

/-- One pass of `while True` in `_build_threshold_index` (prm.py:544-554). -/
def indexBody (w : World P K) (connR : K) (maxK : ℕ) (samples : List P) (k : ℕ) : Step ℕ (Table K × ℕ) :=
  let t := w.knn samples k
  if maxK ≤ k ∨ samples.length ≤ k ∨ allLast (fun d => connR ≤ d) t = true then .done (t, k) else .next (k * 2)

/-- `grow_to_n_samples` (prm.py:540-591). The doubling loop gets fuel `n + 1`, which always suffices (C36). -/
def grow (w : World P K) (n : ℕ) (s : Rad P K) : Rad P K × Except PyErr Unit :=
  match s.samples with
  | none =>
    let samples := w.fresh s.drawn n
    let s1 := { s with samples := some samples, drawn := s.drawn + n }
    match loop (indexBody w s.connR s.maxK samples) (n + 1) s.k with
    | none => (s1, .error .runtime)
    | some (t, k) =>
      let s2 := { s1 with k := k, ann := some (samples, k) }
      match w.tableGraph samples t 0 none with
      | .error e => (s2, .error e)
      | .ok g => ({ s2 with graph := some g }, .ok ())
  | some old =>
    if n < old.length then (s, .error .value)
    else
      let new := w.fresh s.drawn (n - old.length)
      let s1 := { s with samples := some (old ++ new), drawn := s.drawn + (n - old.length) }
      match s.ann with
      | none => (s1, .error .attribute)
      | some (data, ka) =>
        let t := w.knnUpdate data new ka
        let s2 := { s1 with ann := some (data ++ new, ka) }
        if allLast (fun d => s.connR < d) t = true ∨ s.maxK ≤ s.k then
          match s.graph with
          | none => (s2, .error .attribute)
          | some g =>
            match w.tableGraph (old ++ new) t old.length (some s.connR) with
            | .error e => ({ s2 with graph := some (g.addNodes new.length) }, .error e)
            | .ok g' => ({ s2 with graph := some ((g.addNodes new.length).merge g') }, .ok ())
        else
          let k' := s.k * 2
          let s3 := { s2 with k := k', ann := some (old ++ new, k') }
          match w.tableGraph (old ++ new) (w.knn (old ++ new) k') 0 (some s.connR) with
          | .error e => (s3, .error e)
          | .ok g => ({ s3 with graph := some g }, .ok ())

/-- `reset` (prm.py:622-625). -/
def reset (s : Rad P K) : Rad P K := { s with samples := none, graph := none, ann := none }

/-- `query_best_solution` (prm.py:62-92) with `_query_samples` (prm.py:599-610). -/
def query (w : World P K) (start goal : P) (s : Rad P K) : Rad P K × Except PyErr (WithTop K × List P) :=
  match s.samples, s.graph with
  | some samples, some g =>
    let r := w.solve samples g (w.querySamples samples s.connR start) (w.querySamples samples s.connR goal)
    ({ s with graph := some r.1 }, r.2)
  | none, _ => (s, .error .type)
  | some _, none => (s, .error .attribute)

/-- The public calls. -/
inductive Op (P : Type*) where
  | grow (n : ℕ)
  | query (start goal : P)
  | reset

/-- The state after a call. -/
def step (w : World P K) (s : Rad P K) : Op P → Rad P K
  | .grow n => (s.grow w n).1
  | .query a b => (s.query w a b).1
  | .reset => s.reset

/-- The state after a history of calls (exceptions caught by the caller). -/
def run (w : World P K) (s : Rad P K) (ops : List (Op P)) : Rad P K := ops.foldl (step w) s

end Rad

end Verif.Prm
