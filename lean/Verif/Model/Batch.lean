import Verif.Model.Anytime
import Verif.Model.Turtlebot
import Verif.Model.Sat3D

/-!
Model of the k-NN roadmap of nonasymptotic/prm.py and of the anytime planning loop with a motion checker that is given whole batches. `World.check` of
`Verif.Model.Prm` judges one motion; the checkers of the turtlebot and of the arm (streams.py:89-101, kuka_carry/run.py:77-101) judge a list of motions,
their answer for a motion depends on the list, and they raise for the empty list. Here the checker is a function of the list, and the field `check` of the world is not used.
Growth and queries are the methods that call the checker; the other methods are those of `Verif.Prm.Knn`.
-/

namespace Verif.Prm

/-- A vectorised motion checker: the motions of a batch, an answer for each of them or an exception (prm.py:20, 140-141, 306-307, 498-500). -/
abbrev Batch (P : Type*) := List (P × P) → Except PyErr (List Bool)

/-- `xs[mask]` with a boolean array as index: IndexError when the lengths differ (prm.py:151-153, 501). -/
def select {α : Type*} (xs : List α) (mask : List Bool) : Except PyErr (List α) :=
  if mask.length = xs.length then .ok ((xs.zip mask).filterMap fun c => if c.2 then some c.1 else none) else .error .index

variable {P K : Type*} [LinearOrder K]

/-- The two end points of a candidate edge, `self.prm_samples[starts], self.prm_samples[goals]` (prm.py:140-141). -/
def ends (samples : List P) (cs : List (ℕ × ℕ × K)) : List (P × P) :=
  cs.filterMap fun c => match samples[c.1]?, samples[c.2.1]? with
    | some p, some q => some (p, q)
    | _, _ => none

/-- `_nn_edge_list_and_dist_list_to_nk_prm_graph` (prm.py:117-160): one call of the checker for all candidates. -/
def tableGraphB (check : Batch P) (samples : List P) (t : Table K) (start : ℕ) (thr : Option K) : Except PyErr (NkGraph K) :=
  let cs := (candidates t start).filter fun c => within thr c.2.2
  if cs.all fun c => c.1 < samples.length && c.2.1 < samples.length then
    match check (ends samples cs) with
    | .error e => .error e
    | .ok valid => (select cs valid).map fun kept => kept.foldl (fun g c => g.addEdgeOnce c.1 c.2.1 c.2.2) (NkGraph.new t.length)
  else .error .index

/-- The samples within the radius, with their ids (prm.py:491-496). -/
def World.near (w : World P K) (samples : List P) (r : K) (q : P) : List (P × ℕ) := samples.zipIdx.filter fun c => decide (w.dist c.1 q ≤ r)

/-- `_query_samples` (prm.py:490-501): one call of the checker, also when no sample is within the radius. -/
def World.querySamplesB (w : World P K) (check : Batch P) (samples : List P) (r : K) (q : P) : Except PyErr (List (ℕ × K)) :=
  match check ((w.near samples r q).map fun c => (q, c.1)) with
  | .error e => .error e
  | .ok valid => (select (w.near samples r q) valid).map fun kept => kept.map fun c => (c.2, w.dist c.1 q)

namespace Knn

/-- prm.py:389-425: index, master graph, cache file, certified radius, truncation. -/
def rebuildB (w : World P K) (check : Batch P) (s : Knn P K) (samples : List P) : Knn P K × Except PyErr Unit :=
  let table := w.knn samples (min (samples.length - 1) s.k)
  let s1 := { s with samples := some samples, master := some table }
  match tableGraphB check samples table 0 none with
  | .error e => (s1, .error e)
  | .ok g =>
    let s2 := { s1 with cache := some g, graph := some g }
    match certify table with
    | .error e => (s2, .error e)
    | .ok c =>
      let s3 := { s2 with certified := some c }
      if s3.truncate then s3.setRadius w c else (s3, .ok ())

/-- `grow_to_n_samples` (prm.py:364-425). -/
def growB (w : World P K) (check : Batch P) (n : ℕ) (s : Knn P K) : Knn P K × Except PyErr Unit :=
  let s0 := { s with connR := none }
  match s0.samples with
  | none => rebuildB w check { s0 with drawn := s0.drawn + n } (w.fresh s0.drawn n)
  | some old =>
    if n ≤ old.length then (s0, .error .arithmetic)
    else rebuildB w check { s0 with drawn := s0.drawn + (n - old.length) } (old ++ w.fresh s0.drawn (n - old.length))

/-- `query_best_solution` (prm.py:62-92) with `_query_samples` (prm.py:490-501): the checker is called for the start, then for the goal, before the graph is
touched. -/
def queryB (w : World P K) (check : Batch P) (start goal : P) (s : Knn P K) : Knn P K × Except PyErr (WithTop K × List P) :=
  match s.samples, s.connR.or s.certified with
  | none, _ => (s, .error .type)
  | some _, none => (s, .error .type)
  | some samples, some r =>
    match w.querySamplesB check samples r start with
    | .error e => (s, .error e)
    | .ok sn =>
      match w.querySamplesB check samples r goal with
      | .error e => (s, .error e)
      | .ok gn =>
        match s.graph with
        | none => (s, .error .attribute)
        | some g =>
          let x := w.solve samples g sn gn
          ({ s with graph := some x.1 }, x.2)

/-- The state after a call. -/
def stepB (w : World P K) (check : Batch P) (s : Knn P K) : Op P K → Knn P K
  | .grow n => (s.growB w check n).1
  | .setRadius r => (s.setRadius w r).1
  | .setNeighbors k => (s.setNeighbors k).1
  | .query a b => (s.queryB w check a b).1
  | .reset => s.reset

/-- The state after a history of calls (exceptions caught by the caller). -/
def runB (w : World P K) (check : Batch P) (s : Knn P K) (ops : List (Op P K)) : Knn P K := ops.foldl (stepB w check) s

end Knn

end Verif.Prm

namespace Verif.Anytime

open Verif.Prm

variable {P K F : Type*} [LinearOrder K] [Field F] [LinearOrder F] [FloorSemiring F]

/-- One pass of `while(num_samples<max_samples+1)` (streams.py:172-178, kuka_carry/run.py:182-196) with a batch checker. -/
def bodyB (w : World P K) (check : Batch P) (start goal : P) (maxS : ℕ) (scale : F → F) (s : Vars P K F) :
    Step (Vars P K F) (Vars P K F × Except PyErr Unit) :=
  if s.num < (maxS : F) + 1 then
    let n := ⌊s.num⌋₊
    let grown := s.prm.growB w check n
    let s1 := { s with prm := grown.1, counts := s.counts ++ [n] }
    match grown.2 with
    | .error e => .done (s1, .error e)
    | .ok () =>
      let asked := grown.1.queryB w check start goal
      match asked.2 with
      | .error e => .done ({ s1 with prm := asked.1 }, .error e)
      | .ok (_, path) =>
        let s2 := { s1 with prm := asked.1, path := some path }
        if 0 < path.length then .done (s2, .ok ()) else .next { s2 with num := scale s.num }
  else .done (s, .ok ())

/-- `assert is_motion_valid([x], [x])` (streams.py:168-169, kuka_carry/run.py:177-178): the truth value of an array with one entry. -/
def assertFree (check : Batch P) (x : P) : Except PyErr Unit :=
  match check [(x, x)] with
  | .error e => .error e
  | .ok [b] => if b then .ok () else .error .assertion
  | .ok _ => .error .value

/-- `get_anytime_motion_fn(...)` up to the interpolation (streams.py:161-200) with a batch checker; see `planBy`. -/
def planB (w : World P K) (check : Batch P) (start goal : P) (minS maxS : ℕ) (scale : F → F) (k : ℕ) (truncate : Bool) (drawn fuel : ℕ) :
    Option (List ℕ × Except PyErr (Option (List P))) :=
  match assertFree check start with
  | .error e => some ([], .error e)
  | .ok () =>
    match assertFree check goal with
    | .error e => some ([], .error e)
    | .ok () =>
      match loop (bodyB w check start goal maxS scale) fuel ⟨Knn.init k truncate drawn, minS, none, []⟩ with
      | none => none
      | some (s, .error e) => some (s.counts, .error e)
      | some (s, .ok ()) => some (s.counts, finish start goal s.path)

end Verif.Anytime

namespace Verif.Turtlebot

/-- The turtlebot's `is_motion_valid` as the checker of a roadmap (streams.py:166-170); `pos` gives the two coordinates of a configuration. -/
noncomputable def batch {P : Type*} (pos : P → Sat2D.V2) (robot : List Sat2D.V2) (hulls : List (List Sat2D.V2)) : Prm.Batch P :=
  fun ms => isMotionValid robot hulls (ms.map fun m => (pos m.1, pos m.2))

end Verif.Turtlebot

namespace Verif.Sat3D

/-- The arm's `is_motion_valid` as the checker of a roadmap (kuka_carry/run.py:169-178); `conf` gives the six numbers of a configuration. -/
noncomputable def batch {P : Type*} (conf : P → Conf) (interp : Conf → Conf → ℕ → List Pose) (lower upper : V3) (obstacles : List Oobb) : Prm.Batch P :=
  fun ms => isMotionValid interp lower upper obstacles (ms.map fun m => (conf m.1, conf m.2))

end Verif.Sat3D
