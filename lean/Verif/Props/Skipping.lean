import Verif.Lemmas.Skipping
import Verif.Lemmas.KnnRadius

/-!
# C145: edges that the generator skips

`set_connection_radius` removes edges while networkit's generator runs over them. As we read networkit, the generator then skips edges (C27_swap_removal_false). The
guarantees of the k-NN PRM do not depend on that.
-/

namespace Verif.Props

open Verif.Prm Verif.Net Verif.Spec

variable {P K : Type*} [LinearOrder K] [AddCommGroup K]

/-- C145. After any history of calls, a query on a planner whose generator skips edges fails with the same exception as on a planner whose generator yields all of them, or
both answer, and the first answer is no longer and is not "no path" unless the second is. -/
theorem C145_not_worse {w : World P K} (hw : w.Sound) (hv : w.VisitsExisting) (k : ℕ) (tr : Bool) (d₀ : ℕ) (ops : List (Knn.Op P K)) (a b : P) :
    (∃ e, (((Knn.init k tr d₀).run w ops).query w a b).2 = .error e ∧ (((Knn.init k tr d₀).run w.steady ops).query w.steady a b).2 = .error e) ∨
    ∃ len pts len' pts', (((Knn.init k tr d₀).run w ops).query w a b).2 = .ok (len, pts) ∧
      (((Knn.init k tr d₀).run w.steady ops).query w.steady a b).2 = .ok (len', pts') ∧ len ≤ len' ∧ (pts = [] → pts' = []) :=
  (pair_query (pair_run hw hv (pair_init w k tr d₀) ops) hw a b).2

/-- C145. Radii, samples, tables and neighbour counts after a history do not depend on what the generator skips, and no edge is missing that is there without skipping. -/
theorem C145_state {w : World P K} (hw : w.Sound) (hv : w.VisitsExisting) (k : ℕ) (tr : Bool) (d₀ : ℕ) (ops : List (Knn.Op P K)) :
    (∃ graph, (Knn.init k tr d₀).run w.steady ops = { (Knn.init k tr d₀).run w ops with graph := graph }) ∧
    (((Knn.init k tr d₀).run w ops).graph = none ↔ ((Knn.init k tr d₀).run w.steady ops).graph = none) ∧
    ∀ g g', ((Knn.init k tr d₀).run w ops).graph = some g → ((Knn.init k tr d₀).run w.steady ops).graph = some g' → ∀ e ∈ g'.edges, e ∈ g.edges := by
  have h := pair_run hw hv (pair_init w k tr d₀) ops
  refine ⟨⟨_, pair_graph h⟩, ?_⟩
  rcases h with ⟨e, -, h2, -⟩ | ⟨S, g, g', t, k, h1, h2, h3, h4, h5, h6, -, -, h8, -⟩
  · rw [e, h2]
    exact ⟨Iff.rfl, fun g g' hg => by cases hg⟩
  · rw [h6, h2]
    refine ⟨by simp, ?_⟩
    rintro _ _ ⟨⟩ ⟨⟩
    exact h8

/-- C145 (exact neighbours). After any history, a successful growth and radius changes or queries that end with `set_connection_radius(r)`, for `r` at most the certified
radius, every two samples closer than `r` whose motion is accepted are joined, whatever the generator skips. -/
theorem C145_contains {w : World P K} (hw : w.Sound) (hv : w.VisitsExisting) (hx : ∀ S k, w.ExactTable S k (w.knn S k)) (k : ℕ) (tr : Bool) (d₀ : ℕ)
    (ops : List (Knn.Op P K)) (n : ℕ) (hok : (((Knn.init k tr d₀).run w ops).grow w n).2 = .ok ()) (rs : List (Knn.Op P K)) (hrs : RadiusChanges rs) (r : K) :
    ∃ S g x, ((Knn.init k tr d₀).run w (ops ++ .grow n :: rs ++ [.setRadius r])).samples = some S ∧ S.length = n ∧
      ((Knn.init k tr d₀).run w (ops ++ .grow n :: rs ++ [.setRadius r])).graph = some g ∧
      ((Knn.init k tr d₀).run w (ops ++ .grow n :: rs ++ [.setRadius r])).certified = some x ∧
      (r ≤ x → ∀ i j p q, i ≠ j → S[i]? = some p → S[j]? = some q → w.dist p q < r → w.Accepted p q → g.Adj i j) := by
  have hrun : (Knn.init k tr d₀).run w (ops ++ .grow n :: rs ++ [.setRadius r]) =
      (((((Knn.init k tr d₀).run w ops).grow w n).1.run w rs).setRadius w r).1 := by
    simp [Knn.run, Knn.step]
  rw [hrun]
  obtain ⟨S, k', x, hc, hn, hkept, _⟩ := Knn.grow_kept hw hv hok
  have ht := hw.knn_true S k'
  obtain ⟨h1, h2⟩ := Knn.kept_setRadius hv ht (knn_kept_run hw hv ht hrs hkept) r
  obtain ⟨-, -, -, -, g, h5, -⟩ := id h1
  refine ⟨S, g, x, h1.1, hn, h5, h1.2.2.2.1, ?_⟩
  intro hr i j p q hij hp hq hlt ha
  obtain ⟨g', hg', hcont⟩ := kept_contains hw (hx S k') hc hr h1 (by
    intro R hR
    rw [h2] at hR
    cases hR
    exact le_rfl)
  rw [h5] at hg'
  cases hg'
  exact hcont i j p q hij hp hq hlt ha

/-- C145: the generator that runs over adjacency arrays and from which removed entries are swapped out yields only existing edges, for every roadmap and every radius. -/
theorem C145_arrays {w : World P K} (h : w.visits = arrayVisits) : w.VisitsExisting := arrayVisits_existing h

/-- C145: the answers can differ. On the samples 0, 1, 10, 11 with radius 9 the planner whose generator yields all edges finds no path from 0 to 11; with the generator over
adjacency arrays it answers with a path, and one of its hops, from 1 to 11, is longer than the radius. -/
theorem C145_same_answer_false :
    (((Knn.init 3 false 0).run arrayWorld [.grow 4, .setRadius 9]).query arrayWorld 0 11).2 = .ok ((13 : ℚ), [1, 11, 10]) ∧
    (((Knn.init 3 false 0).run arrayWorld.steady [.grow 4, .setRadius 9]).query arrayWorld.steady 0 11).2 = .ok (⊤, []) ∧
    ((Knn.init 3 false 0).run arrayWorld [.grow 4, .setRadius 9]).connR = some 9 := by
  decide +kernel

/-- C145 on the samples 0, 1, 10, 11: the generator over adjacency arrays skips edges, and the hypotheses hold with a radius that is not above the certified one. -/
theorem C145_nonvacuous : arrayWorld.Sound ∧ arrayWorld.VisitsExisting ∧ ¬ arrayWorld.VisitsAll ∧
    (∀ S k, arrayWorld.ExactTable S k (arrayWorld.knn S k)) ∧
    ((Knn.init 3 false 0).grow arrayWorld 4).2 = .ok () ∧ ((Knn.init 3 false 0).run arrayWorld [.grow 4, .setRadius 9]).certified = some 10 := by
  have hs : arrayWorld.steady.Sound := lineWorld_sound _ _
  refine ⟨⟨hs.dist_symm, hs.dist_nonneg, hs.dijkstra, hs.knn_true, hs.knnUpdate_true⟩, C145_arrays rfl, ?_, ?_, ?_, ?_⟩
  · intro h
    have := (h [⟨0, 1, 1⟩, ⟨0, 2, 10⟩, ⟨0, 3, 11⟩] 10).2 ⟨0, 3, 11⟩ (by simp) (by norm_num)
    revert this
    decide +kernel
  · intro S k
    exact exactKnn_table arrayWorld S k
  · decide +kernel
  · decide +kernel

end Verif.Props
