import Verif.Model.Save
import Verif.Props.PrmFull
import Verif.Props.PrmKnn
import Verif.Props.PrmRad

/-! C114: what `save` stores. -/

namespace Verif.Props

open Verif Verif.Prm

variable {P K : Type*} [LinearOrder K] [AddCommGroup K]

/-- Two files were written, one with a graph, one with samples; every edge of the graph joins two of the samples, has their distance as
weight and was accepted, and every sample is a node. -/
def Stored (w : World P K) (path : String) (files : List (String × File P K)) (S : List P) (g : NkGraph K) : Prop :=
  files = [(path ++ ".nkb", .graph g), (path ++ ".npy", .array S)] ∧ w.Checked S g ∧ ∀ v < S.length, g.hasNode v = true

/-- C114 for the full-radius PRM: after any history `save` writes nothing and raises if there are no samples, and otherwise stores the
roadmap with its samples, a node for each sample and no other. -/
theorem C114_full {w : World P K} (hw : w.Sound) (r : K) (d : ℕ) (ops : List (Full.Op P K)) (path : String) :
    let s := (Full.init r d).run w ops
    (s.samples = none ∧ save s.samples s.graph path = ([], .error .runtime)) ∨
      ∃ S g files, s.samples = some S ∧ save s.samples s.graph path = (files, .ok ()) ∧ Stored w path files S g ∧ g.numberOfNodes = S.length := by
  intro s
  have h37 := C37_full hw r d ops
  rcases full_state hw r d ops with ⟨h1, h2⟩ | ⟨S, g, h1, h2, h3, h4, -⟩
  · left
    refine ⟨h1, ?_⟩
    rw [h1, h2]; rfl
  · right
    refine ⟨S, g, _, h1, by rw [h1, h2]; rfl, ⟨rfl, C25_full hw r d ops h1 h2, fun v hv => (h4 v).2 hv⟩, ?_⟩
    rw [h1, h2] at h37
    exact h37

/-- C114 for the k-NN PRM. -/
theorem C114_knn {w : World P K} (hw : w.Sound) (k : ℕ) (tr : Bool) (d : ℕ) (ops : List (Knn.Op P K)) (path : String) :
    let s := (Knn.init k tr d).run w ops
    (s.samples = none ∧ save s.samples s.graph path = ([], .error .runtime)) ∨
      ∃ S g files, s.samples = some S ∧ save s.samples s.graph path = (files, .ok ()) ∧ Stored w path files S g ∧ g.numberOfNodes = S.length := by
  intro s
  have h37 := C37_knn hw k tr d ops
  rcases knn_state hw k tr d ops with ⟨h1, h2, _⟩ | ⟨S, g, t, k', h1, h2, _, _, _, _, h7, _⟩
  · left
    refine ⟨h1, ?_⟩
    rw [h1, h2]; rfl
  · right
    refine ⟨S, g, _, h1, by rw [h1, h2]; rfl, ⟨rfl, C25_knn hw k tr d ops h1 h2, fun v hv => (h7 v).2 hv⟩, ?_⟩
    rw [h1, h2] at h37
    exact h37

/-- C114 for the radius PRM, partial: there may be nodes that are no samples (`C37_rad_false`). -/
theorem C114_rad_partial {w : World P K} (hw : w.Sound) (r : K) (maxK d : ℕ) (ops : List (Rad.Op P)) (path : String) :
    let s := (Rad.init r maxK d).run w ops
    (s.samples = none ∧ save s.samples s.graph path = ([], .error .runtime)) ∨
      ∃ S g files, s.samples = some S ∧ save s.samples s.graph path = (files, .ok ()) ∧ Stored w path files S g := by
  intro s
  have hinv := rad_state hw r maxK d ops
  obtain ⟨_, ⟨h1, h2, -⟩ | ⟨S, g, h1, h2, _, h4, h5, h6⟩⟩ := hinv
  · left
    refine ⟨h1, ?_⟩
    rw [h1, h2]; rfl
  · right
    exact ⟨S, g, _, h1, by rw [h1, h2]; rfl, rfl, h4, h6⟩

/-- C114 for the radius PRM, the rest: false that the stored graph has a node for each sample and no other. A query between two growths
leaves a node. -/
theorem C114_rad_false : openWorld.Sound ∧ ∃ S g,
    save ((Rad.init 5 16 0).run openWorld [.grow 3, .query 1 2, .grow 4]).samples
      ((Rad.init 5 16 0).run openWorld [.grow 3, .query 1 2, .grow 4]).graph "a" = ([("a.nkb", .graph g), ("a.npy", .array S)], .ok ()) ∧
    S.length = 4 ∧ g.numberOfNodes = 5 := by
  refine ⟨lineWorld_sound _ _, ?_⟩
  obtain ⟨h1, h2, -⟩ := C37_rad_false
  cases hS : ((Rad.init 5 16 0).run openWorld [.grow 3, .query 1 2, .grow 4]).samples with
  | none => rw [hS] at h1; cases h1
  | some S =>
    cases hg : ((Rad.init 5 16 0).run openWorld [.grow 3, .query 1 2, .grow 4]).graph with
    | none => rw [hg] at h2; cases h2
    | some g =>
      rw [hS] at h1
      rw [hg] at h2
      exact ⟨S, g, rfl, Option.some.inj h1, h2⟩

/-- C114 is not vacuous: nothing is stored at first and after a reset, three samples after growing to three, also after a query. -/
theorem C114_nonvacuous : rightWorld.Sound ∧
    (∀ ops ∈ [[], [.grow 3, .reset]], (save ((Full.init (1 : ℚ) 0).run rightWorld ops).samples ((Full.init (1 : ℚ) 0).run rightWorld ops).graph "a").2 =
      .error .runtime) ∧
    save ((Full.init (1 : ℚ) 0).run rightWorld [.grow 3]).samples ((Full.init (1 : ℚ) 0).run rightWorld [.grow 3]).graph "a" =
      ([("a.nkb", .graph ⟨3, [], [⟨0, 1, 1⟩, ⟨1, 2, 1⟩]⟩), ("a.npy", .array [1, 2, 3])], .ok ()) :=
  ⟨lineWorld_sound _ _, by decide +kernel, by decide +kernel⟩

end Verif.Props
