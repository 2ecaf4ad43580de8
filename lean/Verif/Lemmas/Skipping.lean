import Verif.Lemmas.PrmKept

/-! The k-NN PRM with a generator that skips edges beside the one with a generator that yields all of them. -/

namespace Verif.Prm

variable {P K : Type*} [LinearOrder K] [AddCommGroup K]

theorem World.Sound.steady {w : World P K} (h : w.Sound) : w.steady.Sound :=
  ⟨h.dist_symm, h.dist_nonneg, h.dijkstra, h.knn_true, h.knnUpdate_true⟩

theorem steady_all (w : World P K) : w.steady.VisitsAll := fun _ _ => ⟨fun _ he => he, fun _ he _ => he⟩

/-- Equal but for the roadmaps, and the second roadmap is a part of the first. -/
def Pair (w : World P K) (s s' : Knn P K) : Prop :=
  (s' = s ∧ s.samples = none ∧ s.graph = none ∧ s.cache = none ∧ s.certified = none ∧ s.connR = none) ∨
  ∃ S g g' t k, s.samples = some S ∧ s.graph = some g ∧ s.cache = some (tabGraph w S t) ∧ s.master = some t ∧ t = w.knn S k ∧
    s' = { s with graph := some g' } ∧ g.edges.Sublist (tabGraph w S t).edges ∧ g'.edges.Sublist (tabGraph w S t).edges ∧
    (∀ e ∈ g'.edges, e ∈ g.edges) ∧ S.length ≤ g.bound ∧ S.length ≤ g'.bound

theorem pair_setRadius {w : World P K} (hw : w.Sound) (hv : w.VisitsExisting) {s s' : Knn P K} (h : Pair w s s') (r : K) :
    Pair w (s.setRadius w r).1 (s'.setRadius w.steady r).1 := by
  rcases h with ⟨rfl, h1, h2, h3, h4, h5⟩ | ⟨S, g, g', t, k, h1, h2, h3, h4, h5, rfl, h6, h7, h8, h9, h10⟩
  · rw [Knn.setRadius_none h4, Knn.setRadius_none h4]
    exact .inl ⟨rfl, h1, h2, h3, h4, h5⟩
  · obtain hx | ⟨x, hx⟩ : s.certified = none ∨ ∃ x, s.certified = some x := by cases s.certified <;> simp
    · rw [Knn.setRadius_none hx, Knn.setRadius_none (s := { s with graph := some g' }) hx]
      exact .inr ⟨S, g, g', t, k, h1, h2, h3, h4, h5, rfl, h6, h7, h8, h9, h10⟩
    · rw [Knn.setRadius_eq h2 h3 hx, Knn.setRadius_eq (s := { s with graph := some g' }) (g := g') rfl h3 hx]
      have ht : w.TrueTable S t := by rw [h5]; exact hw.knn_true S k
      have hs := tabGraph_simple w S t
      refine .inr ⟨S, _, _, t, k, h1, rfl, h3, h4, h5, rfl, ?_, ?_, ?_, ?_, ?_⟩
      · refine (removeAll_sublist _ _).trans ?_
        split
        · exact List.Sublist.refl _
        · exact h6
      · refine (removeAll_sublist _ _).trans ?_
        split
        · exact List.Sublist.refl _
        · exact h7
      · intro e he
        simp only at he ⊢
        split at he
        · rename_i hm
          rw [if_pos hm]
          rw [cutGraph_edges (steady_all w) r hs, List.mem_filter] at he
          exact (cutGraph_keeps hv r hs).2 e he.1 (by simpa using he.2)
        · rename_i hm
          rw [if_neg hm]
          rw [cutGraph_edges (steady_all w) r (List.Pairwise.sublist h7 hs), List.mem_filter] at he
          exact (cutGraph_keeps hv r (List.Pairwise.sublist h6 hs)).2 e (h8 e he.1) (by simpa using he.2)
      · unfold cutGraph
        rw [removeAll_bound]
        split
        · rw [tabGraph_bound ht]
        · exact h9
      · unfold cutGraph
        rw [removeAll_bound]
        simp only
        split
        · rw [tabGraph_bound ht]
        · exact h10

theorem pair_rebuild {w : World P K} (hw : w.Sound) (hv : w.VisitsExisting) {s s' : Knn P K} (h : ∃ g', s' = { s with graph := g' }) (S : List P) :
    Pair w (Knn.rebuild w s S).1 (Knn.rebuild w.steady s' S).1 := by
  obtain ⟨g', rfl⟩ := h
  have ht := hw.knn_true S (min (S.length - 1) s.k)
  have ht' := hw.steady.knn_true S (min (S.length - 1) s.k)
  have hbase : ∀ s' : Knn P K, s'.samples = some S → s'.graph = some (tabGraph w S (w.knn S (min (S.length - 1) s.k))) →
      s'.cache = some (tabGraph w S (w.knn S (min (S.length - 1) s.k))) →
      s'.master = some (w.knn S (min (S.length - 1) s.k)) → Pair w s' s' := by
    intro s' h1 h2 h3 h4
    refine Or.inr ⟨S, _, _, _, _, h1, h2, h3, h4, rfl, ?_, List.Sublist.refl _, List.Sublist.refl _, fun e he => he, (tabGraph_bound ht).ge, (tabGraph_bound ht).ge⟩
    rw [← h2]
  unfold Knn.rebuild
  simp only [tableGraph_ok ht, tableGraph_ok ht']
  have hk : w.steady.knn = w.knn := rfl
  simp only [hk]
  cases hc : Knn.certify (w.knn S (min (S.length - 1) s.k)) with
  | error e => exact hbase _ rfl rfl rfl rfl
  | ok c =>
    simp only
    split
    · exact pair_setRadius hw hv (hbase _ rfl rfl rfl rfl) c
    · exact hbase _ rfl rfl rfl rfl

theorem pair_graph {w : World P K} {s s' : Knn P K} (h : Pair w s s') : s' = { s with graph := s'.graph } := by
  rcases h with ⟨rfl, -⟩ | ⟨S, g, g', t, k, h1, h2, h3, h4, h5, h6, -⟩
  · rfl
  · rw [h6]

theorem pair_grow {w : World P K} (hw : w.Sound) (hv : w.VisitsExisting) {s s' : Knn P K} (h : Pair w s s') (n : ℕ) :
    Pair w (s.grow w n).1 (s'.grow w.steady n).1 := by
  have hg := pair_graph h
  have hd : w.steady.fresh = w.fresh := rfl
  have e1 : s'.samples = s.samples := by rw [hg]
  have e2 : s'.drawn = s.drawn := by rw [hg]
  unfold Knn.grow
  simp only [e1, e2, hd]
  cases hS : s.samples with
  | none => exact pair_rebuild hw hv ⟨s'.graph, by rw [hg]⟩ _
  | some old =>
    simp only
    split
    · rcases h with ⟨rfl, h1, h2, h3, h4, h5⟩ | ⟨S, g, g', t, k, h1, h2, h3, h4, h5, h6, h7⟩
      · rw [hS] at h1
        cases h1
      · refine .inr ⟨S, g, g', t, k, ?_, h2, h3, h4, h5, ?_, h7⟩
        · rw [← hS]; exact h1
        · rw [h6, ← hS]
    · exact pair_rebuild hw hv ⟨s'.graph, by rw [hg]⟩ _

theorem pair_setNeighbors {w : World P K} {s s' : Knn P K} (h : Pair w s s') (hw : w.Sound) (k : ℕ) :
    Pair w (s.setNeighbors k).1 (s'.setNeighbors k).1 := by
  rcases h with ⟨rfl, h1, h2, h3, h4, h5⟩ | ⟨S, g, g', t, k', h1, h2, h3, h4, h5, rfl, h6, h7, h8, h9, h10⟩
  · have key : (s'.setNeighbors k).1.samples = none ∧ (s'.setNeighbors k).1.graph = none ∧ (s'.setNeighbors k).1.cache = none ∧
        (s'.setNeighbors k).1.certified = none ∧ (s'.setNeighbors k).1.connR = none := by
      unfold Knn.setNeighbors
      split
      · exact ⟨h1, h2, h3, h4, h5⟩
      · by_cases hk : s'.k < k
        · simp only [hk, h3, decide_true, Option.isNone_none, Bool.and_self, if_true]
          exact ⟨h1, h2, trivial, h4, h5⟩
        · simp only [hk, decide_false, Bool.false_and, Bool.false_eq_true, if_false]
          split
          · exact ⟨h1, h2, h3, h4, h5⟩
          · rw [h2]
            simp only
            split <;> exact ⟨h1, by first | rfl | exact h2, h3, h4, h5⟩
    exact .inl ⟨rfl, key⟩
  · have ht : w.TrueTable S t := by rw [h5]; exact hw.knn_true S k'
    have hs := tabGraph_simple w S t
    unfold Knn.setNeighbors
    simp only
    split
    · exact .inr ⟨S, g, g', t, k', h1, h2, h3, h4, h5, rfl, h6, h7, h8, h9, h10⟩
    · by_cases hk : s.k < k
      · simp only [hk, h3, h4, decide_true, Option.isNone_some, Bool.and_false, Bool.false_eq_true, if_true, if_false]
        refine .inr ⟨S, _, _, t, k', h1, rfl, rfl, rfl, h5, rfl, ?_, ?_, fun e he => he, ?_, ?_⟩
        · rw [throwAway_eq]; exact removeAll_sublist _ _
        · rw [throwAway_eq]; exact removeAll_sublist _ _
        · rw [throwAway_eq, removeAll_bound, tabGraph_bound ht]
        · rw [throwAway_eq, removeAll_bound, tabGraph_bound ht]
      · simp only [hk, decide_false, Bool.false_and, Bool.false_eq_true, if_false, h4, h2]
        refine .inr ⟨S, _, _, t, k', h1, rfl, h3, rfl, h5, rfl, ?_, ?_, ?_, ?_, ?_⟩
        · rw [throwAway_eq]; exact (removeAll_sublist _ _).trans h6
        · rw [throwAway_eq]; exact (removeAll_sublist _ _).trans h7
        · intro e he
          rw [throwAway_eq, removeAll_edges _ (List.Pairwise.sublist h7 hs), List.mem_filter] at he
          rw [throwAway_eq, removeAll_edges _ (List.Pairwise.sublist h6 hs), List.mem_filter]
          exact ⟨h8 e he.1, he.2⟩
        · rw [throwAway_eq, removeAll_bound]; exact h9
        · rw [throwAway_eq, removeAll_bound]; exact h10

theorem pair_query {w : World P K} {s s' : Knn P K} (h : Pair w s s') (hw : w.Sound) (a b : P) :
    Pair w (s.query w a b).1 (s'.query w.steady a b).1 ∧
      ((∃ e, (s.query w a b).2 = .error e ∧ (s'.query w.steady a b).2 = .error e) ∨
        ∃ d pts d' pts', (s.query w a b).2 = .ok (d, pts) ∧ (s'.query w.steady a b).2 = .ok (d', pts') ∧ d ≤ d' ∧ (pts = [] → pts' = [])) := by
  rcases h with ⟨rfl, h1, h2, h3, h4, h5⟩ | ⟨S, g, g', t, k', h1, h2, h3, h4, h5, rfl, h6, h7, h8, h9, h10⟩
  · have e : s'.query w a b = (s', .error .type) := by unfold Knn.query; rw [h1]
    have e' : s'.query w.steady a b = (s', .error .type) := by unfold Knn.query; rw [h1]
    rw [e, e']
    exact ⟨.inl ⟨rfl, h1, h2, h3, h4, h5⟩, .inl ⟨_, rfl, rfl⟩⟩
  · have ht : w.TrueTable S t := by rw [h5]; exact hw.knn_true S k'
    cases hr : s.connR.or s.certified with
    | none =>
      have e : s.query w a b = (s, .error .type) := by unfold Knn.query; rw [h1, hr]
      have e' : Knn.query w.steady a b { s with graph := some g' } = ({ s with graph := some g' }, .error .type) := by
        unfold Knn.query
        simp only [h1, hr]
      rw [e, e']
      exact ⟨.inr ⟨S, g, g', t, k', h1, h2, h3, h4, h5, rfl, h6, h7, h8, h9, h10⟩, .inl ⟨_, rfl, rfl⟩⟩
    | some r =>
      have hck : w.Checked S g := Checked.sublist (fun e he => h6.subset he) (tabGraph_checked hw ht)
      have hck' : w.steady.Checked S g' := Checked.sublist (fun e he => h7.subset he) (tabGraph_checked hw.steady ht)
      obtain ⟨d, pts, he, hsol⟩ := Knn.query_eq hw h1 h2 hr hck h9 a b
      obtain ⟨d', pts', he', hsol'⟩ := Knn.query_eq hw.steady (s := { s with graph := some g' }) h1 rfl hr hck' h10 a b
      rw [he, he']
      refine ⟨.inr ⟨S, _, _, t, k', h1, rfl, h3, h4, h5, rfl, ?_, ?_, ?_, ?_, ?_⟩, .inr ⟨d, pts, d', pts', rfl, rfl, ?_⟩⟩
      · rw [afterQuery_edges (Checked.inBound hck h9)]; exact h6
      · rw [afterQuery_edges (Checked.inBound hck' h10)]; exact h7
      · rw [afterQuery_edges (Checked.inBound hck h9), afterQuery_edges (Checked.inBound hck' h10)]; exact h8
      · rw [afterQuery_bound]; omega
      · rw [afterQuery_bound]; omega
      · have hmono : ∀ ids pts, w.steady.Route S g' r a b ids pts → w.Route S g r a b ids pts := by
          rintro ids pts ⟨c1, c2, c3, c4, c5⟩
          exact ⟨c1, c2, c3, c4, c5.imp fun i j ⟨e, he, hj⟩ => ⟨e, h8 e he, hj⟩⟩
        rcases hsol' with ⟨ids', b1, b2, -⟩ | ⟨rfl, rfl, -⟩
        · have hroute := hmono ids' pts' b1
          rcases hsol with ⟨ids, c1, c2, c3⟩ | ⟨-, -, c3⟩
          · refine ⟨?_, ?_⟩
            · rw [c2, b2]
              exact WithTop.coe_le_coe.2 (c3 ids' pts' hroute)
            · rintro rfl
              have := c1.points
              cases this
              exact absurd rfl c1.nonempty
          · exact absurd hroute (c3 ids' pts')
        · exact ⟨le_top, fun _ => rfl⟩

theorem pair_run {w : World P K} (hw : w.Sound) (hv : w.VisitsExisting) {s s' : Knn P K} (h : Pair w s s') (ops : List (Knn.Op P K)) :
    Pair w (s.run w ops) (s'.run w.steady ops) := by
  induction ops generalizing s s' with
  | nil => exact h
  | cons o ops ih =>
    refine ih ?_
    cases o with
    | grow n => exact pair_grow hw hv h n
    | setRadius r => exact pair_setRadius hw hv h r
    | setNeighbors k => exact pair_setNeighbors h hw k
    | query a b => exact (pair_query h hw a b).1
    | reset =>
      have hg := pair_graph h
      refine .inl ⟨?_, rfl, rfl, rfl, rfl, rfl⟩
      simp only [Knn.step, Knn.reset]
      rw [hg]

theorem pair_init (w : World P K) (k : ℕ) (tr : Bool) (d : ℕ) : Pair w (Knn.init k tr d) (Knn.init k tr d) :=
  .inl ⟨rfl, rfl, rfl, rfl, rfl, rfl⟩

end Verif.Prm
