import Mathlib.Data.List.Perm.Subperm
import Mathlib.Tactic.Ring
import Verif.Lemmas.PrmKnn
import Verif.Lemmas.Py

/-! Invariant and growth of `SimpleRadiusPRM`. -/

namespace Verif.Prm

set_option linter.unusedSectionVars false

variable {P K : Type*} [LinearOrder K] [AddCommGroup K]

/-- The roadmap built from the rows `start ..` of a table with a threshold. -/
def thrGraph (w : World P K) (S : List P) (t : Table K) (start : ℕ) (r : K) : NkGraph K :=
  w.connect S t.length ((candidates t start).filter fun c => within (some r) c.2.2)

/-! ### merge -/

theorem merge_eq (g g' : NkGraph K) :
    g.merge g' = addAll
      { bound := max g.bound g'.bound
        removed := (List.range (max g.bound g'.bound)).filter fun v => !(g.hasNode v || g'.hasNode v)
        edges := g.edges } (g'.edges.map fun e => (e.u, e.v, e.w)) := by
  unfold NkGraph.merge addAll
  rw [List.foldl_map]

theorem merge_bound (g g' : NkGraph K) : (g.merge g').bound = max g.bound g'.bound := by rw [merge_eq, addAll_bound]

theorem hasNode_lt {g : NkGraph K} {v : ℕ} (h : g.hasNode v = true) : v < g.bound := by
  unfold NkGraph.hasNode at h
  simp only [Bool.and_eq_true, decide_eq_true_eq] at h
  exact h.1

theorem merge_hasNode (g g' : NkGraph K) (v : ℕ) : (g.merge g').hasNode v = (g.hasNode v || g'.hasNode v) := by
  rw [Bool.eq_iff_iff]
  have h1 : (g.merge g').hasNode v = true ↔ v < (g.merge g').bound ∧ v ∉ (g.merge g').removed := by
    simp [NkGraph.hasNode]
  rw [h1, merge_bound, merge_eq, addAll_removed]
  simp only [List.mem_filter, List.mem_range, Bool.not_eq_true', not_and, Bool.or_eq_false_iff]
  constructor
  · rintro ⟨h, h2⟩
    by_contra hn
    rw [Bool.not_eq_true, Bool.or_eq_false_iff] at hn
    exact h2 h hn.1 hn.2
  · intro h
    refine ⟨?_, fun _ h1 h2 => by rw [h1, h2] at h; simp at h⟩
    rw [Bool.or_eq_true] at h
    rcases h with h | h
    · exact lt_of_lt_of_le (hasNode_lt h) (le_max_left _ _)
    · exact lt_of_lt_of_le (hasNode_lt h) (le_max_right _ _)

theorem merge_mem {g g' : NkGraph K} {e : Edge K} (h : e ∈ (g.merge g').edges) : e ∈ g.edges ∨ e ∈ g'.edges := by
  rw [merge_eq] at h
  rcases addAll_mem h with h | h
  · exact Or.inl h
  · rw [List.mem_map] at h
    obtain ⟨e', he', h⟩ := h
    cases e; cases e'
    simp only [Prod.mk.injEq] at h
    obtain ⟨rfl, rfl, rfl⟩ := h
    exact Or.inr he'

theorem merge_adj (g g' : NkGraph K) (i j : ℕ) : (g.merge g').Adj i j ↔ g.Adj i j ∨ g'.Adj i j := by
  constructor
  · rintro ⟨e, he, hj⟩
    rcases merge_mem he with h | h
    · exact Or.inl ⟨e, h, hj⟩
    · exact Or.inr ⟨e, h, hj⟩
  · rintro (⟨e, he, hj⟩ | ⟨e, he, hj⟩)
    · refine ⟨e, ?_, hj⟩
      rw [merge_eq]
      exact addAll_mono he
    · have : (g.merge g').Adj e.u e.v := by
        rw [merge_eq]
        refine addAll_adj (d := e.w) ?_
        rw [List.mem_map]
        exact ⟨e, he, rfl⟩
      rcases hj with ⟨rfl, rfl⟩ | ⟨rfl, rfl⟩
      · exact this
      · exact Adj.symm this

theorem addNodes_hasNode {g : NkGraph K} {v m : ℕ} (h : g.hasNode v = true) : (g.addNodes m).hasNode v = true := by
  unfold NkGraph.hasNode NkGraph.addNodes at *
  simp only [Bool.and_eq_true, decide_eq_true_eq] at *
  exact ⟨by omega, h.2⟩

/-! ### The doubling loop -/

/-- Why the doubling stopped. -/
def Rad.Stopped (w : World P K) (r : K) (maxK : ℕ) (S : List P) (k : ℕ) : Prop :=
  maxK ≤ k ∨ S.length ≤ k ∨ Rad.allLast (fun d => r ≤ d) (w.knn S k) = true

theorem Rad.index_loop (w : World P K) (r : K) (maxK : ℕ) (S : List P) (fuel k : ℕ) (hk : 1 ≤ k) (hf : S.length ≤ k + fuel) :
    ∃ m, loop (Rad.indexBody w r maxK S) (fuel + 1) k = some (w.knn S (k * 2 ^ m), k * 2 ^ m) ∧
      Rad.Stopped w r maxK S (k * 2 ^ m) ∧ ∀ l < m, ¬ Rad.Stopped w r maxK S (k * 2 ^ l) := by
  by_cases hs : Rad.Stopped w r maxK S k
  · refine ⟨0, ?_, by simpa using hs, by simp⟩
    have hb : Rad.indexBody w r maxK S k = .done (w.knn S k, k) := by
      unfold Rad.indexBody
      exact if_pos hs
    rw [loop_done hb]
    simp
  · have hb : Rad.indexBody w r maxK S k = .next (k * 2) := by
      unfold Rad.indexBody
      exact if_neg hs
    have hlt : k < S.length := by
      by_contra h
      exact hs (Or.inr (Or.inl (by omega)))
    induction fuel generalizing k with
    | zero => omega
    | succ fuel ih =>
      rw [loop_next hb]
      by_cases hs' : Rad.Stopped w r maxK S (k * 2)
      · refine ⟨1, ?_, by simpa using hs', ?_⟩
        · have hb' : Rad.indexBody w r maxK S (k * 2) = .done (w.knn S (k * 2), k * 2) := by
            unfold Rad.indexBody
            exact if_pos hs'
          rw [loop_done hb']
          simp
        · intro l hl
          have : l = 0 := by omega
          subst this
          simpa using hs
      · have hb' : Rad.indexBody w r maxK S (k * 2) = .next (k * 2 * 2) := by
          unfold Rad.indexBody
          exact if_neg hs'
        have hlt' : k * 2 < S.length := by
          by_contra h
          exact hs' (Or.inr (Or.inl (by omega)))
        obtain ⟨m, h1, h2, h3⟩ := ih (k * 2) (by omega) (by omega) hs' hb' hlt'
        have hpow : ∀ m, k * 2 * 2 ^ m = k * 2 ^ (m + 1) := fun m => by rw [pow_succ]; ring
        rw [hpow] at h1 h2
        refine ⟨m + 1, h1, h2, ?_⟩
        intro l hl
        cases l with
        | zero => simpa using hs
        | succ l => rw [← hpow]; exact h3 l (by omega)

/-! ### Growth -/

/-- The state of a radius PRM at all times. -/
def Rad.Inv (w : World P K) (s : Rad P K) : Prop :=
  1 ≤ s.k ∧ ((s.samples = none ∧ s.graph = none ∧ s.ann = none) ∨
    ∃ S g, s.samples = some S ∧ s.graph = some g ∧ s.ann = some (S, s.k) ∧ w.Checked S g ∧ S.length ≤ g.bound ∧
      ∀ v, v < S.length → g.hasNode v = true)

/-- First growth. -/
theorem Rad.grow_first {w : World P K} (hw : w.Sound) {s : Rad P K} (hk : 1 ≤ s.k) (hS : s.samples = none) (n : ℕ) :
    ∃ m, s.grow w n =
        ({ s with k := s.k * 2 ^ m, samples := some (w.fresh s.drawn n), ann := some (w.fresh s.drawn n, s.k * 2 ^ m),
                  graph := some (tabGraph w (w.fresh s.drawn n) (w.knn (w.fresh s.drawn n) (s.k * 2 ^ m))),
                  drawn := s.drawn + n }, .ok ()) ∧
      Rad.Stopped w s.connR s.maxK (w.fresh s.drawn n) (s.k * 2 ^ m) ∧
      ∀ l < m, ¬ Rad.Stopped w s.connR s.maxK (w.fresh s.drawn n) (s.k * 2 ^ l) := by
  have hlen : (w.fresh s.drawn n).length = n := by simp [World.fresh]
  obtain ⟨m, h1, h2, h3⟩ := Rad.index_loop w s.connR s.maxK (w.fresh s.drawn n) n s.k hk (by omega)
  refine ⟨m, ?_, h2, h3⟩
  unfold Rad.grow
  simp only [hS, h1, tableGraph_ok (hw.knn_true _ _)]
  rfl

/-- A growth below the present size is refused. -/
theorem Rad.grow_refused (w : World P K) {s : Rad P K} {S : List P} (hS : s.samples = some S) {n : ℕ} (hn : n < S.length) :
    s.grow w n = (s, .error .value) := by
  unfold Rad.grow
  simp only [hS, hn, if_true]

/-- The samples after growing to `n`. -/
def Rad.grown (w : World P K) (s : Rad P K) (S : List P) (n : ℕ) : List P := S ++ w.fresh s.drawn (n - S.length)

/-- Is the old roadmap kept? -/
def Rad.Keeps (w : World P K) (s : Rad P K) (S : List P) (n : ℕ) : Prop :=
  Rad.allLast (fun d => s.connR < d) (w.knnUpdate S (w.fresh s.drawn (n - S.length)) s.k) = true ∨ s.maxK ≤ s.k

/-- Growth that keeps the old roadmap and adds the edges of the new samples. -/
theorem Rad.grow_merge {w : World P K} (hw : w.Sound) {s : Rad P K} {S : List P} {g : NkGraph K} (hS : s.samples = some S)
    (hg : s.graph = some g) (ha : s.ann = some (S, s.k)) {n : ℕ} (hn : S.length ≤ n) (hkeep : Rad.Keeps w s S n) :
    s.grow w n =
        ({ s with samples := some (Rad.grown w s S n), ann := some (Rad.grown w s S n, s.k),
                  graph := some ((g.addNodes (n - S.length)).merge
                    (thrGraph w (Rad.grown w s S n) (w.knnUpdate S (w.fresh s.drawn (n - S.length)) s.k) S.length s.connR)),
                  drawn := s.drawn + (n - S.length) }, .ok ()) := by
  have hlen : (w.fresh s.drawn (n - S.length)).length = n - S.length := by simp [World.fresh]
  unfold Rad.grow
  have hn' : ¬ n < S.length := by omega
  simp only [hS, hn', ha, hg, if_false]
  unfold Rad.Keeps at hkeep
  rw [if_pos hkeep, tableGraph_ok (hw.knnUpdate_true _ _ _), hlen]
  rfl

/-- Growth that builds a new roadmap with twice as many neighbours. -/
theorem Rad.grow_rebuild {w : World P K} (hw : w.Sound) {s : Rad P K} {S : List P} {g : NkGraph K} (hS : s.samples = some S)
    (hg : s.graph = some g) (ha : s.ann = some (S, s.k)) {n : ℕ} (hn : S.length ≤ n) (hkeep : ¬ Rad.Keeps w s S n) :
    s.grow w n =
        ({ s with k := s.k * 2, samples := some (Rad.grown w s S n), ann := some (Rad.grown w s S n, s.k * 2),
                  graph := some (thrGraph w (Rad.grown w s S n) (w.knn (Rad.grown w s S n) (s.k * 2)) 0 s.connR),
                  drawn := s.drawn + (n - S.length) }, .ok ()) := by
  unfold Rad.grow
  have hn' : ¬ n < S.length := by omega
  simp only [hS, hn', ha, hg, if_false]
  unfold Rad.Keeps at hkeep
  rw [if_neg hkeep, tableGraph_ok (hw.knn_true _ _)]
  rfl

theorem thrGraph_checked {w : World P K} (hw : w.Sound) {S : List P} {t : Table K} (ht : w.TrueTable S t) (start : ℕ) (r : K) :
    w.Checked S (thrGraph w S t start r) := connect_checked hw ht _ _ _

theorem thrGraph_hasNode {w : World P K} {S : List P} {t : Table K} (ht : w.TrueTable S t) (start : ℕ) (r : K) (v : ℕ) :
    (thrGraph w S t start r).hasNode v = true ↔ v < S.length := by
  unfold thrGraph
  rw [connect_hasNode, ht.1]; simp

theorem thrGraph_bound {w : World P K} {S : List P} {t : Table K} (ht : w.TrueTable S t) (start : ℕ) (r : K) :
    (thrGraph w S t start r).bound = S.length := by
  unfold thrGraph
  rw [connect_bound, ht.1]

theorem thrGraph_adj {w : World P K} {S : List P} {t : Table K} (start : ℕ) (r : K) (i j : ℕ) :
    (thrGraph w S t start r).Adj i j ↔
      (w.accepts S i j = true ∧ start ≤ i ∧ ∃ row : List (ℕ × K), t[i]? = some row ∧ ∃ d, (j, d) ∈ row ∧ d ≤ r) ∨
      (w.accepts S j i = true ∧ start ≤ j ∧ ∃ row : List (ℕ × K), t[j]? = some row ∧ ∃ d, (i, d) ∈ row ∧ d ≤ r) := by
  constructor
  · rintro ⟨e, he, hj⟩
    obtain ⟨hc, ha⟩ := connect_mem he
    rw [List.mem_filter, mem_candidates] at hc
    obtain ⟨⟨hs, row, hrow, hm⟩, hd⟩ := hc
    have hd : e.w ≤ r := by simpa [within] using hd
    rcases hj with ⟨rfl, rfl⟩ | ⟨rfl, rfl⟩
    · exact Or.inl ⟨ha, hs, row, hrow, _, hm, hd⟩
    · exact Or.inr ⟨ha, hs, row, hrow, _, hm, hd⟩
  · rintro (⟨ha, hs, row, hrow, d, hm, hd⟩ | ⟨ha, hs, row, hrow, d, hm, hd⟩)
    · refine connect_adj (d := d) ?_ ha
      rw [List.mem_filter, mem_candidates]
      exact ⟨⟨hs, row, hrow, hm⟩, by simpa [within] using hd⟩
    · refine Adj.symm (connect_adj (d := d) ?_ ha)
      rw [List.mem_filter, mem_candidates]
      exact ⟨⟨hs, row, hrow, hm⟩, by simpa [within] using hd⟩

theorem thrGraph_weight {w : World P K} {S : List P} {t : Table K} {start : ℕ} {r : K} {e : Edge K}
    (he : e ∈ (thrGraph w S t start r).edges) : e.w ≤ r := by
  obtain ⟨hc, _⟩ := connect_mem he
  rw [List.mem_filter] at hc
  simpa [within] using hc.2

theorem Checked.append {w : World P K} {S : List P} {g : NkGraph K} (h : w.Checked S g) (new : List P) : w.Checked (S ++ new) g := by
  intro i j d hd
  obtain ⟨p, q, hp, hq, hh⟩ := h i j d hd
  exact ⟨p, q, by rw [List.getElem?_append_left (lt_of_some hp)]; exact hp,
    by rw [List.getElem?_append_left (lt_of_some hq)]; exact hq, hh⟩

theorem Checked.merge {w : World P K} {S : List P} {g g' : NkGraph K} (h : w.Checked S g) (h' : w.Checked S g') :
    w.Checked S (g.merge g') := by
  rintro i j d ⟨e, he, hj⟩
  rcases merge_mem he with he | he
  · exact h i j d ⟨e, he, hj⟩
  · exact h' i j d ⟨e, he, hj⟩

theorem Checked.addNodes {w : World P K} {S : List P} {g : NkGraph K} (h : w.Checked S g) (m : ℕ) : w.Checked S (g.addNodes m) := h

theorem Rad.grown_length (w : World P K) (s : Rad P K) (S : List P) {n : ℕ} (hn : S.length ≤ n) :
    (Rad.grown w s S n).length = n := by
  simp [Rad.grown, World.fresh]; omega

theorem Rad.grow_inv {w : World P K} (hw : w.Sound) {s : Rad P K} (h : s.Inv w) (n : ℕ) : (s.grow w n).1.Inv w := by
  obtain ⟨hk, ⟨h1, h2, h3⟩ | ⟨S, g, h1, h2, h3, h4, h5, h6⟩⟩ := h
  · obtain ⟨m, he, _, _⟩ := Rad.grow_first hw hk h1 n
    rw [he]
    have ht := hw.knn_true (w.fresh s.drawn n) (s.k * 2 ^ m)
    refine ⟨Nat.mul_pos hk (Nat.pow_pos (by omega)), Or.inr ⟨_, _, rfl, rfl, rfl, tabGraph_checked hw ht, ?_, ?_⟩⟩
    · rw [tabGraph_bound ht]
    · intro v hv
      rw [tabGraph_nodes ht]; exact hv
  · by_cases hn : n < S.length
    · rw [Rad.grow_refused w h1 hn]
      exact ⟨hk, Or.inr ⟨S, g, h1, h2, h3, h4, h5, h6⟩⟩
    · have hn : S.length ≤ n := by omega
      by_cases hkeep : Rad.Keeps w s S n
      · rw [Rad.grow_merge hw h1 h2 h3 hn hkeep]
        have ht : w.TrueTable (Rad.grown w s S n) _ := hw.knnUpdate_true S (w.fresh s.drawn (n - S.length)) s.k
        refine ⟨hk, Or.inr ⟨_, _, rfl, rfl, rfl, ?_, ?_, ?_⟩⟩
        · exact Checked.merge (Checked.addNodes (Checked.append h4 _) _) (thrGraph_checked hw ht _ _)
        · rw [merge_bound]
          exact le_trans (le_of_eq (thrGraph_bound ht _ _).symm) (le_max_right _ _)
        · intro v hv
          rw [merge_hasNode, (thrGraph_hasNode ht _ _ v).2 hv, Bool.or_true]
      · rw [Rad.grow_rebuild hw h1 h2 h3 hn hkeep]
        have ht := hw.knn_true (Rad.grown w s S n) (s.k * 2)
        refine ⟨by show 1 ≤ s.k * 2; omega, Or.inr ⟨_, _, rfl, rfl, rfl, thrGraph_checked hw ht _ _, ?_, ?_⟩⟩
        · rw [thrGraph_bound ht]
        · intro v hv
          rw [thrGraph_hasNode ht]; exact hv

/-- A query in a state with a roadmap. -/
theorem Rad.query_eq {w : World P K} (hw : w.Sound) {s : Rad P K} {S : List P} {g : NkGraph K}
    (h1 : s.samples = some S) (h2 : s.graph = some g) (hg : w.Checked S g)
    (hb : S.length ≤ g.bound) (start goal : P) :
    ∃ d pts, s.query w start goal =
        ({ s with graph := some (afterQuery g (w.querySamples S s.connR start) (w.querySamples S s.connR goal)) }, .ok (d, pts)) ∧
      ((∃ ids, w.Route S g s.connR start goal ids pts ∧ d = (pathLength w.dist (start :: pts ++ [goal]) : K) ∧
          ∀ ids' pts', w.Route S g s.connR start goal ids' pts' →
            pathLength w.dist (start :: pts ++ [goal]) ≤ pathLength w.dist (start :: pts' ++ [goal])) ∨
        (d = ⊤ ∧ pts = [] ∧ ∀ ids' pts', ¬ w.Route S g s.connR start goal ids' pts')) := by
  obtain ⟨d, pts, he, hsol⟩ := solve_spec (r := s.connR) (start := start) (goal := goal) hw hg hb
  refine ⟨d, pts, ?_, hsol⟩
  unfold Rad.query
  rw [h1, h2]
  simp only [he]

theorem Rad.query_inv {w : World P K} (hw : w.Sound) {s : Rad P K} (h : s.Inv w) (a b : P) : (s.query w a b).1.Inv w := by
  obtain ⟨hk, ⟨h1, h2, h3⟩ | ⟨S, g, h1, h2, h3, h4, h5, h6⟩⟩ := h
  · have : s.query w a b = (s, .error .type) := by unfold Rad.query; rw [h1]
    rw [this]
    exact ⟨hk, Or.inl ⟨h1, h2, h3⟩⟩
  · obtain ⟨d, pts, he, _⟩ := Rad.query_eq hw h1 h2 h4 h5 a b
    rw [he]
    refine ⟨hk, Or.inr ⟨S, _, h1, rfl, h3, ?_, ?_, ?_⟩⟩
    · exact Checked.congr (afterQuery_edges (Checked.inBound h4 h5) _ _) h4
    · rw [afterQuery_bound]; omega
    · intro v hv; rw [afterQuery_hasNode]; exact h6 v hv

theorem Rad.run_inv {w : World P K} (hw : w.Sound) {s : Rad P K} (h : s.Inv w) (ops : List (Rad.Op P)) :
    (s.run w ops).Inv w := by
  induction ops generalizing s with
  | nil => exact h
  | cons o ops ih =>
    refine ih (s := s.step w o) ?_
    cases o with
    | grow n => exact Rad.grow_inv hw h n
    | query a b => exact Rad.query_inv hw h a b
    | reset => exact ⟨h.1, Or.inl ⟨rfl, rfl, rfl⟩⟩

theorem Rad.init_inv (w : World P K) (r : K) (maxK d : ℕ) : (Rad.init r maxK d).Inv w :=
  ⟨by show 1 ≤ 16; omega, Or.inl ⟨rfl, rfl, rfl⟩⟩

/-! ### Exact tables -/

/-- A table for at least as many neighbours as there are other samples lists them all. -/
theorem ExactTable.all {w : World P K} {S : List P} {k : ℕ} {t : Table K} (ht : w.TrueTable S t) (h : w.ExactTable S k t)
    (hk : S.length ≤ k + 1) {i j : ℕ} {row : List (ℕ × K)} (hrow : t[i]? = some row) (hi : i < S.length) (hj : j < S.length)
    (hij : j ≠ i) : ∃ d, (j, d) ∈ row := by
  obtain ⟨hnd, hne⟩ := h.distinct i row hrow
  have hlen := h.full i row hrow
  have hsub : row.map (·.1) ⊆ (List.range S.length).erase i := by
    intro x hx
    rw [List.mem_map] at hx
    obtain ⟨c, hc, rfl⟩ := hx
    rw [List.Nodup.mem_erase_iff List.nodup_range]
    obtain ⟨p, q, _, hq, _⟩ := ht.2 i row hrow c hc
    exact ⟨hne c hc, List.mem_range.2 (lt_of_some hq)⟩
  have hperm : (row.map (·.1)).Perm ((List.range S.length).erase i) := by
    refine (List.subperm_of_subset hnd hsub).perm_of_length_le ?_
    rw [List.length_erase_of_mem (List.mem_range.2 hi), List.length_range, List.length_map, hlen]
    omega
  have hmem : j ∈ row.map (·.1) := by
    rw [hperm.mem_iff, List.Nodup.mem_erase_iff List.nodup_range]
    exact ⟨hij, List.mem_range.2 hj⟩
  rw [List.mem_map] at hmem
  obtain ⟨⟨j', d⟩, hc, rfl⟩ := hmem
  exact ⟨d, hc⟩

/-- If the last distance of row `i` is at least `r`, all samples closer than `r` are listed. -/
theorem ExactTable.listed {w : World P K} {S : List P} {k : ℕ} {t : Table K} (ht : w.TrueTable S t) (h : w.ExactTable S k t)
    (hk : 1 ≤ k) {i j : ℕ} {p q : P} {r : K} {row : List (ℕ × K)} (hrow : t[i]? = some row) (hp : S[i]? = some p)
    (hq : S[j]? = some q) (hij : j ≠ i) (hd : w.dist p q < r) (hlast : ∀ c, row.getLast? = some c → r ≤ c.2) :
    (j, w.dist p q) ∈ row := by
  have hex : ∃ d, (j, d) ∈ row := by
    by_cases hall : S.length ≤ k + 1
    · exact ExactTable.all ht h hall hrow (lt_of_some hp) (lt_of_some hq) hij
    · by_contra hno
      push Not at hno
      have hne : row ≠ [] := by
        intro h0
        have := h.full i row hrow
        rw [h0] at this
        simp only [List.length_nil] at this
        omega
      have hc := hlast (row.getLast hne) (List.getLast?_eq_some_getLast hne)
      have := h.near i j row p q hrow hp hq hij hno _ (List.getLast_mem hne)
      exact absurd (lt_of_lt_of_le hd (hc.trans this)) (lt_irrefl _)
  obtain ⟨d, hm⟩ := hex
  obtain ⟨p', q', hp', hq', hd'⟩ := ht.2 i row hrow _ hm
  rw [hp] at hp'; cases hp'
  simp only at hq' hd'
  rw [hq] at hq'; cases hq'
  rw [← hd']; exact hm

theorem allLast_iff (f : K → Bool) (t : Table K) :
    Rad.allLast f t = true ↔ ∀ (i : ℕ) (row : List (ℕ × K)), t[i]? = some row → ∀ c, row.getLast? = some c → f c.2 = true := by
  unfold Rad.allLast
  rw [List.all_eq_true]
  constructor
  · intro h i row hrow c hc
    have := h row (List.mem_of_getElem? hrow)
    rw [hc] at this
    simpa using this
  · intro h row hrow
    obtain ⟨i, hi⟩ := List.mem_iff_getElem?.1 hrow
    cases hc : row.getLast? with
    | none => rfl
    | some c => simpa using h i row hi c hc

end Verif.Prm
