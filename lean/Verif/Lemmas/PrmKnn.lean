import Verif.Lemmas.PrmFull

/-! Invariants of the k-NN PRM. -/

namespace Verif.Prm

set_option linter.unusedSectionVars false

variable {P K : Type*} [LinearOrder K] [AddCommGroup K]

/-! ### Removing edges -/

theorem eraseP_eq_filter {g : NkGraph K} (hs : Simple g) (u v : ℕ) :
    g.edges.eraseP (·.joins u v) = g.edges.filter (!·.joins u v) := by
  unfold Simple at hs
  generalize g.edges = l at hs
  induction l with
  | nil => rfl
  | cons e l ih =>
    rw [List.pairwise_cons] at hs
    by_cases h : e.joins u v = true
    · rw [List.eraseP_cons_of_pos (p := fun x : Edge K => x.joins u v) h, List.filter_cons_of_neg (by simp [h])]
      symm
      rw [List.filter_eq_self]
      intro f hf
      have h1 := hs.1 f hf
      rw [Bool.not_eq_true', Bool.eq_false_iff]
      intro h2
      rw [Bool.eq_false_iff] at h1
      apply h1
      rw [joins_iff] at *
      omega
    · rw [List.eraseP_cons_of_neg (p := fun x : Edge K => x.joins u v) h, List.filter_cons_of_pos (by simp [h]), ih hs.2]

theorem removeEdge_simple {g : NkGraph K} (hs : Simple g) (u v : ℕ) : Simple (g.removeEdge u v) := by
  unfold Simple at *
  exact List.Pairwise.sublist List.eraseP_sublist hs

/-- The loop that removes the given pairs. -/
def removeAll (ps : List (ℕ × ℕ)) (g : NkGraph K) : NkGraph K := ps.foldl (fun h p => h.removeEdge p.1 p.2) g

theorem removeAll_bound (ps : List (ℕ × ℕ)) (g : NkGraph K) : (removeAll ps g).bound = g.bound := by
  induction ps generalizing g with
  | nil => rfl
  | cons p ps ih => exact (ih _).trans rfl

theorem removeAll_removed (ps : List (ℕ × ℕ)) (g : NkGraph K) : (removeAll ps g).removed = g.removed := by
  induction ps generalizing g with
  | nil => rfl
  | cons p ps ih => exact (ih _).trans rfl

theorem removeAll_sublist (ps : List (ℕ × ℕ)) (g : NkGraph K) : (removeAll ps g).edges.Sublist g.edges := by
  induction ps generalizing g with
  | nil => exact List.Sublist.refl _
  | cons p ps ih => exact (ih _).trans List.eraseP_sublist

theorem removeAll_simple (ps : List (ℕ × ℕ)) {g : NkGraph K} (hs : Simple g) : Simple (removeAll ps g) :=
  List.Pairwise.sublist (removeAll_sublist ps g) hs

theorem removeAll_edges (ps : List (ℕ × ℕ)) {g : NkGraph K} (hs : Simple g) :
    (removeAll ps g).edges = g.edges.filter fun e => ps.all fun p => !e.joins p.1 p.2 := by
  induction ps generalizing g with
  | nil => simp [removeAll]
  | cons p ps ih =>
    have h1 : removeAll (p :: ps) g = removeAll ps (g.removeEdge p.1 p.2) := rfl
    rw [h1, ih (removeEdge_simple hs _ _)]
    have h2 : (g.removeEdge p.1 p.2).edges = g.edges.filter (!·.joins p.1 p.2) := eraseP_eq_filter hs _ _
    rw [h2, List.filter_filter]
    apply List.filter_congr
    intro e _
    rw [List.all_cons, Bool.and_comm]

theorem throwAway_eq (ps : List (ℕ × ℕ)) (g : NkGraph K) : Knn.throwAway ps g = removeAll ps g := by
  unfold Knn.throwAway removeAll
  congr 1
  funext h p
  split
  · rfl
  · rename_i hn
    unfold NkGraph.removeEdge
    rw [List.eraseP_of_forall_not]
    intro e he hj
    apply hn
    unfold NkGraph.hasEdge
    rw [List.any_eq_true]
    exact ⟨e, he, hj⟩

/-! ### Table graphs -/

theorem tableGraph_ok {w : World P K} {S : List P} {t : Table K} (ht : w.TrueTable S t) (start : ℕ) (thr : Option K) :
    w.tableGraph S t start thr = .ok (w.connect S t.length ((candidates t start).filter fun c => within thr c.2.2)) := by
  unfold World.tableGraph
  simp only
  rw [if_pos]
  rw [List.all_eq_true]
  rintro ⟨i, j, d⟩ hc
  rw [List.mem_filter, mem_candidates] at hc
  obtain ⟨⟨_, row, hrow, hm⟩, _⟩ := hc
  obtain ⟨p, q, hp, hq, _⟩ := ht.2 i row hrow _ hm
  have := lt_of_some hp
  have := lt_of_some hq
  simp_all

theorem connect_checked {w : World P K} (hw : w.Sound) {S : List P} {t : Table K} (ht : w.TrueTable S t) (n start : ℕ)
    (f : ℕ × ℕ × K → Bool) : w.Checked S (w.connect S n ((candidates t start).filter f)) := by
  rintro i j d ⟨e, he, hj, rfl⟩
  obtain ⟨hc, ha⟩ := connect_mem he
  rw [List.mem_filter, mem_candidates] at hc
  obtain ⟨⟨_, row, hrow, hm⟩, _⟩ := hc
  obtain ⟨p, q, hp, hq, hd⟩ := ht.2 _ row hrow _ hm
  obtain ⟨p', q', hp', hq', hck⟩ := (accepts_iff _ _ _ _).1 ha
  rw [hp] at hp'; cases hp'
  simp only at hq hd
  rw [hq] at hq'; cases hq'
  rcases hj with ⟨rfl, rfl⟩ | ⟨rfl, rfl⟩
  · exact ⟨p, q, hp, hq, hd, Or.inl hck⟩
  · exact ⟨q, p, hq, hp, by rw [hd, hw.dist_symm], Or.inr hck⟩

/-- The roadmap that the code builds from a neighbour table without threshold. -/
def tabGraph (w : World P K) (S : List P) (t : Table K) : NkGraph K := w.connect S t.length ((candidates t 0).filter fun _ => true)

theorem tabGraph_adj {w : World P K} {S : List P} {t : Table K} (i j : ℕ) :
    (tabGraph w S t).Adj i j ↔ (w.accepts S i j = true ∧ ∃ row : List (ℕ × K), t[i]? = some row ∧ ∃ d, (j, d) ∈ row) ∨
      (w.accepts S j i = true ∧ ∃ row : List (ℕ × K), t[j]? = some row ∧ ∃ d, (i, d) ∈ row) := by
  constructor
  · rintro ⟨e, he, hj⟩
    obtain ⟨hc, ha⟩ := connect_mem he
    rw [List.mem_filter, mem_candidates] at hc
    obtain ⟨⟨_, row, hrow, hm⟩, _⟩ := hc
    rcases hj with ⟨rfl, rfl⟩ | ⟨rfl, rfl⟩
    · exact Or.inl ⟨ha, row, hrow, _, hm⟩
    · exact Or.inr ⟨ha, row, hrow, _, hm⟩
  · rintro (⟨ha, row, hrow, d, hm⟩ | ⟨ha, row, hrow, d, hm⟩)
    · refine connect_adj (d := d) ?_ ha
      rw [List.mem_filter, mem_candidates]
      exact ⟨⟨Nat.zero_le _, row, hrow, hm⟩, rfl⟩
    · refine Adj.symm (connect_adj (d := d) ?_ ha)
      rw [List.mem_filter, mem_candidates]
      exact ⟨⟨Nat.zero_le _, row, hrow, hm⟩, rfl⟩

/-! ### The invariant -/

/-- The state of a k-NN PRM at all times: nothing built, or a roadmap that is a part of the one built from the table. -/
def Knn.Inv (w : World P K) (s : Knn P K) : Prop :=
  (s.samples = none ∧ s.graph = none ∧ s.cache = none ∧ s.certified = none ∧ s.connR = none) ∨
    ∃ S g t k, s.samples = some S ∧ s.graph = some g ∧ s.cache = some (tabGraph w S t) ∧ s.master = some t ∧ t = w.knn S k ∧
      g.edges.Sublist (tabGraph w S t).edges ∧ (∀ v, g.hasNode v = true ↔ v < S.length) ∧ S.length ≤ g.bound

theorem tabGraph_nodes {w : World P K} {S : List P} {t : Table K} (ht : w.TrueTable S t) (v : ℕ) :
    (tabGraph w S t).hasNode v = true ↔ v < S.length := by
  unfold tabGraph
  rw [connect_hasNode, ht.1]; simp

theorem tabGraph_bound {w : World P K} {S : List P} {t : Table K} (ht : w.TrueTable S t) :
    (tabGraph w S t).bound = S.length := by
  unfold tabGraph
  rw [connect_bound, ht.1]

theorem tabGraph_checked {w : World P K} (hw : w.Sound) {S : List P} {t : Table K} (ht : w.TrueTable S t) :
    w.Checked S (tabGraph w S t) := connect_checked hw ht _ _ _

theorem Checked.sublist {w : World P K} {S : List P} {g h : NkGraph K} (hs : ∀ e ∈ g.edges, e ∈ h.edges) (hh : w.Checked S h) :
    w.Checked S g := by
  rintro i j d ⟨e, he, hj⟩
  exact hh i j d ⟨e, hs e he, hj⟩

/-- The graph after the removal loop of `set_connection_radius`. -/
def cutGraph (w : World P K) (r : K) (g : NkGraph K) : NkGraph K :=
  removeAll (((w.visits g.edges r).filter fun e => decide (r ≤ e.w)).map fun e => (e.u, e.v)) g

theorem cutGraph_eq (w : World P K) (r : K) (g : NkGraph K) :
    ((w.visits g.edges r).filter fun e => decide (r ≤ e.w)).foldl (fun h e => h.removeEdge e.u e.v) g = cutGraph w r g := by
  unfold cutGraph removeAll
  rw [List.foldl_map]

theorem hasNode_congr {g h : NkGraph K} (hb : g.bound = h.bound) (hr : g.removed = h.removed) (v : ℕ) :
    g.hasNode v = h.hasNode v := by
  unfold NkGraph.hasNode; rw [hb, hr]

/-- `set_connection_radius` in a state with a roadmap. -/
theorem Knn.setRadius_eq {w : World P K} {s : Knn P K} {g c : NkGraph K} {x : K} (hg : s.graph = some g) (hc : s.cache = some c)
    (hx : s.certified = some x) (r : K) :
    s.setRadius w r =
      ({ s with graph := some (cutGraph w r (if Knn.mustReload s.connR r = true then c else g)),
                connR := some r }, .ok ()) := by
  unfold Knn.setRadius
  rw [hx, hc, hg]
  simp only [Option.isNone_some, Bool.and_false]
  generalize Knn.mustReload s.connR r = b
  cases b
  · simp only [Bool.false_eq_true, if_false, cutGraph_eq]
  · simp only [Bool.false_eq_true, if_false, if_true, cutGraph_eq]

theorem Knn.setRadius_none {w : World P K} {s : Knn P K} (hx : s.certified = none) (r : K) : s.setRadius w r = (s, .error .type) := by
  unfold Knn.setRadius; rw [hx]

theorem Knn.setRadius_inv {w : World P K} (hw : w.Sound) {s : Knn P K} (h : s.Inv w) (r : K) : (s.setRadius w r).1.Inv w := by
  cases hx : s.certified with
  | none => rw [Knn.setRadius_none hx]; exact h
  | some x =>
    rcases h with ⟨_, _, _, h, _⟩ | ⟨S, g, t, k, h1, h2, h3, h4, h5, h6, h7, h8⟩
    · rw [hx] at h; cases h
    · rw [Knn.setRadius_eq h2 h3 hx]
      have ht : w.TrueTable S t := by rw [h5]; exact hw.knn_true S k
      refine Or.inr ⟨S, _, t, k, h1, rfl, h3, h4, h5, ?_, ?_, ?_⟩
      · refine (removeAll_sublist _ _).trans ?_
        split
        · exact List.Sublist.refl _
        · exact h6
      · intro v
        unfold cutGraph
        rw [hasNode_congr (removeAll_bound _ _) (removeAll_removed _ _)]
        split
        · exact tabGraph_nodes ht v
        · exact h7 v
      · unfold cutGraph
        rw [removeAll_bound]
        split
        · rw [tabGraph_bound ht]
        · exact h8

theorem Knn.rebuild_inv {w : World P K} (hw : w.Sound) (s : Knn P K) (S : List P) : (Knn.rebuild w s S).1.Inv w := by
  have ht := hw.knn_true S (min (S.length - 1) s.k)
  have hbase : ∀ s' : Knn P K, s'.samples = some S → s'.graph = some (tabGraph w S (w.knn S (min (S.length - 1) s.k))) →
      s'.cache = some (tabGraph w S (w.knn S (min (S.length - 1) s.k))) →
      s'.master = some (w.knn S (min (S.length - 1) s.k)) → s'.Inv w := by
    intro s' h1 h2 h3 h4
    exact Or.inr ⟨S, _, _, _, h1, h2, h3, h4, rfl, List.Sublist.refl _, tabGraph_nodes ht, (tabGraph_bound ht).ge⟩
  unfold Knn.rebuild
  simp only [tableGraph_ok ht]
  split
  · exact hbase _ rfl rfl rfl rfl
  · split
    · exact Knn.setRadius_inv hw (hbase _ rfl rfl rfl rfl) _
    · exact hbase _ rfl rfl rfl rfl

theorem Knn.clear_inv {w : World P K} {s : Knn P K} (h : s.Inv w) : Knn.Inv w { s with connR := none } := by
  rcases h with ⟨h1, h2, h3, h4, h5⟩ | h
  · exact Or.inl ⟨h1, h2, h3, h4, rfl⟩
  · exact Or.inr h

theorem Knn.grow_inv {w : World P K} (hw : w.Sound) {s : Knn P K} (h : s.Inv w) (n : ℕ) : (s.grow w n).1.Inv w := by
  unfold Knn.grow
  simp only
  split
  · exact rebuild_inv hw _ _
  · split
    · exact Knn.clear_inv h
    · exact rebuild_inv hw _ _

theorem Knn.setNeighbors_inv {w : World P K} (hw : w.Sound) {s : Knn P K} (h : s.Inv w) (k : ℕ) :
    (s.setNeighbors k).1.Inv w := by
  unfold Knn.setNeighbors
  split
  · exact h
  · rename_i hmax
    rcases h with ⟨h1, h2, h3, h4, h5⟩ | ⟨S, g, t, k', h1, h2, h3, h4, h5, h6, h7, h8⟩
    · have hinv : s.Inv w := Or.inl ⟨h1, h2, h3, h4, h5⟩
      by_cases hk : s.k < k
      · simp only [hk, h3, decide_true, Option.isNone_none, Bool.and_self, if_true]
        exact hinv
      · simp only [hk, decide_false, Bool.false_and, Bool.false_eq_true, if_false]
        split
        · exact hinv
        · rw [h2]
          simp only
          split
          · exact Or.inl ⟨h1, rfl, h3, h4, h5⟩
          · exact hinv
    · have ht : w.TrueTable S t := by rw [h5]; exact hw.knn_true S k'
      by_cases hk : s.k < k
      · simp only [hk, h3, h4, decide_true, Option.isNone_some, Bool.and_false, Bool.false_eq_true, if_true, if_false]
        refine Or.inr ⟨S, _, t, k', h1, rfl, rfl, rfl, h5, ?_, ?_, ?_⟩
        · rw [throwAway_eq]; exact removeAll_sublist _ _
        · intro v
          rw [throwAway_eq, hasNode_congr (removeAll_bound _ _) (removeAll_removed _ _)]
          exact tabGraph_nodes ht v
        · rw [throwAway_eq, removeAll_bound, tabGraph_bound ht]
      · simp only [hk, decide_false, Bool.false_and, Bool.false_eq_true, if_false, h4, h2]
        refine Or.inr ⟨S, _, t, k', h1, rfl, h3, rfl, h5, ?_, ?_, ?_⟩
        · rw [throwAway_eq]; exact (removeAll_sublist _ _).trans h6
        · intro v
          rw [throwAway_eq, hasNode_congr (removeAll_bound _ _) (removeAll_removed _ _)]
          exact h7 v
        · rw [throwAway_eq, removeAll_bound]; exact h8

/-- A query in a state with a roadmap. -/
theorem Knn.query_eq {w : World P K} (hw : w.Sound) {s : Knn P K} {S : List P} {g : NkGraph K} {r : K}
    (h1 : s.samples = some S) (h2 : s.graph = some g) (h3 : s.connR.or s.certified = some r) (hg : w.Checked S g)
    (hb : S.length ≤ g.bound) (start goal : P) :
    ∃ d pts, s.query w start goal =
        ({ s with graph := some (afterQuery g (w.querySamples S r start) (w.querySamples S r goal)) }, .ok (d, pts)) ∧
      ((∃ ids, w.Route S g r start goal ids pts ∧ d = (pathLength w.dist (start :: pts ++ [goal]) : K) ∧
          ∀ ids' pts', w.Route S g r start goal ids' pts' →
            pathLength w.dist (start :: pts ++ [goal]) ≤ pathLength w.dist (start :: pts' ++ [goal])) ∨
        (d = ⊤ ∧ pts = [] ∧ ∀ ids' pts', ¬ w.Route S g r start goal ids' pts')) := by
  obtain ⟨d, pts, he, hsol⟩ := solve_spec (r := r) (start := start) (goal := goal) hw hg hb
  refine ⟨d, pts, ?_, hsol⟩
  unfold Knn.query
  rw [h1, h2, h3]
  simp only [he]

theorem Knn.query_inv {w : World P K} (hw : w.Sound) {s : Knn P K} (h : s.Inv w) (a b : P) : (s.query w a b).1.Inv w := by
  rcases h with ⟨h1, h2, h3, h4, h5⟩ | ⟨S, g, t, k', h1, h2, h3, h4, h5, h6, h7, h8⟩
  · have : s.query w a b = (s, .error .type) := by unfold Knn.query; rw [h1]
    rw [this]
    exact Or.inl ⟨h1, h2, h3, h4, h5⟩
  · have ht : w.TrueTable S t := by rw [h5]; exact hw.knn_true S k'
    cases hr : s.connR.or s.certified with
    | none =>
      have : s.query w a b = (s, .error .type) := by unfold Knn.query; rw [h1, hr]
      rw [this]
      exact Or.inr ⟨S, g, t, k', h1, h2, h3, h4, h5, h6, h7, h8⟩
    | some r =>
      have hck : w.Checked S g := Checked.sublist (fun e he => h6.subset he) (tabGraph_checked hw ht)
      obtain ⟨d, pts, he, _⟩ := Knn.query_eq hw h1 h2 hr hck h8 a b
      rw [he]
      refine Or.inr ⟨S, _, t, k', h1, rfl, h3, h4, h5, ?_, ?_, ?_⟩
      · rw [afterQuery_edges (Checked.inBound hck h8)]; exact h6
      · intro v; rw [afterQuery_hasNode]; exact h7 v
      · rw [afterQuery_bound]; omega

theorem Knn.reset_inv {w : World P K} (s : Knn P K) : s.reset.Inv w := Or.inl ⟨rfl, rfl, rfl, rfl, rfl⟩

theorem Knn.step_inv {w : World P K} (hw : w.Sound) {s : Knn P K} (h : s.Inv w) (o : Knn.Op P K) : (s.step w o).Inv w := by
  cases o with
  | grow n => exact grow_inv hw h n
  | setRadius r => exact setRadius_inv hw h r
  | setNeighbors k => exact setNeighbors_inv hw h k
  | query a b => exact query_inv hw h a b
  | reset => exact reset_inv s

theorem Knn.run_inv {w : World P K} (hw : w.Sound) {s : Knn P K} (h : s.Inv w) (ops : List (Knn.Op P K)) :
    (s.run w ops).Inv w := by
  induction ops generalizing s with
  | nil => exact h
  | cons o ops ih => exact ih (step_inv hw h o)

theorem Knn.init_inv (w : World P K) (k : ℕ) (tr : Bool) (d : ℕ) : (Knn.init k tr d).Inv w :=
  Or.inl ⟨rfl, rfl, rfl, rfl, rfl⟩

theorem Knn.Inv.checked {w : World P K} (hw : w.Sound) {s : Knn P K} (h : s.Inv w) {S : List P} {g : NkGraph K}
    (hS : s.samples = some S) (hg : s.graph = some g) : w.Checked S g ∧ S.length ≤ g.bound := by
  rcases h with ⟨h, _⟩ | ⟨S', g', t, k, h1, h2, _, _, h5, h6, _, h8⟩
  · rw [hS] at h; cases h
  · rw [hS] at h1; cases h1
    rw [hg] at h2; cases h2
    exact ⟨Checked.sublist (fun e he => h6.subset he) (tabGraph_checked hw (by rw [h5]; exact hw.knn_true _ _)), h8⟩

/-! ### Cutting to a radius -/

theorem simple_eq {g : NkGraph K} (hs : Simple g) {e f : Edge K} (he : e ∈ g.edges) (hf : f ∈ g.edges)
    (hj : e.joins f.u f.v = true) : e = f := by
  by_contra hne
  have hsym : Std.Symm fun e f : Edge K => f.joins e.u e.v = false := by
    constructor
    intro a b h
    rw [Bool.eq_false_iff] at *
    intro h'
    apply h
    rw [joins_iff] at *
    omega
  have := List.Pairwise.forall hs hf he (Ne.symm hne)
  rw [this] at hj
  cases hj

theorem cutGraph_edges {w : World P K} (hv : w.VisitsAll) (r : K) {g : NkGraph K} (hs : Simple g) :
    (cutGraph w r g).edges = g.edges.filter fun e => decide (e.w < r) := by
  unfold cutGraph
  rw [removeAll_edges _ hs]
  apply List.filter_congr
  intro e he
  rw [Bool.eq_iff_iff, List.all_eq_true, decide_eq_true_eq]
  constructor
  · intro h
    by_contra hlt
    have hle : r ≤ e.w := not_lt.1 hlt
    have := h (e.u, e.v) (List.mem_map.2 ⟨e, List.mem_filter.2 ⟨(hv g.edges r).2 e he hle, by simpa using hle⟩, rfl⟩)
    simp [Edge.joins] at this
  · rintro hlt p hp
    obtain ⟨f, hf, rfl⟩ := List.mem_map.1 hp
    obtain ⟨hf1, hf2⟩ := List.mem_filter.1 hf
    rw [Bool.not_eq_true', Bool.eq_false_iff]
    intro hj
    have := simple_eq hs he ((hv g.edges r).1 f hf1) hj
    subst this
    exact absurd (by simpa using hf2) (not_le.2 hlt)

/-- After a growth and radius changes or queries: the table roadmap cut to the current radius. -/
def Knn.Cut (w : World P K) (S : List P) (t : Table K) (x : K) (s : Knn P K) : Prop :=
  s.samples = some S ∧ s.cache = some (tabGraph w S t) ∧ s.master = some t ∧ s.certified = some x ∧
    ∃ g, s.graph = some g ∧ S.length ≤ g.bound ∧
      g.edges = match s.connR with
        | none => (tabGraph w S t).edges
        | some r => (tabGraph w S t).edges.filter fun e => decide (e.w < r)

theorem tabGraph_simple (w : World P K) (S : List P) (t : Table K) : Simple (tabGraph w S t) := connect_simple ..

theorem Knn.cut_setRadius {w : World P K} (hv : w.VisitsAll) {S : List P} {t : Table K} {x : K} (ht : w.TrueTable S t)
    {s : Knn P K} (h : s.Cut w S t x) (r : K) : (s.setRadius w r).1.Cut w S t x ∧ (s.setRadius w r).1.connR = some r := by
  obtain ⟨h1, h2, h3, h4, g, h5, h6, h7⟩ := h
  rw [Knn.setRadius_eq h5 h2 h4]
  refine ⟨⟨h1, h2, h3, h4, _, rfl, ?_, ?_⟩, rfl⟩
  · unfold cutGraph
    rw [removeAll_bound]
    split
    · rw [tabGraph_bound ht]
    · exact h6
  · simp only
    split
    · rw [cutGraph_edges hv r (tabGraph_simple ..)]
    · rename_i hm
      have hsg : Simple g := by
        unfold Simple
        rw [h7]
        split
        · exact tabGraph_simple w S t
        · exact List.Pairwise.sublist List.filter_sublist (tabGraph_simple w S t)
      rw [cutGraph_edges hv r hsg, h7]
      cases hc : s.connR with
      | none => rfl
      | some c =>
        simp only
        rw [List.filter_filter]
        apply List.filter_congr
        intro e _
        rw [hc] at hm
        simp only [Knn.mustReload, decide_eq_true_eq, not_lt] at hm
        rw [Bool.eq_iff_iff]
        simp only [Bool.and_eq_true, decide_eq_true_eq]
        exact ⟨fun h => h.1, fun h => ⟨h, lt_of_lt_of_le h hm⟩⟩

theorem Knn.cut_query {w : World P K} (hw : w.Sound) {S : List P} {t : Table K} {x : K} (ht : w.TrueTable S t)
    {s : Knn P K} (h : s.Cut w S t x) (a b : P) : (s.query w a b).1.Cut w S t x ∧ (s.query w a b).1.connR = s.connR := by
  obtain ⟨h1, h2, h3, h4, g, h5, h6, h7⟩ := h
  have hsub : ∀ e ∈ g.edges, e ∈ (tabGraph w S t).edges := by
    rw [h7]
    split
    · exact fun e he => he
    · exact fun e he => List.mem_of_mem_filter he
  have hck : w.Checked S g := Checked.sublist hsub (tabGraph_checked hw ht)
  have hr : ∃ r, s.connR.or s.certified = some r := by
    rw [h4]; cases s.connR <;> simp
  obtain ⟨r, hr⟩ := hr
  obtain ⟨d, pts, he, _⟩ := Knn.query_eq hw h1 h5 hr hck h6 a b
  rw [he]
  refine ⟨⟨h1, h2, h3, h4, _, rfl, ?_, ?_⟩, rfl⟩
  · rw [afterQuery_bound]; omega
  · rw [afterQuery_edges (Checked.inBound hck h6)]; exact h7

theorem Knn.rebuild_cut {w : World P K} (hw : w.Sound) (hv : w.VisitsAll) {s : Knn P K} (hs : s.connR = none) {S : List P}
    (hok : (Knn.rebuild w s S).2 = .ok ()) :
    ∃ x, Knn.certify (w.knn S (min (S.length - 1) s.k)) = .ok x ∧
      (Knn.rebuild w s S).1.Cut w S (w.knn S (min (S.length - 1) s.k)) x ∧
      (Knn.rebuild w s S).1.connR = (if s.truncate then some x else none) := by
  have ht := hw.knn_true S (min (S.length - 1) s.k)
  unfold Knn.rebuild at hok ⊢
  simp only [tableGraph_ok ht] at hok ⊢
  cases hc : Knn.certify (w.knn S (min (S.length - 1) s.k)) with
  | error e => rw [hc] at hok; cases hok
  | ok x =>
    refine ⟨x, rfl, ?_⟩
    have hcut : ∀ s' : Knn P K, s'.samples = some S →
        s'.cache = some (tabGraph w S (w.knn S (min (S.length - 1) s.k))) →
        s'.graph = some (tabGraph w S (w.knn S (min (S.length - 1) s.k))) →
        s'.master = some (w.knn S (min (S.length - 1) s.k)) → s'.certified = some x → s'.connR = none →
        s'.Cut w S (w.knn S (min (S.length - 1) s.k)) x := by
      intro s' a1 a2 a3 a4 a5 a6
      refine ⟨a1, a2, a4, a5, _, a3, (tabGraph_bound ht).ge, ?_⟩
      rw [a6]
    simp only
    split
    · refine Knn.cut_setRadius hv ht ?_ x
      apply hcut
      all_goals first | rfl | exact hs
    · refine ⟨?_, hs⟩
      apply hcut
      all_goals first | rfl | exact hs

theorem Knn.grow_cut {w : World P K} (hw : w.Sound) (hv : w.VisitsAll) {s : Knn P K} {n : ℕ} (hok : (s.grow w n).2 = .ok ()) :
    ∃ S k x, Knn.certify (w.knn S k) = .ok x ∧ S.length = n ∧ (s.grow w n).1.Cut w S (w.knn S k) x ∧
      (s.grow w n).1.connR = (if s.truncate then some x else none) := by
  unfold Knn.grow at hok ⊢
  simp only at hok ⊢
  split
  · rename_i h
    rw [h] at hok
    obtain ⟨x, h1, h2, h3⟩ := Knn.rebuild_cut hw hv (s := { s with connR := none, samples := none, drawn := s.drawn + n }) rfl hok
    exact ⟨_, _, x, h1, by simp [World.fresh], h2, h3⟩
  · rename_i old h
    rw [h] at hok
    simp only at hok
    split at hok
    · cases hok
    · rename_i hn
      rw [if_neg hn]
      obtain ⟨x, h1, h2, h3⟩ := Knn.rebuild_cut hw hv
        (s := { s with connR := none, samples := some old, drawn := s.drawn + (n - old.length) }) rfl hok
      exact ⟨_, _, x, h1, by simp [World.fresh]; omega, h2, h3⟩

end Verif.Prm
