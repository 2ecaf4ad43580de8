import Mathlib.Algebra.Order.Monoid.Defs
import Verif.Lemmas.Prm

/-! Walks in the query graph are routes through the roadmap. -/

namespace Verif.Prm

set_option linter.unusedSectionVars false

variable {P K : Type*} [LinearOrder K] [AddCommGroup K]

theorem lt_of_some {S : List P} {i : ℕ} {p : P} (h : S[i]? = some p) : i < S.length := by
  by_contra hn
  rw [List.getElem?_eq_none (by omega)] at h
  cases h

theorem Checked.adj {w : World P K} {S : List P} {g : NkGraph K} (hg : w.Checked S g) {e : Edge K} (he : e ∈ g.edges) :
    ∃ p q, S[e.u]? = some p ∧ S[e.v]? = some q ∧ e.w = w.dist p q ∧ w.Accepted p q :=
  hg e.u e.v e.w ⟨e, he, Or.inl ⟨rfl, rfl⟩, rfl⟩

theorem Checked.joins {w : World P K} (_hw : w.Sound) {S : List P} {g : NkGraph K} (hg : w.Checked S g) {e : Edge K}
    (he : e ∈ g.edges) {a b : ℕ} (hj : e.joins a b = true) :
    ∃ p q, S[a]? = some p ∧ S[b]? = some q ∧ e.w = w.dist p q ∧ w.Accepted p q :=
  hg a b e.w ⟨e, he, (joins_iff e a b).1 hj, rfl⟩

theorem Checked.inBound {w : World P K} {S : List P} {g : NkGraph K} (hg : w.Checked S g) (hb : S.length ≤ g.bound) :
    InBound g := by
  intro e he
  obtain ⟨p, q, hp, hq, _⟩ := Checked.adj hg he
  have := lt_of_some hp
  have := lt_of_some hq
  omega

section
variable (w : World P K) (S : List P) (g : NkGraph K) (r : K) (start goal : P)

/-- The edges of the query graph. -/
abbrev qEdges : List (Edge K) := (queryGraph g (w.querySamples S r start) (w.querySamples S r goal)).edges

theorem mem_qEdges (e : Edge K) : e ∈ qEdges w S g r start goal ↔
    e ∈ g.edges ∨ (e.u = g.bound ∧ (e.v, e.w) ∈ w.querySamples S r start) ∨
      (e.u = g.bound + 1 ∧ (e.v, e.w) ∈ w.querySamples S r goal) := by
  unfold qEdges
  rw [queryGraph_edges]
  simp only [List.mem_append, List.mem_map]
  constructor
  · rintro ((h | ⟨c, hc, rfl⟩) | ⟨c, hc, rfl⟩)
    · exact Or.inl h
    · exact Or.inr (Or.inl ⟨rfl, hc⟩)
    · exact Or.inr (Or.inr ⟨rfl, hc⟩)
  · rintro (h | ⟨h, hc⟩ | ⟨h, hc⟩)
    · exact Or.inl (Or.inl h)
    · exact Or.inl (Or.inr ⟨_, hc, by cases e; simp_all⟩)
    · exact Or.inr ⟨_, hc, by cases e; simp_all⟩

variable {w S g r start goal}

theorem qEdges_nonneg (hw : w.Sound) (hg : w.Checked S g) : ∀ e ∈ qEdges w S g r start goal, 0 ≤ e.w := by
  intro e he
  rw [mem_qEdges] at he
  rcases he with h | ⟨_, h⟩ | ⟨_, h⟩
  · obtain ⟨p, q, _, _, h, _⟩ := Checked.adj hg h
    rw [h]; exact hw.dist_nonneg _ _
  · obtain ⟨p, _, _, _, h⟩ := (mem_querySamples ..).1 h
    rw [h]; exact hw.dist_nonneg _ _
  · obtain ⟨p, _, _, _, h⟩ := (mem_querySamples ..).1 h
    rw [h]; exact hw.dist_nonneg _ _

/-- An edge between two samples is a roadmap edge. -/
theorem qEdge_inner (_hg : w.Checked S g) (hb : S.length ≤ g.bound) {e : Edge K} (he : e ∈ qEdges w S g r start goal)
    {a b : ℕ} (hj : e.joins a b = true) (ha : a < S.length) (hbs : b ≠ g.bound) (hbt : b ≠ g.bound + 1) : e ∈ g.edges := by
  rw [mem_qEdges] at he
  rw [joins_iff] at hj
  rcases he with h | ⟨h1, h⟩ | ⟨h1, h⟩
  · exact h
  · rcases hj with ⟨h2, _⟩ | ⟨h2, _⟩ <;> omega
  · rcases hj with ⟨h2, _⟩ | ⟨h2, _⟩ <;> omega

/-- An edge from a sample to the goal vertex. -/
theorem qEdge_goal (hg : w.Checked S g) (hb : S.length ≤ g.bound) {e : Edge K} (he : e ∈ qEdges w S g r start goal)
    {a : ℕ} (hj : e.joins a (g.bound + 1) = true) (ha : a < S.length) :
    ∃ p, S[a]? = some p ∧ w.dist p goal ≤ r ∧ w.check goal p = true ∧ e.w = w.dist p goal := by
  have hib := Checked.inBound hg hb
  rw [mem_qEdges] at he
  rw [joins_iff] at hj
  rcases he with h | ⟨h1, h⟩ | ⟨h1, h⟩
  · have := hib e h; omega
  · rcases hj with ⟨h2, h3⟩ | ⟨h2, h3⟩ <;> omega
  · rcases hj with ⟨h2, h3⟩ | ⟨h2, h3⟩
    · omega
    · rw [h3] at h
      exact (mem_querySamples ..).1 h

/-- An edge from the start vertex leads to a sample. -/
theorem qEdge_start (hg : w.Checked S g) (hb : S.length ≤ g.bound) {e : Edge K} (he : e ∈ qEdges w S g r start goal)
    {a : ℕ} (hj : e.joins g.bound a = true) :
    ∃ p, S[a]? = some p ∧ w.dist p start ≤ r ∧ w.check start p = true ∧ e.w = w.dist p start := by
  have hib := Checked.inBound hg hb
  rw [mem_qEdges] at he
  rw [joins_iff] at hj
  rcases he with h | ⟨h1, h⟩ | ⟨h1, h⟩
  · have := hib e h; omega
  · have hv : e.v < S.length := by
      obtain ⟨p, hp, _⟩ := (mem_querySamples ..).1 h
      exact lt_of_some hp
    rcases hj with ⟨h2, h3⟩ | ⟨h2, h3⟩
    · rw [h3] at h
      exact (mem_querySamples ..).1 h
    · omega
  · have hv : e.v < S.length := by
      obtain ⟨p, hp, _⟩ := (mem_querySamples ..).1 h
      exact lt_of_some hp
    rcases hj with ⟨h2, h3⟩ | ⟨h2, h3⟩ <;> omega

theorem walk_tail (hw : w.Sound) (hg : w.Checked S g) (hb : S.length ≤ g.bound) {a t : ℕ} {p : List ℕ} {d : K}
    (h : Walk (qEdges w S g r start goal) a p t d) (ht : t = g.bound + 1) (hp : g.bound ∉ p ∧ g.bound + 1 ∉ p)
    {pa : P} (ha : S[a]? = some pa) :
    ∃ pts, List.Forall₂ (fun i p => S[i]? = some p) p pts ∧ (a :: p).IsChain g.Adj ∧
      (∀ i, (a :: p).getLast? = some i → w.Linked S r goal i) ∧ d = pathLength w.dist (pa :: pts ++ [goal]) := by
  induction h generalizing pa with
  | @edge a b e he hab =>
    subst ht
    obtain ⟨q, hq, h1, h2, h3⟩ := qEdge_goal hg hb he hab (lt_of_some ha)
    have : q = pa := by rw [ha] at hq; exact (Option.some.inj hq).symm
    subst this
    refine ⟨[], List.Forall₂.nil, by simp, ?_, ?_⟩
    · intro i hi
      simp only [List.getLast?_singleton, Option.some.injEq] at hi
      subst hi
      exact ⟨q, hq, h1, h2⟩
    · simp [pathLength, h3]
  | @cons a c b p d e he hac t ih =>
    simp only [List.mem_cons, not_or] at hp
    obtain ⟨⟨h1, h2⟩, h3, h4⟩ := hp
    have hin := qEdge_inner hg hb he hac (lt_of_some ha) (Ne.symm h1) (Ne.symm h3)
    obtain ⟨x, y, hx, hy, hxy, _⟩ := Checked.joins hw hg hin hac
    have : x = pa := by rw [ha] at hx; exact (Option.some.inj hx).symm
    subst this
    obtain ⟨pts, hf, hc, hl, hd⟩ := ih ht ⟨h2, h4⟩ hy
    refine ⟨y :: pts, List.Forall₂.cons hy hf, ?_, ?_, ?_⟩
    · rw [List.isChain_cons_cons]
      exact ⟨⟨e, hin, (joins_iff e a c).1 hac⟩, hc⟩
    · intro i hi
      apply hl i
      rwa [List.getLast?_cons_cons] at hi
    · rw [hd, hxy]; rfl

theorem walk_route (hw : w.Sound) (hg : w.Checked S g) (hb : S.length ≤ g.bound) {p : List ℕ} {d : K}
    (h : Walk (qEdges w S g r start goal) g.bound p (g.bound + 1) d) (hp : g.bound ∉ p ∧ g.bound + 1 ∉ p) :
    ∃ pts, w.Route S g r start goal p pts ∧ d = pathLength w.dist (start :: pts ++ [goal]) := by
  cases h with
  | edge e he hab =>
    obtain ⟨q, hq, _⟩ := qEdge_start hg hb he hab
    have := lt_of_some hq
    omega
  | @cons _ c _ p' d' e he hac t =>
    obtain ⟨q, hq, h1, h2, h3⟩ := qEdge_start hg hb he hac
    simp only [List.mem_cons, not_or] at hp
    obtain ⟨pts, hf, hc, hl, hd⟩ := walk_tail hw hg hb t rfl ⟨hp.1.2, hp.2.2⟩ hq
    refine ⟨q :: pts, ⟨by simp, List.Forall₂.cons hq hf, ?_, hl, hc⟩, ?_⟩
    · intro i hi
      simp only [List.head?_cons, Option.some.injEq] at hi
      subst hi
      exact ⟨q, hq, h1, h2⟩
    · rw [hd, h3, hw.dist_symm]; rfl

theorem tail_walk (hw : w.Sound) (hg : w.Checked S g) (_hb : S.length ≤ g.bound) {p : List ℕ} {pts : List P}
    (hf : List.Forall₂ (fun i p => S[i]? = some p) p pts) {a : ℕ} {pa : P} (ha : S[a]? = some pa)
    (hc : (a :: p).IsChain g.Adj) (hl : ∀ i, (a :: p).getLast? = some i → w.Linked S r goal i) :
    Walk (qEdges w S g r start goal) a p (g.bound + 1) (pathLength w.dist (pa :: pts ++ [goal])) := by
  induction hf generalizing a pa with
  | nil =>
    obtain ⟨q, hq, h1, h2⟩ := hl a (by simp)
    have : q = pa := by rw [ha] at hq; exact (Option.some.inj hq).symm
    subst this
    have he : (⟨g.bound + 1, a, w.dist q goal⟩ : Edge K) ∈ qEdges w S g r start goal :=
      (mem_qEdges ..).2 (Or.inr (Or.inr ⟨rfl, (mem_querySamples ..).2 ⟨q, hq, h1, h2, rfl⟩⟩))
    have := Walk.edge (a := a) (b := g.bound + 1) _ he ((joins_iff _ _ _).2 (Or.inr ⟨rfl, rfl⟩))
    simpa [pathLength] using this
  | @cons c y p pts hy hf ih =>
    rw [List.isChain_cons_cons] at hc
    obtain ⟨⟨e, he, hj⟩, hc⟩ := hc
    have hj' : e.joins a c = true := (joins_iff e a c).2 hj
    obtain ⟨x, z, hx, hz, hxy, _⟩ := Checked.joins hw hg he hj'
    have h1 : x = pa := by rw [ha] at hx; exact (Option.some.inj hx).symm
    have h2 : z = y := by rw [hy] at hz; exact (Option.some.inj hz).symm
    subst h1 h2
    have := ih hy hc (by intro i hi; apply hl i; rwa [List.getLast?_cons_cons])
    have h3 := Walk.cons e ((mem_qEdges w S g r start goal e).2 (Or.inl he)) hj' this
    rw [hxy] at h3
    exact h3

theorem route_walk (hw : w.Sound) (hg : w.Checked S g) (hb : S.length ≤ g.bound) {ids : List ℕ} {pts : List P}
    (h : w.Route S g r start goal ids pts) :
    Walk (qEdges w S g r start goal) g.bound ids (g.bound + 1) (pathLength w.dist (start :: pts ++ [goal])) := by
  obtain ⟨hne, hf, h1, hl, hc⟩ := h
  cases hf with
  | nil => exact absurd rfl hne
  | @cons c y p pts hy hf =>
    obtain ⟨q, hq, h2, h3⟩ := h1 c (by simp)
    have : q = y := by rw [hy] at hq; exact (Option.some.inj hq).symm
    subst this
    have he : (⟨g.bound, c, w.dist q start⟩ : Edge K) ∈ qEdges w S g r start goal :=
      (mem_qEdges ..).2 (Or.inr (Or.inl ⟨rfl, (mem_querySamples ..).2 ⟨q, hq, h2, h3, rfl⟩⟩))
    have h4 := Walk.cons (a := g.bound) _ he ((joins_iff _ _ _).2 (Or.inl ⟨rfl, rfl⟩))
      (tail_walk (start := start) hw hg hb hf hq hc hl)
    simp only at h4
    rw [hw.dist_symm] at h4
    exact h4

theorem filterMap_points {ids : List ℕ} {pts : List P} (h : List.Forall₂ (fun i p => S[i]? = some p) ids pts) :
    ids.filterMap (S[·]?) = pts := by
  induction h with
  | nil => rfl
  | cons h _ ih => simp [h, ih]

theorem points_lt {ids : List ℕ} {pts : List P} (h : List.Forall₂ (fun i p => S[i]? = some p) ids pts) :
    ids.all (· < S.length) = true := by
  induction h with
  | nil => rfl
  | cons h _ ih => rw [List.all_cons, ih, Bool.and_true]; simpa using lt_of_some h

/-- The outcome of a query on a checked roadmap. -/
theorem solve_spec (hw : w.Sound) (hg : w.Checked S g) (hb : S.length ≤ g.bound) :
    ∃ d pts, w.solve S g (w.querySamples S r start) (w.querySamples S r goal) =
        (afterQuery g (w.querySamples S r start) (w.querySamples S r goal), .ok (d, pts)) ∧
      ((∃ ids, w.Route S g r start goal ids pts ∧ d = (pathLength w.dist (start :: pts ++ [goal]) : K) ∧
          ∀ ids' pts', w.Route S g r start goal ids' pts' →
            pathLength w.dist (start :: pts ++ [goal]) ≤ pathLength w.dist (start :: pts' ++ [goal])) ∨
        (d = ⊤ ∧ pts = [] ∧ ∀ ids' pts', ¬ w.Route S g r start goal ids' pts')) := by
  rw [solve_eq]
  have hne : g.bound ≠ g.bound + 1 := by omega
  rcases hw.dijkstra (qEdges w S g r start goal) g.bound (g.bound + 1) hne (qEdges_nonneg hw hg) with
    ⟨d, hd, hwk, hnd, hmin⟩ | ⟨hno, heq⟩
  · have hp : g.bound ∉ (w.shortest (qEdges w S g r start goal) g.bound (g.bound + 1)).2 ∧
        g.bound + 1 ∉ (w.shortest (qEdges w S g r start goal) g.bound (g.bound + 1)).2 := by
      rw [List.cons_append, List.nodup_cons, List.nodup_append] at hnd
      refine ⟨fun h => hnd.1 (List.mem_append_left _ h), fun h => hnd.2.2.2 _ h (g.bound + 1) (by simp) rfl⟩
    obtain ⟨pts, hr, hdl⟩ := walk_route hw hg hb hwk hp
    rw [if_pos (points_lt hr.points)]
    refine ⟨_, pts, by rw [filterMap_points hr.points], Or.inl ⟨_, hr, by rw [hd, hdl], ?_⟩⟩
    intro ids' pts' hr'
    rw [← hdl]
    exact hmin _ _ (route_walk hw hg hb hr')
  · rw [if_pos (by rw [heq]; rfl)]
    refine ⟨⊤, [], by rw [heq]; rfl, Or.inr ⟨rfl, rfl, ?_⟩⟩
    intro ids' pts' hr'
    exact hno _ _ (route_walk hw hg hb hr')

end

end Verif.Prm
