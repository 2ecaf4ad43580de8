import Mathlib.Tactic.Ring
import Mathlib.Tactic.Abel
import Mathlib.Data.List.Basic
import Mathlib.Data.List.Forall2
import Mathlib.Data.List.Range
import Verif.Spec.Prm

/-! Lemmas about the graph store, the edge loops and queries. -/

namespace Verif.Prm

set_option linter.unusedSectionVars false

variable {P K : Type*} [LinearOrder K]

theorem joins_iff (e : Edge K) (a b : ℕ) : e.joins a b = true ↔ (e.u = a ∧ e.v = b) ∨ (e.u = b ∧ e.v = a) := by
  simp [Edge.joins]

theorem touches_iff (e : Edge K) (a : ℕ) : e.touches a = true ↔ e.u = a ∨ e.v = a := by
  simp [Edge.touches]

theorem hasEdge_iff (g : NkGraph K) (i j : ℕ) : g.hasEdge i j = true ↔ g.Adj i j := by
  simp [NkGraph.hasEdge, NkGraph.Adj, joins_iff]

theorem Adj.symm {g : NkGraph K} {i j : ℕ} (h : g.Adj i j) : g.Adj j i := by
  obtain ⟨e, he, h⟩ := h
  exact ⟨e, he, h.symm⟩

theorem AdjW.adj {g : NkGraph K} {i j : ℕ} {d : K} (h : g.AdjW i j d) : g.Adj i j := by
  obtain ⟨e, he, h, _⟩ := h
  exact ⟨e, he, h⟩

theorem Adj.exists_w {g : NkGraph K} {i j : ℕ} (h : g.Adj i j) : ∃ d, g.AdjW i j d := by
  obtain ⟨e, he, h⟩ := h
  exact ⟨e.w, e, he, h, rfl⟩

/-- No two edges join the same pair. -/
def Simple (g : NkGraph K) : Prop := g.edges.Pairwise fun e f => f.joins e.u e.v = false

theorem addEdgeOnce_bound (g : NkGraph K) (u v : ℕ) (d : K) : (g.addEdgeOnce u v d).bound = g.bound := by
  unfold NkGraph.addEdgeOnce NkGraph.addEdge; split <;> rfl

theorem addEdgeOnce_removed (g : NkGraph K) (u v : ℕ) (d : K) : (g.addEdgeOnce u v d).removed = g.removed := by
  unfold NkGraph.addEdgeOnce NkGraph.addEdge; split <;> rfl

theorem addEdgeOnce_mem {g : NkGraph K} {u v : ℕ} {d : K} {e : Edge K} (h : e ∈ (g.addEdgeOnce u v d).edges) :
    e ∈ g.edges ∨ e = ⟨u, v, d⟩ := by
  unfold NkGraph.addEdgeOnce NkGraph.addEdge at h
  split at h
  · exact Or.inl h
  · simpa using h

theorem addEdgeOnce_mono {g : NkGraph K} {u v : ℕ} {d : K} {e : Edge K} (h : e ∈ g.edges) :
    e ∈ (g.addEdgeOnce u v d).edges := by
  unfold NkGraph.addEdgeOnce NkGraph.addEdge
  split
  · exact h
  · simp [h]

theorem addEdgeOnce_adj (g : NkGraph K) (u v : ℕ) (d : K) : (g.addEdgeOnce u v d).Adj u v := by
  unfold NkGraph.addEdgeOnce
  split
  · rename_i h; exact (hasEdge_iff g u v).1 h
  · exact ⟨⟨u, v, d⟩, by simp [NkGraph.addEdge], Or.inl ⟨rfl, rfl⟩⟩

theorem addEdgeOnce_simple {g : NkGraph K} (u v : ℕ) (d : K) (h : Simple g) : Simple (g.addEdgeOnce u v d) := by
  unfold NkGraph.addEdgeOnce
  split
  · exact h
  · rename_i hn
    unfold Simple NkGraph.addEdge
    rw [List.pairwise_append]
    refine ⟨h, by simp, ?_⟩
    intro e he f hf
    rw [List.mem_singleton] at hf
    subst hf
    rw [Bool.eq_false_iff]
    intro hj
    apply hn
    rw [hasEdge_iff]
    rw [joins_iff] at hj
    simp only at hj
    refine ⟨e, he, ?_⟩
    rcases hj with ⟨h1, h2⟩ | ⟨h1, h2⟩
    · exact Or.inl ⟨h1.symm, h2.symm⟩
    · exact Or.inr ⟨h2.symm, h1.symm⟩

/-- The loop that adds candidate edges. -/
def addAll (g : NkGraph K) (cs : List (ℕ × ℕ × K)) : NkGraph K := cs.foldl (fun g c => g.addEdgeOnce c.1 c.2.1 c.2.2) g

theorem addAll_bound (cs : List (ℕ × ℕ × K)) (g : NkGraph K) : (addAll g cs).bound = g.bound := by
  induction cs generalizing g with
  | nil => rfl
  | cons c cs ih => exact (ih _).trans (addEdgeOnce_bound ..)

theorem addAll_removed (cs : List (ℕ × ℕ × K)) (g : NkGraph K) : (addAll g cs).removed = g.removed := by
  induction cs generalizing g with
  | nil => rfl
  | cons c cs ih => exact (ih _).trans (addEdgeOnce_removed ..)

theorem addAll_mem {cs : List (ℕ × ℕ × K)} {g : NkGraph K} {e : Edge K} (h : e ∈ (addAll g cs).edges) :
    e ∈ g.edges ∨ (e.u, e.v, e.w) ∈ cs := by
  induction cs generalizing g with
  | nil => exact Or.inl h
  | cons c cs ih =>
    rcases ih h with h | h
    · rcases addEdgeOnce_mem h with h | h
      · exact Or.inl h
      · right; subst h; simp
    · right; exact List.mem_cons_of_mem _ h

theorem addAll_mono {cs : List (ℕ × ℕ × K)} {g : NkGraph K} {e : Edge K} (h : e ∈ g.edges) : e ∈ (addAll g cs).edges := by
  induction cs generalizing g with
  | nil => exact h
  | cons c cs ih => exact ih (addEdgeOnce_mono h)

theorem addAll_adj {cs : List (ℕ × ℕ × K)} {g : NkGraph K} {i j : ℕ} {d : K} (h : (i, j, d) ∈ cs) : (addAll g cs).Adj i j := by
  induction cs generalizing g with
  | nil => simp at h
  | cons c cs ih =>
    rw [List.mem_cons] at h
    rcases h with h | h
    · subst h
      obtain ⟨e, he, hj⟩ := addEdgeOnce_adj g i j d
      exact ⟨e, addAll_mono (cs := cs) (g := g.addEdgeOnce i j d) he, hj⟩
    · exact ih h

theorem addAll_simple {cs : List (ℕ × ℕ × K)} {g : NkGraph K} (h : Simple g) : Simple (addAll g cs) := by
  induction cs generalizing g with
  | nil => exact h
  | cons c cs ih => exact ih (addEdgeOnce_simple _ _ _ h)

/-! ### `connect` -/

theorem accepts_iff (w : World P K) (S : List P) (i j : ℕ) :
    w.accepts S i j = true ↔ ∃ p q, S[i]? = some p ∧ S[j]? = some q ∧ w.check p q = true := by
  unfold World.accepts
  cases hi : S[i]? with
  | none => simp
  | some p => cases hj : S[j]? with
    | none => simp
    | some q => simp

theorem connect_eq (w : World P K) (S : List P) (n : ℕ) (cs : List (ℕ × ℕ × K)) :
    w.connect S n cs = addAll (NkGraph.new n) (cs.filter fun c => w.accepts S c.1 c.2.1) := rfl

theorem connect_bound (w : World P K) (S : List P) (n : ℕ) (cs : List (ℕ × ℕ × K)) : (w.connect S n cs).bound = n := by
  rw [connect_eq, addAll_bound]; rfl

theorem connect_removed (w : World P K) (S : List P) (n : ℕ) (cs : List (ℕ × ℕ × K)) : (w.connect S n cs).removed = [] := by
  rw [connect_eq, addAll_removed]; rfl

theorem connect_mem {w : World P K} {S : List P} {n : ℕ} {cs : List (ℕ × ℕ × K)} {e : Edge K}
    (h : e ∈ (w.connect S n cs).edges) : (e.u, e.v, e.w) ∈ cs ∧ w.accepts S e.u e.v = true := by
  rw [connect_eq] at h
  rcases addAll_mem h with h | h
  · simp [NkGraph.new] at h
  · simpa using h

theorem connect_adj {w : World P K} {S : List P} {n : ℕ} {cs : List (ℕ × ℕ × K)} {i j : ℕ} {d : K}
    (h : (i, j, d) ∈ cs) (ha : w.accepts S i j = true) : (w.connect S n cs).Adj i j := by
  rw [connect_eq]
  exact addAll_adj (d := d) (by simpa using ⟨h, ha⟩)

theorem connect_simple (w : World P K) (S : List P) (n : ℕ) (cs : List (ℕ × ℕ × K)) : Simple (w.connect S n cs) := by
  rw [connect_eq]
  exact addAll_simple (by simp [Simple, NkGraph.new])

theorem connect_hasNode (w : World P K) (S : List P) (n : ℕ) (cs : List (ℕ × ℕ × K)) (v : ℕ) :
    (w.connect S n cs).hasNode v = decide (v < n) := by
  simp [NkGraph.hasNode, connect_bound, connect_removed]

/-! ### Candidate lists -/

theorem mem_zipIdx_drop {α : Type*} (l : List α) (s : ℕ) (a : α) (i : ℕ) :
    (a, i) ∈ l.zipIdx.drop s ↔ s ≤ i ∧ l[i]? = some a := by
  rw [List.mem_iff_getElem?]
  constructor
  · rintro ⟨m, hm⟩
    rw [List.getElem?_drop, List.getElem?_zipIdx] at hm
    simp only [Nat.zero_add, Option.map_eq_some_iff, Prod.mk.injEq] at hm
    obtain ⟨x, hx, rfl, rfl⟩ := hm
    exact ⟨by omega, hx⟩
  · rintro ⟨hs, hi⟩
    refine ⟨i - s, ?_⟩
    rw [List.getElem?_drop, List.getElem?_zipIdx]
    have : s + (i - s) = i := by omega
    simp [this, hi]

theorem mem_zipIdx' {α : Type*} (l : List α) (a : α) (i : ℕ) : (a, i) ∈ l.zipIdx ↔ l[i]? = some a := by
  have := mem_zipIdx_drop l 0 a i
  simpa using this

theorem mem_candidates (t : Table K) (s i j : ℕ) (d : K) :
    (i, j, d) ∈ candidates t s ↔ s ≤ i ∧ ∃ row : List (ℕ × K), t[i]? = some row ∧ (j, d) ∈ row := by
  unfold candidates
  simp only [List.mem_flatMap, List.mem_map, Prod.exists, Prod.mk.injEq]
  constructor
  · rintro ⟨row, i', hm, j', d', hmem, rfl, rfl, rfl⟩
    rw [mem_zipIdx_drop] at hm
    exact ⟨hm.1, row, hm.2, hmem⟩
  · rintro ⟨hs, row, hi, hmem⟩
    exact ⟨row, i, (mem_zipIdx_drop _ _ _ _).2 ⟨hs, hi⟩, j, d, hmem, rfl, rfl, rfl⟩

theorem mem_pairs (w : World P K) (S : List P) (i j : ℕ) (d : K) :
    (i, j, d) ∈ Full.pairs w S ↔ ∃ p q, S[i]? = some p ∧ S[j]? = some q ∧ d = w.dist q p := by
  unfold Full.pairs
  simp only [List.mem_flatMap, List.mem_map, Prod.exists, Prod.mk.injEq]
  constructor
  · rintro ⟨p, i', hm, q, j', hm', rfl, rfl, rfl⟩
    exact ⟨p, q, (mem_zipIdx' _ _ _).1 hm, (mem_zipIdx' _ _ _).1 hm', rfl⟩
  · rintro ⟨p, q, hp, hq, rfl⟩
    exact ⟨p, i, (mem_zipIdx' _ _ _).2 hp, q, j, (mem_zipIdx' _ _ _).2 hq, rfl, rfl, rfl⟩

theorem mem_querySamples (w : World P K) (S : List P) (r : K) (q : P) (i : ℕ) (d : K) :
    (i, d) ∈ w.querySamples S r q ↔ ∃ p, S[i]? = some p ∧ w.dist p q ≤ r ∧ w.check q p = true ∧ d = w.dist p q := by
  unfold World.querySamples
  simp only [List.mem_map, List.mem_filter, Prod.exists, Prod.mk.injEq, Bool.and_eq_true, decide_eq_true_eq]
  constructor
  · rintro ⟨p, i', ⟨hm, hd, hc⟩, rfl, rfl⟩
    exact ⟨p, (mem_zipIdx' _ _ _).1 hm, hd, hc, rfl⟩
  · rintro ⟨p, hp, hd, hc, rfl⟩
    exact ⟨p, i, ⟨(mem_zipIdx' _ _ _).2 hp, hd, hc⟩, rfl, rfl⟩

/-! ### The graph during and after a query -/

theorem linkTo_edges (i : ℕ) (nbs : List (ℕ × K)) (g : NkGraph K) :
    (linkTo i nbs g).edges = g.edges ++ nbs.map fun c => ⟨i, c.1, c.2⟩ := by
  unfold linkTo
  induction nbs generalizing g with
  | nil => simp
  | cons c cs ih => rw [List.foldl_cons, ih]; simp [NkGraph.addEdge]

theorem linkTo_bound (i : ℕ) (nbs : List (ℕ × K)) (g : NkGraph K) : (linkTo i nbs g).bound = g.bound := by
  unfold linkTo
  induction nbs generalizing g with
  | nil => rfl
  | cons c cs ih => rw [List.foldl_cons, ih]; rfl

theorem linkTo_removed (i : ℕ) (nbs : List (ℕ × K)) (g : NkGraph K) : (linkTo i nbs g).removed = g.removed := by
  unfold linkTo
  induction nbs generalizing g with
  | nil => rfl
  | cons c cs ih => rw [List.foldl_cons, ih]; rfl

/-- All edges join ids that were handed out. -/
def InBound (g : NkGraph K) : Prop := ∀ e ∈ g.edges, e.u < g.bound ∧ e.v < g.bound

/-- The graph while a query runs. -/
def queryGraph (g : NkGraph K) (sn gn : List (ℕ × K)) : NkGraph K :=
  linkTo (g.bound + 1) gn (linkTo g.bound sn (g.addNodes 2))

theorem queryGraph_edges (g : NkGraph K) (sn gn : List (ℕ × K)) :
    (queryGraph g sn gn).edges =
      (g.edges ++ sn.map fun c => (⟨g.bound, c.1, c.2⟩ : Edge K)) ++ gn.map fun c => (⟨g.bound + 1, c.1, c.2⟩ : Edge K) := by
  unfold queryGraph
  rw [linkTo_edges, linkTo_edges]
  rfl

/-- The graph after a query. -/
def afterQuery (g : NkGraph K) (sn gn : List (ℕ × K)) : NkGraph K :=
  ((queryGraph g sn gn).removeNode g.bound).removeNode (g.bound + 1)

theorem afterQuery_bound (g : NkGraph K) (sn gn : List (ℕ × K)) : (afterQuery g sn gn).bound = g.bound + 2 := by
  simp only [afterQuery, NkGraph.removeNode, queryGraph, linkTo_bound, NkGraph.addNodes]

theorem afterQuery_removed (g : NkGraph K) (sn gn : List (ℕ × K)) :
    (afterQuery g sn gn).removed = (g.bound + 1) :: g.bound :: g.removed := by
  simp only [afterQuery, NkGraph.removeNode, queryGraph, linkTo_removed, NkGraph.addNodes]

theorem afterQuery_edges {g : NkGraph K} (hg : InBound g) (sn gn : List (ℕ × K)) : (afterQuery g sn gn).edges = g.edges := by
  simp only [afterQuery, NkGraph.removeNode, queryGraph_edges, List.filter_append, List.filter_filter]
  have h1 : (g.edges.filter fun e => !e.touches (g.bound + 1) && !e.touches g.bound) = g.edges := by
    rw [List.filter_eq_self]
    intro e he
    have := hg e he
    simp only [Edge.touches, Bool.and_eq_true, Bool.not_eq_true', Bool.or_eq_false_iff, beq_eq_false_iff_ne]
    omega
  have h2 : ((sn.map fun c => (⟨g.bound, c.1, c.2⟩ : Edge K)).filter fun e => !e.touches (g.bound + 1) && !e.touches g.bound) = [] := by
    rw [List.filter_eq_nil_iff]
    intro e he
    simp only [List.mem_map] at he
    obtain ⟨c, _, rfl⟩ := he
    simp [Edge.touches]
  have h3 : ((gn.map fun c => (⟨g.bound + 1, c.1, c.2⟩ : Edge K)).filter fun e => !e.touches (g.bound + 1) && !e.touches g.bound) = [] := by
    rw [List.filter_eq_nil_iff]
    intro e he
    simp only [List.mem_map] at he
    obtain ⟨c, _, rfl⟩ := he
    simp [Edge.touches]
  rw [h1, h2, h3]
  simp

theorem afterQuery_hasNode (g : NkGraph K) (sn gn : List (ℕ × K)) (v : ℕ) : (afterQuery g sn gn).hasNode v = g.hasNode v := by
  rw [Bool.eq_iff_iff]
  simp only [NkGraph.hasNode, afterQuery_bound, afterQuery_removed, Bool.and_eq_true, decide_eq_true_eq, Bool.not_eq_true',
    List.contains_eq_mem, decide_eq_false_iff_not, List.mem_cons, not_or]
  constructor
  · rintro ⟨h, h1, h2, h3⟩; exact ⟨by omega, h3⟩
  · rintro ⟨h, h3⟩; exact ⟨by omega, by omega, by omega, h3⟩

theorem solve_eq (w : World P K) (S : List P) (g : NkGraph K) (sn gn : List (ℕ × K)) :
    w.solve S g sn gn =
      if (w.shortest (queryGraph g sn gn).edges g.bound (g.bound + 1)).2.all (· < S.length) then
        (afterQuery g sn gn, .ok ((w.shortest (queryGraph g sn gn).edges g.bound (g.bound + 1)).1,
          (w.shortest (queryGraph g sn gn).edges g.bound (g.bound + 1)).2.filterMap (S[·]?)))
      else (queryGraph g sn gn, .error .index) := rfl

theorem numberOfNodes_congr {g h : NkGraph K} (hn : ∀ v, g.hasNode v = h.hasNode v) : g.numberOfNodes = h.numberOfNodes := by
  have key : ∀ (g : NkGraph K) (b : ℕ), g.bound ≤ b → (List.range b).filter g.hasNode = (List.range g.bound).filter g.hasNode := by
    intro g b hb
    obtain ⟨c, rfl⟩ := Nat.exists_eq_add_of_le hb
    rw [List.range_add, List.filter_append]
    have : ((List.range c).map (g.bound + ·)).filter g.hasNode = [] := by
      rw [List.filter_eq_nil_iff]
      intro v hv
      simp only [List.mem_map] at hv
      obtain ⟨x, _, rfl⟩ := hv
      simp [NkGraph.hasNode]
    rw [this, List.append_nil]
  unfold NkGraph.numberOfNodes
  rw [← key g (max g.bound h.bound) (le_max_left _ _), ← key h (max g.bound h.bound) (le_max_right _ _)]
  congr 1
  apply List.filter_congr
  intro v _
  exact hn v

theorem numberOfNodes_of_lt {g : NkGraph K} {n : ℕ} (hn : ∀ v, g.hasNode v = decide (v < n)) : g.numberOfNodes = n := by
  rw [numberOfNodes_congr (h := (NkGraph.new n : NkGraph K))]
  · unfold NkGraph.numberOfNodes
    rw [List.filter_eq_self.2]
    · simp [NkGraph.new]
    · intro v hv
      have hv : v < n := by simpa [NkGraph.new] using hv
      simp [NkGraph.hasNode, NkGraph.new, hv]
  · intro v
    rw [hn]
    have : (NkGraph.new n : NkGraph K).hasNode v = (decide (v < n) && !(([] : List ℕ).contains v)) := rfl
    rw [this]
    simp

end Verif.Prm
