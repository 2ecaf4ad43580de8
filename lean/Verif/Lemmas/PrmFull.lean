import Verif.Lemmas.PrmQuery

/-! Invariant of the full radius PRM. -/

namespace Verif.Prm

set_option linter.unusedSectionVars false

variable {P K : Type*} [LinearOrder K] [AddCommGroup K]

/-- The roadmap that the code builds on the samples `S` for the radius `r`. -/
def radGraph (w : World P K) (S : List P) (r : K) : NkGraph K :=
  w.connect S S.length ((Full.pairs w S).filter fun c => decide (c.2.2 ≤ r))

theorem radGraph_checked {w : World P K} (hw : w.Sound) (S : List P) (r : K) : w.Checked S (radGraph w S r) := by
  rintro i j d ⟨e, he, hj, rfl⟩
  obtain ⟨hc, ha⟩ := connect_mem he
  rw [List.mem_filter, mem_pairs] at hc
  obtain ⟨⟨p, q, hp, hq, hd⟩, _⟩ := hc
  obtain ⟨p', q', hp', hq', hck⟩ := (accepts_iff _ _ _ _).1 ha
  rw [hp] at hp'; cases hp'
  rw [hq] at hq'; cases hq'
  rcases hj with ⟨rfl, rfl⟩ | ⟨rfl, rfl⟩
  · exact ⟨p, q, hp, hq, by rw [hd, hw.dist_symm], Or.inl hck⟩
  · exact ⟨q, p, hq, hp, hd, Or.inr hck⟩

theorem radGraph_exact {w : World P K} (hw : w.Sound) (S : List P) (r : K) (i j : ℕ) :
    (radGraph w S r).Adj i j ↔ ∃ p q, S[i]? = some p ∧ S[j]? = some q ∧ w.dist p q ≤ r ∧ w.Accepted p q := by
  constructor
  · rintro ⟨e, he, hj⟩
    obtain ⟨hc, ha⟩ := connect_mem he
    rw [List.mem_filter, mem_pairs] at hc
    obtain ⟨⟨p, q, hp, hq, hd⟩, hr⟩ := hc
    obtain ⟨p', q', hp', hq', hck⟩ := (accepts_iff _ _ _ _).1 ha
    rw [hp] at hp'; cases hp'
    rw [hq] at hq'; cases hq'
    have hr : e.w ≤ r := by simpa using hr
    rcases hj with ⟨rfl, rfl⟩ | ⟨rfl, rfl⟩
    · exact ⟨p, q, hp, hq, by rw [hw.dist_symm, ← hd]; exact hr, Or.inl hck⟩
    · exact ⟨q, p, hq, hp, by rw [← hd]; exact hr, Or.inr hck⟩
  · rintro ⟨p, q, hp, hq, hr, hck | hck⟩
    · refine connect_adj (d := w.dist q p) ?_ ((accepts_iff _ _ _ _).2 ⟨p, q, hp, hq, hck⟩)
      rw [List.mem_filter, mem_pairs]
      exact ⟨⟨p, q, hp, hq, rfl⟩, by simpa [hw.dist_symm q p] using hr⟩
    · refine Adj.symm (connect_adj (d := w.dist p q) ?_ ((accepts_iff _ _ _ _).2 ⟨q, p, hq, hp, hck⟩))
      rw [List.mem_filter, mem_pairs]
      exact ⟨⟨q, p, hq, hp, rfl⟩, by simpa using hr⟩

/-- The state of a full radius PRM at all times. -/
def Full.Inv (w : World P K) (s : Full P K) : Prop :=
  (s.samples = none ∧ s.graph = none) ∨
    ∃ S g, s.samples = some S ∧ s.graph = some g ∧ g.edges = (radGraph w S s.connR).edges ∧
      (∀ v, g.hasNode v = true ↔ v < S.length) ∧ S.length ≤ g.bound

theorem Checked.congr {w : World P K} {S : List P} {g h : NkGraph K} (he : g.edges = h.edges) (hh : w.Checked S h) :
    w.Checked S g := by
  intro i j d hadj
  unfold NkGraph.AdjW at hadj
  rw [he] at hadj
  exact hh i j d hadj

theorem Adj.congr {g h : NkGraph K} (he : g.edges = h.edges) (i j : ℕ) : g.Adj i j ↔ h.Adj i j := by
  unfold NkGraph.Adj
  rw [he]

theorem Full.rebuild_inv (w : World P K) (s : Full P K) (S : List P) : (Full.rebuild w s S).1.Inv w := by
  refine Or.inr ⟨S, _, rfl, rfl, rfl, ?_, ?_⟩
  · intro v
    rw [connect_hasNode]; simp
  · exact (connect_bound _ _ _ _).ge

theorem Full.grow_inv {w : World P K} {s : Full P K} (h : s.Inv w) (n : ℕ) : (s.grow w n).1.Inv w := by
  unfold Full.grow
  split
  · exact rebuild_inv _ _ _
  · split
    · exact h
    · exact rebuild_inv _ _ _

theorem Full.setRadius_inv {w : World P K} {s : Full P K} (h : s.Inv w) (r : K) : (s.setRadius w r).1.Inv w := by
  unfold Full.setRadius
  cases hs : s.samples with
  | none =>
    rcases h with ⟨h1, h2⟩ | ⟨S, g, h1, _⟩
    · exact Or.inl ⟨rfl, h2⟩
    · rw [hs] at h1; cases h1
  | some old =>
    simp only [Full.grow]
    rw [if_neg (by omega)]
    exact rebuild_inv _ _ _

/-- A query in a state with a roadmap. -/
theorem Full.query_eq {w : World P K} (hw : w.Sound) {s : Full P K} (h : s.Inv w) {S : List P} (hS : s.samples = some S)
    (start goal : P) :
    ∃ g d pts, s.graph = some g ∧ g.edges = (radGraph w S s.connR).edges ∧ InBound g ∧
      s.query w start goal =
        ({ s with graph := some (afterQuery g (w.querySamples S s.connR start) (w.querySamples S s.connR goal)) }, .ok (d, pts)) ∧
      ((∃ ids, w.Route S g s.connR start goal ids pts ∧ d = (pathLength w.dist (start :: pts ++ [goal]) : K) ∧
          ∀ ids' pts', w.Route S g s.connR start goal ids' pts' →
            pathLength w.dist (start :: pts ++ [goal]) ≤ pathLength w.dist (start :: pts' ++ [goal])) ∨
        (d = ⊤ ∧ pts = [] ∧ ∀ ids' pts', ¬ w.Route S g s.connR start goal ids' pts')) := by
  rcases h with ⟨h1, _⟩ | ⟨S', g, h1, h2, h3, h4, h5⟩
  · rw [hS] at h1; cases h1
  · rw [hS] at h1; cases h1
    have hck : w.Checked S g := Checked.congr h3 (radGraph_checked hw _ _)
    obtain ⟨d, pts, he, hsol⟩ := solve_spec (r := s.connR) (start := start) (goal := goal) hw hck h5
    refine ⟨g, d, pts, h2, h3, Checked.inBound hck h5, ?_, hsol⟩
    unfold Full.query
    rw [hS, h2]
    simp only [he]

theorem Full.query_inv {w : World P K} (hw : w.Sound) {s : Full P K} (h : s.Inv w) (a b : P) : (s.query w a b).1.Inv w := by
  cases hS : s.samples with
  | none =>
    have : s.query w a b = (s, .error .type) := by unfold Full.query; rw [hS]
    rw [this]; exact h
  | some S =>
    obtain ⟨g, d, pts, hg, he, hib, hq, _⟩ := Full.query_eq hw h hS a b
    rcases h with ⟨h1, _⟩ | ⟨S', g', h1, h2, h3, h4, h5⟩
    · rw [hS] at h1; cases h1
    · rw [hS] at h1; cases h1
      rw [hg] at h2; cases h2
      rw [hq]
      refine Or.inr ⟨S, _, hS, rfl, (afterQuery_edges hib _ _).trans he, ?_, ?_⟩
      · intro v; rw [afterQuery_hasNode]; exact h4 v
      · rw [afterQuery_bound]; omega

theorem Full.reset_inv {w : World P K} (s : Full P K) : s.reset.Inv w := Or.inl ⟨rfl, rfl⟩

theorem Full.step_inv {w : World P K} (hw : w.Sound) {s : Full P K} (h : s.Inv w) (o : Full.Op P K) : (s.step w o).Inv w := by
  cases o with
  | grow n => exact grow_inv h n
  | setRadius r => exact setRadius_inv h r
  | query a b => exact query_inv hw h a b
  | reset => exact reset_inv s

theorem Full.run_inv {w : World P K} (hw : w.Sound) {s : Full P K} (h : s.Inv w) (ops : List (Full.Op P K)) :
    (s.run w ops).Inv w := by
  induction ops generalizing s with
  | nil => exact h
  | cons o ops ih => exact ih (step_inv hw h o)

theorem Full.init_inv (w : World P K) (r : K) (d : ℕ) : (Full.init r d).Inv w := Or.inl ⟨rfl, rfl⟩

end Verif.Prm
