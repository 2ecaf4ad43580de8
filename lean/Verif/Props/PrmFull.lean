import Verif.Lemmas.PrmFull
import Verif.Lemmas.PrmExample

/-! The full radius PRM: C25, C26, C28-C33, C37, C40 for `SimpleFullConnRadiusPRM`. -/

namespace Verif.Props

open Verif.Prm

set_option linter.unusedSectionVars false

variable {P K : Type*} [LinearOrder K] [AddCommGroup K]

theorem full_state {w : World P K} (hw : w.Sound) (r : K) (d : ℕ) (ops : List (Full.Op P K)) :
    ((Full.init r d).run w ops).Inv w := Full.run_inv hw (Full.init_inv w r d) ops

theorem full_radius (w : World P K) (ops : List (Full.Op P K)) (s : Full P K) :
    (s.run w ops).connR = lastRadius s.connR ops := by
  induction ops generalizing s with
  | nil => rfl
  | cons o ops ih =>
    have := ih (s.step w o)
    rw [show s.run w (o :: ops) = (s.step w o).run w ops from rfl, this]
    cases o with
    | grow n =>
      have : (s.step w (.grow n)).connR = s.connR := by
        simp only [Full.step, Full.grow, Full.rebuild]
        split
        · rfl
        · split <;> rfl
      rw [this]; rfl
    | setRadius r =>
      have : (s.step w (.setRadius r)).connR = r := by
        simp only [Full.step, Full.setRadius, Full.grow, Full.rebuild]
        split
        · rfl
        · split
          · rfl
          · split <;> rfl
      rw [this]; rfl
    | query a b =>
      have : (s.step w (.query a b)).connR = s.connR := by
        simp only [Full.step, Full.query]
        split <;> rfl
      rw [this]; rfl
    | reset => rfl

/-- C25 for the full radius PRM: after any history every edge joins two samples, has their distance as weight and was accepted. -/
theorem C25_full {w : World P K} (hw : w.Sound) (r : K) (d : ℕ) (ops : List (Full.Op P K)) {S : List P} {g : NkGraph K}
    (hS : ((Full.init r d).run w ops).samples = some S) (hg : ((Full.init r d).run w ops).graph = some g) : w.Checked S g := by
  rcases full_state hw r d ops with ⟨h, _⟩ | ⟨S', g', h1, h2, h3, _⟩
  · rw [hS] at h; cases h
  · rw [hS] at h1; cases h1
    rw [hg] at h2; cases h2
    exact Checked.congr h3 (radGraph_checked hw _ _)

/-- C26: after any history the roadmap is exactly the radius graph of the samples for the radius set last. -/
theorem C26_radius_graph {w : World P K} (hw : w.Sound) (r : K) (d : ℕ) (ops : List (Full.Op P K)) {S : List P} {g : NkGraph K}
    (hS : ((Full.init r d).run w ops).samples = some S) (hg : ((Full.init r d).run w ops).graph = some g) :
    w.IsRadiusGraph S (lastRadius r ops) g := by
  rcases full_state hw r d ops with ⟨h, _⟩ | ⟨S', g', h1, h2, h3, _⟩
  · rw [hS] at h; cases h
  · rw [hS] at h1; cases h1
    rw [hg] at h2; cases h2
    intro i j _
    rw [Adj.congr h3, radGraph_exact hw, full_radius]
    rfl

/-- C26: a PRM that has samples has a roadmap, so the previous theorem speaks about every state after a successful growth; growing
to at least the current size succeeds and gives that many samples. -/
theorem C26_grow_succeeds (w : World P K) (r : K) (d : ℕ) (ops : List (Full.Op P K)) (n : ℕ)
    (hn : ∀ S, ((Full.init r d).run w ops).samples = some S → S.length ≤ n) :
    (∃ ds, (((Full.init r d).run w ops).grow w n).2 = .ok ds) ∧
      ∃ S g, ((Full.init r d).run w (ops ++ [.grow n])).samples = some S ∧
        ((Full.init r d).run w (ops ++ [.grow n])).graph = some g ∧ S.length = n := by
  have hrun : (Full.init r d).run w (ops ++ [.grow n]) = (((Full.init r d).run w ops).grow w n).1 := by
    simp [Full.run, Full.step]
  rw [hrun]
  generalize (Full.init r d).run w ops = s at hn
  unfold Full.grow
  cases hs : s.samples with
  | none => exact ⟨⟨_, rfl⟩, _, _, rfl, rfl, by simp [World.fresh]⟩
  | some old =>
    have := hn old hs
    simp only
    rw [if_neg (by omega)]
    exact ⟨⟨_, rfl⟩, _, _, rfl, rfl, by simp [World.fresh]; omega⟩

/-! ### Queries -/

theorem route_chain {w : World P K} {S : List P} {g : NkGraph K} {r : K}
    (hg : ∀ i j, g.Adj i j ↔ ∃ p q, S[i]? = some p ∧ S[j]? = some q ∧ w.dist p q ≤ r ∧ w.Accepted p q)
    {start goal : P} {pts : List P} : (∃ ids, w.Route S g r start goal ids pts) ↔ w.SampleChain S r start goal pts := by
  constructor
  · rintro ⟨ids, h⟩
    obtain ⟨h1, h2, h3, h4, h5⟩ := h
    refine ⟨?_, ?_, ?_, ?_, ?_⟩
    · rintro rfl
      cases h2; exact h1 rfl
    · intro p hp
      clear h1 h3 h4 h5
      induction h2 with
      | nil => simp at hp
      | cons ha _ ih =>
        rw [List.mem_cons] at hp
        rcases hp with rfl | hp
        · exact List.mem_of_getElem? ha
        · exact ih hp
    · intro p hp
      cases h2 with
      | nil => simp at hp
      | @cons i q _ _ ha _ =>
        obtain ⟨p', hp', h6, h7⟩ := h3 i rfl
        simp only [List.head?_cons, Option.some.injEq] at hp
        subst hp
        rw [ha] at hp'; cases hp'
        exact ⟨h6, h7⟩
    · intro p hp
      clear h1 h3 h5
      induction h2 with
      | nil => simp at hp
      | @cons i q l l' ha hl ih =>
        cases hl with
        | nil =>
          obtain ⟨p', hp', h6, h7⟩ := h4 i rfl
          simp only [List.getLast?_singleton, Option.some.injEq] at hp
          subst hp
          rw [ha] at hp'; cases hp'
          exact ⟨h6, h7⟩
        | cons hb hl' =>
          rw [List.getLast?_cons_cons] at hp
          refine ih ?_ hp
          intro k hk
          apply h4
          rw [List.getLast?_cons_cons]; exact hk
    · clear h1 h3 h4
      induction h2 with
      | nil => simp
      | @cons i q l l' ha hl ih =>
        cases hl with
        | nil => simp
        | @cons i' q' _ _ hb hl' =>
          rw [List.isChain_cons_cons] at h5 ⊢
          obtain ⟨p1, p2, e1, e2, h6, h7⟩ := (hg _ _).1 h5.1
          rw [ha] at e1; cases e1
          rw [hb] at e2; cases e2
          exact ⟨⟨h6, h7⟩, ih h5.2⟩
  · rintro ⟨h1, h2, h3, h4, h5⟩
    have hids : ∃ ids : List ℕ, List.Forall₂ (fun i p => S[i]? = some p) ids pts := by
      clear h1 h3 h4 h5
      induction pts with
      | nil => exact ⟨[], List.Forall₂.nil⟩
      | cons p pts ih =>
        obtain ⟨ids, h⟩ := ih (fun q hq => h2 q (List.mem_cons_of_mem _ hq))
        obtain ⟨i, hi⟩ := List.mem_iff_getElem?.1 (h2 p (by simp))
        exact ⟨i :: ids, List.Forall₂.cons hi h⟩
    obtain ⟨ids, hids⟩ := hids
    refine ⟨ids, ?_, hids, ?_, ?_, ?_⟩
    · rintro rfl; cases hids; exact h1 rfl
    · intro i hi
      cases hids with
      | nil => simp at hi
      | @cons j q _ _ ha _ =>
        simp only [List.head?_cons, Option.some.injEq] at hi
        subst hi
        exact ⟨q, ha, h3 q rfl⟩
    · intro i hi
      clear h1 h2 h3 h5
      induction hids with
      | nil => simp at hi
      | @cons j q l l' ha hl ih =>
        cases hl with
        | nil =>
          simp only [List.getLast?_singleton, Option.some.injEq] at hi
          subst hi
          exact ⟨q, ha, h4 q rfl⟩
        | cons hb hl' =>
          rw [List.getLast?_cons_cons] at hi
          refine ih ?_ hi
          intro k hk
          apply h4
          rw [List.getLast?_cons_cons]; exact hk
    · clear h1 h2 h3 h4
      induction hids with
      | nil => simp
      | @cons j q l l' ha hl ih =>
        cases hl with
        | nil => simp
        | @cons j' q' _ _ hb hl' =>
          rw [List.isChain_cons_cons] at h5 ⊢
          exact ⟨(hg _ _).2 ⟨q, q', ha, hb, h5.1⟩, ih h5.2⟩

/-- The outcome of a query in a state of a full radius PRM that has samples. -/
theorem full_query {w : World P K} (hw : w.Sound) {s : Full P K} (h : s.Inv w) {S : List P} (hS : s.samples = some S)
    (start goal : P) :
    ∃ d pts, (s.query w start goal).2 = .ok (d, pts) ∧
      ((w.SampleChain S s.connR start goal pts ∧ d = (pathLength w.dist (start :: pts ++ [goal]) : K) ∧
          ∀ pts', w.SampleChain S s.connR start goal pts' →
            pathLength w.dist (start :: pts ++ [goal]) ≤ pathLength w.dist (start :: pts' ++ [goal])) ∨
        (d = ⊤ ∧ pts = [] ∧ ∀ pts', ¬ w.SampleChain S s.connR start goal pts')) := by
  obtain ⟨g, d, pts, hg, he, _, hq, hres⟩ := Full.query_eq hw h hS start goal
  have hadj : ∀ i j, g.Adj i j ↔ ∃ p q, S[i]? = some p ∧ S[j]? = some q ∧ w.dist p q ≤ s.connR ∧ w.Accepted p q := by
    intro i j
    rw [Adj.congr he, radGraph_exact hw]
  refine ⟨d, pts, by rw [hq], ?_⟩
  rcases hres with ⟨ids, h1, h2, h3⟩ | ⟨h1, h2, h3⟩
  · refine Or.inl ⟨(route_chain hadj).1 ⟨ids, h1⟩, h2, ?_⟩
    intro pts' h'
    obtain ⟨ids', h'⟩ := (route_chain hadj).2 h'
    exact h3 _ _ h'
  · refine Or.inr ⟨h1, h2, ?_⟩
    intro pts' h'
    obtain ⟨ids', h'⟩ := (route_chain hadj).2 h'
    exact h3 _ _ h'

/-- C28 for the full radius PRM: a query on a PRM with samples returns; a nonempty path consists of samples, every hop of the chain
start, path, goal was accepted in at least one direction and is no longer than the radius, and the distance is its length. -/
theorem C28_full {w : World P K} (hw : w.Sound) (r : K) (d₀ : ℕ) (ops : List (Full.Op P K)) {S : List P}
    (hS : ((Full.init r d₀).run w ops).samples = some S) (start goal : P) :
    ∃ d pts, (((Full.init r d₀).run w ops).query w start goal).2 = .ok (d, pts) ∧
      (pts ≠ [] → (∀ p ∈ pts, p ∈ S) ∧
        (start :: pts ++ [goal]).IsChain (fun p q => w.dist p q ≤ lastRadius r ops ∧ w.Accepted p q) ∧
        d = (pathLength w.dist (start :: pts ++ [goal]) : K)) := by
  obtain ⟨d, pts, hq, hres⟩ := full_query hw (full_state hw r d₀ ops) hS start goal
  have hR : ((Full.init r d₀).run w ops).connR = lastRadius r ops := full_radius w ops _
  rw [hR] at hres
  refine ⟨d, pts, hq, ?_⟩
  intro hne
  rcases hres with ⟨⟨h1, h2, h3, h4, h5⟩, h6, _⟩ | ⟨_, h, _⟩
  · refine ⟨h2, ?_, h6⟩
    rw [List.isChain_append]
    refine ⟨?_, by simp, ?_⟩
    · rw [List.isChain_cons]
      refine ⟨?_, h5⟩
      intro p hp
      have := h3 p hp
      exact ⟨by rw [hw.dist_symm]; exact this.1, Or.inl this.2⟩
    · intro p hp q hq'
      simp only [List.head?_cons, Option.mem_def, Option.some.injEq] at hq'
      subst hq'
      have : pts.getLast? = some p := by
        cases pts with
        | nil => exact absurd rfl hne
        | cons a l => rwa [Option.mem_def, List.getLast?_cons_cons] at hp
      have := h4 p this
      exact ⟨this.1, Or.inr this.2⟩
  · exact absurd h hne

/-- C29 for the full radius PRM: the path is empty exactly when no chain of samples with allowed hops connects start and goal, the
distance is infinite in exactly these cases, and no chain is shorter than the returned distance. -/
theorem C29_full {w : World P K} (hw : w.Sound) (r : K) (d₀ : ℕ) (ops : List (Full.Op P K)) {S : List P}
    (hS : ((Full.init r d₀).run w ops).samples = some S) (start goal : P) :
    ∃ d pts, (((Full.init r d₀).run w ops).query w start goal).2 = .ok (d, pts) ∧
      (pts = [] ↔ ¬ ∃ pts', w.SampleChain S (lastRadius r ops) start goal pts') ∧ (pts = [] ↔ d = ⊤) ∧
      ∀ pts', w.SampleChain S (lastRadius r ops) start goal pts' → d ≤ (pathLength w.dist (start :: pts' ++ [goal]) : K) := by
  obtain ⟨d, pts, hq, hres⟩ := full_query hw (full_state hw r d₀ ops) hS start goal
  have hR : ((Full.init r d₀).run w ops).connR = lastRadius r ops := full_radius w ops _
  rw [hR] at hres
  refine ⟨d, pts, hq, ?_⟩
  rcases hres with ⟨h1, h2, h3⟩ | ⟨h1, h2, h3⟩
  · have hne := h1.nonempty
    refine ⟨iff_of_false hne (not_not_intro ⟨pts, h1⟩), iff_of_false hne (by rw [h2]; exact WithTop.coe_ne_top), ?_⟩
    intro pts' h'
    rw [h2]
    exact WithTop.coe_le_coe.2 (h3 pts' h')
  · refine ⟨iff_of_true h2 (by rintro ⟨p, hp⟩; exact h3 p hp), iff_of_true h2 h1, ?_⟩
    intro pts' h'
    exact absurd h' (h3 pts')

/-- A history that consists of queries only. -/
def QueriesOnly (ops : List (Full.Op P K)) : Prop := ∀ o ∈ ops, ∃ a b, o = .query a b

theorem full_query_keeps {w : World P K} (hw : w.Sound) {s : Full P K} (h : s.Inv w) (a b : P) :
    (s.query w a b).1.samples = s.samples ∧ (s.query w a b).1.connR = s.connR ∧
      (∀ g, s.graph = some g → ∃ g', (s.query w a b).1.graph = some g' ∧ g'.Same g) := by
  cases hS : s.samples with
  | none =>
    have : s.query w a b = (s, .error .type) := by unfold Full.query; rw [hS]
    rw [this]
    exact ⟨hS, rfl, fun g hg => ⟨g, hg, fun _ => rfl, rfl⟩⟩
  | some S =>
    obtain ⟨g, d, pts, hg, _, hib, hq, _⟩ := Full.query_eq hw h hS a b
    rw [hq]
    refine ⟨hS, rfl, ?_⟩
    intro g' hg'
    rw [hg] at hg'; cases hg'
    exact ⟨_, rfl, afterQuery_hasNode g _ _, afterQuery_edges hib _ _⟩

theorem full_queries_keep {w : World P K} (hw : w.Sound) {s : Full P K} (h : s.Inv w) {qs : List (Full.Op P K)}
    (hq : QueriesOnly qs) : (s.run w qs).samples = s.samples ∧ (s.run w qs).connR = s.connR ∧
      (∀ g, s.graph = some g → ∃ g', (s.run w qs).graph = some g' ∧ g'.Same g) := by
  induction qs generalizing s with
  | nil => exact ⟨rfl, rfl, fun g hg => ⟨g, hg, fun _ => rfl, rfl⟩⟩
  | cons o qs ih =>
    obtain ⟨a, b, rfl⟩ := hq o (by simp)
    obtain ⟨h1, h2, h3⟩ := full_query_keeps hw h a b
    obtain ⟨h4, h5, h6⟩ := ih (Full.query_inv hw h a b) (fun o ho => hq o (List.mem_cons_of_mem _ ho))
    refine ⟨h4.trans h1, h5.trans h2, ?_⟩
    intro g hg
    obtain ⟨g', hg', hs'⟩ := h3 g hg
    obtain ⟨g'', hg'', hs''⟩ := h6 g' hg'
    exact ⟨g'', hg'', fun v => (hs''.1 v).trans (hs'.1 v), hs''.2.trans hs'.2⟩

/-- C30 for the full radius PRM: after any number of queries the samples, vertices, edges, weights and counts are the same, and
every query has the same distance as before (and is solvable as before). -/
theorem C30_full {w : World P K} (hw : w.Sound) (r : K) (d₀ : ℕ) (ops qs : List (Full.Op P K)) (hqs : QueriesOnly qs)
    {S : List P} {g : NkGraph K} (hS : ((Full.init r d₀).run w ops).samples = some S)
    (hg : ((Full.init r d₀).run w ops).graph = some g) :
    ∃ g', ((Full.init r d₀).run w (ops ++ qs)).graph = some g' ∧ g'.Same g ∧
      ((Full.init r d₀).run w (ops ++ qs)).samples = some S ∧
      numVertices ((Full.init r d₀).run w (ops ++ qs)).graph = numVertices ((Full.init r d₀).run w ops).graph ∧
      numEdges ((Full.init r d₀).run w (ops ++ qs)).graph = numEdges ((Full.init r d₀).run w ops).graph ∧
      ∀ start goal, ∃ d pts pts', (((Full.init r d₀).run w ops).query w start goal).2 = .ok (d, pts) ∧
        (((Full.init r d₀).run w (ops ++ qs)).query w start goal).2 = .ok (d, pts') ∧ (pts = [] ↔ pts' = []) := by
  have hrun : (Full.init r d₀).run w (ops ++ qs) = ((Full.init r d₀).run w ops).run w qs := by
    simp [Full.run]
  rw [hrun]
  have hinv := full_state hw r d₀ ops
  generalize (Full.init r d₀).run w ops = s at *
  obtain ⟨h1, h2, h3⟩ := full_queries_keep hw hinv hqs
  obtain ⟨g', hg', hs⟩ := h3 g hg
  refine ⟨g', hg', hs, h1.trans hS, ?_, ?_, ?_⟩
  · rw [hg', hg]; exact numberOfNodes_congr hs.1
  · rw [hg', hg]; simp only [numEdges, NkGraph.numberOfEdges, Option.map_some, Option.getD_some]; rw [hs.2]
  · intro start goal
    obtain ⟨d, pts, hq, hres⟩ := full_query hw hinv hS start goal
    obtain ⟨d', pts', hq', hres'⟩ := full_query hw (Full.run_inv hw hinv qs) (h1.trans hS) start goal
    rw [h2] at hres'
    have hdd : d = d' ∧ (pts = [] ↔ pts' = []) := by
      rcases hres with ⟨a1, a2, a3⟩ | ⟨a1, a2, a3⟩
      · rcases hres' with ⟨b1, b2, b3⟩ | ⟨b1, b2, b3⟩
        · refine ⟨?_, iff_of_false a1.nonempty b1.nonempty⟩
          rw [a2, b2]
          exact congrArg _ (le_antisymm (a3 _ b1) (b3 _ a1))
        · exact absurd a1 (b3 _)
      · rcases hres' with ⟨b1, b2, b3⟩ | ⟨b1, b2, b3⟩
        · exact absurd b1 (a3 _)
        · exact ⟨a1.trans b1.symm, iff_of_true a2 b2⟩
    exact ⟨d, pts, pts', hq, by rw [hq', hdd.1], hdd.2⟩

/-! ### Growth and radius changes -/

/-- A chain stays a chain with more samples and a larger radius. -/
theorem SampleChain.mono {w : World P K} {S S' : List P} {r r' : K} {a b : P} {pts : List P} (h : w.SampleChain S r a b pts)
    (hS : ∀ p ∈ S, p ∈ S') (hr : r ≤ r') : w.SampleChain S' r' a b pts :=
  ⟨h.nonempty, fun p hp => hS p (h.samples p hp), fun p hp => ⟨(h.first p hp).1.trans hr, (h.first p hp).2⟩,
    fun p hp => ⟨(h.last p hp).1.trans hr, (h.last p hp).2⟩, h.hops.imp fun _ _ hh => ⟨hh.1.trans hr, hh.2⟩⟩

theorem full_query_mono {w : World P K} (hw : w.Sound) {s s' : Full P K} (h : s.Inv w) (h' : s'.Inv w) {S S' : List P}
    (hS : s.samples = some S) (hS' : s'.samples = some S') (hsub : ∀ p ∈ S, p ∈ S') (hr : s.connR ≤ s'.connR) (start goal : P) :
    ∃ d pts d' pts', (s.query w start goal).2 = .ok (d, pts) ∧ (s'.query w start goal).2 = .ok (d', pts') ∧ d' ≤ d ∧
      (pts ≠ [] → pts' ≠ []) := by
  obtain ⟨d, pts, hq, hres⟩ := full_query hw h hS start goal
  obtain ⟨d', pts', hq', hres'⟩ := full_query hw h' hS' start goal
  refine ⟨d, pts, d', pts', hq, hq', ?_⟩
  rcases hres with ⟨a1, a2, a3⟩ | ⟨a1, a2, a3⟩
  · have a4 := SampleChain.mono a1 hsub hr
    rcases hres' with ⟨b1, b2, b3⟩ | ⟨b1, b2, b3⟩
    · rw [a2, b2]
      exact ⟨WithTop.coe_le_coe.2 (b3 _ a4), fun _ => b1.nonempty⟩
    · exact absurd a4 (b3 _)
  · rw [a1]
    exact ⟨le_top, fun h => absurd a2 h⟩

theorem full_inv_adjW {w : World P K} (hw : w.Sound) {s : Full P K} (h : s.Inv w) {S : List P} {g : NkGraph K}
    (hS : s.samples = some S) (hg : s.graph = some g) (i j : ℕ) (d : K) :
    g.AdjW i j d ↔ ∃ p q, S[i]? = some p ∧ S[j]? = some q ∧ d = w.dist p q ∧ d ≤ s.connR ∧ w.Accepted p q := by
  rcases h with ⟨h, _⟩ | ⟨S', g', h1, h2, h3, _⟩
  · rw [hS] at h; cases h
  · rw [hS] at h1; cases h1
    rw [hg] at h2; cases h2
    have hck : w.Checked S g := Checked.congr h3 (radGraph_checked hw _ _)
    have hadj : ∀ i j, g.Adj i j ↔ _ := fun i j => by rw [Adj.congr h3, radGraph_exact hw]
    constructor
    · intro hd
      obtain ⟨p, q, hp, hq, hd', _⟩ := hck i j d hd
      obtain ⟨p', q', hp', hq', hr, ha⟩ := (hadj i j).1 (AdjW.adj hd)
      rw [hp] at hp'; cases hp'
      rw [hq] at hq'; cases hq'
      exact ⟨p, q, hp, hq, hd', by rw [hd']; exact hr, ha⟩
    · rintro ⟨p, q, hp, hq, rfl, hr, ha⟩
      obtain ⟨d', hd'⟩ := Adj.exists_w ((hadj i j).2 ⟨p, q, hp, hq, hr, ha⟩)
      obtain ⟨p', q', hp', hq', rfl, _⟩ := hck i j d' hd'
      rw [hp] at hp'; cases hp'
      rw [hq] at hq'; cases hq'
      exact hd'

/-- C31: growing keeps all samples at their indices and all edges with their weights; a solvable query stays solvable and its
distance does not increase. -/
theorem C31_grow {w : World P K} (hw : w.Sound) (r : K) (d₀ : ℕ) (ops : List (Full.Op P K)) (n : ℕ) {S : List P} {g : NkGraph K}
    (hS : ((Full.init r d₀).run w ops).samples = some S) (hg : ((Full.init r d₀).run w ops).graph = some g)
    (hn : S.length ≤ n) :
    ∃ new g', ((Full.init r d₀).run w (ops ++ [.grow n])).samples = some (S ++ new) ∧ (S ++ new).length = n ∧
      ((Full.init r d₀).run w (ops ++ [.grow n])).graph = some g' ∧ (∀ i j d, g.AdjW i j d → g'.AdjW i j d) ∧
      ∀ start goal, ∃ d pts d' pts', (((Full.init r d₀).run w ops).query w start goal).2 = .ok (d, pts) ∧
        (((Full.init r d₀).run w (ops ++ [.grow n])).query w start goal).2 = .ok (d', pts') ∧ d' ≤ d ∧ (pts ≠ [] → pts' ≠ []) := by
  have hrun : (Full.init r d₀).run w (ops ++ [.grow n]) = (((Full.init r d₀).run w ops).grow w n).1 := by
    simp [Full.run, Full.step]
  rw [hrun]
  have hinv := full_state hw r d₀ ops
  generalize (Full.init r d₀).run w ops = s at *
  have hinv' := Full.grow_inv hinv n
  have hS' : (s.grow w n).1.samples = some (S ++ w.fresh s.drawn (n - S.length)) := by
    unfold Full.grow; rw [hS]; simp only; rw [if_neg (by omega)]; rfl
  have hr' : (s.grow w n).1.connR = s.connR := by
    unfold Full.grow; rw [hS]; simp only; rw [if_neg (by omega)]; rfl
  have hg' : ∃ g', (s.grow w n).1.graph = some g' := by
    unfold Full.grow; rw [hS]; simp only; rw [if_neg (by omega)]; exact ⟨_, rfl⟩
  obtain ⟨g', hg'⟩ := hg'
  refine ⟨_, g', hS', by simp [World.fresh]; omega, hg', ?_, ?_⟩
  · intro i j d h
    rw [full_inv_adjW hw hinv hS hg] at h
    rw [full_inv_adjW hw hinv' hS' hg', hr']
    obtain ⟨p, q, hp, hq, h⟩ := h
    exact ⟨p, q, by rw [List.getElem?_append_left (lt_of_some hp)]; exact hp,
      by rw [List.getElem?_append_left (lt_of_some hq)]; exact hq, h⟩
  · intro start goal
    exact full_query_mono hw hinv hinv' hS hS' (fun p hp => List.mem_append_left _ hp) (le_of_eq hr'.symm) start goal

/-- C32: after `set_connection_radius(r')` the samples are the same and the edges are: for `r'` below the old radius exactly the old
edges of length at most `r'`; for a larger `r'` at least the old ones, and then solvable queries stay solvable with no larger
distance. -/
theorem C32_set_radius {w : World P K} (hw : w.Sound) (r : K) (d₀ : ℕ) (ops : List (Full.Op P K)) (r' : K) {S : List P}
    {g : NkGraph K} (hS : ((Full.init r d₀).run w ops).samples = some S)
    (hg : ((Full.init r d₀).run w ops).graph = some g) :
    ∃ g', ((Full.init r d₀).run w (ops ++ [.setRadius r'])).samples = some S ∧
      ((Full.init r d₀).run w (ops ++ [.setRadius r'])).graph = some g' ∧
      (r' ≤ lastRadius r ops → ∀ i j d, g'.AdjW i j d ↔ g.AdjW i j d ∧ d ≤ r') ∧
      (lastRadius r ops ≤ r' → (∀ i j d, g.AdjW i j d → g'.AdjW i j d) ∧
        ∀ start goal, ∃ d pts d' pts', (((Full.init r d₀).run w ops).query w start goal).2 = .ok (d, pts) ∧
          (((Full.init r d₀).run w (ops ++ [.setRadius r'])).query w start goal).2 = .ok (d', pts') ∧ d' ≤ d ∧
          (pts ≠ [] → pts' ≠ [])) := by
  have hrun : (Full.init r d₀).run w (ops ++ [.setRadius r']) = (((Full.init r d₀).run w ops).setRadius w r').1 := by
    simp [Full.run, Full.step]
  have hR : ((Full.init r d₀).run w ops).connR = lastRadius r ops := full_radius w ops _
  rw [hrun, ← hR]
  have hinv := full_state hw r d₀ ops
  clear hR hrun
  generalize (Full.init r d₀).run w ops = s at *
  have hinv' := Full.setRadius_inv hinv r'
  have hS' : (s.setRadius w r').1.samples = some S := by
    unfold Full.setRadius; rw [hS]; simp only [Full.grow]; rw [if_neg (by omega)]; simp [Full.rebuild, World.fresh]
  have hr' : (s.setRadius w r').1.connR = r' := by
    unfold Full.setRadius; rw [hS]; simp only [Full.grow]; rw [if_neg (by omega)]; rfl
  have hg' : ∃ g', (s.setRadius w r').1.graph = some g' := by
    unfold Full.setRadius; rw [hS]; simp only [Full.grow]; rw [if_neg (by omega)]; exact ⟨_, rfl⟩
  obtain ⟨g', hg'⟩ := hg'
  refine ⟨g', hS', hg', ?_, ?_⟩
  · intro hle i j d
    rw [full_inv_adjW hw hinv hS hg, full_inv_adjW hw hinv' hS' hg', hr']
    constructor
    · rintro ⟨p, q, hp, hq, hd, hdr, ha⟩
      exact ⟨⟨p, q, hp, hq, hd, hdr.trans hle, ha⟩, hdr⟩
    · rintro ⟨⟨p, q, hp, hq, hd, _, ha⟩, hdr⟩
      exact ⟨p, q, hp, hq, hd, hdr, ha⟩
  · intro hle
    refine ⟨?_, ?_⟩
    · intro i j d
      rw [full_inv_adjW hw hinv hS hg, full_inv_adjW hw hinv' hS' hg', hr']
      rintro ⟨p, q, hp, hq, hd, hdr, ha⟩
      exact ⟨p, q, hp, hq, hd, hdr.trans hle, ha⟩
    · intro start goal
      exact full_query_mono hw hinv hinv' hS hS' (fun p hp => hp) (by rw [hr']; exact hle) start goal

/-- C33 for the full radius PRM: a growth request below the current size raises ArithmeticError and changes nothing. -/
theorem C33_full (w : World P K) (s : Full P K) {S : List P} (hS : s.samples = some S) (n : ℕ) (hn : n < S.length) :
    s.grow w n = (s, .error .arithmetic) := by
  unfold Full.grow
  rw [hS]
  simp [hn]

/-- C37 for the full radius PRM: after any history the number of vertices is the number of samples. -/
theorem C37_full {w : World P K} (hw : w.Sound) (r : K) (d₀ : ℕ) (ops : List (Full.Op P K)) :
    numVertices ((Full.init r d₀).run w ops).graph = ((((Full.init r d₀).run w ops).samples).map List.length).getD 0 := by
  rcases full_state hw r d₀ ops with ⟨h1, h2⟩ | ⟨S, g, h1, h2, _, h4, _⟩
  · rw [h1, h2]; rfl
  · rw [h1, h2]
    refine numberOfNodes_of_lt (n := S.length) ?_
    intro v
    rw [Bool.eq_iff_iff, h4]; simp

theorem full_drawn_pos (w : World P K) (r : K) (d₀ : ℕ) (ops : List (Full.Op P K)) : 0 < ((Full.init r d₀).run w ops).drawn := by
  have key : ∀ (ops : List (Full.Op P K)) (s : Full P K), 0 < s.drawn → 0 < (s.run w ops).drawn := by
    intro ops
    induction ops with
    | nil => exact fun _ h => h
    | cons o ops ih =>
      intro s h
      apply ih (s.step w o)
      cases o with
      | grow n =>
        simp only [Full.step, Full.grow, Full.rebuild]
        split
        · simp only; omega
        · split
          · exact h
          · simp only; omega
      | setRadius r =>
        simp only [Full.step, Full.setRadius, Full.grow, Full.rebuild]
        split
        · exact h
        · split
          · simp only; omega
          · split
            · exact h
            · simp only; omega
      | query a b =>
        simp only [Full.step, Full.query]
        split <;> exact h
      | reset => exact h
  exact key ops _ (by simp [Full.init])

/-- C40 for the full radius PRM: after any history and `reset()`, all later states are those of a PRM that is newly constructed
with the current radius and draws from where the sampler stands. -/
theorem C40_full (w : World P K) (r : K) (d₀ : ℕ) (ops ops' : List (Full.Op P K)) :
    (Full.init r d₀).run w (ops ++ .reset :: ops') =
      (Full.init (lastRadius r ops) (((Full.init r d₀).run w ops).drawn - 1)).run w ops' := by
  have hpos := full_drawn_pos w r d₀ ops
  have hR : ((Full.init r d₀).run w ops).connR = lastRadius r ops := full_radius w ops _
  have hrun : (Full.init r d₀).run w (ops ++ .reset :: ops') = ((Full.init r d₀).run w ops).reset.run w ops' := by
    simp [Full.run, Full.step]
  rw [hrun]
  congr 1
  unfold Full.reset Full.init
  rw [show (Full.run w ⟨r, none, none, d₀ + 1⟩ ops) = (Full.init r d₀).run w ops from rfl, hR, Nat.sub_add_cancel hpos]

/-! ### A concrete PRM -/

/-- Samples 1, 2, 3, ... on the line; a motion is accepted if it moves to the right. -/
def rightWorld : World ℚ ℚ := lineWorld (fun p q => decide (p < q)) fun i => i

/-- Three samples, radius 1: the roadmap is the chain 1 - 2 - 3, each edge accepted in one direction only. -/
theorem C25_full_nonvacuous : rightWorld.Sound ∧ ((Full.init (1 : ℚ) 0).run rightWorld [.grow 3]).samples = some [1, 2, 3] ∧
    ((Full.init (1 : ℚ) 0).run rightWorld [.grow 3]).graph = some ⟨3, [], [⟨0, 1, 1⟩, ⟨1, 2, 1⟩]⟩ :=
  ⟨lineWorld_sound _ _, by decide +kernel, by decide +kernel⟩

/-- A query that is solved through all three samples (the motion at the goal is asked from the goal), and one without solution:
a goal on the right of all samples is out of reach for this one-way checker. -/
theorem C28_full_nonvacuous :
    (((Full.init (1 : ℚ) 0).run rightWorld [.grow 3]).query rightWorld 0 (5 / 2)).2 = .ok ((7 / 2 : ℚ), [1, 2, 3]) ∧
    (((Full.init (1 : ℚ) 0).run rightWorld [.grow 3]).query rightWorld 0 4).2 = .ok (⊤, []) := by
  decide +kernel

/-- C26, C31: growing from three to five samples after a query; the roadmap of the radius 1 gets the two new edges. -/
theorem C31_nonvacuous :
    ((Full.init (1 : ℚ) 0).run rightWorld [.grow 3, .query 0 4]).samples = some [1, 2, 3] ∧
    ((Full.init (1 : ℚ) 0).run rightWorld [.grow 3, .query 0 4, .grow 5]).samples = some [1, 2, 3, 4, 5] ∧
    ((Full.init (1 : ℚ) 0).run rightWorld [.grow 3, .query 0 4, .grow 5]).graph.map NkGraph.edges =
      some [⟨0, 1, 1⟩, ⟨1, 2, 1⟩, ⟨2, 3, 1⟩, ⟨3, 4, 1⟩] ∧
    (((Full.init (1 : ℚ) 0).run rightWorld [.grow 3]).query rightWorld 0 (7 / 2)).2 = .ok (⊤, []) ∧
    (((Full.init (1 : ℚ) 0).run rightWorld [.grow 3, .query 0 4, .grow 5]).query rightWorld 0 (7 / 2)).2 =
      .ok ((9 / 2 : ℚ), [1, 2, 3, 4]) := by
  decide +kernel

/-- C26, C32: raising the radius to 2 and lowering it to 1 again; with the larger one a query gets a solution. -/
theorem C32_nonvacuous :
    ((Full.init (1 : ℚ) 0).run rightWorld [.grow 3, .setRadius 2]).graph.map NkGraph.numberOfEdges = some 3 ∧
    ((Full.init (1 : ℚ) 0).run rightWorld [.grow 3, .setRadius 2, .setRadius 1]).graph.map NkGraph.edges =
      some [⟨0, 1, 1⟩, ⟨1, 2, 1⟩] ∧
    (((Full.init (1 : ℚ) 0).run rightWorld [.grow 3]).query rightWorld (-1 / 2) (5 / 2)).2 = .ok (⊤, []) ∧
    (((Full.init (1 : ℚ) 0).run rightWorld [.grow 3, .setRadius 2]).query rightWorld (-1 / 2) (5 / 2)).2 = .ok ((4 : ℚ), [1, 2, 3]) := by
  decide +kernel

/-- C33, C40: a refused request on three samples, and growing again after `reset()`. -/
theorem C40_full_nonvacuous :
    (((Full.init (1 : ℚ) 0).run rightWorld [.grow 3]).grow rightWorld 2).2 = .error .arithmetic ∧
    ((Full.init (1 : ℚ) 0).run rightWorld [.grow 3, .setRadius 2, .reset, .grow 2]).samples = some [4, 5] ∧
    ((Full.init (1 : ℚ) 0).run rightWorld [.grow 3, .setRadius 2, .reset, .grow 2]).graph.map NkGraph.edges = some [⟨0, 1, 1⟩] := by
  decide +kernel

end Verif.Props
