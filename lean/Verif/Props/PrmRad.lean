import Verif.Lemmas.PrmRad
import Verif.Lemmas.PrmExample
import Verif.Props.PrmKnn

/-! The radius PRM with neighbour doubling: C25, C28-C30, C36, C37, C40 for `SimpleRadiusPRM`. -/

namespace Verif.Props

open Verif.Prm

set_option linter.unusedSectionVars false

variable {P K : Type*} [LinearOrder K] [AddCommGroup K]

theorem rad_state {w : World P K} (hw : w.Sound) (r : K) (maxK d : ℕ) (ops : List (Rad.Op P)) :
    ((Rad.init r maxK d).run w ops).Inv w := Rad.run_inv hw (Rad.init_inv w r maxK d) ops

theorem rad_step_const (w : World P K) (s : Rad P K) (o : Rad.Op P) : (s.step w o).connR = s.connR ∧ (s.step w o).maxK = s.maxK := by
  cases o with
  | grow n =>
    show (s.grow w n).1.connR = _ ∧ (s.grow w n).1.maxK = _
    unfold Rad.grow
    repeat' split
    all_goals first | exact ⟨rfl, rfl⟩ | skip
    all_goals dsimp only
    all_goals repeat' split
    all_goals exact ⟨rfl, rfl⟩
  | query a b =>
    show (s.query w a b).1.connR = _ ∧ (s.query w a b).1.maxK = _
    unfold Rad.query
    split <;> exact ⟨rfl, rfl⟩
  | reset => exact ⟨rfl, rfl⟩

theorem rad_run_const (w : World P K) (s : Rad P K) (ops : List (Rad.Op P)) :
    (s.run w ops).connR = s.connR ∧ (s.run w ops).maxK = s.maxK := by
  induction ops generalizing s with
  | nil => exact ⟨rfl, rfl⟩
  | cons o ops ih =>
    obtain ⟨h1, h2⟩ := ih (s.step w o)
    obtain ⟨h3, h4⟩ := rad_step_const w s o
    exact ⟨h1.trans h3, h2.trans h4⟩

theorem rad_radius (w : World P K) (r : K) (maxK d : ℕ) (ops : List (Rad.Op P)) :
    ((Rad.init r maxK d).run w ops).connR = r := (rad_run_const w _ ops).1

theorem rad_inv_graph {w : World P K} {s : Rad P K} (h : s.Inv w) {S : List P} (hS : s.samples = some S) :
    ∃ g, s.graph = some g ∧ w.Checked S g ∧ S.length ≤ g.bound ∧ ∀ v, v < S.length → g.hasNode v = true := by
  obtain ⟨_, ⟨h1, _⟩ | ⟨S', g, h1, h2, _, h4, h5, h6⟩⟩ := h
  · rw [hS] at h1; cases h1
  · rw [hS] at h1; cases h1
    exact ⟨g, h2, h4, h5, h6⟩

/-- C25 for the radius PRM: after any history every edge joins two samples, has their distance as weight and was accepted. -/
theorem C25_rad {w : World P K} (hw : w.Sound) (r : K) (maxK d : ℕ) (ops : List (Rad.Op P)) {S : List P} {g : NkGraph K}
    (hS : ((Rad.init r maxK d).run w ops).samples = some S) (hg : ((Rad.init r maxK d).run w ops).graph = some g) :
    w.Checked S g := by
  obtain ⟨g', h1, h2, _⟩ := rad_inv_graph (rad_state hw r maxK d ops) hS
  rw [hg] at h1; cases h1
  exact h2

/-- C28 for the radius PRM. -/
theorem C28_rad {w : World P K} (hw : w.Sound) (r : K) (maxK d₀ : ℕ) (ops : List (Rad.Op P)) {S : List P}
    (hS : ((Rad.init r maxK d₀).run w ops).samples = some S) (start goal : P) :
    ∃ d pts, (((Rad.init r maxK d₀).run w ops).query w start goal).2 = .ok (d, pts) ∧
      (pts ≠ [] → (∀ p ∈ pts, p ∈ S) ∧ (start :: pts ++ [goal]).IsChain w.Accepted ∧
        d = (pathLength w.dist (start :: pts ++ [goal]) : K)) := by
  obtain ⟨g, hg, hck, hb, _⟩ := rad_inv_graph (rad_state hw r maxK d₀ ops) hS
  obtain ⟨d, pts, he, hres⟩ := Rad.query_eq hw hS hg hck hb start goal
  refine ⟨d, pts, by rw [he], ?_⟩
  intro hne
  rcases hres with ⟨ids, h1, h2, _⟩ | ⟨_, h, _⟩
  · obtain ⟨h3, h4, _⟩ := route_hops hw hck h1
    exact ⟨h3, h4, h2⟩
  · exact absurd h hne

theorem route_ne {w : World P K} {S : List P} {g : NkGraph K} {r : K} {start goal : P} {ids : List ℕ} {pts : List P}
    (h : w.Route S g r start goal ids pts) : pts ≠ [] := by
  rintro rfl
  have := h.points
  cases this
  exact h.nonempty rfl

/-- C29 for the radius PRM. -/
theorem C29_rad {w : World P K} (hw : w.Sound) (r : K) (maxK d₀ : ℕ) (ops : List (Rad.Op P)) {S : List P}
    (hS : ((Rad.init r maxK d₀).run w ops).samples = some S) (start goal : P) :
    ∃ g d pts, ((Rad.init r maxK d₀).run w ops).graph = some g ∧
      (((Rad.init r maxK d₀).run w ops).query w start goal).2 = .ok (d, pts) ∧
      (pts = [] ↔ ¬ ∃ ids pts', w.Route S g r start goal ids pts') ∧ (pts = [] ↔ d = ⊤) ∧
      ∀ ids pts', w.Route S g r start goal ids pts' → d ≤ (pathLength w.dist (start :: pts' ++ [goal]) : K) := by
  obtain ⟨g, hg, hck, hb, _⟩ := rad_inv_graph (rad_state hw r maxK d₀ ops) hS
  obtain ⟨d, pts, he, hres⟩ := Rad.query_eq hw hS hg hck hb start goal
  rw [rad_radius] at hres
  refine ⟨g, d, pts, hg, by rw [he], ?_⟩
  rcases hres with ⟨ids, h1, h2, h3⟩ | ⟨h1, h2, h3⟩
  · have hne := route_ne h1
    refine ⟨iff_of_false hne (not_not_intro ⟨ids, pts, h1⟩), iff_of_false hne (by rw [h2]; exact WithTop.coe_ne_top), ?_⟩
    intro ids' pts' h'
    rw [h2]
    exact WithTop.coe_le_coe.2 (h3 ids' pts' h')
  · refine ⟨iff_of_true h2 (by rintro ⟨i, p, hp⟩; exact h3 i p hp), iff_of_true h2 h1, ?_⟩
    intro ids' pts' h'
    exact absurd h' (h3 ids' pts')

/-- C30 for the radius PRM: any number of queries leaves samples, vertices, edges, weights and counts as they are, and the distance
of every query. -/
theorem C30_rad {w : World P K} (hw : w.Sound) (r : K) (maxK d₀ : ℕ) (ops qs : List (Rad.Op P))
    (hqs : ∀ o ∈ qs, ∃ a b, o = .query a b) {S : List P} {g : NkGraph K}
    (hS : ((Rad.init r maxK d₀).run w ops).samples = some S) (hg : ((Rad.init r maxK d₀).run w ops).graph = some g) :
    ∃ g', (Rad.init r maxK d₀).run w (ops ++ qs) = { (Rad.init r maxK d₀).run w ops with graph := some g' } ∧ g'.Same g ∧
      g'.numberOfNodes = g.numberOfNodes ∧ g'.numberOfEdges = g.numberOfEdges ∧
      ∀ start goal, ∃ d pts pts', (((Rad.init r maxK d₀).run w ops).query w start goal).2 = .ok (d, pts) ∧
        (((Rad.init r maxK d₀).run w (ops ++ qs)).query w start goal).2 = .ok (d, pts') ∧ (pts = [] ↔ pts' = []) := by
  have hrun : (Rad.init r maxK d₀).run w (ops ++ qs) = ((Rad.init r maxK d₀).run w ops).run w qs := by
    simp [Rad.run]
  rw [hrun]
  have hinv := rad_state hw r maxK d₀ ops
  generalize (Rad.init r maxK d₀).run w ops = s at *
  have hkeep : ∃ g', s.run w qs = { s with graph := some g' } ∧ g'.Same g := by
    clear hrun
    induction qs generalizing s g with
    | nil => exact ⟨g, by rw [← hg]; rfl, fun _ => rfl, rfl⟩
    | cons o qs ih =>
      obtain ⟨a, b, rfl⟩ := hqs o (by simp)
      obtain ⟨g₁, hg₁, hck, hb, _⟩ := rad_inv_graph hinv hS
      rw [hg] at hg₁; cases hg₁
      obtain ⟨d, pts, he, _⟩ := Rad.query_eq hw hS hg hck hb a b
      have hstep : s.step w (.query a b) =
          { s with graph := some (afterQuery g (w.querySamples S s.connR a) (w.querySamples S s.connR b)) } := by
        show (s.query w a b).1 = _
        rw [he]
      have hinv' : (s.step w (.query a b)).Inv w := Rad.query_inv hw hinv a b
      rw [hstep] at hinv'
      obtain ⟨g', h1, h2⟩ := ih (fun o ho => hqs o (List.mem_cons_of_mem _ ho))
        (s := { s with graph := some (afterQuery g (w.querySamples S s.connR a) (w.querySamples S s.connR b)) }) hS rfl hinv'
      refine ⟨g', ?_, ?_⟩
      · show (s.step w (.query a b)).run w qs = _
        rw [hstep, h1]
      · exact ⟨fun v => (h2.1 v).trans (afterQuery_hasNode ..), h2.2.trans (afterQuery_edges (Checked.inBound hck hb) _ _)⟩
  obtain ⟨g', hs', hsame⟩ := hkeep
  have hinv' := Rad.run_inv hw hinv qs
  refine ⟨g', hs', hsame, numberOfNodes_congr hsame.1, by unfold NkGraph.numberOfEdges; rw [hsame.2], ?_⟩
  intro start goal
  rw [hs'] at hinv' ⊢
  obtain ⟨g₁, hg₁, hck, hb, _⟩ := rad_inv_graph hinv hS
  rw [hg] at hg₁; cases hg₁
  obtain ⟨g₂, hg₂, hck', hb', _⟩ := rad_inv_graph hinv' (s := { s with graph := some g' }) hS
  cases hg₂
  obtain ⟨d, pts, hq, hres⟩ := Rad.query_eq hw hS hg hck hb start goal
  obtain ⟨d', pts', hq', hres'⟩ := Rad.query_eq hw (s := { s with graph := some g' }) hS rfl hck' hb' start goal
  have hroute : ∀ ids pts, w.Route S g' s.connR start goal ids pts ↔ w.Route S g s.connR start goal ids pts := by
    intro ids pts
    have hadj : g'.Adj = g.Adj := by
      funext i j
      exact propext (Adj.congr hsame.2 i j)
    constructor
    · rintro ⟨a1, a2, a3, a4, a5⟩; exact ⟨a1, a2, a3, a4, hadj ▸ a5⟩
    · rintro ⟨a1, a2, a3, a4, a5⟩; exact ⟨a1, a2, a3, a4, hadj ▸ a5⟩
  simp only [hroute] at hres'
  have hdd : d = d' ∧ (pts = [] ↔ pts' = []) := by
    rcases hres with ⟨ids, a1, a2, a3⟩ | ⟨a1, a2, a3⟩
    · rcases hres' with ⟨ids', b1, b2, b3⟩ | ⟨b1, b2, b3⟩
      · refine ⟨?_, iff_of_false (route_ne a1) (route_ne b1)⟩
        rw [a2, b2]
        exact congrArg _ (le_antisymm (a3 _ _ b1) (b3 _ _ a1))
      · exact absurd a1 (b3 _ _)
    · rcases hres' with ⟨ids', b1, b2, b3⟩ | ⟨b1, b2, b3⟩
      · exact absurd b1 (a3 _ _)
      · exact ⟨a1.trans b1.symm, iff_of_true a2 b2⟩
  exact ⟨d, pts, pts', by rw [hq], by rw [hq', hdd.1], hdd.2⟩

/-! ### C36 -/

/-- C33 for the radius PRM: a growth request below the current size raises ValueError and changes nothing. -/
theorem C33_rad (w : World P K) (s : Rad P K) {S : List P} (hS : s.samples = some S) (n : ℕ) (hn : n < S.length) :
    s.grow w n = (s, .error .value) := by
  unfold Rad.grow
  rw [hS]
  simp [hn]

/-- C36: the doubling always stops; after any history a growth succeeds unless it asks for fewer samples than there are. After a
first growth the neighbour count is the first of `k, 2k, 4k, ...` that reaches the maximum, or the number of samples, or for which
all last distances are at least the radius. -/
theorem C36_doubling_stops {w : World P K} (hw : w.Sound) (r : K) (maxK d₀ : ℕ) (ops : List (Rad.Op P)) (n : ℕ) :
    ((((Rad.init r maxK d₀).run w ops).grow w n).2 = .ok () ↔
      ∀ S, ((Rad.init r maxK d₀).run w ops).samples = some S → S.length ≤ n) ∧
    (((Rad.init r maxK d₀).run w ops).samples = none → ∃ m S,
      (((Rad.init r maxK d₀).run w ops).grow w n).1.samples = some S ∧ S.length = n ∧
      (((Rad.init r maxK d₀).run w ops).grow w n).1.k = ((Rad.init r maxK d₀).run w ops).k * 2 ^ m ∧
      (∀ l, l ≤ m → ((maxK ≤ ((Rad.init r maxK d₀).run w ops).k * 2 ^ l ∨ n ≤ ((Rad.init r maxK d₀).run w ops).k * 2 ^ l ∨
        ∀ row ∈ w.knn S (((Rad.init r maxK d₀).run w ops).k * 2 ^ l), ∀ c, row.getLast? = some c → r ≤ c.2) ↔ l = m))) := by
  have hinv := rad_state hw r maxK d₀ ops
  obtain ⟨hr, hm⟩ := rad_run_const w (Rad.init r maxK d₀) ops
  have hr : ((Rad.init r maxK d₀).run w ops).connR = r := hr
  have hm : ((Rad.init r maxK d₀).run w ops).maxK = maxK := hm
  generalize (Rad.init r maxK d₀).run w ops = s at *
  obtain ⟨hk, hcase⟩ := hinv
  constructor
  · rcases hcase with ⟨h1, h2, h3⟩ | ⟨S, g, h1, h2, h3, h4, h5, h6⟩
    · obtain ⟨m, he, _⟩ := Rad.grow_first hw hk h1 n
      rw [he]
      refine iff_of_true rfl ?_
      intro S hS
      rw [h1] at hS; cases hS
    · constructor
      · intro hok S' hS'
        rw [h1] at hS'; cases hS'
        by_contra hn
        rw [Rad.grow_refused w h1 (by omega)] at hok
        cases hok
      · intro h
        have hn := h S h1
        by_cases hkeep : Rad.Keeps w s S n
        · rw [Rad.grow_merge hw h1 h2 h3 hn hkeep]
        · rw [Rad.grow_rebuild hw h1 h2 h3 hn hkeep]
  · intro h1
    obtain ⟨m, he, hs, hns⟩ := Rad.grow_first hw hk h1 n
    rw [he]
    have hlen : (w.fresh s.drawn n).length = n := by simp [World.fresh]
    have hst : ∀ k, (maxK ≤ k ∨ n ≤ k ∨ ∀ row ∈ w.knn (w.fresh s.drawn n) k, ∀ c, row.getLast? = some c → r ≤ c.2) ↔
        Rad.Stopped w s.connR s.maxK (w.fresh s.drawn n) k := by
      intro k
      unfold Rad.Stopped
      rw [hlen, hr, hm, allLast_iff]
      constructor
      · rintro (h | h | h)
        · exact Or.inl h
        · exact Or.inr (Or.inl h)
        · exact Or.inr (Or.inr fun i row hrow c hc => by simpa using h row (List.mem_of_getElem? hrow) c hc)
      · rintro (h | h | h)
        · exact Or.inl h
        · exact Or.inr (Or.inl h)
        · refine Or.inr (Or.inr fun row hrow c hc => ?_)
          obtain ⟨i, hi⟩ := List.mem_iff_getElem?.1 hrow
          simpa using h i row hi c hc
    refine ⟨m, _, rfl, hlen, rfl, ?_⟩
    intro l hl
    rw [hst]
    constructor
    · intro h
      by_contra hne
      exact hns l (by omega) h
    · rintro rfl; exact hs

/-- The neighbour count is below the maximum, and all samples are listed or all last distances reach the radius. -/
def Rad.Reaches (w : World P K) (s : Rad P K) : Prop :=
  s.k < s.maxK ∧ ∀ S, s.samples = some S → S.length ≤ s.k + 1 ∨
    ∀ row ∈ w.knn S s.k, ∀ c, row.getLast? = some c → s.connR ≤ c.2

theorem rad_listed {w : World P K} {S : List P} {k : ℕ} {t : Table K} (ht : w.TrueTable S t) (h : w.ExactTable S k t) (hk : 1 ≤ k)
    {r : K} (hreach : S.length ≤ k + 1 ∨ ∀ row ∈ t, ∀ c, row.getLast? = some c → r ≤ c.2) {i j : ℕ} {p q : P} (hij : i ≠ j)
    (hp : S[i]? = some p) (hq : S[j]? = some q) (hd : w.dist p q < r) :
    ∃ row : List (ℕ × K), t[i]? = some row ∧ ∃ d, (j, d) ∈ row ∧ d ≤ r := by
  have hi : i < t.length := by rw [ht.1]; exact lt_of_some hp
  have hrow : t[i]? = some (t[i]) := List.getElem?_eq_getElem hi
  refine ⟨_, hrow, ?_⟩
  rcases hreach with hall | hlast
  · obtain ⟨d, hm⟩ := ExactTable.all ht h hall hrow (lt_of_some hp) (lt_of_some hq) (Ne.symm hij)
    refine ⟨d, hm, ?_⟩
    obtain ⟨p', q', hp', hq', hd'⟩ := ht.2 i _ hrow _ hm
    rw [hp] at hp'; cases hp'
    simp only at hq' hd'
    rw [hq] at hq'; cases hq'
    rw [hd']; exact hd.le
  · exact ⟨_, ExactTable.listed ht h hk hrow hp hq (Ne.symm hij) hd (hlast _ (List.getElem_mem hi)), hd.le⟩

/-- C36, the part on missing edges: exact neighbour tables, a checker that does not depend on the direction. If after every call of a
history the neighbour count was below the maximum and the last distances reached the radius (or all samples were listed), then all
accepted motions shorter than the radius are edges. -/
theorem C36_contains_partial {w : World P K} (hw : w.Sound) (hx : ∀ S k, w.ExactTable S k (w.knn S k))
    (hx' : ∀ S new k, w.ExactTable (S ++ new) k (w.knnUpdate S new k)) (hsym : ∀ p q, w.check p q = w.check q p)
    (r : K) (maxK d₀ : ℕ) (ops : List (Rad.Op P))
    (hreach : ∀ ops₁ rest, ops = ops₁ ++ rest → Rad.Reaches w ((Rad.init r maxK d₀).run w ops₁)) {S : List P} {g : NkGraph K}
    (hS : ((Rad.init r maxK d₀).run w ops).samples = some S) (hg : ((Rad.init r maxK d₀).run w ops).graph = some g) :
    w.ContainsRadiusGraph S r g := by
  induction ops using List.reverseRecOn generalizing S g with
  | nil => cases hS
  | append_singleton ops o ih =>
    have hlast := hreach (ops ++ [o]) [] (by simp)
    have hprev : ∀ {S : List P} {g : NkGraph K}, ((Rad.init r maxK d₀).run w ops).samples = some S →
        ((Rad.init r maxK d₀).run w ops).graph = some g → w.ContainsRadiusGraph S r g :=
      fun hS hg => ih (fun ops₁ rest h => hreach ops₁ (rest ++ [o]) (by rw [h]; simp)) hS hg
    have hprevR := hreach ops [o] rfl
    have hrun : (Rad.init r maxK d₀).run w (ops ++ [o]) = ((Rad.init r maxK d₀).run w ops).step w o := by simp [Rad.run]
    rw [hrun] at hS hg hlast
    have hinv := rad_state hw r maxK d₀ ops
    have hr := rad_radius w r maxK d₀ ops
    clear ih hreach hrun
    generalize (Rad.init r maxK d₀).run w ops = s at *
    obtain ⟨hk, hcase⟩ := hinv
    have hacc : ∀ p q, w.Accepted p q → w.check p q = true := by
      rintro p q (h | h)
      · exact h
      · rw [hsym]; exact h
    cases o with
    | grow n =>
      have hS : (s.grow w n).1.samples = some S := hS
      have hg : (s.grow w n).1.graph = some g := hg
      have hlast : Rad.Reaches w (s.grow w n).1 := hlast
      rcases hcase with ⟨h1, h2, h3⟩ | ⟨S₀, g₀, h1, h2, h3, h4, h5, h6⟩
      · obtain ⟨m, he, _⟩ := Rad.grow_first hw hk h1 n
        rw [he] at hS hg hlast
        cases hS; cases hg
        have hl := hlast.2 _ rfl
        simp only [hr] at hl
        intro i j p q hij hp hq hd ha
        obtain ⟨row, hrow, d, hm, _⟩ := rad_listed (hw.knn_true _ _) (hx _ _) (Nat.mul_pos hk (Nat.pow_pos (by omega))) hl hij hp hq hd
        rw [tabGraph_adj]
        exact Or.inl ⟨(accepts_iff ..).2 ⟨p, q, hp, hq, hacc p q ha⟩, row, hrow, d, hm⟩
      · by_cases hn : n < S₀.length
        · rw [Rad.grow_refused w h1 hn] at hS hg
          exact hprev hS hg
        · have hn : S₀.length ≤ n := by omega
          by_cases hkeep : Rad.Keeps w s S₀ n
          · rw [Rad.grow_merge hw h1 h2 h3 hn hkeep] at hS hg
            have hkeep : Rad.allLast (fun d => s.connR < d) (w.knnUpdate S₀ (w.fresh s.drawn (n - S₀.length)) s.k) = true := by
              rcases hkeep with h | h
              · exact h
              · exact absurd hprevR.1 (by omega)
            cases hS; cases hg
            have hl : ∀ row ∈ w.knnUpdate S₀ (w.fresh s.drawn (n - S₀.length)) s.k, ∀ c, row.getLast? = some c → r ≤ c.2 := by
              intro row hrow c hc
              obtain ⟨i, hi⟩ := List.mem_iff_getElem?.1 hrow
              have := (allLast_iff _ _).1 hkeep i row hi c hc
              rw [hr] at this
              exact le_of_lt (by simpa using this)
            intro i j p q hij hp hq hd ha
            rw [merge_adj]
            have hnew : ∀ i j p q, i ≠ j → (Rad.grown w s S₀ n)[i]? = some p → (Rad.grown w s S₀ n)[j]? = some q →
                w.dist p q < r → w.Accepted p q → S₀.length ≤ i →
                (thrGraph w (Rad.grown w s S₀ n) (w.knnUpdate S₀ (w.fresh s.drawn (n - S₀.length)) s.k) S₀.length s.connR).Adj i j := by
              intro i j p q hij hp hq hd ha hi
              rw [thrGraph_adj, hr]
              obtain ⟨row, hrow, d, hm, hdr⟩ :=
                rad_listed (hw.knnUpdate_true _ _ _) (hx' _ _ _) hk (Or.inr hl) hij hp hq hd
              exact Or.inl ⟨(accepts_iff ..).2 ⟨p, q, hp, hq, hacc p q ha⟩, hi, row, hrow, d, hm, hdr⟩
            by_cases hi : S₀.length ≤ i
            · exact Or.inr (hnew i j p q hij hp hq hd ha hi)
            · by_cases hj : S₀.length ≤ j
              · exact Or.inr (Adj.symm (hnew j i q p (Ne.symm hij) hq hp (by rw [hw.dist_symm]; exact hd) ha.symm hj))
              · unfold Rad.grown at hp hq
                rw [List.getElem?_append_left (by omega)] at hp hq
                exact Or.inl (hprev h1 h2 i j p q hij hp hq hd ha)
          · rw [Rad.grow_rebuild hw h1 h2 h3 hn hkeep] at hS hg hlast
            cases hS; cases hg
            have hl := hlast.2 _ rfl
            simp only [hr] at hl
            intro i j p q hij hp hq hd ha
            obtain ⟨row, hrow, d, hm, hdr⟩ := rad_listed (hw.knn_true _ _) (hx _ _) (by omega) hl hij hp hq hd
            rw [thrGraph_adj, hr]
            exact Or.inl ⟨(accepts_iff ..).2 ⟨p, q, hp, hq, hacc p q ha⟩, Nat.zero_le _, row, hrow, d, hm, hdr⟩
    | query a b =>
      have hS : (s.query w a b).1.samples = some S := hS
      have hg : (s.query w a b).1.graph = some g := hg
      rcases hcase with ⟨h1, h2, h3⟩ | ⟨S₀, g₀, h1, h2, h3, h4, h5, h6⟩
      · have : s.query w a b = (s, .error .type) := by unfold Rad.query; rw [h1]
        rw [this] at hS
        rw [h1] at hS; cases hS
      · obtain ⟨d, pts, he, _⟩ := Rad.query_eq hw h1 h2 h4 h5 a b
        rw [he] at hS hg
        have hS : s.samples = some S := hS
        rw [h1] at hS; cases hS
        cases hg
        intro i j p q hij hp hq hd ha
        exact (Adj.congr (afterQuery_edges (Checked.inBound h4 h5) _ _) i j).2 (hprev h1 h2 i j p q hij hp hq hd ha)
    | reset => cases hS

/-- C36, the part on long edges: the growth of a PRM that has samples adds no edge longer than the radius, and if the neighbour count
changes (a new roadmap is built) no edge is longer. -/
theorem C36_radius_partial {w : World P K} (hw : w.Sound) (r : K) (maxK d₀ : ℕ) (ops : List (Rad.Op P)) (n : ℕ) {S : List P}
    {g g' : NkGraph K} (hS : ((Rad.init r maxK d₀).run w ops).samples = some S)
    (hg : ((Rad.init r maxK d₀).run w ops).graph = some g) (hg' : ((Rad.init r maxK d₀).run w (ops ++ [.grow n])).graph = some g') :
    (∀ e ∈ g'.edges, e ∈ g.edges ∨ e.w ≤ r) ∧
      (((Rad.init r maxK d₀).run w (ops ++ [.grow n])).k ≠ ((Rad.init r maxK d₀).run w ops).k → ∀ e ∈ g'.edges, e.w ≤ r) := by
  have hrun : (Rad.init r maxK d₀).run w (ops ++ [.grow n]) = (((Rad.init r maxK d₀).run w ops).grow w n).1 := by
    simp [Rad.run, Rad.step]
  rw [hrun] at hg' ⊢
  have hinv := rad_state hw r maxK d₀ ops
  have hr := rad_radius w r maxK d₀ ops
  generalize (Rad.init r maxK d₀).run w ops = s at *
  obtain ⟨hk, ⟨h1, h2, h3⟩ | ⟨S₀, g₀, h1, h2, h3, h4, h5, h6⟩⟩ := hinv
  · rw [hS] at h1; cases h1
  rw [hS] at h1; cases h1
  rw [hg] at h2; cases h2
  by_cases hn : n < S.length
  · rw [Rad.grow_refused w hS hn] at hg' ⊢
    rw [hg] at hg'; cases hg'
    exact ⟨fun e he => Or.inl he, fun h => absurd rfl h⟩
  · have hn : S.length ≤ n := by omega
    by_cases hkeep : Rad.Keeps w s S n
    · rw [Rad.grow_merge hw hS hg h3 hn hkeep] at hg' ⊢
      cases hg'
      refine ⟨?_, fun h => absurd rfl h⟩
      intro e he
      rcases merge_mem he with he | he
      · exact Or.inl he
      · rw [← hr]; exact Or.inr (thrGraph_weight he)
    · rw [Rad.grow_rebuild hw hS hg h3 hn hkeep] at hg' ⊢
      cases hg'
      rw [← hr]
      exact ⟨fun e he => Or.inr (thrGraph_weight he), fun _ e he => thrGraph_weight he⟩

/-- C36 fails after the first growth: no threshold is applied, and with at most 16 samples every accepted pair becomes an edge
whatever its length. Here the radius is 1/2 and the edges have lengths 1 and 2. -/
theorem C36_radius_false :
    ((Rad.init (1 / 2) 512 0).run openWorld [.grow 3]).graph.map NkGraph.edges = some [⟨0, 1, 1⟩, ⟨0, 2, 2⟩, ⟨1, 2, 1⟩] := by
  decide +kernel

/-- The general form of `C36_radius_false`: after a first growth to at most 16 samples the radius has had no effect. All radii give the same roadmap, and with exact neighbour tables and a checker that does
not depend on the direction every accepted motion between two samples is an edge, however long. -/
theorem C36_first_growth {w : World P K} (hw : w.Sound) (r : K) (maxK d₀ n : ℕ) (hn : n ≤ 16) :
    (∀ r', ((Rad.init r' maxK d₀).run w [.grow n]).graph = ((Rad.init r maxK d₀).run w [.grow n]).graph) ∧
    ∃ S g, ((Rad.init r maxK d₀).run w [.grow n]).samples = some S ∧ ((Rad.init r maxK d₀).run w [.grow n]).graph = some g ∧ S.length = n ∧
      ((∀ S k, w.ExactTable S k (w.knn S k)) → (∀ p q, w.check p q = w.check q p) →
        ∀ (i j : ℕ) (p q : P), i ≠ j → S[i]? = some p → S[j]? = some q → w.Accepted p q → g.Adj i j) := by
  have hlen : (w.fresh (d₀ + 1) n).length = n := by simp [World.fresh]
  have key : ∀ r' : K, ((Rad.init r' maxK d₀).run w [.grow n]).samples = some (w.fresh (d₀ + 1) n) ∧
      ((Rad.init r' maxK d₀).run w [.grow n]).graph = some (tabGraph w (w.fresh (d₀ + 1) n) (w.knn (w.fresh (d₀ + 1) n) 16)) := by
    intro r'
    obtain ⟨m, he, _, h2⟩ := Rad.grow_first hw (s := Rad.init r' maxK d₀) (by simp [Rad.init]) rfl n
    have hm : m = 0 := by
      by_contra hc
      refine h2 0 (by omega) ?_
      unfold Rad.Stopped
      refine .inr (.inl ?_)
      simp only [Rad.init, pow_zero, mul_one]
      omega
    subst hm
    have e : (Rad.init r' maxK d₀).run w [.grow n] = ((Rad.init r' maxK d₀).grow w n).1 := rfl
    rw [e, he]
    exact ⟨rfl, rfl⟩
  refine ⟨fun r' => by rw [(key r').2, (key r).2], _, _, (key r).1, (key r).2, hlen, ?_⟩
  intro hx hsym i j p q hij hp hq ha
  have hi : i < (w.knn (w.fresh (d₀ + 1) n) 16).length := by rw [(hw.knn_true _ _).1]; exact lt_of_some hp
  have hrow := List.getElem?_eq_getElem hi
  obtain ⟨d, hm⟩ := ExactTable.all (hw.knn_true _ _) (hx _ _) (by omega) hrow (lt_of_some hp) (lt_of_some hq) (Ne.symm hij)
  rw [tabGraph_adj]
  refine Or.inl ⟨(accepts_iff ..).2 ⟨p, q, hp, hq, ?_⟩, _, hrow, d, hm⟩
  rcases ha with h | h
  · exact h
  · rw [hsym]; exact h

/-- The general form of `C36_growth_false`: after the first growth a growth doubles the neighbour count at most once, however many samples are added. -/
theorem C36_doubles_once (w : World P K) (r : K) (maxK d₀ : ℕ) (ops : List (Rad.Op P)) (n : ℕ) {S : List P}
    (hS : ((Rad.init r maxK d₀).run w ops).samples = some S) :
    ((Rad.init r maxK d₀).run w (ops ++ [.grow n])).k = ((Rad.init r maxK d₀).run w ops).k ∨
      ((Rad.init r maxK d₀).run w (ops ++ [.grow n])).k = 2 * ((Rad.init r maxK d₀).run w ops).k := by
  have e : (Rad.init r maxK d₀).run w (ops ++ [.grow n]) = (((Rad.init r maxK d₀).run w ops).grow w n).1 := by simp [Rad.run, Rad.step]
  rw [e]
  generalize (Rad.init r maxK d₀).run w ops = s at *
  unfold Rad.grow
  rw [hS]
  dsimp only
  repeat' split
  all_goals first | exact .inl rfl | exact .inr (Nat.mul_comm _ _)

/-- Samples 1/100, 2/100, ... -/
def denseWorld : World ℚ ℚ := lineWorld (fun _ _ => true) fun i => i / 100

/-- C36: on later growths the neighbour count is doubled once only. With 34 samples that are all within the radius 10 of each other
and a maximum of 512 the PRM stops at 32 neighbours, and the accepted motion between the first and the last sample is not an edge. -/
theorem C36_growth_false :
    ((Rad.init 10 512 0).run denseWorld [.grow 2, .grow 34]).k = 32 ∧
    ((Rad.init 10 512 0).run denseWorld [.grow 2, .grow 34]).samples =
      some ((List.range 34).map fun i => ((i + 1 : ℕ) : ℚ) / 100) ∧
    ∃ g, ((Rad.init 10 512 0).run denseWorld [.grow 2, .grow 34]).graph = some g ∧ ¬ g.Adj 0 33 := by
  have hw : denseWorld.Sound := lineWorld_sound _ _
  have h1 : ((Rad.init 10 512 0).grow denseWorld 2).1.samples = some [1 / 100, 2 / 100] := by decide +kernel
  have h2 : ((Rad.init 10 512 0).grow denseWorld 2).1.ann = some ([1 / 100, 2 / 100], 16) := by decide +kernel
  have h3 : ((Rad.init 10 512 0).grow denseWorld 2).1.k = 16 := by decide +kernel
  have h4 : ((Rad.init 10 512 0).grow denseWorld 2).1.connR = 10 := by decide +kernel
  have h5 : ((Rad.init 10 512 0).grow denseWorld 2).1.maxK = 512 := by decide +kernel
  have h6 : ((Rad.init 10 512 0).grow denseWorld 2).1.drawn = 3 := by decide +kernel
  have h7 : ((Rad.init 10 512 0).grow denseWorld 2).1.graph = some ⟨2, [], [⟨0, 1, 1 / 100⟩]⟩ := by decide +kernel
  have hrun : (Rad.init 10 512 0).run denseWorld [.grow 2, .grow 34] =
      (((Rad.init 10 512 0).grow denseWorld 2).1.grow denseWorld 34).1 := rfl
  rw [hrun]
  generalize ((Rad.init 10 512 0).grow denseWorld 2).1 = s at *
  have hgrown : Rad.grown denseWorld s [1 / 100, 2 / 100] 34 = (List.range 34).map fun i => ((i + 1 : ℕ) : ℚ) / 100 := by
    unfold Rad.grown
    rw [h6]
    decide +kernel
  have hkeep : ¬ Rad.Keeps denseWorld s [1 / 100, 2 / 100] 34 := by
    unfold Rad.Keeps
    rw [h3, h4, h5, h6, allLast_iff]
    rintro (h | h)
    · have hrow : ∃ row : List (ℕ × ℚ), (denseWorld.knnUpdate [1 / 100, 2 / 100] (denseWorld.fresh 3 32) 16)[0]? = some row ∧
          row.getLast? = some (16, 16 / 100) := by
        refine ⟨_, rfl, ?_⟩
        decide +kernel
      obtain ⟨row, hr, hl⟩ := hrow
      have := h 0 row hr _ hl
      revert this
      decide +kernel
    · omega
  rw [Rad.grow_rebuild hw h1 h7 (by rw [h3]; exact h2) (by decide) hkeep]
  refine ⟨by show s.k * 2 = 32; rw [h3], by rw [← hgrown], _, rfl, ?_⟩
  rw [thrGraph_adj, hgrown, h3]
  have hrow : ∀ (i j : ℕ) (row : List (ℕ × ℚ)), ((((denseWorld.knn ((List.range 34).map fun i => ((i + 1 : ℕ) : ℚ) / 100) 32)[i]?).map fun row => row.map fun c : ℕ × ℚ => c.1).getD []).contains j = false →
     (denseWorld.knn ((List.range 34).map fun i => ((i + 1 : ℕ) : ℚ) / 100) 32)[i]? = some row → ∀ d, (j, d) ∉ row := by
    intro i j row hc hr d hm
    rw [hr] at hc
    simp only [Option.map_some, Option.getD_some] at hc
    rw [List.contains_eq_mem, decide_eq_false_iff_not] at hc
    exact hc (List.mem_map.2 ⟨_, hm, rfl⟩)
  rintro (⟨_, _, row, hr, d, hm, _⟩ | ⟨_, _, row, hr, d, hm, _⟩)
  · exact hrow 0 33 row (by decide +kernel) hr d hm
  · exact hrow 33 0 row (by decide +kernel) hr d hm

/-- The hypotheses of C36 are met by a history with growth, query and growth, and edges of the second growth are there. -/
theorem C36_nonvacuous : ∃ w : World ℚ ℚ, w.Sound ∧ (∀ S k, w.ExactTable S k (w.knn S k)) ∧
    (∀ S new k, w.ExactTable (S ++ new) k (w.knnUpdate S new k)) ∧ (∀ p q, w.check p q = w.check q p) ∧
    (∀ ops₁ rest, [Rad.Op.grow 2, .query 1 2, .grow 4] = ops₁ ++ rest → Rad.Reaches w ((Rad.init 2 512 0).run w ops₁)) ∧
    ((Rad.init 2 512 0).run w [.grow 2, .query 1 2, .grow 4]).graph.map NkGraph.numberOfEdges = some 5 := by
  refine ⟨lineWorld (fun p q => decide (p ≠ q)) fun i => i, lineWorld_sound _ _, lineWorld_table _ _,
    fun S new k => lineWorld_table _ _ (S ++ new) k, ?_, ?_, by decide +kernel⟩
  · intro p q
    simp [lineWorld, eq_comm]
  · intro ops₁ rest h
    have hpre : ops₁ = [] ∨ ops₁ = [.grow 2] ∨ ops₁ = [.grow 2, .query 1 2] ∨ ops₁ = [.grow 2, .query 1 2, .grow 4] := by
      match ops₁, h with
      | [], _ => simp
      | [_], h => simp at h; simp [h.1]
      | [_, _], h => simp at h; simp [h.1, h.2.1]
      | [_, _, _], h => simp at h; simp [h.1, h.2.1, h.2.2.1]
      | _ :: _ :: _ :: _ :: _, h => simp at h
    have hred : ∀ s : Rad ℚ ℚ, s.k < s.maxK → (s.samples.map List.length).getD 0 ≤ s.k + 1 →
        Rad.Reaches (lineWorld (fun p q => decide (p ≠ q)) fun i => i) s := by
      intro s h1 h2
      refine ⟨h1, fun S hS => Or.inl ?_⟩
      rw [hS] at h2
      exact h2
    rcases hpre with rfl | rfl | rfl | rfl
    all_goals exact hred _ (by decide +kernel) (by decide +kernel)

/-! ### C37, C40 -/

/-- C37 for the radius PRM, the part that holds: without queries before the last growth, and after any later queries, the number of
vertices is the number of samples. -/
theorem C37_rad_partial {w : World P K} (hw : w.Sound) (r : K) (maxK d₀ : ℕ) (ops qs : List (Rad.Op P))
    (hops : ∀ o ∈ ops, (∃ n, o = .grow n) ∨ o = .reset) (hqs : ∀ o ∈ qs, ∃ a b, o = .query a b) :
    numVertices ((Rad.init r maxK d₀).run w (ops ++ qs)).graph =
      ((((Rad.init r maxK d₀).run w (ops ++ qs)).samples).map List.length).getD 0 := by
  have key : ∀ (ops : List (Rad.Op P)) (s : Rad P K), (∀ o ∈ ops, (∃ n, o = .grow n) ∨ o = .reset) → s.Inv w →
      (∀ S g, s.samples = some S → s.graph = some g → g.bound = S.length) →
      ∀ S g, (s.run w ops).samples = some S → (s.run w ops).graph = some g → g.bound = S.length := by
    intro ops
    induction ops with
    | nil => intro s _ _ hb; exact hb
    | cons o ops ih =>
      intro s ho hinv hb
      refine ih (s.step w o) (fun o' h' => ho o' (List.mem_cons_of_mem _ h')) (Rad.run_inv hw hinv [o]) ?_
      rcases ho o (by simp) with ⟨n, rfl⟩ | rfl
      · intro S g hS hg
        have hS : (s.grow w n).1.samples = some S := hS
        have hg : (s.grow w n).1.graph = some g := hg
        obtain ⟨hk, ⟨h1, h2, h3⟩ | ⟨S₀, g₀, h1, h2, h3, h4, h5, h6⟩⟩ := hinv
        · obtain ⟨m, he, _⟩ := Rad.grow_first hw hk h1 n
          rw [he] at hS hg
          cases hS; cases hg
          exact tabGraph_bound (hw.knn_true _ _)
        · by_cases hn : n < S₀.length
          · rw [Rad.grow_refused w h1 hn] at hS hg
            exact hb S g hS hg
          · have hn : S₀.length ≤ n := by omega
            have hl := Rad.grown_length w s S₀ hn
            by_cases hkeep : Rad.Keeps w s S₀ n
            · rw [Rad.grow_merge hw h1 h2 h3 hn hkeep] at hS hg
              cases hS; cases hg
              have ht : w.TrueTable (Rad.grown w s S₀ n) _ := hw.knnUpdate_true S₀ (w.fresh s.drawn (n - S₀.length)) s.k
              rw [merge_bound, thrGraph_bound ht]
              show max (g₀.bound + (n - S₀.length)) _ = _
              rw [hb S₀ g₀ h1 h2, hl]
              omega
            · rw [Rad.grow_rebuild hw h1 h2 h3 hn hkeep] at hS hg
              cases hS; cases hg
              exact thrGraph_bound (hw.knn_true _ _) _ _
      · intro S g hS
        cases hS
  have hb := key ops (Rad.init r maxK d₀) hops (Rad.init_inv w r maxK d₀) (fun S g hS => by cases hS)
  have hinv := rad_state hw r maxK d₀ ops
  cases hS : ((Rad.init r maxK d₀).run w ops).samples with
  | none =>
    have hg : ((Rad.init r maxK d₀).run w ops).graph = none := by
      obtain ⟨_, ⟨_, h, _⟩ | ⟨S, _, h, _⟩⟩ := hinv
      · exact h
      · rw [hS] at h; cases h
    have hstay : ∀ (qs : List (Rad.Op P)) (s : Rad P K), (∀ o ∈ qs, ∃ a b, o = Rad.Op.query a b) → s.samples = none → s.run w qs = s := by
      intro qs
      induction qs with
      | nil => intros; rfl
      | cons o qs ih =>
        intro s hq hs
        obtain ⟨a, b, rfl⟩ := hq o (by simp)
        have : s.query w a b = (s, .error .type) := by unfold Rad.query; rw [hs]
        show ((s.query w a b).1).run w qs = s
        rw [this]
        exact ih s (fun o' h' => hq o' (List.mem_cons_of_mem _ h')) hs
    have hrun : (Rad.init r maxK d₀).run w (ops ++ qs) = ((Rad.init r maxK d₀).run w ops).run w qs := by
      simp [Rad.run]
    rw [hrun, hstay qs _ hqs hS, hS, hg]
    rfl
  | some S =>
    obtain ⟨g, hg, hck, hbd, hnode⟩ := rad_inv_graph hinv hS
    obtain ⟨g', hs', hsame, hnum, _⟩ := C30_rad hw r maxK d₀ ops qs hqs hS hg
    rw [hs']
    show g'.numberOfNodes = (((Rad.init r maxK d₀).run w ops).samples.map List.length).getD 0
    rw [hS, hnum]
    refine numberOfNodes_of_lt (n := S.length) ?_
    intro v
    rw [Bool.eq_iff_iff]
    constructor
    · intro h
      have := hasNode_lt h
      rw [hb S g hS hg] at this
      simpa using this
    · intro h
      exact hnode v (by simpa using h)

/-- C37 fails for the radius PRM: a query leaves two removed ids behind, and a later growth that merges brings them back. Here 4
samples and 5 vertices, then 6 samples and 8 vertices. -/
theorem C37_rad_false :
    (((Rad.init 5 16 0).run openWorld [.grow 3, .query 1 2, .grow 4]).samples.map List.length) = some 4 ∧
    numVertices ((Rad.init 5 16 0).run openWorld [.grow 3, .query 1 2, .grow 4]).graph = 5 ∧
    (((Rad.init 5 16 0).run openWorld [.grow 3, .query 1 2, .grow 6]).samples.map List.length) = some 6 ∧
    numVertices ((Rad.init 5 16 0).run openWorld [.grow 3, .query 1 2, .grow 6]).graph = 8 := by
  decide +kernel

theorem range_filter_gap (a b : ℕ) : ∀ B, a ≤ B → b ≤ B → ((List.range B).filter fun v => decide (v < a) || decide (b ≤ v)).length = a + (B - max a b) := by
  have key : ∀ B, ((List.range B).filter fun v => decide (v < a) || decide (b ≤ v)).length = min a B + (B - max a b) := by
    intro B
    induction B with
    | zero => simp
    | succ B ih =>
      rw [List.range_succ, List.filter_append, List.length_append, ih]
      by_cases h : B < a ∨ b ≤ B
      · rw [List.filter_cons_of_pos (by simpa using h)]
        simp only [List.filter_nil, List.length_singleton]
        omega
      · rw [List.filter_cons_of_neg (by simpa using h)]
        simp only [List.filter_nil, List.length_nil]
        omega
  intro B ha _
  rw [key, min_eq_left ha]

/-- Queries leave removed ids behind. -/
theorem rad_queries_stale {w : World P K} (hw : w.Sound) {n₀ : ℕ} : ∀ (qs : List (Rad.Op P)) (s : Rad P K), (∀ o ∈ qs, ∃ a b, o = Rad.Op.query a b) → s.Inv w →
    ∀ (S : List P) (g : NkGraph K), s.samples = some S → s.graph = some g → n₀ ≤ g.bound → (∀ v, v ∈ g.removed ↔ n₀ ≤ v ∧ v < g.bound) →
      ∃ g', s.run w qs = { s with graph := some g' } ∧ g'.bound = g.bound + 2 * qs.length ∧ ∀ v, v ∈ g'.removed ↔ n₀ ≤ v ∧ v < g'.bound := by
  intro qs
  induction qs with
  | nil =>
    intro s _ _ S g hS hg _ hr
    refine ⟨g, ?_, rfl, hr⟩
    cases s
    cases hg
    rfl
  | cons o qs ih =>
    intro s hq hinv S g hS hg hb hr
    obtain ⟨a, b, rfl⟩ := hq o (by simp)
    have hinv' := Rad.query_inv hw hinv a b
    obtain ⟨-, ⟨h1, -⟩ | ⟨S', g₁, h1, h2, h3, h4, h5, h6⟩⟩ := hinv
    · rw [hS] at h1
      cases h1
    · rw [hS] at h1
      rw [hg] at h2
      cases h1
      cases h2
      obtain ⟨d, pts, he, -⟩ := Rad.query_eq hw hS hg h4 h5 a b
      obtain ⟨g', e1, e2, e3⟩ := ih (s.query w a b).1 (fun o' h' => hq o' (List.mem_cons_of_mem _ h')) hinv' S _ (by rw [he]; exact hS) (by rw [he])
        (by rw [afterQuery_bound]; omega) (by
          intro v
          rw [afterQuery_removed, afterQuery_bound, List.mem_cons, List.mem_cons, hr]
          omega)
      refine ⟨g', ?_, ?_, e3⟩
      · show (s.query w a b).1.run w qs = _
        rw [e1, he]
      · rw [e2, afterQuery_bound, List.length_cons]
        omega

/-- The general form of `C37_rad_false`: after a growth to `n₀` samples, any number of queries and a growth to `n` samples, every query has left two ids behind, and the growth brings back as many of them as
there are new samples, unless it doubles the neighbour count and builds the roadmap anew. -/
theorem C37_rad_stale {w : World P K} (hw : w.Sound) (r : K) (maxK d₀ n₀ n : ℕ) (hn : n₀ ≤ n) (qs : List (Rad.Op P)) (hqs : ∀ o ∈ qs, ∃ a b, o = .query a b) :
    (((Rad.init r maxK d₀).run w (.grow n₀ :: qs ++ [.grow n])).samples.map List.length) = some n ∧
    numVertices ((Rad.init r maxK d₀).run w (.grow n₀ :: qs ++ [.grow n])).graph =
      if ((Rad.init r maxK d₀).run w (.grow n₀ :: qs ++ [.grow n])).k = ((Rad.init r maxK d₀).run w [.grow n₀]).k then n + min (n - n₀) (2 * qs.length) else n := by
  obtain ⟨m, he, -⟩ := Rad.grow_first hw (s := Rad.init r maxK d₀) (by simp [Rad.init]) rfl n₀
  have hinv := rad_state hw r maxK d₀ [.grow n₀]
  have e0 : (Rad.init r maxK d₀).run w (.grow n₀ :: qs ++ [.grow n]) = ((((Rad.init r maxK d₀).run w [.grow n₀]).run w qs).grow w n).1 := by
    simp [Rad.run, Rad.step]
  have e1 : (Rad.init r maxK d₀).run w [.grow n₀] = ((Rad.init r maxK d₀).grow w n₀).1 := rfl
  rw [e0]
  obtain ⟨S, hS, hlen, g, hg, hgb, hgr⟩ : ∃ S, ((Rad.init r maxK d₀).run w [.grow n₀]).samples = some S ∧ S.length = n₀ ∧
      ∃ g, ((Rad.init r maxK d₀).run w [.grow n₀]).graph = some g ∧ g.bound = n₀ ∧ g.removed = [] := by
    rw [e1, he]
    have hl : (w.fresh (Rad.init r maxK d₀ : Rad P K).drawn n₀).length = n₀ := by simp [World.fresh]
    refine ⟨_, rfl, hl, _, rfl, ?_, ?_⟩
    · exact (tabGraph_bound (hw.knn_true _ _)).trans hl
    · exact connect_removed ..
  clear e0 e1 he
  generalize (Rad.init r maxK d₀).run w [.grow n₀] = s at *
  have hinv2 := Rad.run_inv hw hinv qs
  obtain ⟨g', h1, h2, h3⟩ := rad_queries_stale hw (n₀ := n₀) qs s hqs hinv S g hS hg (by omega) (by rw [hgr, hgb]; simp)
  rw [h1] at hinv2 ⊢
  obtain ⟨hk, ⟨h4, -⟩ | ⟨S', g₁, h4, h5, h6, -⟩⟩ := hinv2
  · simp only at h4
    rw [hS] at h4
    cases h4
  simp only at h4 h5 h6 hk
  rw [hS] at h4
  cases h4
  cases h5
  have hn' : S.length ≤ n := by omega
  have hl := Rad.grown_length w { s with graph := some g' } S hn'
  by_cases hkeep : Rad.Keeps w { s with graph := some g' } S n
  · rw [Rad.grow_merge hw (s := { s with graph := some g' }) hS rfl h6 hn' hkeep]
    simp only [if_true]
    refine ⟨by simpa using hl, ?_⟩
    have ht := hw.knnUpdate_true S (w.fresh s.drawn (n - S.length)) s.k
    have ht' : w.TrueTable (Rad.grown w { s with graph := some g' } S n) (w.knnUpdate S (w.fresh s.drawn (n - S.length)) s.k) := ht
    unfold numVertices NkGraph.numberOfNodes
    simp only [Option.map_some, Option.getD_some]
    have hB : ((g'.addNodes (n - S.length)).merge (thrGraph w (Rad.grown w { s with graph := some g' } S n) (w.knnUpdate S (w.fresh s.drawn (n - S.length)) s.k) S.length s.connR)).bound =
        n + 2 * qs.length := by
      rw [merge_bound, thrGraph_bound ht', hl]
      show max (g'.bound + (n - S.length)) n = _
      omega
    rw [hB]
    have hf : ∀ v ∈ List.range (n + 2 * qs.length),
        ((g'.addNodes (n - S.length)).merge (thrGraph w (Rad.grown w { s with graph := some g' } S n) (w.knnUpdate S (w.fresh s.drawn (n - S.length)) s.k) S.length s.connR)).hasNode v =
          (decide (v < n) || decide (n₀ + 2 * qs.length ≤ v)) := by
      intro v hv
      have hv : v < n + 2 * qs.length := by simpa using hv
      rw [merge_hasNode, Bool.eq_iff_iff, Bool.or_eq_true, Bool.or_eq_true, thrGraph_hasNode ht', hl, decide_eq_true_eq, decide_eq_true_eq]
      have hg1 : (g'.addNodes (n - S.length)).hasNode v = true ↔ v < g'.bound + (n - S.length) ∧ ¬ (n₀ ≤ v ∧ v < g'.bound) := by
        rw [← h3]
        simp only [NkGraph.hasNode, NkGraph.addNodes, Bool.and_eq_true, Bool.not_eq_true', List.contains_eq_mem, decide_eq_false_iff_not]
        exact and_congr_left' decide_eq_true_iff
      rw [hg1]
      omega
    rw [List.filter_congr hf, range_filter_gap _ _ _ (by omega) (by omega)]
    omega
  · rw [Rad.grow_rebuild hw (s := { s with graph := some g' }) hS rfl h6 hn' hkeep]
    simp only
    refine ⟨by simpa using hl, ?_⟩
    rw [if_neg (by omega)]
    unfold numVertices
    simp only [Option.map_some, Option.getD_some]
    refine numberOfNodes_of_lt fun v => ?_
    rw [Bool.eq_iff_iff, thrGraph_hasNode (hw.knn_true _ _), hl, decide_eq_true_eq]

/-- C40 for the radius PRM, the part that holds: if the neighbour count was never doubled, then all states after `reset()` are those
of a newly constructed PRM that draws from where the sampler stands. -/
theorem C40_rad_partial (w : World P K) (s : Rad P K) (hk : s.k = 16) (hd : 0 < s.drawn) (ops : List (Rad.Op P)) :
    s.reset.run w ops = (Rad.init s.connR s.maxK (s.drawn - 1)).run w ops := by
  unfold Rad.reset Rad.init
  rw [hk, Nat.sub_add_cancel hd]

/-- C40 for the radius PRM, for all states: the neighbour count is all that survives `reset()`. -/
theorem C40_rad_exact (w : World P K) (s : Rad P K) (hd : 0 < s.drawn) (ops : List (Rad.Op P)) :
    s.reset.run w ops = ({ Rad.init s.connR s.maxK (s.drawn - 1) with k := s.k } : Rad P K).run w ops := by
  unfold Rad.reset Rad.init
  simp only [Nat.sub_add_cancel hd]

/-- C40 on a radius PRM that has been grown and queried, with few samples: the count is still 16. -/
theorem C40_rad_nonvacuous : ((Rad.init 5 512 0).run openWorld [.grow 3, .query 1 2]).k = 16 ∧
    ((Rad.init 5 512 0).run openWorld [.grow 3, .query 1 2]).drawn = 4 := by
  decide +kernel

/-- First 18 samples within 1/5 of each other, then samples 10 apart. -/
def mixedWorld : World ℚ ℚ := lineWorld (fun p q => decide (p ≠ q)) fun i => if i ≤ 18 then i / 100 else i * 10

/-- C40 fails for the radius PRM: the doubled neighbour count survives `reset()`, and the next roadmap has another edge set than
that of a new PRM on the same samples. -/
theorem C40_rad_false :
    ((Rad.init 1 512 0).run mixedWorld [.grow 18, .reset, .grow 18]).samples =
      ((Rad.init 1 512 18).run mixedWorld [.grow 18]).samples ∧
    numEdges ((Rad.init 1 512 0).run mixedWorld [.grow 18, .reset, .grow 18]).graph = 153 ∧
    numEdges ((Rad.init 1 512 18).run mixedWorld [.grow 18]).graph = 152 := by
  decide +kernel

/-- The hypotheses of C25 and C28-C30 are met and the path is not empty. -/
theorem C28_rad_nonvacuous : ∃ w : World ℚ ℚ, w.Sound ∧
    ((Rad.init (5 / 4) 16 0).run w [.grow 2, .grow 4]).samples = some [1, 2, 3, 4] ∧
    (((Rad.init (5 / 4) 16 0).run w [.grow 2, .grow 4]).query w (1 / 2) (9 / 2)).2 = .ok ((4 : ℚ), [1, 2, 3, 4]) :=
  ⟨openWorld, lineWorld_sound _ _, by decide +kernel, by decide +kernel⟩

end Verif.Props
