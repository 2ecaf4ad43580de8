import Verif.Lemmas.Batch
import Verif.Lemmas.NetSampling
import Verif.Props.AnytimeGuarantee

/-! Planning with motion checkers that judge whole batches: C131. -/

namespace Verif.Props

open Verif.Prm Verif.Anytime Verif.Net

section Rowwise

variable {P K F : Type*} [LinearOrder K] [Field F] [LinearOrder F] [FloorSemiring F]

theorem select_map {α : Type*} (xs : List α) (f : α → Bool) : select xs (xs.map f) = .ok (xs.filter f) := by
  rw [select_ok (by simp)]
  congr 1
  induction xs with
  | nil => rfl
  | cons a l ih =>
    simp only [List.map_cons, List.zip_cons_cons, List.filterMap_cons, List.filter_cons, ih]
    cases f a <;> rfl

theorem ends_accepts (w : World P K) (S : List P) (cs : List (ℕ × ℕ × K)) (h : ∀ c ∈ cs, c.1 < S.length ∧ c.2.1 < S.length) :
    (ends S cs).map (fun m => w.check m.1 m.2) = cs.map fun c => w.accepts S c.1 c.2.1 := by
  induction cs with
  | nil => rfl
  | cons c cs ih =>
    obtain ⟨ha, hb⟩ := h c (by simp)
    have e : ends S (c :: cs) = (S[c.1], S[c.2.1]) :: ends S cs := by
      unfold ends
      rw [List.filterMap_cons]
      simp [ha, hb]
    rw [e, List.map_cons, List.map_cons, ih fun c hc => h c (List.mem_cons_of_mem _ hc)]
    simp [World.accepts, ha, hb]

theorem tableGraph_rowwise {w : World P K} {check : Batch P} (h : check.Rowwise w.check) (S : List P) (t : Table K) (start : ℕ) (thr : Option K) :
    tableGraphB check S t start thr = w.tableGraph S t start thr := by
  unfold tableGraphB World.tableGraph
  simp only
  split
  · rename_i hc
    rw [h, ends_accepts]
    · simp only [select_map]
      rfl
    · intro c hm
      have := List.all_eq_true.1 hc c hm
      simpa using this
  · rfl

theorem querySamples_rowwise {w : World P K} {check : Batch P} (h : check.Rowwise w.check) (S : List P) (r : K) (q : P) :
    w.querySamplesB check S r q = .ok (w.querySamples S r q) := by
  unfold World.querySamplesB World.querySamples
  have e : ((w.near S r q).map fun c => (q, c.1)).map (fun m => w.check m.1 m.2) = (w.near S r q).map fun c => w.check q c.1 := by
    rw [List.map_map]
    rfl
  rw [h, e]
  simp only [select_map, Except.map]
  unfold World.near
  rw [List.filter_filter]
  congr 3
  funext c
  rw [Bool.and_comm]

theorem rebuild_rowwise {w : World P K} {check : Batch P} (h : check.Rowwise w.check) (s : Knn P K) (S : List P) :
    Knn.rebuildB w check s S = Knn.rebuild w s S := by
  unfold Knn.rebuildB Knn.rebuild
  simp only [tableGraph_rowwise h]
  rfl

theorem grow_rowwise {w : World P K} {check : Batch P} (h : check.Rowwise w.check) (n : ℕ) (s : Knn P K) :
    s.growB w check n = s.grow w n := by
  unfold Knn.growB Knn.grow
  simp only [rebuild_rowwise h]
  rfl

theorem query_rowwise {w : World P K} {check : Batch P} (h : check.Rowwise w.check) (a b : P) (s : Knn P K) :
    s.queryB w check a b = s.query w a b := by
  unfold Knn.queryB Knn.query
  cases s.samples with
  | none => cases s.connR.or s.certified <;> rfl
  | some S =>
    cases s.connR.or s.certified with
    | none => rfl
    | some r =>
      simp only [querySamples_rowwise h]
      cases s.graph <;> rfl

/-- C131, first part: for a checker that judges every motion by itself, also when there is none, growth, queries and the planning call are those of the
model with a check of single motions, so all properties stated there hold. -/
theorem C131_rowwise {w : World P K} {check : Batch P} (h : check.Rowwise w.check) :
    (∀ (s : Knn P K) n, s.growB w check n = s.grow w n) ∧ (∀ (s : Knn P K) a b, s.queryB w check a b = s.query w a b) ∧
      (∀ (s : Knn P K) ops, s.runB w check ops = s.run w ops) ∧
      ∀ start goal minS maxS (scale : F → F) k tr d fuel,
        planB w check start goal minS maxS scale k tr d fuel = planBy w start goal minS maxS scale k tr d fuel := by
  have h1 : ∀ (s : Knn P K) n, s.growB w check n = s.grow w n := fun s n => grow_rowwise h n s
  have h2 : ∀ (s : Knn P K) a b, s.queryB w check a b = s.query w a b := fun s a b => query_rowwise h a b s
  refine ⟨h1, h2, ?_, ?_⟩
  · intro s ops
    unfold Knn.runB Knn.run
    congr 1
    funext s o
    cases o <;> simp [Knn.stepB, Knn.step, h1, h2]
  · intro start goal minS maxS scale k tr d fuel
    have hb : bodyB w check start goal maxS scale = bodyBy w start goal maxS scale := by
      funext s
      unfold bodyB bodyBy
      simp only [h1, h2]
      rfl
    have ha : ∀ x, assertFree check x = if w.check x x = true then .ok () else .error .assertion := by
      intro x
      unfold assertFree
      rw [h]
      rfl
    unfold planB planBy
    rw [hb, ha, ha]
    cases w.check start start <;> cases w.check goal goal <;> rfl

end Rowwise

section Between

variable {P K : Type*} [LinearOrder K] [AddCommGroup K]

/-- What the calls of the planner do to samples and parameters. -/
def Drawn (w : World P K) (k : ℕ) (tr : Bool) (d : ℕ) (s : Knn P K) : Prop :=
  s.k = k ∧ s.truncate = tr ∧ ((s.samples = none ∧ s.drawn = d + 1) ∨ ∃ n, s.samples = some (w.fresh (d + 1) n) ∧ s.drawn = d + 1 + n)

theorem setRadius_keeps (w : World P K) (r : K) (s : Knn P K) : (s.setRadius w r).1.samples = s.samples ∧ (s.setRadius w r).1.drawn = s.drawn ∧
    (s.setRadius w r).1.k = s.k ∧ (s.setRadius w r).1.truncate = s.truncate := by
  unfold Knn.setRadius
  split
  · simp
  · split
    · simp
    · simp only
      split <;> simp

theorem rebuildB_keeps (w : World P K) (check : Batch P) (s : Knn P K) (S : List P) : (Knn.rebuildB w check s S).1.samples = some S ∧
    (Knn.rebuildB w check s S).1.drawn = s.drawn ∧ (Knn.rebuildB w check s S).1.k = s.k ∧ (Knn.rebuildB w check s S).1.truncate = s.truncate := by
  unfold Knn.rebuildB
  simp only
  split
  · simp
  · split
    · simp
    · split
      · simp [setRadius_keeps]
      · simp

theorem queryB_keeps (w : World P K) (check : Batch P) (a b : P) (s : Knn P K) : (s.queryB w check a b).1.samples = s.samples ∧
    (s.queryB w check a b).1.drawn = s.drawn ∧ (s.queryB w check a b).1.k = s.k ∧ (s.queryB w check a b).1.truncate = s.truncate ∧
    (s.queryB w check a b).1.certified = s.certified ∧ (s.queryB w check a b).1.connR = s.connR := by
  unfold Knn.queryB
  split
  · simp
  · simp
  · split
    · simp
    · split
      · simp
      · split <;> simp

theorem grown_drawn {w : World P K} (check : Batch P) {k : ℕ} {tr : Bool} {d : ℕ} {s : Knn P K} (h : Drawn w k tr d s) (n : ℕ) :
    Drawn w k tr d (s.growB w check n).1 ∧ (((s.growB w check n).2 = .error .arithmetic ∧ ∃ S, s.samples = some S ∧ n ≤ S.length) ∨ ∃ s' : Knn P K,
      s'.connR = none ∧ s'.k = k ∧ s'.truncate = tr ∧ s.growB w check n = Knn.rebuildB w check s' (w.fresh (d + 1) n)) := by
  obtain ⟨h1, h2, h3⟩ := h
  unfold Knn.growB
  rcases h3 with ⟨h3, h4⟩ | ⟨m, h3, h4⟩
  · simp only [h3]
    rw [h4]
    refine ⟨?_, .inr ⟨_, ?_, ?_, ?_, rfl⟩⟩
    · obtain ⟨a1, a2, a3, a4⟩ := rebuildB_keeps w check { s with connR := none, drawn := d + 1 + n } (w.fresh (d + 1) n)
      simp only [h3] at a1 a2 a3 a4
      exact ⟨by rw [a3, h1], by rw [a4, h2], .inr ⟨n, a1, a2⟩⟩
    · rfl
    · exact h1
    · exact h2
  · simp only [h3]
    by_cases hn : n ≤ (w.fresh (d + 1) m).length
    · rw [if_pos hn]
      exact ⟨⟨h1, h2, .inr ⟨m, by simp, h4⟩⟩, .inl ⟨rfl, _, rfl, hn⟩⟩
    · rw [if_neg hn]
      rw [fresh_length] at hn ⊢
      have e : w.fresh (d + 1) m ++ w.fresh s.drawn (n - m) = w.fresh (d + 1) n := by
        rw [h4, fresh_append]
        congr 1
        omega
      rw [e, h4]
      refine ⟨?_, .inr ⟨_, ?_, ?_, ?_, rfl⟩⟩
      · obtain ⟨a1, a2, a3, a4⟩ := rebuildB_keeps w check { s with connR := none, drawn := d + 1 + m + (n - m) } (w.fresh (d + 1) n)
        simp only [h3] at a1 a2 a3 a4
        exact ⟨by rw [a3, h1], by rw [a4, h2], .inr ⟨n, a1, by rw [a2]; omega⟩⟩
      · rfl
      · exact h1
      · exact h2

/-- The roadmap of a check of single motions, cut to the radius. -/
def rowGraph (w : World P K) (f : P → P → Bool) (S : List P) (t : Table K) (c : Option K) : NkGraph K :=
  { tabGraph (w.withCheck f) S t with
    edges := match c with
      | none => (tabGraph (w.withCheck f) S t).edges
      | some r => (tabGraph (w.withCheck f) S t).edges.filter fun e => decide (e.w < r) }

theorem rowGraph_checked {w : World P K} (hw : w.Sound) (f : P → P → Bool) {S : List P} {t : Table K} (ht : w.TrueTable S t) (c : Option K) :
    (w.withCheck f).Checked S (rowGraph w f S t c) := by
  refine Checked.sublist ?_ (tabGraph_checked (hw.withCheck f) (S := S) (t := t) ⟨ht.1, ht.2⟩)
  intro e he
  unfold rowGraph at he
  cases c with
  | none => exact he
  | some r => exact List.mem_of_mem_filter he

/-- The state after a growth to `n` samples and queries: the roadmap is between those of the two checks of single motions. -/
structure Grown (w : World P K) (lo hi : P → P → Bool) (k : ℕ) (tr : Bool) (d n : ℕ) (x : K) (s : Knn P K) : Prop where
  drawn : Drawn w k tr d s
  samples : s.samples = some (w.fresh (d + 1) n)
  certified : s.certified = some x
  certify : Knn.certify (w.knn (w.fresh (d + 1) n) (min (n - 1) k)) = .ok x
  radius : s.connR = if tr then some x else none
  graph : ∃ g, s.graph = some g ∧ n ≤ g.bound ∧ (rowGraph w lo (w.fresh (d + 1) n) (w.knn (w.fresh (d + 1) n) (min (n - 1) k)) s.connR).Part g ∧
    g.Part (rowGraph w hi (w.fresh (d + 1) n) (w.knn (w.fresh (d + 1) n) (min (n - 1) k)) s.connR)

theorem candidates_ne {w : World P K} (hx : ∀ S k, w.ExactTable S k (w.knn S k)) {S : List P} {k : ℕ} (ht : w.TrueTable S (w.knn S k))
    (hS : 2 ≤ S.length) (hk : 1 ≤ k) : candidates (w.knn S k) 0 ≠ [] := by
  have h0 : 0 < (w.knn S k).length := by rw [ht.1]; omega
  have hrow := List.getElem?_eq_getElem h0
  have hlen := (hx S k).full 0 _ hrow
  obtain ⟨c, hc⟩ := List.exists_mem_of_length_pos (l := (w.knn S k)[0]) (by rw [hlen]; omega)
  intro h
  have : (0, c.1, c.2) ∈ candidates (w.knn S k) 0 := (mem_candidates ..).2 ⟨le_rfl, _, hrow, hc⟩
  rw [h] at this
  simp at this

theorem rebuildB_grown {w : World P K} (hw : w.Sound) (hx : ∀ S k, w.ExactTable S k (w.knn S k)) {tr : Bool} (hv : tr = true → w.VisitsAll) {check : Batch P}
    {lo hi : P → P → Bool} (hb : check.Between lo hi) {k : ℕ} (hk : 1 ≤ k) {d n : ℕ} (hn : 2 ≤ n) {s : Knn P K} (h1 : s.connR = none) (h2 : s.k = k)
    (h3 : s.truncate = tr) (hd : Drawn w k tr d (Knn.rebuildB w check s (w.fresh (d + 1) n)).1) :
    (Knn.rebuildB w check s (w.fresh (d + 1) n)).2 = .ok () ∧ ∃ x, Grown w lo hi k tr d n x (Knn.rebuildB w check s (w.fresh (d + 1) n)).1 := by
  set S := w.fresh (d + 1) n with hS
  have hSl : S.length = n := fresh_length ..
  set t := w.knn S (min (n - 1) k) with htd
  have ht : w.TrueTable S t := hw.knn_true S _
  obtain ⟨kept, hk1, hk2, hk3⟩ := tableGraphB_ok hb ht (candidates_ne hx ht (by omega) (by omega))
  have hsim : Simple (addAll (NkGraph.new t.length : NkGraph K) kept) := addAll_simple (by simp [Simple, NkGraph.new])
  have hbound : (addAll (NkGraph.new t.length : NkGraph K) kept).bound = n := by rw [addAll_bound, ← hSl, ← ht.1]; rfl
  have hlo : (tabGraph (w.withCheck lo) S t).Part (addAll (NkGraph.new t.length) kept) := by
    refine addAll_part hw ht ?_ (fun c hc => (hk2 c hc).1) _
    intro c hc
    obtain ⟨a1, a2⟩ := List.mem_filter.1 hc
    exact hk3 c (List.mem_of_mem_filter a1) a2
  have hhi : (addAll (NkGraph.new t.length) kept).Part (tabGraph (w.withCheck hi) S t) := by
    refine addAll_part hw ht ?_ (fun c hc => ?_) _
    · intro c hc
      exact List.mem_filter.2 ⟨List.mem_filter.2 ⟨(hk2 c hc).1, rfl⟩, (hk2 c hc).2⟩
    · exact List.mem_of_mem_filter (List.mem_of_mem_filter hc)
  have hrows : ∀ row ∈ t, row ≠ [] := by
    rintro row hrow rfl
    obtain ⟨i, hi'⟩ := List.mem_iff_getElem?.1 hrow
    have := (hx S (min (n - 1) k)).full i [] hi'
    simp at this
    omega
  have hne : t ≠ [] := by
    intro h
    have := ht.1
    rw [h] at this
    simp at this
    omega
  obtain ⟨x, hxc⟩ := certify_ok hne hrows
  have hkk : min (S.length - 1) s.k = min (n - 1) k := by rw [hSl, h2]
  cases tr with
  | false =>
    have e : Knn.rebuildB w check s S = ({ s with samples := some S, master := some t, cache := some (addAll (NkGraph.new t.length) kept), graph := some (addAll (NkGraph.new t.length) kept), certified := some x }, .ok ()) := by
      unfold Knn.rebuildB
      simp only [hkk, ← htd, hk1, hxc]
      rw [if_neg (by simp [h3])]
    rw [e] at hd ⊢
    refine ⟨rfl, x, hd, rfl, rfl, hxc, h1, _, rfl, hbound.ge, ?_, ?_⟩
    · refine hlo.of_edges ?_ rfl
      simp only [rowGraph, h1]
      rfl
    · refine hhi.of_edges rfl ?_
      simp only [rowGraph, h1]
      rfl
  | true =>
    have e : Knn.rebuildB w check s S = ({ s with samples := some S, master := some t, cache := some (addAll (NkGraph.new t.length) kept), graph := some (cutGraph w x (addAll (NkGraph.new t.length) kept)), certified := some x, connR := some x }, .ok ()) := by
      unfold Knn.rebuildB
      simp only [hkk, ← htd, hk1, hxc]
      rw [if_pos (by simp [h3])]
      rw [Knn.setRadius_eq (g := addAll (NkGraph.new t.length) kept) (c := addAll (NkGraph.new t.length) kept) (x := x) rfl rfl rfl]
      simp [h1, Knn.mustReload]
    rw [e] at hd ⊢
    refine ⟨rfl, x, hd, rfl, rfl, hxc, rfl, _, rfl, ?_, ?_, ?_⟩
    · unfold cutGraph
      rw [removeAll_bound, hbound]
    · exact hlo.filter (fun a => decide (a < x)) rfl (cutGraph_edges (hv rfl) x hsim)
    · exact hhi.filter (fun a => decide (a < x)) (cutGraph_edges (hv rfl) x hsim) rfl

/-- The roadmap of a check of single motions after one growth, and what a query answers. -/
theorem row_query {w : World P K} (hw : w.Sound) (hx : ∀ S k, w.ExactTable S k (w.knn S k)) {tr : Bool} (hv : tr = true → w.VisitsAll) (f : P → P → Bool) {k : ℕ} (hk : 1 ≤ k)
    (d : ℕ) {n : ℕ} (hn : 2 ≤ n) {x : K} (hxc : Knn.certify (w.knn (w.fresh (d + 1) n) (min (n - 1) k)) = .ok x) (start goal : P) :
    ∃ c pts, ((((Knn.init k tr d).grow (w.withCheck f) n).1.query (w.withCheck f) start goal)).2 = .ok (c, pts) ∧
      ((∃ ids, (w.withCheck f).Route (w.fresh (d + 1) n) (rowGraph w f (w.fresh (d + 1) n) (w.knn (w.fresh (d + 1) n) (min (n - 1) k)) (if tr then some x else none)) x
          start goal ids pts ∧ c = (pathLength w.dist (start :: pts ++ [goal]) : K) ∧
          ∀ ids' pts', (w.withCheck f).Route (w.fresh (d + 1) n)
            (rowGraph w f (w.fresh (d + 1) n) (w.knn (w.fresh (d + 1) n) (min (n - 1) k)) (if tr then some x else none)) x start goal ids' pts' →
            pathLength w.dist (start :: pts ++ [goal]) ≤ pathLength w.dist (start :: pts' ++ [goal])) ∨
        (c = ⊤ ∧ pts = [] ∧ ∀ ids' pts', ¬ (w.withCheck f).Route (w.fresh (d + 1) n)
          (rowGraph w f (w.fresh (d + 1) n) (w.knn (w.fresh (d + 1) n) (min (n - 1) k)) (if tr then some x else none)) x start goal ids' pts')) := by
  have hwf := hw.withCheck f
  have hxf : ∀ S k, (w.withCheck f).ExactTable S k ((w.withCheck f).knn S k) := fun S k => ⟨(hx S k).near, (hx S k).full, (hx S k).distinct⟩
  have e : (Knn.init k tr d).grow (w.withCheck f) n =
      Knn.rebuild (w.withCheck f) { Knn.init k tr d with drawn := d + 1 + n } (w.fresh (d + 1) n) := rfl
  set S := w.fresh (d + 1) n with hS
  have hSl : S.length = n := fresh_length ..
  obtain ⟨hok, -⟩ := rebuild_ok hwf hxf { Knn.init k tr d with drawn := d + 1 + n } (S := S) (by omega) hk
  obtain ⟨x', hx', ⟨b1, -, -, b4, g, b5, b6, b7⟩, hconn⟩ := Knn.rebuild_cut_of hwf (s := { Knn.init k tr d with drawn := d + 1 + n }) (S := S) hv rfl hok
  have hmin : min (S.length - 1) (Knn.init (P := P) (K := K) k tr d).k = min (n - 1) k := by rw [hSl]; rfl
  have hxx : x' = x := by
    have h3 : Knn.certify (w.knn S (min (n - 1) k)) = .ok x' := by
      rw [← hmin]
      exact hx'
    rw [hxc] at h3
    cases h3
    rfl
  subst hxx
  rw [e]
  have hrad : (Knn.rebuild (w.withCheck f) { Knn.init k tr d with drawn := d + 1 + n } S).1.connR = if tr then some x' else none := hconn
  have hr : (Knn.rebuild (w.withCheck f) { Knn.init k tr d with drawn := d + 1 + n } S).1.connR.or
      (Knn.rebuild (w.withCheck f) { Knn.init k tr d with drawn := d + 1 + n } S).1.certified = some x' := by
    rw [hrad, b4]
    cases tr <;> rfl
  have hge : g.edges = (rowGraph w f S (w.knn S (min (n - 1) k)) (if tr then some x' else none)).edges := by
    rw [b7, hrad]
    have h4 : (w.withCheck f).knn S (min (S.length - 1) (Knn.init (P := P) (K := K) k tr d).k) = w.knn S (min (n - 1) k) := by rw [hmin]; rfl
    unfold rowGraph
    simp only
    rw [h4]
    rfl
  have hck : (w.withCheck f).Checked S g :=
    Checked.sublist (fun e he => by rw [← hge]; exact he) (rowGraph_checked hw f (hw.knn_true S (min (n - 1) k)) (if tr then some x' else none))
  obtain ⟨c, pts, h5, h6⟩ := Knn.query_eq hwf b1 b5 hr hck b6 start goal
  have conv : ∀ ids pts, (w.withCheck f).Route S g x' start goal ids pts ↔
      (w.withCheck f).Route S (rowGraph w f S (w.knn S (min (n - 1) k)) (if tr then some x' else none)) x' start goal ids pts := by
    have hadj : g.Adj = (rowGraph w f S (w.knn S (min (n - 1) k)) (if tr then some x' else none)).Adj := by
      funext i j
      unfold NkGraph.Adj
      rw [hge]
    intro ids pts
    constructor
    · rintro ⟨c1, c2, c3, c4, c5⟩
      exact ⟨c1, c2, c3, c4, hadj ▸ c5⟩
    · rintro ⟨c1, c2, c3, c4, c5⟩
      exact ⟨c1, c2, c3, c4, hadj ▸ c5⟩
  refine ⟨c, pts, by rw [h5], ?_⟩
  simp only [conv] at h6
  exact h6

theorem grown_radius {w : World P K} {lo hi : P → P → Bool} {k : ℕ} {tr : Bool} {d n : ℕ} {x : K} {s : Knn P K} (h : Grown w lo hi k tr d n x s) :
    s.connR.or s.certified = some x := by
  rw [h.radius, h.certified]
  cases tr <;> rfl

theorem queryB_grown {w : World P K} (hw : w.Sound) {check : Batch P} {lo hi : P → P → Bool} (hb : check.Between lo hi) {k : ℕ} {tr : Bool} {d n : ℕ} {x : K} {s : Knn P K}
    (h : Grown w lo hi k tr d n x s) {start goal : P} (hs : w.InReach (w.fresh (d + 1) n) x start) (hg : w.InReach (w.fresh (d + 1) n) x goal) :
    ∃ c pts, (s.queryB w check start goal).2 = .ok (c, pts) ∧ Grown w lo hi k tr d n x (s.queryB w check start goal).1 ∧
      ((∃ ids, (w.withCheck hi).Route (w.fresh (d + 1) n) (rowGraph w hi (w.fresh (d + 1) n) (w.knn (w.fresh (d + 1) n) (min (n - 1) k)) (if tr then some x else none)) x
          start goal ids pts ∧ c = (pathLength w.dist (start :: pts ++ [goal]) : K) ∧
          ∀ ids' pts', (w.withCheck lo).Route (w.fresh (d + 1) n)
            (rowGraph w lo (w.fresh (d + 1) n) (w.knn (w.fresh (d + 1) n) (min (n - 1) k)) (if tr then some x else none)) x start goal ids' pts' →
            pathLength w.dist (start :: pts ++ [goal]) ≤ pathLength w.dist (start :: pts' ++ [goal])) ∨
        (c = ⊤ ∧ pts = [] ∧ ∀ ids' pts', ¬ (w.withCheck lo).Route (w.fresh (d + 1) n)
          (rowGraph w lo (w.fresh (d + 1) n) (w.knn (w.fresh (d + 1) n) (min (n - 1) k)) (if tr then some x else none)) x start goal ids' pts')) := by
  have hr := grown_radius h
  obtain ⟨hd, h1, h2, h3, h4, g, h5, h6, h7, h8⟩ := h
  rw [h4] at h7 h8
  obtain ⟨sn, a1, a2, a3⟩ := querySamplesB_ok hb hs
  obtain ⟨gn, b1, b2, b3⟩ := querySamplesB_ok hb hg
  have ht := hw.knn_true (w.fresh (d + 1) n) (min (n - 1) k)
  have hck := rowGraph_checked hw hi ht (if tr then some x else none)
  have hlen : (w.fresh (d + 1) n).length = n := fresh_length ..
  obtain ⟨c, pts, e, hsol⟩ := solve_between hw h7 h8 (rowGraph_checked hw lo ht _) hck (by rw [hlen]; exact h6) a2 a3 b2 b3
  have eq : s.queryB w check start goal = ({ s with graph := some (afterQuery g sn gn) }, .ok (c, pts)) := by
    unfold Knn.queryB
    simp only [h1, hr, a1, b1, h5, e]
  have hin : InBound g := by
    intro e he
    obtain ⟨p, q, hp, hq, -⟩ := hck e.u e.v e.w (h8 _ _ _ ⟨e, he, .inl ⟨rfl, rfl⟩, rfl⟩)
    have := lt_of_some hp
    have := lt_of_some hq
    omega
  refine ⟨c, pts, by rw [eq], ?_, hsol⟩
  rw [eq]
  refine ⟨hd, h1, h2, h3, h4, _, rfl, ?_, ?_, ?_⟩
  · rw [afterQuery_bound]
    omega
  · simp only [h4]
    exact h7.of_edges rfl (afterQuery_edges hin sn gn)
  · simp only [h4]
    exact h8.of_edges (afterQuery_edges hin sn gn) rfl

theorem queryB_raises {w : World P K} {check : Batch P} {lo hi : P → P → Bool} (hb : check.Between lo hi) {e : PyErr} (he : check [] = .error e) {k : ℕ} {tr : Bool}
    {d n : ℕ} {x : K} {s : Knn P K} (h : Grown w lo hi k tr d n x s) {start goal : P}
    (hr : ¬ (w.InReach (w.fresh (d + 1) n) x start ∧ w.InReach (w.fresh (d + 1) n) x goal)) : s.queryB w check start goal = (s, .error e) := by
  unfold Knn.queryB
  simp only [h.samples, grown_radius h]
  by_cases hs : w.InReach (w.fresh (d + 1) n) x start
  · obtain ⟨sn, a1, -⟩ := querySamplesB_ok hb hs
    simp only [a1, querySamplesB_empty he fun hg => hr ⟨hs, hg⟩]
  · simp only [querySamplesB_empty he hs]

/-- A history of growths and queries. -/
def OnlyGrowsAndQueries (ops : List (Knn.Op P K)) : Prop := ∀ o ∈ ops, (∃ n, o = .grow n) ∨ ∃ a b, o = .query a b

theorem runB_drawn {w : World P K} (check : Batch P) {k : ℕ} {tr : Bool} {d : ℕ} {ops : List (Knn.Op P K)} (h : OnlyGrowsAndQueries ops) :
    Drawn w k tr d ((Knn.init k tr d).runB w check ops) := by
  induction ops using List.reverseRecOn with
  | nil => exact ⟨rfl, rfl, .inl ⟨rfl, rfl⟩⟩
  | append_singleton l o ih =>
    have ih := ih fun o ho => h o (List.mem_append_left _ ho)
    have e : (Knn.init k tr d).runB w check (l ++ [o]) = ((Knn.init k tr d).runB w check l).stepB w check o := by simp [Knn.runB]
    rw [e]
    rcases h o (by simp) with ⟨n, rfl⟩ | ⟨a, b, rfl⟩
    · exact (grown_drawn check ih n).1
    · obtain ⟨a1, a2, a3, a4, -, -⟩ := queryB_keeps w check a b ((Knn.init k tr d).runB w check l)
      obtain ⟨i1, i2, i3⟩ := ih
      exact ⟨a3.trans i1, a4.trans i2, by simpa only [Knn.stepB, a1, a2] using i3⟩

theorem growB_grown {w : World P K} (hw : w.Sound) (hx : ∀ S k, w.ExactTable S k (w.knn S k)) {tr : Bool} (hv : tr = true → w.VisitsAll) {check : Batch P}
    {lo hi : P → P → Bool} (hb : check.Between lo hi) {k : ℕ} (hk : 1 ≤ k) {d n : ℕ} (hn : 2 ≤ n) {s : Knn P K} (h : Drawn w k tr d s)
    (hS : ∀ S, s.samples = some S → S.length < n) :
    (s.growB w check n).2 = .ok () ∧ ∃ x, Grown w lo hi k tr d n x (s.growB w check n).1 := by
  obtain ⟨hd, ⟨-, S, h1, h2⟩ | ⟨s', h1, h2, h3, h4⟩⟩ := grown_drawn check h n
  · exact absurd (hS S h1) (not_lt.2 h2)
  · rw [h4] at hd ⊢
    exact rebuildB_grown hw hx hv hb hk hn h1 h2 h3 hd

theorem queries_grown {w : World P K} (hw : w.Sound) {check : Batch P} {lo hi : P → P → Bool} (hb : check.Between lo hi) {e : PyErr} (he : check [] = .error e) {k : ℕ}
    {tr : Bool} {d n : ℕ} {x : K} {s : Knn P K} (h : Grown w lo hi k tr d n x s) (qs : List (P × P)) :
    Grown w lo hi k tr d n x (s.runB w check (qs.map fun q => .query q.1 q.2)) := by
  induction qs using List.reverseRecOn with
  | nil => exact h
  | append_singleton l q ih =>
    have e : s.runB w check ((l ++ [q]).map fun q => .query q.1 q.2) =
        ((s.runB w check (l.map fun q => .query q.1 q.2)).queryB w check q.1 q.2).1 := by simp [Knn.runB, Knn.stepB]
    rw [e]
    by_cases hr : w.InReach (w.fresh (d + 1) n) x q.1 ∧ w.InReach (w.fresh (d + 1) n) x q.2
    · obtain ⟨_, _, -, h1, -⟩ := queryB_grown hw hb ih hr.1 hr.2
      exact h1
    · rw [queryB_raises hb he ih hr]
      exact ih

/-- C131, second part. The checker is given whole batches, may judge a motion differently in different batches, and raises when there are no motions. After any history of
growths and queries, a growth to `n ≥ 2` samples more and further queries: if a sample is within the radius of the start, and one of the goal, a query answers, its
distance is between those of the planners that check single motions with `hi` and with `lo`, an empty path means an infinite distance, and otherwise all its motions are accepted by
`hi` in one direction. If no sample is within the radius of the start, or none of the goal, the query raises what the checker raises for an empty batch. -/
theorem C131_between_partial {w : World P K} (hw : w.Sound) (hx : ∀ S k, w.ExactTable S k (w.knn S k)) (tr : Bool) (hv : tr = true → w.VisitsAll) {check : Batch P} {lo hi : P → P → Bool}
    (hb : check.Between lo hi) {e : PyErr} (he : check [] = .error e) {k : ℕ} (hk : 1 ≤ k) (d : ℕ) {ops : List (Knn.Op P K)} (hops : OnlyGrowsAndQueries ops)
    {n : ℕ} (hn : 2 ≤ n) (hmore : ∀ S, ((Knn.init k tr d).runB w check ops).samples = some S → S.length < n) (qs : List (P × P)) (start goal : P) :
    ∃ s x, s = (Knn.init k tr d).runB w check (ops ++ .grow n :: qs.map fun q => .query q.1 q.2) ∧
      (((Knn.init k tr d).runB w check ops).growB w check n).2 = .ok () ∧ s.samples = some (w.fresh (d + 1) n) ∧ s.connR.or s.certified = some x ∧
      (w.InReach (w.fresh (d + 1) n) x start → w.InReach (w.fresh (d + 1) n) x goal → ∃ c pts cl pl ch ph, (s.queryB w check start goal).2 = .ok (c, pts) ∧
        (((Knn.init k tr d).grow (w.withCheck lo) n).1.query (w.withCheck lo) start goal).2 = .ok (cl, pl) ∧
        (((Knn.init k tr d).grow (w.withCheck hi) n).1.query (w.withCheck hi) start goal).2 = .ok (ch, ph) ∧ ch ≤ c ∧ c ≤ cl ∧ (pts = [] ↔ c = ⊤) ∧
        (pts ≠ [] → c = (pathLength w.dist (start :: pts ++ [goal]) : K) ∧ (∀ p ∈ pts, p ∈ w.fresh (d + 1) n) ∧
          (start :: pts ++ [goal]).IsChain fun p q => hi p q = true ∨ hi q p = true)) ∧
      (¬ w.InReach (w.fresh (d + 1) n) x start ∨ ¬ w.InReach (w.fresh (d + 1) n) x goal → s.queryB w check start goal = (s, .error e)) := by
  obtain ⟨hok, x, hgr⟩ := growB_grown hw hx hv hb hk hn (runB_drawn check hops) hmore
  have e0 : (Knn.init k tr d).runB w check (ops ++ .grow n :: qs.map fun q => .query q.1 q.2) =
      (((Knn.init k tr d).runB w check ops).growB w check n).1.runB w check (qs.map fun q => .query q.1 q.2) := by
    simp only [Knn.runB, List.foldl_append, List.foldl_cons]
    rfl
  have hfin := queries_grown hw hb he hgr qs
  rw [← e0] at hfin
  refine ⟨_, x, rfl, hok, hfin.samples, grown_radius hfin, ?_, ?_⟩
  · intro hs hg
    obtain ⟨c, pts, h1, -, h2⟩ := queryB_grown hw hb hfin hs hg
    obtain ⟨cl, pl, h3, h4⟩ := row_query hw hx hv lo hk d hn hfin.certify start goal
    obtain ⟨ch, ph, h5, h6⟩ := row_query hw hx hv hi hk d hn hfin.certify start goal
    refine ⟨c, pts, cl, pl, ch, ph, h1, h3, h5, ?_⟩
    rcases h2 with ⟨ids, hr, hc, hmin⟩ | ⟨hc, hp, hno⟩
    · have hne : pts ≠ [] := by
        rintro rfl
        have := hr.points
        cases this
        exact hr.nonempty rfl
      refine ⟨?_, ?_, ?_, ?_⟩
      · rcases h6 with ⟨ids', -, hc', hmin'⟩ | ⟨-, -, hno'⟩
        · rw [hc, hc']
          exact_mod_cast hmin' _ _ hr
        · exact absurd hr (hno' _ _)
      · rcases h4 with ⟨ids', hr', hc', -⟩ | ⟨hc', -, -⟩
        · rw [hc, hc']
          exact_mod_cast hmin _ _ hr'
        · rw [hc']
          exact le_top
      · simp [hne, hc]
      · intro _
        obtain ⟨r1, r2, -, -⟩ := route_hops (hw.withCheck hi) (rowGraph_checked hw hi (hw.knn_true _ _) _) hr
        exact ⟨hc, r1, r2⟩
    · refine ⟨by rw [hc]; exact le_top, ?_, by simp [hp, hc], fun h => absurd hp h⟩
      rcases h4 with ⟨ids', hr', -, -⟩ | ⟨hc', -, -⟩
      · exact absurd hr' (hno _ _)
      · rw [hc, hc']
  · intro hr
    exact queryB_raises hb he hfin (by tauto)

theorem row_certified {w : World P K} (hw : w.Sound) (k : ℕ) (tr : Bool) (d : ℕ) {n : ℕ} {x : K}
    (hxc : Knn.certify (w.knn (w.fresh (d + 1) n) (min (n - 1) k)) = .ok x) : ((Knn.init k tr d).grow w n).1.certified = some x := by
  have e : (Knn.init k tr d).grow w n = Knn.rebuild w { Knn.init k tr d with drawn := d + 1 + n } (w.fresh (d + 1) n) := rfl
  have hmin : min ((w.fresh (d + 1) n).length - 1) (Knn.init (P := P) (K := K) k tr d).k = min (n - 1) k := by rw [fresh_length]; rfl
  rw [e]
  unfold Knn.rebuild
  simp only [hmin, tableGraph_ok (hw.knn_true _ _), hxc]
  split
  · unfold Knn.setRadius
    simp only
    split
    · rfl
    · split <;> rfl
  · rfl

theorem reached_iff {w : World P K} (hw : w.Sound) {k : ℕ} {tr : Bool} {d n : ℕ} {x : K}
    (hxc : Knn.certify (w.knn (w.fresh (d + 1) n) (min (n - 1) k)) = .ok x) (q : P) : w.Reached k tr d n q ↔ w.InReach (w.fresh (d + 1) n) x q := by
  constructor
  · rintro ⟨y, h1, h2⟩
    rw [row_certified hw k tr d hxc] at h1
    cases h1
    exact h2
  · exact fun h => ⟨x, row_certified hw k tr d hxc, h⟩

theorem assertFree_ok {check : Batch P} {lo hi : P → P → Bool} (hb : check.Between lo hi) {q : P} (h : lo q q = true) : assertFree check q = .ok () := by
  obtain ⟨rs, hrs⟩ := hb.total [(q, q)] (by simp)
  have hl := hb.length _ _ hrs
  have h1 := hb.lower _ _ 0 q q hrs rfl h
  unfold assertFree
  rw [hrs]
  match rs, hl, h1 with
  | [b], _, h1 =>
    simp only [List.getElem?_cons_zero, Option.some.injEq] at h1
    subst h1
    rfl

variable {F : Type*} [Field F] [LinearOrder F] [IsStrictOrderedRing F] [FloorSemiring F]

/-- C131, the planning call: if the planner that checks single motions with `lo` finds a path with the `i`-th count, within the budget, then the call with the batch checker
never answers "no path". It answers with a path whose motions are accepted by `hi` in one direction, or it raises because at an earlier count no sample was within the radius
of the start or of the goal. -/
theorem C131_call_partial {w : World P K} (hw : w.Sound) (hx : ∀ S k, w.ExactTable S k (w.knn S k)) (tr : Bool) (hv : tr = true → w.VisitsAll) {check : Batch P} {lo hi : P → P → Bool}
    (hb : check.Between lo hi) {e : PyErr} (he : check [] = .error e) {k : ℕ} (hk : 1 ≤ k) (d : ℕ) {start goal : P} (hs : lo start start = true)
    (hg : lo goal goal = true) {minS maxS : ℕ} (h2 : 2 ≤ minS) {scale : F → F} (hle : ∀ i, scale^[i] (minS : F) ≤ scale^[i + 1] minS)
    (hf : ∀ i, scale^[i + 1] (minS : F) < maxS + 1 → ⌊scale^[i] (minS : F)⌋₊ < ⌊scale^[i + 1] (minS : F)⌋₊) {i : ℕ} (hi' : scale^[i] (minS : F) < maxS + 1)
    {c : WithTop K} {pts : List P} (hfound : (((Knn.init k tr d).grow (w.withCheck lo) ⌊scale^[i] (minS : F)⌋₊).1.query (w.withCheck lo) start goal).2 = .ok (c, pts))
    (hne : pts ≠ []) :
    ∃ fuel counts answer, planB w check start goal minS maxS scale k tr d fuel = some (counts, answer) ∧
      ((∃ j < i, answer = .error e ∧
          ¬ (w.Reached k tr d ⌊scale^[j] (minS : F)⌋₊ start ∧ w.Reached k tr d ⌊scale^[j] (minS : F)⌋₊ goal)) ∨
        ∃ path, answer = .ok (some (start :: path ++ [goal])) ∧ path ≠ [] ∧
          (start :: path ++ [goal]).IsChain fun p q => hi p q = true ∨ hi q p = true) := by
  have hmono : Monotone fun i => scale^[i] (minS : F) := monotone_nat_of_le_succ hle
  have hn2 : ∀ j, 2 ≤ ⌊scale^[j] (minS : F)⌋₊ := by
    intro j
    apply Nat.le_floor
    have h4 : ((2 : ℕ) : F) ≤ minS := by exact_mod_cast h2
    exact h4.trans (hmono (Nat.zero_le j))
  have hlt : ∀ j ≤ i, scale^[j] (minS : F) < maxS + 1 := fun j hj => (hmono hj).trans_lt hi'
  -- from the `j`-th count on
  have main : ∀ m j, j + m = i → ∀ s : Vars P K F, s.num = scale^[j] (minS : F) → Drawn w k tr d s.prm →
      (∀ S, s.prm.samples = some S → S.length < ⌊scale^[j] (minS : F)⌋₊) →
      ∃ s' r, loop (bodyB w check start goal maxS scale) (m + 1) s = some (s', r) ∧
        ((∃ j < i, r = .error e ∧ ¬ (w.Reached k tr d ⌊scale^[j] (minS : F)⌋₊ start ∧ w.Reached k tr d ⌊scale^[j] (minS : F)⌋₊ goal)) ∨
          (r = .ok () ∧ ∃ path, s'.path = some path ∧ path ≠ [] ∧
            (start :: path ++ [goal]).IsChain fun p q => hi p q = true ∨ hi q p = true)) := by
    intro m
    induction m with
    | zero =>
      intro j hj s hnum hd hS
      rw [Nat.add_zero] at hj
      subst hj
      obtain ⟨hok, x, hgr⟩ := growB_grown hw hx hv hb hk (hn2 j) hd hS
      obtain ⟨cl, pl, h3, h4⟩ := row_query hw hx hv lo hk d (hn2 j) hgr.certify start goal
      rw [hfound] at h3
      cases h3
      rcases h4 with ⟨ids, hr, -, -⟩ | ⟨-, h, -⟩
      swap
      · exact absurd h hne
      have hreach : w.InReach (w.fresh (d + 1) ⌊scale^[j] (minS : F)⌋₊) x start ∧ w.InReach (w.fresh (d + 1) ⌊scale^[j] (minS : F)⌋₊) x goal := by
        have hin := hr.nonempty
        constructor
        · cases ids with
          | nil => exact absurd rfl hin
          | cons a l =>
            obtain ⟨p, hp, hpd, -⟩ := hr.first a rfl
            exact ⟨p, List.mem_of_getElem? hp, hpd⟩
        · obtain ⟨p, hp, hpd, -⟩ := hr.last _ (List.getLast?_eq_some_getLast hin)
          exact ⟨p, List.mem_of_getElem? hp, hpd⟩
      obtain ⟨c', pts', q1, -, q2⟩ := queryB_grown hw hb hgr hreach.1 hreach.2
      rcases q2 with ⟨ids', hr', -, -⟩ | ⟨-, -, hno⟩
      swap
      · exact absurd hr (hno _ _)
      have hne' : pts' ≠ [] := by
        rintro rfl
        have := hr'.points
        cases this
        exact hr'.nonempty rfl
      obtain ⟨-, r2, -, -⟩ := route_hops (hw.withCheck hi) (rowGraph_checked hw hi (hw.knn_true _ _) _) hr'
      refine ⟨{ s with prm := ((s.prm.growB w check ⌊scale^[j] (minS : F)⌋₊).1.queryB w check start goal).1, counts := s.counts ++ [⌊scale^[j] (minS : F)⌋₊], path := some pts' }, .ok (), ?_, .inr ⟨rfl, pts', ?_, hne', r2⟩⟩
      · unfold loop bodyB
        rw [hnum, if_pos (hlt j le_rfl)]
        simp only [hok, q1, if_pos (List.length_pos_iff.2 hne')]
      · rfl
    | succ m ih =>
      intro j hj s hnum hd hS
      obtain ⟨hok, x, hgr⟩ := growB_grown hw hx hv hb hk (hn2 j) hd hS
      by_cases hreach : w.InReach (w.fresh (d + 1) ⌊scale^[j] (minS : F)⌋₊) x start ∧ w.InReach (w.fresh (d + 1) ⌊scale^[j] (minS : F)⌋₊) x goal
      · obtain ⟨c', pts', q1, q3, q2⟩ := queryB_grown hw hb hgr hreach.1 hreach.2
        by_cases hne' : pts' = []
        · have step : bodyB w check start goal maxS scale s = .next { s with prm := ((s.prm.growB w check ⌊scale^[j] (minS : F)⌋₊).1.queryB w check start goal).1, counts := s.counts ++ [⌊scale^[j] (minS : F)⌋₊], path := some pts', num := scale s.num } := by
            unfold bodyB
            rw [hnum, if_pos (hlt j (by omega))]
            simp only [hok, q1, hne']
            rfl
          have := ih (j + 1) (by omega) { s with prm := ((s.prm.growB w check ⌊scale^[j] (minS : F)⌋₊).1.queryB w check start goal).1, counts := s.counts ++ [⌊scale^[j] (minS : F)⌋₊], path := some pts', num := scale s.num } (by simp only [hnum, Function.iterate_succ_apply']) q3.drawn (by
            intro S hS'
            have h3 : S = w.fresh (d + 1) ⌊scale^[j] (minS : F)⌋₊ := by
              have := q3.samples
              rw [hS'] at this
              exact Option.some.inj this
            rw [h3, fresh_length]
            exact hf j (hlt (j + 1) (by omega)))
          obtain ⟨s', r, h5, h6⟩ := this
          refine ⟨s', r, ?_, h6⟩
          unfold loop
          rw [step]
          exact h5
        · rcases q2 with ⟨ids', hr', -, -⟩ | ⟨-, h, -⟩
          swap
          · exact absurd h hne'
          obtain ⟨-, r2, -, -⟩ := route_hops (hw.withCheck hi) (rowGraph_checked hw hi (hw.knn_true _ _) _) hr'
          refine ⟨{ s with prm := ((s.prm.growB w check ⌊scale^[j] (minS : F)⌋₊).1.queryB w check start goal).1, counts := s.counts ++ [⌊scale^[j] (minS : F)⌋₊], path := some pts' }, .ok (), ?_, .inr ⟨rfl, pts', ?_, hne', r2⟩⟩
          · unfold loop bodyB
            rw [hnum, if_pos (hlt j (by omega))]
            simp only [hok, q1, if_pos (List.length_pos_iff.2 hne')]
          · rfl
      · refine ⟨{ s with prm := (s.prm.growB w check ⌊scale^[j] (minS : F)⌋₊).1, counts := s.counts ++ [⌊scale^[j] (minS : F)⌋₊] }, .error e, ?_, .inl ⟨j, by omega, rfl, ?_⟩⟩
        · unfold loop bodyB
          rw [hnum, if_pos (hlt j (by omega))]
          simp only [hok, queryB_raises hb he hgr hreach]
        · rw [reached_iff hw hgr.certify, reached_iff hw hgr.certify]
          exact hreach
  obtain ⟨s', r, h5, h6⟩ := main i 0 (by omega) ⟨Knn.init k tr d, minS, none, []⟩ rfl ⟨rfl, rfl, .inl ⟨rfl, rfl⟩⟩ (by intro S hS; cases hS)
  rcases h6 with ⟨j, hj, hr, hreach⟩ | ⟨hr, path, hp, hne', hch⟩
  · refine ⟨i + 1, s'.counts, .error e, ?_, .inl ⟨j, hj, rfl, hreach⟩⟩
    unfold planB
    rw [assertFree_ok hb hs, assertFree_ok hb hg, h5, hr]
  · refine ⟨i + 1, s'.counts, _, ?_, .inr ⟨path, rfl, hne', hch⟩⟩
    unfold planB
    rw [assertFree_ok hb hs, assertFree_ok hb hg, h5, hr]
    simp only [hp]
    cases path with
    | nil => exact absurd rfl hne'
    | cons a l => rfl

end Between

/-- C131, a checker that refuses batches, as the one of `GrayCodeWalls` does (`assert start.ndim == 1`, envs.py:652): every growth that is not refused raises what the
checker raises and leaves the graph as it was. -/
theorem C131_refusing {P K : Type*} [LinearOrder K] [AddCommGroup K] {w : World P K} (hw : w.Sound) {check : Batch P} {e : PyErr} (h : ∀ ms, check ms = .error e)
    (s : Knn P K) (n : ℕ) (hS : ∀ S, s.samples = some S → S.length < n) : (s.growB w check n).2 = .error e ∧ (s.growB w check n).1.graph = s.graph := by
  have hre : ∀ (s : Knn P K) S, (s.rebuildB w check S).2 = .error e ∧ (s.rebuildB w check S).1.graph = s.graph := by
    intro s S
    have ht := hw.knn_true S (min (S.length - 1) s.k)
    have : tableGraphB check S (w.knn S (min (S.length - 1) s.k)) 0 none = .error e := by
      unfold tableGraphB
      simp only
      rw [if_pos]
      · rw [h]
      · rw [List.all_eq_true]
        rintro ⟨i, j, d⟩ hc
        obtain ⟨_, row, hrow, hm⟩ := (mem_candidates ..).1 (List.mem_of_mem_filter hc)
        obtain ⟨p, q, hp, hq, _⟩ := ht.2 i row hrow _ hm
        simp [lt_of_some hp, lt_of_some hq]
    unfold Knn.rebuildB
    simp only [this]
    exact ⟨trivial, trivial⟩
  unfold Knn.growB
  simp only
  cases hs : s.samples with
  | none => exact hre _ _
  | some old =>
    simp only
    rw [if_neg (not_le.2 (hS old hs))]
    exact hre _ _

/-- The hypothesis of `C131_rowwise` is met by the checkers of the other environments, which judge the motions one by one. -/
theorem C131_rowwise_nonvacuous {P : Type*} (f : P → P → Bool) : Batch.Rowwise (fun ms => .ok (ms.map fun m => f m.1 m.2)) f := fun _ => rfl

end Verif.Props
