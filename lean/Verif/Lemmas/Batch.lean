import Verif.Spec.Batch
import Verif.Lemmas.PrmKnn

/-! Lemmas on roadmaps with batch checkers. -/

namespace Verif.Prm

variable {P K : Type*} [LinearOrder K]

theorem select_ok {α : Type*} {xs : List α} {mask : List Bool} (h : mask.length = xs.length) :
    select xs mask = .ok ((xs.zip mask).filterMap fun c => if c.2 then some c.1 else none) := if_pos h

theorem mem_select {α : Type*} {xs : List α} {mask : List Bool} {a : α} :
    a ∈ ((xs.zip mask).filterMap fun c => if c.2 then some c.1 else none) ↔ ∃ i : ℕ, xs[i]? = some a ∧ mask[i]? = some true := by
  rw [List.mem_filterMap]
  constructor
  · rintro ⟨⟨x, b⟩, hm, hc⟩
    obtain ⟨i, hi⟩ := List.mem_iff_getElem?.1 hm
    rw [List.getElem?_zip_eq_some] at hi
    cases b
    · simp at hc
    · simp only [if_true, Option.some.injEq] at hc
      subst hc
      exact ⟨i, hi.1, hi.2⟩
  · rintro ⟨i, h1, h2⟩
    exact ⟨(a, true), List.mem_iff_getElem?.2 ⟨i, List.getElem?_zip_eq_some.2 ⟨h1, h2⟩⟩, by simp⟩

omit [LinearOrder K] in
theorem ends_getElem {samples : List P} {cs : List (ℕ × ℕ × K)} (h : ∀ c ∈ cs, c.1 < samples.length ∧ c.2.1 < samples.length) :
    (ends samples cs).length = cs.length ∧ ∀ (i : ℕ) (c : ℕ × ℕ × K), cs[i]? = some c →
      ∃ p q, samples[c.1]? = some p ∧ samples[c.2.1]? = some q ∧ (ends samples cs)[i]? = some (p, q) := by
  induction cs with
  | nil => exact ⟨rfl, by simp⟩
  | cons c cs ih =>
    obtain ⟨h1, h2⟩ := ih fun c hc => h c (List.mem_cons_of_mem _ hc)
    obtain ⟨ha, hb⟩ := h c (by simp)
    have e : ends samples (c :: cs) = (samples[c.1], samples[c.2.1]) :: ends samples cs := by
      unfold ends
      rw [List.filterMap_cons]
      simp [ha, hb]
    rw [e]
    refine ⟨by simp [h1], ?_⟩
    intro i c' hc'
    cases i with
    | zero =>
      simp only [List.getElem?_cons_zero, Option.some.injEq] at hc'
      subst hc'
      exact ⟨_, _, List.getElem?_eq_getElem ha, List.getElem?_eq_getElem hb, by simp⟩
    | succ i => simpa using h2 i c' (by simpa using hc')

/-- Every edge of `g` is in `h`, with the same weight. -/
def NkGraph.Part (g h : NkGraph K) : Prop := ∀ i j d, g.AdjW i j d → h.AdjW i j d

theorem NkGraph.Part.adj {g h : NkGraph K} (p : g.Part h) {i j : ℕ} (ha : g.Adj i j) : h.Adj i j := by
  obtain ⟨d, hd⟩ := Adj.exists_w ha
  exact AdjW.adj (p i j d hd)

theorem NkGraph.Part.edge {g h : NkGraph K} (p : g.Part h) {e : Edge K} (he : e ∈ g.edges) {a b : ℕ} (hj : e.joins a b = true) :
    ∃ e' ∈ h.edges, e'.joins a b = true ∧ e'.w = e.w := by
  obtain ⟨e', h1, h2, h3⟩ := p a b e.w ⟨e, he, (joins_iff _ _ _).1 hj, rfl⟩
  exact ⟨e', h1, (joins_iff _ _ _).2 h2, h3⟩

omit [LinearOrder K] in
theorem NkGraph.Part.filter {g h g' h' : NkGraph K} (p : g.Part h) (f : K → Bool) (hg : g'.edges = g.edges.filter fun e => f e.w)
    (hh : h'.edges = h.edges.filter fun e => f e.w) : g'.Part h' := by
  rintro i j d ⟨e, he, hj, rfl⟩
  rw [hg, List.mem_filter] at he
  obtain ⟨e', h1, h2, h3⟩ := p i j e.w ⟨e, he.1, hj, rfl⟩
  refine ⟨e', ?_, h2, h3⟩
  rw [hh, List.mem_filter, h3]
  exact ⟨h1, he.2⟩

omit [LinearOrder K] in
theorem NkGraph.Part.of_edges {g h g' h' : NkGraph K} (p : g.Part h) (hg : g'.edges = g.edges) (hh : h'.edges = h.edges) : g'.Part h' := by
  rintro i j d ⟨e, he, hj, rfl⟩
  rw [hg] at he
  obtain ⟨e', h1, h2, h3⟩ := p i j e.w ⟨e, he, hj, rfl⟩
  exact ⟨e', by rw [hh]; exact h1, h2, h3⟩

section
variable [AddCommGroup K]

omit [LinearOrder K] in
theorem Walk.mono {E E' : List (Edge K)} (h : ∀ e ∈ E, ∀ a b, e.joins a b = true → ∃ e' ∈ E', e'.joins a b = true ∧ e'.w = e.w)
    {a b : ℕ} {p : List ℕ} {d : K} (hw : Walk E a p b d) : Walk E' a p b d := by
  induction hw with
  | edge e he hab =>
    obtain ⟨e', h1, h2, h3⟩ := h e he _ _ hab
    rw [← h3]
    exact .edge e' h1 h2
  | cons e he hac _ ih =>
    obtain ⟨e', h1, h2, h3⟩ := h e he _ _ hac
    rw [← h3]
    exact .cons e' h1 h2 ih

theorem World.Sound.withCheck {w : World P K} (hw : w.Sound) (f : P → P → Bool) : (w.withCheck f).Sound :=
  ⟨hw.dist_symm, hw.dist_nonneg, hw.dijkstra, hw.knn_true, hw.knnUpdate_true⟩

omit [AddCommGroup K] in
theorem tableGraphB_ok {w : World P K} {check : Batch P} {lo hi : P → P → Bool} (hb : check.Between lo hi) {S : List P} {t : Table K}
    (ht : w.TrueTable S t) (hne : candidates t 0 ≠ []) :
    ∃ kept, tableGraphB check S t 0 none = .ok (addAll (NkGraph.new t.length) kept) ∧
      (∀ c ∈ kept, c ∈ candidates t 0 ∧ (w.withCheck hi).accepts S c.1 c.2.1 = true) ∧
      ∀ c ∈ candidates t 0, (w.withCheck lo).accepts S c.1 c.2.1 = true → c ∈ kept := by
  have hin : ∀ c ∈ candidates t 0, c.1 < S.length ∧ c.2.1 < S.length := by
    rintro ⟨i, j, d⟩ hc
    obtain ⟨_, row, hrow, hm⟩ := (mem_candidates ..).1 hc
    obtain ⟨p, q, hp, hq, _⟩ := ht.2 i row hrow _ hm
    exact ⟨lt_of_some hp, lt_of_some hq⟩
  obtain ⟨hlen, hget⟩ := ends_getElem hin
  have hne' : ends S (candidates t 0) ≠ [] := by
    intro h0
    rw [h0] at hlen
    exact hne (List.length_eq_zero_iff.1 hlen.symm)
  obtain ⟨rs, hrs⟩ := hb.total _ hne'
  have hl := hb.length _ _ hrs
  rw [hlen] at hl
  refine ⟨((candidates t 0).zip rs).filterMap fun c => if c.2 then some c.1 else none, ?_, ?_, ?_⟩
  · unfold tableGraphB
    have e : (candidates t 0).filter (fun c => within none c.2.2) = candidates t 0 := by
      rw [List.filter_eq_self]
      intro c _
      rfl
    simp only [e]
    rw [if_pos, hrs]
    · simp only [select_ok hl]
      rfl
    · rw [List.all_eq_true]
      intro c hc
      have := hin c hc
      simpa using this
  · intro c hc
    obtain ⟨i, h1, h2⟩ := mem_select.1 hc
    obtain ⟨p, q, hp, hq, he⟩ := hget i c h1
    exact ⟨List.mem_of_getElem? h1, (accepts_iff _ _ _ _).2 ⟨p, q, hp, hq, hb.upper _ _ _ _ _ hrs he h2⟩⟩
  · intro c hc ha
    obtain ⟨i, h1⟩ := List.mem_iff_getElem?.1 hc
    obtain ⟨p, q, hp, hq, he⟩ := hget i c h1
    obtain ⟨p', q', hp', hq', hck⟩ := (accepts_iff _ _ _ _).1 ha
    rw [hp] at hp'
    rw [hq] at hq'
    cases hp'
    cases hq'
    exact mem_select.2 ⟨i, h1, hb.lower _ _ _ _ _ hrs he hck⟩

/-- The weight of an edge between two samples is their distance, whichever candidate it came from. -/
theorem cand_dist {w : World P K} (hw : w.Sound) {S : List P} {t : Table K} (ht : w.TrueTable S t) {i j i' j' : ℕ} {d d' : K}
    (hc : (i, j, d) ∈ candidates t 0) (hc' : (i', j', d') ∈ candidates t 0) (h : (i' = i ∧ j' = j) ∨ (i' = j ∧ j' = i)) : d' = d := by
  obtain ⟨_, row, hrow, hm⟩ := (mem_candidates ..).1 hc
  obtain ⟨p, q, hp, hq, hd⟩ := ht.2 i row hrow _ hm
  obtain ⟨_, row', hrow', hm'⟩ := (mem_candidates ..).1 hc'
  obtain ⟨p', q', hp', hq', hd'⟩ := ht.2 i' row' hrow' _ hm'
  simp only at hq hd hq' hd'
  rcases h with ⟨rfl, rfl⟩ | ⟨rfl, rfl⟩
  · rw [hp] at hp'; rw [hq] at hq'; cases hp'; cases hq'; rw [hd, hd']
  · rw [hp] at hq'; rw [hq] at hp'; cases hp'; cases hq'; rw [hd, hd', hw.dist_symm]

theorem addAll_part {w : World P K} (hw : w.Sound) {S : List P} {t : Table K} (ht : w.TrueTable S t) {A B : List (ℕ × ℕ × K)}
    (hA : ∀ c ∈ A, c ∈ B) (hB : ∀ c ∈ B, c ∈ candidates t 0) (n : ℕ) : (addAll (NkGraph.new n) A).Part (addAll (NkGraph.new n) B) := by
  rintro i j d ⟨e, he, hj, rfl⟩
  have hmem : ∀ {L : List (ℕ × ℕ × K)} {e : Edge K}, e ∈ (addAll (NkGraph.new n) L).edges → (e.u, e.v, e.w) ∈ L := by
    intro L e h
    rcases addAll_mem h with h | h
    · simp [NkGraph.new] at h
    · exact h
  have heB := hA _ (hmem he)
  obtain ⟨e', he', hj'⟩ := addAll_adj (g := NkGraph.new n) heB
  refine ⟨e', he', ?_, cand_dist hw ht (hB _ heB) (hB _ (hmem he')) ?_⟩
  · rcases hj with ⟨rfl, rfl⟩ | ⟨rfl, rfl⟩
    · exact hj'
    · exact hj'.symm
  · rcases hj' with ⟨h1, h2⟩ | ⟨h1, h2⟩
    · exact .inl ⟨h1, h2⟩
    · exact .inr ⟨h1, h2⟩

omit [AddCommGroup K] in
/-- Links of a query: between those of the two row checkers. -/
theorem querySamplesB_ok {w : World P K} {check : Batch P} {lo hi : P → P → Bool} (hb : check.Between lo hi) {S : List P} {r : K} {q : P}
    (hr : w.InReach S r q) :
    ∃ sn, w.querySamplesB check S r q = .ok sn ∧ (∀ c ∈ (w.withCheck lo).querySamples S r q, c ∈ sn) ∧
      ∀ c ∈ sn, c ∈ (w.withCheck hi).querySamples S r q := by
  obtain ⟨p, hp, hd⟩ := hr
  obtain ⟨i, hi'⟩ := List.mem_iff_getElem?.1 hp
  have hmem : (p, i) ∈ w.near S r q := List.mem_filter.2 ⟨(mem_zipIdx' _ _ _).2 hi', by simpa using hd⟩
  obtain ⟨rs, hrs⟩ := hb.total ((w.near S r q).map fun c => (q, c.1)) (by
    intro h0
    rw [List.map_eq_nil_iff] at h0
    rw [h0] at hmem
    simp at hmem)
  have hl := hb.length _ _ hrs
  rw [List.length_map] at hl
  refine ⟨(((w.near S r q).zip rs).filterMap fun c => if c.2 then some c.1 else none).map fun c => (c.2, w.dist c.1 q), ?_, ?_, ?_⟩
  · unfold World.querySamplesB
    simp only [hrs, select_ok hl]
    rfl
  · rintro ⟨j, d⟩ hc
    obtain ⟨p, hp, h1, h2, rfl⟩ := (mem_querySamples ..).1 hc
    have hm : (p, j) ∈ w.near S r q := List.mem_filter.2 ⟨(mem_zipIdx' _ _ _).2 hp, decide_eq_true h1⟩
    obtain ⟨l, hl'⟩ := List.mem_iff_getElem?.1 hm
    refine List.mem_map.2 ⟨(p, j), mem_select.2 ⟨l, hl', ?_⟩, rfl⟩
    exact hb.lower _ _ l q p hrs (by rw [List.getElem?_map, hl']; rfl) h2
  · rintro ⟨j, d⟩ hc
    obtain ⟨⟨p, j'⟩, hm, he⟩ := List.mem_map.1 hc
    simp only [Prod.mk.injEq] at he
    obtain ⟨rfl, rfl⟩ := he
    obtain ⟨l, h1, h2⟩ := mem_select.1 hm
    obtain ⟨h3, h4⟩ := List.mem_filter.1 (List.mem_of_getElem? h1)
    refine (mem_querySamples ..).2 ⟨p, (mem_zipIdx' _ _ _).1 h3, of_decide_eq_true h4, ?_, rfl⟩
    exact hb.upper _ _ l q p hrs (by rw [List.getElem?_map, h1]; rfl) h2

omit [AddCommGroup K] in
theorem querySamplesB_empty {w : World P K} {check : Batch P} {e : PyErr} (he : check [] = .error e) {S : List P} {r : K} {q : P}
    (hr : ¬ w.InReach S r q) : w.querySamplesB check S r q = .error e := by
  have h0 : w.near S r q = [] := by
    unfold World.near
    rw [List.filter_eq_nil_iff]
    rintro ⟨p, i⟩ hm hd
    exact hr ⟨p, List.mem_of_getElem? ((mem_zipIdx' _ _ _).1 hm), by simpa using hd⟩
  unfold World.querySamplesB
  rw [h0, List.map_nil, he]

omit [AddCommGroup K] in
theorem mem_queryGraph {g : NkGraph K} {sn gn : List (ℕ × K)} {e : Edge K} : e ∈ (queryGraph g sn gn).edges ↔
    e ∈ g.edges ∨ (e.u = g.bound ∧ (e.v, e.w) ∈ sn) ∨ (e.u = g.bound + 1 ∧ (e.v, e.w) ∈ gn) := by
  rw [queryGraph_edges]
  simp only [List.mem_append, List.mem_map]
  constructor
  · rintro ((h | ⟨c, hc, rfl⟩) | ⟨c, hc, rfl⟩)
    · exact Or.inl h
    · exact Or.inr (Or.inl ⟨rfl, hc⟩)
    · exact Or.inr (Or.inr ⟨rfl, hc⟩)
  · rintro (h | ⟨h, hc⟩ | ⟨h, hc⟩)
    · exact Or.inl (Or.inl h)
    · exact Or.inl (Or.inr ⟨_, hc, by cases e; simp_all⟩)
    · exact Or.inr ⟨_, hc, by cases e; simp_all⟩

omit [AddCommGroup K] in
theorem queryGraph_part {g h : NkGraph K} (p : g.Part h) (hbd : g.bound = h.bound) {sn gn sn' gn' : List (ℕ × K)} (hs : ∀ c ∈ sn, c ∈ sn')
    (hg : ∀ c ∈ gn, c ∈ gn') : ∀ e ∈ (queryGraph g sn gn).edges, ∀ a b, e.joins a b = true →
      ∃ e' ∈ (queryGraph h sn' gn').edges, e'.joins a b = true ∧ e'.w = e.w := by
  intro e he a b hj
  rcases mem_queryGraph.1 he with h1 | ⟨h1, h2⟩ | ⟨h1, h2⟩
  · obtain ⟨e', h3, h4, h5⟩ := p.edge h1 hj
    exact ⟨e', mem_queryGraph.2 (.inl h3), h4, h5⟩
  · exact ⟨e, mem_queryGraph.2 (.inr (.inl ⟨h1.trans hbd, hs _ h2⟩)), hj, rfl⟩
  · exact ⟨e, mem_queryGraph.2 (.inr (.inr ⟨by rw [h1, hbd], hg _ h2⟩)), hj, rfl⟩

/-- The outcome of a search in a roadmap between those of two row checkers. -/
theorem solve_between {w : World P K} (hw : w.Sound) {lo hi : P → P → Bool} {S : List P} {gl g gh : NkGraph K} (h1 : gl.Part g) (h2 : g.Part gh)
    (hl : (w.withCheck lo).Checked S gl) (hh : (w.withCheck hi).Checked S gh) (hbd : S.length ≤ g.bound) {r : K} {start goal : P} {sn gn : List (ℕ × K)}
    (hs1 : ∀ c ∈ (w.withCheck lo).querySamples S r start, c ∈ sn) (hs2 : ∀ c ∈ sn, c ∈ (w.withCheck hi).querySamples S r start)
    (hg1 : ∀ c ∈ (w.withCheck lo).querySamples S r goal, c ∈ gn) (hg2 : ∀ c ∈ gn, c ∈ (w.withCheck hi).querySamples S r goal) :
    ∃ d pts, w.solve S g sn gn = (afterQuery g sn gn, .ok (d, pts)) ∧
      ((∃ ids, (w.withCheck hi).Route S gh r start goal ids pts ∧ d = (pathLength w.dist (start :: pts ++ [goal]) : K) ∧
          ∀ ids' pts', (w.withCheck lo).Route S gl r start goal ids' pts' →
            pathLength w.dist (start :: pts ++ [goal]) ≤ pathLength w.dist (start :: pts' ++ [goal])) ∨
        (d = ⊤ ∧ pts = [] ∧ ∀ ids' pts', ¬ (w.withCheck lo).Route S gl r start goal ids' pts')) := by
  set gl' : NkGraph K := { gl with bound := g.bound } with hgl
  set gh' : NkGraph K := { gh with bound := g.bound } with hgh
  have hlow := hw.withCheck lo
  have hhiw := hw.withCheck hi
  have hl' : (w.withCheck lo).Checked S gl' := hl
  have hh' : (w.withCheck hi).Checked S gh' := hh
  have up := queryGraph_part (g := g) (h := gh') h2 rfl hs2 hg2
  have down := queryGraph_part (g := gl') (h := g) h1 rfl hs1 hg1
  have hnn : ∀ e ∈ (queryGraph g sn gn).edges, 0 ≤ e.w := by
    intro e he
    obtain ⟨e', h3, _, h5⟩ := up e he e.u e.v ((joins_iff _ _ _).2 (.inl ⟨rfl, rfl⟩))
    rw [← h5]
    exact qEdges_nonneg hhiw hh' e' h3
  rw [solve_eq]
  have hne : g.bound ≠ g.bound + 1 := by omega
  rcases hw.dijkstra (queryGraph g sn gn).edges g.bound (g.bound + 1) hne hnn with ⟨d, hd, hwk, hnd, hmin⟩ | ⟨hno, heq⟩
  · have hp : g.bound ∉ (w.shortest (queryGraph g sn gn).edges g.bound (g.bound + 1)).2 ∧
        g.bound + 1 ∉ (w.shortest (queryGraph g sn gn).edges g.bound (g.bound + 1)).2 := by
      rw [List.cons_append, List.nodup_cons, List.nodup_append] at hnd
      refine ⟨fun h => hnd.1 (List.mem_append_left _ h), fun h => hnd.2.2.2 _ h (g.bound + 1) (by simp) rfl⟩
    obtain ⟨pts, hr, hdl⟩ := walk_route (w := w.withCheck hi) (g := gh') (r := r) (start := start) (goal := goal) hhiw hh' hbd (hwk.mono up) hp
    rw [if_pos (points_lt hr.points)]
    refine ⟨_, pts, by rw [filterMap_points hr.points], Or.inl ⟨_, ⟨hr.nonempty, hr.points, hr.first, hr.last, hr.edges⟩, by rw [hd, hdl]; rfl, ?_⟩⟩
    intro ids' pts' hr'
    have hr'' : (w.withCheck lo).Route S gl' r start goal ids' pts' := ⟨hr'.nonempty, hr'.points, hr'.first, hr'.last, hr'.edges⟩
    have := hmin _ _ ((route_walk hlow hl' hbd hr'').mono down)
    rw [hdl] at this
    exact this
  · rw [if_pos (by rw [heq]; rfl)]
    refine ⟨⊤, [], by rw [heq]; rfl, Or.inr ⟨rfl, rfl, ?_⟩⟩
    intro ids' pts' hr'
    have hr'' : (w.withCheck lo).Route S gl' r start goal ids' pts' := ⟨hr'.nonempty, hr'.points, hr'.first, hr'.last, hr'.edges⟩
    exact hno _ _ ((route_walk hlow hl' hbd hr'').mono down)

end

end Verif.Prm
