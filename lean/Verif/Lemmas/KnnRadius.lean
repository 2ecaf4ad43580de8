import Verif.Lemmas.NetSampling
import Verif.Lemmas.ClearPath
import Verif.Props.PrmKnn
import Verif.Lemmas.PrmKept

/-! The k-NN PRM on consecutive draws: certified radius and number of near neighbours; chains without repetitions. -/

namespace Verif.Net

open Verif.Prm Verif.Spec

set_option linter.unusedSectionVars false

section General

variable {P K : Type*} [LinearOrder K]

/-- The samples are the draws after number `d`, and the neighbour count is `k`. -/
def KnnDraws (w : World P K) (d k : ℕ) (s : Knn P K) : Prop :=
  s.k = k ∧ ((s.samples = none ∧ s.drawn = d + 1) ∨ ∃ n, s.samples = some (w.fresh (d + 1) n) ∧ s.drawn = d + 1 + n)

theorem setRadius_fields (w : World P K) (r : K) (s : Knn P K) :
    (s.setRadius w r).1.k = s.k ∧ (s.setRadius w r).1.samples = s.samples ∧ (s.setRadius w r).1.drawn = s.drawn := by
  unfold Knn.setRadius
  split
  · exact ⟨rfl, rfl, rfl⟩
  · split
    · exact ⟨rfl, rfl, rfl⟩
    · simp only
      split <;> exact ⟨rfl, rfl, rfl⟩

theorem rebuild_fields (w : World P K) (s : Knn P K) (S : List P) :
    (s.rebuild w S).1.k = s.k ∧ (s.rebuild w S).1.samples = some S ∧ (s.rebuild w S).1.drawn = s.drawn := by
  unfold Knn.rebuild
  simp only
  split
  · exact ⟨rfl, rfl, rfl⟩
  · split
    · exact ⟨rfl, rfl, rfl⟩
    · split
      · exact setRadius_fields ..
      · exact ⟨rfl, rfl, rfl⟩

theorem knnDraws_grow {w : World P K} {d k : ℕ} {s : Knn P K} (h : KnnDraws w d k s) (n : ℕ) : KnnDraws w d k (s.grow w n).1 := by
  obtain ⟨hk, ⟨h1, h2⟩ | ⟨l, h1, h2⟩⟩ := h
  · unfold Knn.grow
    simp only [h1]
    obtain ⟨a1, a2, a3⟩ := rebuild_fields w { s with connR := none, samples := none, drawn := s.drawn + n } (w.fresh s.drawn n)
    refine ⟨a1.trans hk, Or.inr ⟨n, ?_, ?_⟩⟩
    · rw [a2, h2]
    · rw [a3]
      simp only
      omega
  · unfold Knn.grow
    simp only [h1, fresh_length]
    split
    · exact ⟨hk, Or.inr ⟨l, rfl, h2⟩⟩
    · rename_i hn
      obtain ⟨a1, a2, a3⟩ := rebuild_fields w { s with connR := none, samples := some (w.fresh (d + 1) l), drawn := s.drawn + (n - l) }
        (w.fresh (d + 1) l ++ w.fresh s.drawn (n - l))
      refine ⟨a1.trans hk, Or.inr ⟨n, ?_, ?_⟩⟩
      · rw [a2, h2, fresh_append]
        congr 2
        omega
      · rw [a3]
        simp only
        omega

/-- A history of growths, radius changes and queries. -/
theorem knnDraws_run {w : World P K} {d k : ℕ} {s : Knn P K} (h : KnnDraws w d k s) (ops : List (Knn.Op P K))
    (hops : ∀ o ∈ ops, o ≠ .reset ∧ ∀ k', o ≠ .setNeighbors k') : KnnDraws w d k (s.run w ops) := by
  induction ops generalizing s with
  | nil => exact h
  | cons o ops ih =>
    refine ih ?_ fun o' ho' => hops o' (by simp [ho'])
    cases o with
    | grow n => exact knnDraws_grow h n
    | setRadius r =>
      obtain ⟨a1, a2, a3⟩ := setRadius_fields w r s
      unfold KnnDraws
      simp only [Knn.step]
      rw [a1, a2, a3]
      exact h
    | query a b =>
      simp only [Knn.step, Knn.query]
      split <;> exact h
    | setNeighbors k' => exact absurd rfl ((hops _ (by simp)).2 k')
    | reset => exact absurd rfl (hops _ (by simp)).1

theorem knnDraws_init (w : World P K) (k : ℕ) (tr : Bool) (d : ℕ) : KnnDraws w d k (Knn.init k tr d) := ⟨rfl, Or.inl ⟨rfl, rfl⟩⟩

/-- The certified radius is the last distance of some row. -/
theorem certify_mem {t : Table K} {x : K} (h : Knn.certify t = .ok x) : ∃ row ∈ t, ∃ c, row.getLast? = some c ∧ c.2 = x := by
  unfold Knn.certify at h
  cases hm : t.mapM (fun row => row.getLast?) with
  | none => rw [hm] at h; cases h
  | some l =>
    rw [hm] at h
    have hmem : ∀ c ∈ l, ∃ row ∈ t, row.getLast? = some c := by
      clear h
      induction t generalizing l with
      | nil =>
        intro c hc
        cases hm
        simp at hc
      | cons a t ih =>
        rw [List.mapM_cons] at hm
        cases ha : a.getLast? with
        | none => rw [ha] at hm; cases hm
        | some c =>
          rw [ha] at hm
          cases hm' : t.mapM (fun row => row.getLast?) with
          | none => rw [hm'] at hm; cases hm
          | some l' =>
            rw [hm'] at hm
            have hl : l = c :: l' := (Option.some.inj hm).symm
            subst hl
            intro c' hc'
            rcases List.mem_cons.1 hc' with rfl | hc'
            · exact ⟨a, by simp, ha⟩
            · obtain ⟨row, h1, h2⟩ := ih l' hm' c' hc'
              exact ⟨row, by simp [h1], h2⟩
    have hfold : ∀ (l : List (ℕ × K)) (m : K), l.foldl (fun m d => min m d.2) m = m ∨
        ∃ c ∈ l, l.foldl (fun m d => min m d.2) m = c.2 := by
      intro l
      induction l with
      | nil => intro m; simp
      | cons a l ih =>
        intro m
        rcases ih (min m a.2) with h | ⟨c, hc, h⟩
        · rcases min_choice m a.2 with h' | h'
          · exact Or.inl (h.trans h')
          · exact Or.inr ⟨a, by simp, h.trans h'⟩
        · exact Or.inr ⟨c, by simp [hc], h⟩
    cases l with
    | nil => cases h
    | cons a l =>
      simp only [Except.ok.injEq] at h
      subst h
      rcases hfold l a.2 with h | ⟨c, hc, h⟩
      · obtain ⟨row, h1, h2⟩ := hmem a (by simp)
        exact ⟨row, h1, a, h2, h.symm⟩
      · obtain ⟨row, h1, h2⟩ := hmem c (by simp [hc])
        exact ⟨row, h1, c, h2, h.symm⟩

variable [AddCommGroup K]

/-- The successful growth, with the samples and the table. -/
theorem grow_kept' {w : World P K} (hw : w.Sound) (hv : w.VisitsExisting) {d k : ℕ} {s : Knn P K} (hs : KnnDraws w d k s) {n : ℕ}
    (hok : (s.grow w n).2 = .ok ()) :
    ∃ x, Knn.certify (w.knn (w.fresh (d + 1) n) (min (n - 1) k)) = .ok x ∧
      (s.grow w n).1.Kept w (w.fresh (d + 1) n) (w.knn (w.fresh (d + 1) n) (min (n - 1) k)) x ∧
      (s.grow w n).1.connR = (if s.truncate then some x else none) := by
  obtain ⟨hk, ⟨h1, h2⟩ | ⟨l, h1, h2⟩⟩ := hs
  · unfold Knn.grow at hok ⊢
    simp only [h1] at hok ⊢
    obtain ⟨x, a1, a2, a3⟩ := Knn.rebuild_kept hw hv (s := { s with connR := none, samples := none, drawn := s.drawn + n }) rfl hok
    simp only [hk, h2, fresh_length] at a1 a2 a3
    refine ⟨x, a1, ?_, ?_⟩
    · rw [h2, hk]; exact a2
    · rw [h2, hk]; exact a3
  · unfold Knn.grow at hok ⊢
    simp only [h1, fresh_length] at hok ⊢
    split at hok
    · cases hok
    · rename_i hn
      rw [if_neg hn]
      have hl : w.fresh (d + 1) l ++ w.fresh s.drawn (n - l) = w.fresh (d + 1) n := by
        rw [h2, fresh_append]
        congr 1
        omega
      rw [hl] at hok ⊢
      obtain ⟨x, a1, a2, a3⟩ := Knn.rebuild_kept hw hv
        (s := { s with connR := none, samples := some (w.fresh (d + 1) l), drawn := s.drawn + (n - l) }) rfl hok
      simp only [hk, fresh_length] at a1 a2 a3
      rw [hk]
      exact ⟨x, a1, a2, a3⟩

theorem knn_kept_run {w : World P K} (hw : w.Sound) (hv : w.VisitsExisting) {S : List P} {t : Table K} {x : K} (ht : w.TrueTable S t)
    {ops : List (Knn.Op P K)} (hops : Props.RadiusChanges ops) {s : Knn P K} (h : s.Kept w S t x) : (s.run w ops).Kept w S t x := by
  induction ops generalizing s with
  | nil => exact h
  | cons o ops ih =>
    have hrest : Props.RadiusChanges ops := fun o ho => hops o (List.mem_cons_of_mem _ ho)
    rcases hops o (by simp) with ⟨r, rfl⟩ | ⟨a, b, rfl⟩
    · exact ih hrest (Knn.kept_setRadius hv ht h r).1
    · exact ih hrest (Knn.kept_query hw ht h a b).1

/-- Chains without repetitions. -/
theorem compress {d : P → P → K} (hd : ∀ p, d p p = 0) {R : P → P → Prop} (b : P) (l : List P) : ∀ p : P, (p :: l).IsChain R →
    ∃ l', (p :: l').IsChain (fun a b => R a b ∧ a ≠ b) ∧ (p :: l').getLast? = (p :: l).getLast? ∧ (∀ x ∈ l', x ∈ l) ∧
      pathLength d (p :: l' ++ [b]) = pathLength d (p :: l ++ [b]) ∧ l'.length ≤ l.length := by
  induction l with
  | nil =>
    intro p _
    exact ⟨[], List.IsChain.singleton _, rfl, by simp, rfl, le_rfl⟩
  | cons q l ih =>
    intro p h
    rw [List.isChain_cons_cons] at h
    obtain ⟨l', h1, h2, h3, h4, h5⟩ := ih q h.2
    by_cases hpq : p = q
    · subst hpq
      refine ⟨l', h1, ?_, fun x hx => by simp [h3 x hx], ?_, h5.trans (by simp)⟩
      · rw [h2, List.getLast?_cons_cons]
      · rw [h4]
        have : pathLength d (p :: p :: l ++ [b]) = d p p + pathLength d (p :: l ++ [b]) := rfl
        rw [this, hd, zero_add]
    · refine ⟨q :: l', ?_, ?_, ?_, ?_, by simpa using h5⟩
      · rw [List.isChain_cons_cons]
        exact ⟨⟨h.1, hpq⟩, h1⟩
      · rw [List.getLast?_cons_cons, List.getLast?_cons_cons, h2]
      · intro x hx
        rcases List.mem_cons.1 hx with rfl | hx
        · simp
        · simp [h3 x hx]
      · have e1 : pathLength d (p :: q :: l' ++ [b]) = d p q + pathLength d (q :: l' ++ [b]) := rfl
        have e2 : pathLength d (p :: q :: l ++ [b]) = d p q + pathLength d (q :: l ++ [b]) := rfl
        rw [e1, e2, h4]

end General

/-- A strict chain of samples gives a route through a roadmap that contains the radius graph. -/
theorem route_of_chain {P K : Type*} [LinearOrder K] [AddCommGroup K] {w : World P K} (h0 : ∀ p, w.dist p p = 0) {S : List P} {r R : K}
    {g : NkGraph K} (hg : w.ContainsRadiusGraph S r g) (hR : r ≤ R) {a b : P} {pts : List P} (h : w.SampleChain S r a b pts)
    (hlt : pts.IsChain fun p q => w.dist p q < r) :
    ∃ ids pts', w.Route S g R a b ids pts' ∧ pathLength w.dist (a :: pts' ++ [b]) = pathLength w.dist (a :: pts ++ [b]) := by
  obtain ⟨h1, h2, h3, h4, h5⟩ := h
  cases pts with
  | nil => exact absurd rfl h1
  | cons p l =>
    have hc : (p :: l).IsChain fun p q => w.dist p q < r ∧ w.Accepted p q := by
      clear h1 h2 h3 h4
      generalize p :: l = L at *
      induction L with
      | nil => exact List.IsChain.nil
      | cons a L ih =>
        cases L with
        | nil => exact List.IsChain.singleton _
        | cons b L =>
          rw [List.isChain_cons_cons] at *
          exact ⟨⟨hlt.1, h5.1.2⟩, ih hlt.2 h5.2⟩
    obtain ⟨l', c1, c2, c3, c4, -⟩ := compress h0 b l p hc
    have hmem : ∀ q ∈ p :: l', q ∈ S := by
      intro q hq
      rcases List.mem_cons.1 hq with rfl | hq
      · exact h2 _ (by simp)
      · exact h2 _ (by simp [c3 q hq])
    have hidx : ∀ q : P, ∃ i : ℕ, q ∈ S → S[i]? = some q := by
      intro q
      by_cases hq : q ∈ S
      · obtain ⟨i, hi⟩ := List.mem_iff_getElem?.1 hq
        exact ⟨i, fun _ => hi⟩
      · exact ⟨0, fun h => absurd h hq⟩
    choose f hf using hidx
    refine ⟨(p :: l').map f, p :: l', ⟨by simp, ?_, ?_, ?_, ?_⟩, ?_⟩
    · rw [List.forall₂_map_left_iff, List.forall₂_same]
      exact fun q hq => hf q (hmem q hq)
    · intro i hi
      simp only [List.map_cons, List.head?_cons, Option.some.injEq] at hi
      subst hi
      obtain ⟨e1, e2⟩ := h3 p rfl
      exact ⟨p, hf p (hmem p (by simp)), e1.trans hR, e2⟩
    · intro i hi
      rw [List.getLast?_map, c2] at hi
      cases hlast : (p :: l).getLast? with
      | none => rw [hlast] at hi; cases hi
      | some q =>
        rw [hlast] at hi
        simp only [Option.map_some, Option.some.injEq] at hi
        subst hi
        obtain ⟨e1, e2⟩ := h4 q hlast
        exact ⟨q, hf q (h2 q (List.mem_of_getLast? hlast)), e1.trans hR, e2⟩
    · rw [List.isChain_map]
      have key : ∀ L : List P, (∀ q ∈ L, q ∈ S) → L.IsChain (fun a b => (w.dist a b < r ∧ w.Accepted a b) ∧ a ≠ b) →
          L.IsChain fun a b => g.Adj (f a) (f b) := by
        intro L
        induction L with
        | nil => intro _ _; exact List.IsChain.nil
        | cons a L ih =>
          intro hL hch
          cases L with
          | nil => exact List.IsChain.singleton _
          | cons b L =>
            rw [List.isChain_cons_cons] at *
            refine ⟨?_, ih (fun q hq => hL q (by simp [hq])) hch.2⟩
            have ha := hf a (hL a (by simp))
            have hb := hf b (hL b (by simp))
            refine hg _ _ a b ?_ ha hb hch.1.1.1 hch.1.1.2
            intro heq
            rw [heq, hb] at ha
            exact hch.1.2 (Option.some.inj ha).symm
      exact key _ hmem c1
    · have e1 : pathLength w.dist (a :: (p :: l') ++ [b]) = w.dist a p + pathLength w.dist (p :: l' ++ [b]) := rfl
      have e2 : pathLength w.dist (a :: (p :: l) ++ [b]) = w.dist a p + pathLength w.dist (p :: l ++ [b]) := rfl
      rw [e1, e2, c4]

/-- A table whose certified radius is at least `r`, cut to a radius of at least `r`, contains the radius graph. -/
theorem kept_contains {P K : Type*} [LinearOrder K] [AddCommGroup K] {w : World P K} (hw : w.Sound) {S : List P} {k' : ℕ} {x r : K}
    (hx : w.ExactTable S k' (w.knn S k')) (hc : Knn.certify (w.knn S k') = .ok x) (hr : r ≤ x) {s : Knn P K}
    (hcut : s.Kept w S (w.knn S k') x) (hR : ∀ R, s.connR = some R → r ≤ R) :
    ∃ g, s.graph = some g ∧ w.ContainsRadiusGraph S r g := by
  have ht := hw.knn_true S k'
  obtain ⟨-, -, -, -, g, h5, -, -, h7⟩ := hcut
  refine ⟨g, h5, ?_⟩
  intro i j p q hij hp hq hlt ha
  have hlist : ∀ i j p q, S[i]? = some p → S[j]? = some q → i ≠ j → w.dist p q < r →
      ∃ row : List (ℕ × K), (w.knn S k')[i]? = some row ∧ ∃ d, (j, d) ∈ row := by
    intro i j p q hp hq hij hlt
    have hi := lt_of_some hp
    have hi' : i < (w.knn S k').length := by rw [ht.1]; exact hi
    have hrow : (w.knn S k')[i]? = some ((w.knn S k')[i]) := List.getElem?_eq_getElem hi'
    refine ⟨_, hrow, ?_⟩
    by_contra hno
    push Not at hno
    obtain ⟨c, hcm, hcx⟩ := Props.certify_le hc (List.getElem_mem hi')
    have := hx.near i j _ p q hrow hp hq (Ne.symm hij) hno c hcm
    exact absurd (lt_of_lt_of_le hlt (hr.trans (hcx.trans this))) (lt_irrefl _)
  have hadj : (tabGraph w S (w.knn S k')).Adj i j := by
    rw [tabGraph_adj]
    rcases ha with ha | ha
    · exact Or.inl ⟨(accepts_iff ..).2 ⟨p, q, hp, hq, ha⟩, hlist i j p q hp hq hij hlt⟩
    · exact Or.inr ⟨(accepts_iff ..).2 ⟨q, p, hq, hp, ha⟩,
        hlist j i q p hq hp (Ne.symm hij) (by rw [hw.dist_symm]; exact hlt)⟩
  obtain ⟨e, he, hj⟩ := hadj
  obtain ⟨p', q', hp', hq', hd, _⟩ := tabGraph_checked hw ht i j e.w ⟨e, he, hj, rfl⟩
  rw [hp] at hp'; cases hp'
  rw [hq] at hq'; cases hq'
  refine ⟨e, h7 e he ?_, hj⟩
  intro R hRR
  rw [hd]
  exact lt_of_lt_of_le hlt (hR R hRR)

/-- If the certified radius is below `r`, some sample has `k` or more others closer than `r`. -/
theorem many_neighbours {Ω : Type*} {dim : ℕ} {X : ℕ → Ω → Space dim} {ω : Ω} {F : Set (Space dim)} {w : World (Space dim) ℝ}
    (hw : EuclideanWorld w F (fun i => X i ω)) {d n k : ℕ} (hk : k + 1 ≤ n) {x r : ℝ}
    (hx : w.ExactTable (w.fresh d n) (min (n - 1) k) (w.knn (w.fresh d n) (min (n - 1) k)))
    (hsort : SortedRows (w.knn (w.fresh d n) (min (n - 1) k)))
    (hc : Knn.certify (w.knn (w.fresh d n) (min (n - 1) k)) = .ok x) (hlt : x < r) :
    ∃ i < n, k ≤ neighbours X d n r ω i := by
  set S := w.fresh d n with hS
  set t := w.knn S (min (n - 1) k) with ht
  have hlen : S.length = n := fresh_length w d n
  have htrue := hw.sound.knn_true S (min (n - 1) k)
  obtain ⟨row, hrow, c, hcl, hcx⟩ := certify_mem hc
  obtain ⟨i, hi⟩ := List.mem_iff_getElem?.1 hrow
  have hget : ∀ j p, S[j]? = some p → j < n ∧ p = X (d + j) ω := by
    intro j p hj
    have hj' := lt_of_some hj
    rw [hlen] at hj'
    refine ⟨hj', ?_⟩
    rw [hS, World.fresh, List.getElem?_map, List.getElem?_range hj'] at hj
    simp only [Option.map_some, Option.some.injEq] at hj
    rw [← hj, hw.draw]
  have hin : i < n := by
    have := lt_of_some hi
    rwa [htrue.1, hlen] at this
  refine ⟨i, hin, ?_⟩
  have hfull := hx.full i row hi
  rw [hlen] at hfull
  have hk' : row.length = k := by omega
  obtain ⟨hnd, hself⟩ := hx.distinct i row hi
  -- the listed samples
  have hsub : (row.map (·.1)).toFinset ⊆ (Finset.range n).filter fun j => j ≠ i ∧ dist (X (d + j) ω) (X (d + i) ω) < r := by
    intro j hj
    rw [List.mem_toFinset, List.mem_map] at hj
    obtain ⟨e, he, rfl⟩ := hj
    obtain ⟨p, q, hp, hq, hd⟩ := htrue.2 i row hi e he
    obtain ⟨-, hp⟩ := hget _ _ hp
    obtain ⟨hjn, hq⟩ := hget _ _ hq
    rw [Finset.mem_filter, Finset.mem_range]
    refine ⟨hjn, hself e he, ?_⟩
    have hle : e.2 ≤ c.2 := by
      have hs := hsort row hrow
      obtain ⟨l, rfl⟩ := List.getLast?_eq_some_iff.1 hcl
      rcases List.mem_append.1 he with h | h
      · exact (List.pairwise_append.1 hs).2.2 e h c (by simp)
      · rw [List.mem_singleton.1 h]
    rw [← hq, ← hp, dist_comm, ← hw.dist, ← hd]
    exact lt_of_le_of_lt (hle.trans hcx.le) hlt
  have := Finset.card_le_card hsub
  rw [List.toFinset_card_of_nodup hnd, List.length_map, hk'] at this
  exact this

end Verif.Net
