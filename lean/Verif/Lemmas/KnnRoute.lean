import Verif.Lemmas.KnnRadius

/-! The k-NN PRM on consecutive draws, for an arbitrary distance: a chain of samples below the certified radius is found; the certified radius and the
number of near neighbours when distances and samples are rounded. -/

namespace Verif.Net

open Verif.Prm Verif.Spec Verif.Props

variable {P K : Type*} [LinearOrder K] [AddCommGroup K]

/-- The query after a growth whose certified radius is at least `r`. -/
theorem knn_route {w : World P K} (hw : w.Sound) (hv : w.VisitsExisting) (h0 : ∀ p, w.dist p p = 0) {k m d : ℕ}
    (hx : w.ExactTable (w.fresh (d + 1) m) (min (m - 1) k) (w.knn (w.fresh (d + 1) m) (min (m - 1) k)))
    {ops rs : List (Knn.Op P K)} {tr : Bool} {r : K}
    (hops : ∀ o ∈ ops, o ≠ .reset ∧ ∀ k', o ≠ .setNeighbors k') (hok : (((Knn.init k tr d).run w ops).grow w m).2 = .ok ())
    (hrs : ∀ o ∈ rs, (∃ r', o = .setRadius r' ∧ r ≤ r') ∨ ∃ a b, o = .query a b)
    (hcert : ∀ x, Knn.certify (w.knn (w.fresh (d + 1) m) (min (m - 1) k)) = .ok x → r ≤ x) {a b : P} {pts : List P}
    (hpts : w.SampleChain (w.fresh (d + 1) m) r a b pts) (hlt : pts.IsChain fun p q => w.dist p q < r) :
    ∃ (len : K) (pts' : List P),
      (((Knn.init k tr d).run w (ops ++ .grow m :: rs)).query w a b).2 = .ok ((len : WithTop K), pts') ∧ pts' ≠ [] ∧
      len ≤ pathLength w.dist (a :: pts ++ [b]) := by
  obtain ⟨x, h1, h2, h2'⟩ := grow_kept' hw hv (knnDraws_run (knnDraws_init w k tr d) ops hops) hok
  have htrue := hw.knn_true (w.fresh (d + 1) m) (min (m - 1) k)
  have hrun : (Knn.init k tr d).run w (ops ++ .grow m :: rs) = (((Knn.init k tr d).run w ops).grow w m).1.run w rs := by
    simp [Knn.run, Knn.step]
  have hrx : r ≤ x := by
    exact hcert x h1
  -- the state before the query
  have hstate : ∀ s : Knn P K, s.Kept w (w.fresh (d + 1) m) (w.knn (w.fresh (d + 1) m) (min (m - 1) k)) x →
      (∀ R, s.connR = some R → r ≤ R) → (s.run w rs).Kept w (w.fresh (d + 1) m) (w.knn (w.fresh (d + 1) m) (min (m - 1) k)) x ∧
        ∀ R, (s.run w rs).connR = some R → r ≤ R := by
    clear hrun h2 h2' hok
    induction rs with
    | nil => exact fun s h h' => ⟨h, h'⟩
    | cons o rs ih =>
      intro s hs hs'
      have hrest := ih fun o ho => hrs o (by simp [ho])
      rcases hrs o (by simp) with ⟨r', rfl, hr'⟩ | ⟨a, b, rfl⟩
      · obtain ⟨e1, e2⟩ := Knn.kept_setRadius hv htrue hs r'
        refine hrest _ e1 ?_
        intro R hR
        simp only [Knn.step] at hR
        rw [e2] at hR
        cases hR
        exact hr'
      · obtain ⟨e1, e2⟩ := Knn.kept_query hw htrue hs a b
        refine hrest _ e1 ?_
        intro R hR
        simp only [Knn.step] at hR
        rw [e2] at hR
        exact hs' R hR
  obtain ⟨h3, h4⟩ := hstate _ h2 (by
    intro R hR
    rw [h2'] at hR
    split at hR
    · cases hR
      exact hrx
    · cases hR)
  rw [← hrun] at h3 h4
  obtain ⟨g, hg, hcont⟩ := kept_contains hw hx h1 hrx h3 h4
  obtain ⟨R, hR, hrR⟩ : ∃ R, ((Knn.init k tr d).run w (ops ++ .grow m :: rs)).connR.or
      ((Knn.init k tr d).run w (ops ++ .grow m :: rs)).certified = some R ∧ r ≤ R := by
    rw [h3.2.2.2.1]
    cases hc : ((Knn.init k tr d).run w (ops ++ .grow m :: rs)).connR with
    | none => exact ⟨x, rfl, hrx⟩
    | some R => exact ⟨R, rfl, h4 R hc⟩
  obtain ⟨ids, pts', hroute, hlen⟩ := route_of_chain h0 hcont hrR hpts hlt
  obtain ⟨g', len, pts'', hg', hq, hq1, hq2, hq3⟩ := C29_knn hw k tr d (ops ++ .grow m :: rs) h3.1 hR a b
  rw [hg] at hg'
  cases hg'
  have hne : pts'' ≠ [] := fun h0 => hq1.1 h0 ⟨ids, pts', hroute⟩
  have hle := hq3 ids pts' hroute
  rw [hlen] at hle
  cases len with
  | top => exact absurd (hq2.2 rfl) hne
  | coe len => exact ⟨len, pts'', hq, hne, WithTop.coe_le_coe.1 hle⟩

/-- If the certified radius is below `r`, some sample has `k` or more others closer than `s`, when distances below `r` in the table are distances below `s`
between the points `X`. -/
theorem many_near {Ω E : Type*} [PseudoMetricSpace E] {X : ℕ → Ω → E} {ω : Ω} {w : World P K} (hw : w.Sound) {d n k : ℕ} (hk : k + 1 ≤ n) {x r : K} {s : ℝ}
    (hnear : ∀ i < n, ∀ j < n, w.dist (w.draw (d + i)) (w.draw (d + j)) < r → dist (X (d + j) ω) (X (d + i) ω) < s)
    (hx : w.ExactTable (w.fresh d n) (min (n - 1) k) (w.knn (w.fresh d n) (min (n - 1) k)))
    (hsort : SortedRows (w.knn (w.fresh d n) (min (n - 1) k)))
    (hc : Knn.certify (w.knn (w.fresh d n) (min (n - 1) k)) = .ok x) (hlt : x < r) :
    ∃ i < n, k ≤ neighbours X d n s ω i := by
  set S := w.fresh d n with hS
  set t := w.knn S (min (n - 1) k) with ht
  have hlen : S.length = n := fresh_length w d n
  have htrue := hw.knn_true S (min (n - 1) k)
  obtain ⟨row, hrow, c, hcl, hcx⟩ := certify_mem hc
  obtain ⟨i, hi⟩ := List.mem_iff_getElem?.1 hrow
  have hget : ∀ j p, S[j]? = some p → j < n ∧ p = w.draw (d + j) := by
    intro j p hj
    have hj' := lt_of_some hj
    rw [hlen] at hj'
    refine ⟨hj', ?_⟩
    rw [hS, World.fresh, List.getElem?_map, List.getElem?_range hj'] at hj
    simp only [Option.map_some, Option.some.injEq] at hj
    exact hj.symm
  have hin : i < n := by
    have := lt_of_some hi
    rwa [htrue.1, hlen] at this
  refine ⟨i, hin, ?_⟩
  have hfull := hx.full i row hi
  rw [hlen] at hfull
  have hk' : row.length = k := by omega
  obtain ⟨hnd, hself⟩ := hx.distinct i row hi
  -- the listed samples
  have hsub : (row.map (·.1)).toFinset ⊆ (Finset.range n).filter fun j => j ≠ i ∧ dist (X (d + j) ω) (X (d + i) ω) < s := by
    intro j hj
    rw [List.mem_toFinset, List.mem_map] at hj
    obtain ⟨e, he, rfl⟩ := hj
    obtain ⟨p, q, hp, hq, hd⟩ := htrue.2 i row hi e he
    obtain ⟨-, hp⟩ := hget _ _ hp
    obtain ⟨hjn, hq⟩ := hget _ _ hq
    rw [Finset.mem_filter, Finset.mem_range]
    refine ⟨hjn, hself e he, ?_⟩
    have hle : e.2 ≤ c.2 := by
      have hs := hsort row hrow
      obtain ⟨l, rfl⟩ := List.getLast?_eq_some_iff.1 hcl
      rcases List.mem_append.1 he with h | h
      · exact (List.pairwise_append.1 hs).2.2 e h c (by simp)
      · rw [List.mem_singleton.1 h]
    refine hnear i hin e.1 hjn ?_
    rw [← hq, ← hp, ← hd]
    exact lt_of_le_of_lt (hle.trans hcx.le) hlt
  have := Finset.card_le_card hsub
  rw [List.toFinset_card_of_nodup hnd, List.length_map, hk'] at this
  exact this


end Verif.Net
