import Verif.Lemmas.KnnRadius
import Verif.Props.PrmKnn

/-! k-NN roadmaps with at most `k + 1` samples: every sample is a neighbour of every other one. -/

namespace Verif.Prm

open Verif.Spec Verif.Net

variable {P K : Type*} [LinearOrder K] [AddCommGroup K]

/-- The rows of such a table list all other samples. -/
theorem row_complete {w : World P K} {S : List P} {t : Table K} (ht : w.TrueTable S t) (hx : w.ExactTable S (S.length - 1) t) {i j : ℕ} (hi : i < S.length)
    (hj : j < S.length) (hij : i ≠ j) : ∃ row, t[i]? = some row ∧ ∃ d, (j, d) ∈ row := by
  have hi' : i < t.length := by rw [ht.1]; exact hi
  have hrow : t[i]? = some t[i] := List.getElem?_eq_getElem hi'
  refine ⟨_, hrow, ?_⟩
  have hlen := hx.full i _ hrow
  obtain ⟨hnd, hne⟩ := hx.distinct i _ hrow
  have hsub : (t[i].map (·.1)).toFinset ⊆ (Finset.range S.length).erase i := by
    intro a ha
    rw [List.mem_toFinset, List.mem_map] at ha
    obtain ⟨c, hc, rfl⟩ := ha
    rw [Finset.mem_erase, Finset.mem_range]
    refine ⟨hne c hc, ?_⟩
    obtain ⟨-, q, -, hq, -⟩ := ht.2 i _ hrow c hc
    exact (List.getElem?_eq_some_iff.1 hq).1
  have hcard : ((Finset.range S.length).erase i).card ≤ (t[i].map (·.1)).toFinset.card := by
    rw [List.toFinset_card_of_nodup hnd, List.length_map, hlen, Finset.card_erase_of_mem (by simpa using hi), Finset.card_range]
    simp
  have heq := Finset.eq_of_subset_of_card_le hsub hcard
  have : j ∈ (t[i].map (·.1)).toFinset := by
    rw [heq, Finset.mem_erase, Finset.mem_range]
    exact ⟨Ne.symm hij, hj⟩
  rw [List.mem_toFinset, List.mem_map] at this
  obtain ⟨⟨j', d⟩, h1, rfl⟩ := this
  exact ⟨d, h1⟩

/-- If two of the samples are `2 r` apart, the certified radius is at least `r`. -/
theorem certified_spread {dim : ℕ} {w : World (Space dim) ℝ} (hw : w.Sound) (hd : ∀ p q, w.dist p q = dist p q) {S : List (Space dim)} {t : Table ℝ} (ht : w.TrueTable S t)
    (hx : w.ExactTable S (S.length - 1) t) (hs : SortedRows t) {x : ℝ} (hc : Knn.certify t = .ok x) {i j : ℕ} {p q : Space dim} (hi : S[i]? = some p) (hj : S[j]? = some q)
    {r : ℝ} (hr : 2 * r ≤ dist p q) : r ≤ x := by
  obtain ⟨row, hrow, c, hcl, hcx⟩ := certify_mem hc
  obtain ⟨l, hl⟩ := List.mem_iff_getElem?.1 hrow
  have hlS : l < S.length := by
    rw [← ht.1]
    exact (List.getElem?_eq_some_iff.1 hl).1
  have hlp : S[l]? = some S[l] := List.getElem?_eq_getElem hlS
  have hx0 : 0 ≤ x := by
    obtain ⟨p', q', -, -, e⟩ := ht.2 l row hl c (List.mem_of_getLast? hcl)
    rw [← hcx, e]
    exact hw.dist_nonneg _ _
  have hfar : ∀ (m : ℕ) (y : Space dim), S[m]? = some y → dist S[l] y ≤ x := by
    intro m y hm
    by_cases hlm : l = m
    · subst hlm
      rw [hlp] at hm
      cases hm
      rw [dist_self]
      exact hx0
    · obtain ⟨row', h1, d, h2⟩ := row_complete ht hx hlS (List.getElem?_eq_some_iff.1 hm).1 hlm
      rw [hl] at h1
      cases h1
      obtain ⟨p', q', e1, e2, e3⟩ := ht.2 l row hl _ h2
      rw [hlp] at e1
      cases e1
      simp only at e2 e3
      rw [hm] at e2
      cases e2
      rw [← hd, ← e3, ← hcx]
      obtain ⟨init, rfl⟩ : ∃ init, row = init ++ [c] := ⟨_, (List.dropLast_append_getLast? c hcl).symm⟩
      have hp := hs _ hrow
      rw [List.pairwise_append] at hp
      rw [List.mem_append, List.mem_singleton] at h2
      rcases h2 with h2 | h2
      · exact hp.2.2 _ h2 c (by simp)
      · rw [← h2]
  have h1 := hfar i p hi
  have h2 := hfar j q hj
  have h3 := dist_triangle_left p q S[l]
  linarith

theorem setRadius_truncate {P K : Type*} [LinearOrder K] [AddCommGroup K] (w : World P K) (s : Knn P K) (r : K) : (s.setRadius w r).1.truncate = s.truncate := by
  unfold Knn.setRadius
  split
  · rfl
  · split
    · rfl
    · simp only
      split <;> rfl

theorem rebuild_truncate {P K : Type*} [LinearOrder K] [AddCommGroup K] (w : World P K) (s : Knn P K) (S : List P) : (s.rebuild w S).1.truncate = s.truncate := by
  unfold Knn.rebuild
  simp only
  split
  · rfl
  · split
    · rfl
    · split
      · rw [setRadius_truncate]
      · rfl

/-- No call changes `truncate_to_eff_rad`. -/
theorem run_truncate {P K : Type*} [LinearOrder K] [AddCommGroup K] (w : World P K) (ops : List (Knn.Op P K)) : ∀ s : Knn P K, (s.run w ops).truncate = s.truncate := by
  induction ops with
  | nil => exact fun _ => rfl
  | cons o ops ih =>
    intro s
    have hstep : (s.step w o).truncate = s.truncate := by
      cases o with
      | grow n =>
        simp only [Knn.step]
        unfold Knn.grow
        simp only
        split
        · rw [rebuild_truncate]
        · split
          · rfl
          · rw [rebuild_truncate]
      | setRadius r => exact setRadius_truncate w s r
      | setNeighbors k =>
        simp only [Knn.step]
        unfold Knn.setNeighbors
        split_ifs
        · rfl
        · rfl
        · simp only
          split
          · rfl
          · split
            · split <;> rfl
            · rfl
        · simp only
          split
          · rfl
          · split
            · split <;> rfl
            · rfl
      | query a b =>
        simp only [Knn.step]
        unfold Knn.query
        split <;> rfl
      | reset => rfl
    exact (ih _).trans hstep

/-- A k-NN PRM grown to at most `k + 1` samples, two of which are `2 r` apart, answers a query with a path if there is one through one or two of the samples that begins and ends with motions no longer than `r`. -/
theorem complete_query {dim : ℕ} {w : World (Space dim) ℝ} (hw : w.Sound) (hd : ∀ p q, w.dist p q = dist p q) (hkw : KnnWorld w) {ops : List (Knn.Op (Space dim) ℝ)} {k m d : ℕ}
    (hops : ∀ o ∈ ops, o ≠ .reset ∧ ∀ k', o ≠ .setNeighbors k') (hok : (((Knn.init k false d).run w ops).grow w m).2 = .ok ()) (hm : m ≤ k + 1)
    {i j : ℕ} (hi : i < m) (hj : j < m) {r : ℝ} (hr : 2 * r ≤ dist (w.draw (d + 1 + i)) (w.draw (d + 1 + j))) {a b : Space dim} {u v : ℕ} (hu : u < m) (hv : v < m)
    (ha : dist (w.draw (d + 1 + u)) a ≤ r ∧ w.check a (w.draw (d + 1 + u)) = true) (hb : dist (w.draw (d + 1 + v)) b ≤ r ∧ w.check b (w.draw (d + 1 + v)) = true)
    (huv : u = v ∨ w.Accepted (w.draw (d + 1 + u)) (w.draw (d + 1 + v))) (c : WithTop ℝ) :
    (((Knn.init k false d).run w (ops ++ [.grow m])).query w a b).2 ≠ .ok (c, []) := by
  obtain ⟨x, h1, h2, h2'⟩ := grow_kept' hw hkw.visits (knnDraws_run (knnDraws_init w k false d) ops hops) hok
  set S := w.fresh (d + 1) m with hS
  have hlen : S.length = m := fresh_length w _ _
  have hk : min (m - 1) k = S.length - 1 := by omega
  rw [hk] at h1 h2
  have htrue := hw.knn_true S (S.length - 1)
  have hget : ∀ l < m, S[l]? = some (w.draw (d + 1 + l)) := by
    intro l hl
    rw [hS, World.fresh, List.getElem?_map, List.getElem?_range hl]
    rfl
  have hrx : r ≤ x := certified_spread hw hd htrue (hkw.exact _ _) (hkw.sorted _ _) h1 (hget i hi) (hget j hj) hr
  have hrun : (Knn.init k false d).run w (ops ++ [.grow m]) = (((Knn.init k false d).run w ops).grow w m).1 := by
    simp [Knn.run, Knn.step]
  have hconn : (((Knn.init k false d).run w ops).grow w m).1.connR = none := by
    rw [h2', run_truncate]
    rfl
  rw [← hrun] at h2 hconn
  obtain ⟨g', len, pts, hg', hq, hq1, -⟩ := Props.C29_knn hw k false d (ops ++ [.grow m]) h2.1 (r := x) (by rw [hconn, h2.2.2.2.1]; rfl) a b
  rw [hq]
  intro hbad
  cases hbad
  apply hq1.1 rfl
  obtain ⟨-, -, -, -, g, h5, -, -, h7⟩ := h2
  rw [hg'] at h5
  cases h5
  have hla : w.Linked S x a u := ⟨_, hget u hu, by rw [hd]; exact ha.1.trans hrx, ha.2⟩
  have hlb : w.Linked S x b v := ⟨_, hget v hv, by rw [hd]; exact hb.1.trans hrx, hb.2⟩
  by_cases hne : u = v
  · subst hne
    exact ⟨[u], [_], by simp, by simpa using hget u hu, by simpa using hla, by simpa using hlb, List.IsChain.singleton _⟩
  · refine ⟨[u, v], [_, _], by simp, List.Forall₂.cons (hget u hu) (List.Forall₂.cons (hget v hv) List.Forall₂.nil), by simpa using hla, by simpa using hlb, ?_⟩
    rw [List.isChain_pair]
    have hadj : (tabGraph w S (w.knn S (S.length - 1))).Adj u v := by
      rw [tabGraph_adj]
      rcases huv.resolve_left hne with h | h
      · exact Or.inl ⟨(accepts_iff ..).2 ⟨_, _, hget u hu, hget v hv, h⟩, row_complete htrue (hkw.exact _ _) (hlen ▸ hu) (hlen ▸ hv) hne⟩
      · exact Or.inr ⟨(accepts_iff ..).2 ⟨_, _, hget v hv, hget u hu, h⟩, row_complete htrue (hkw.exact _ _) (hlen ▸ hv) (hlen ▸ hu) (Ne.symm hne)⟩
    obtain ⟨e, he, hj⟩ := hadj
    exact ⟨e, h7 e he (by rw [hconn]; simp), hj⟩

end Verif.Prm
