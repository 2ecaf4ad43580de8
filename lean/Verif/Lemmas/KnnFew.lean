import Verif.Lemmas.KnnRadius
import Verif.Spec.NarrowTrial

/-! If no sample has `k` others closer than `r`, the first `k` neighbours contain all that are closer than `r`. -/

namespace Verif.Net

open Verif.Prm Verif.Spec

variable {Ω : Type*} {dim : ℕ} {X : ℕ → Ω → Space dim} {ω : Ω} {w : World (Space dim) ℝ}

theorem fresh_get (hdraw : ∀ i, w.draw i = X i ω) {d n j : ℕ} {p : Space dim} (h : (w.fresh d n)[j]? = some p) :
    j < n ∧ p = X (d + j) ω := by
  have hj := lt_of_some h
  rw [fresh_length] at hj
  refine ⟨hj, ?_⟩
  rw [World.fresh, List.getElem?_map, List.getElem?_range hj] at h
  simp only [Option.map_some, Option.some.injEq] at h
  rw [← h, hdraw]

/-- Entries of a row that are closer than `r` are neighbours. -/
theorem few_entries (hs : w.Sound) (hdist : ∀ p q, w.dist p q = dist p q) (hdraw : ∀ i, w.draw i = X i ω) {d n k i : ℕ} {r : ℝ}
    (hx : w.ExactTable (w.fresh d n) k (w.knn (w.fresh d n) k)) {row l : List (ℕ × ℝ)} (hrow : (w.knn (w.fresh d n) k)[i]? = some row)
    (hl : l.Sublist row) (hlt : ∀ e ∈ l, e.2 < r) : l.length ≤ neighbours X d n r ω i := by
  have htrue := hs.knn_true (w.fresh d n) k
  obtain ⟨hnd, hself⟩ := hx.distinct i row hrow
  have hsub : (l.map (·.1)).toFinset ⊆ (Finset.range n).filter fun j => j ≠ i ∧ dist (X (d + j) ω) (X (d + i) ω) < r := by
    intro j hj
    rw [List.mem_toFinset, List.mem_map] at hj
    obtain ⟨e, he, rfl⟩ := hj
    obtain ⟨p, q, hp, hq, hd⟩ := htrue.2 i row hrow e (hl.subset he)
    obtain ⟨-, hp⟩ := fresh_get hdraw hp
    obtain ⟨hjn, hq⟩ := fresh_get hdraw hq
    rw [Finset.mem_filter, Finset.mem_range]
    refine ⟨hjn, hself e (hl.subset he), ?_⟩
    rw [← hq, ← hp, dist_comm, ← hdist, ← hd]
    exact hlt e he
  have hc := Finset.card_le_card hsub
  rw [List.toFinset_card_of_nodup (hnd.sublist (hl.map _)), List.length_map] at hc
  exact hc

/-- All accepted connections shorter than `r` remain with `k` neighbours. -/
theorem kept_close (hs : w.Sound) (hdist : ∀ p q, w.dist p q = dist p q) (hdraw : ∀ i, w.draw i = X i ω) {d n k' k : ℕ} {r : ℝ}
    (hx : w.ExactTable (w.fresh d n) k' (w.knn (w.fresh d n) k')) (hsort : SortedRows (w.knn (w.fresh d n) k'))
    (hk : k ≤ k') (hkn : k + 1 ≤ n) (hfew : ¬ ∃ i < n, k ≤ neighbours X d n r ω i) {i j : ℕ} {p q : Space dim}
    (hp : (w.fresh d n)[i]? = some p) (hq : (w.fresh d n)[j]? = some q) (hij : i ≠ j) (hpq : w.dist p q < r) (ha : w.Accepted p q) :
    w.Kept (w.fresh d n) (w.knn (w.fresh d n) k') k i j := by
  have htrue := hs.knn_true (w.fresh d n) k'
  have key : ∀ i j p q, (w.fresh d n)[i]? = some p → (w.fresh d n)[j]? = some q → i ≠ j → w.dist p q < r →
      Listed (w.knn (w.fresh d n) k') i j ∧ ¬ Behind (w.knn (w.fresh d n) k') k i j := by
    intro i j p q hp hq hij hpq
    have hin := (fresh_get hdraw hp).1
    obtain ⟨row, hrow⟩ : ∃ row, (w.knn (w.fresh d n) k')[i]? = some row :=
      ⟨_, List.getElem?_eq_getElem (by rw [htrue.1, fresh_length]; exact hin)⟩
    have hlen := hx.full i row hrow
    rw [fresh_length] at hlen
    constructor
    · refine ⟨row, hrow, ?_⟩
      by_contra hno
      push Not at hno
      have h1 := hx.near i j row p q hrow hp hq hij.symm hno
      have := few_entries hs hdist hdraw hx hrow (List.Sublist.refl row) fun e he => lt_of_le_of_lt (h1 e he) hpq
      exact hfew ⟨i, hin, by omega⟩
    · rintro ⟨row', hrow', x, hxm⟩
      rw [hrow] at hrow'
      cases hrow'
      have hxd : x = w.dist p q := by
        obtain ⟨p', q', hp', hq', hd⟩ := htrue.2 i row hrow (j, x) (List.mem_of_mem_drop hxm)
        rw [hp] at hp'; cases hp'
        dsimp only at hq' hd
        rw [hq] at hq'; cases hq'
        rw [hd]
      have hpair := hsort row (List.mem_of_getElem? hrow)
      rw [← List.take_append_drop k row, List.pairwise_append] at hpair
      have := few_entries hs hdist hdraw hx hrow (List.take_sublist k row) fun e he =>
        lt_of_le_of_lt (hpair.2.2 e he _ hxm) (by rw [hxd]; exact hpq)
      rw [List.length_take] at this
      exact hfew ⟨i, hin, by omega⟩
  obtain ⟨h1, h2⟩ := key i j p q hp hq hij hpq
  obtain ⟨h3, h4⟩ := key j i q p hq hp hij.symm (by rw [hs.dist_symm]; exact hpq)
  refine ⟨?_, h2, h4⟩
  rcases ha with ha | ha
  · exact Or.inl ⟨(accepts_iff _ _ _ _).2 ⟨p, q, hp, hq, ha⟩, h1⟩
  · exact Or.inr ⟨(accepts_iff _ _ _ _).2 ⟨q, p, hq, hp, ha⟩, h3⟩

end Verif.Net
