import Mathlib.Algebra.Order.Ring.Rat
import Mathlib.Algebra.Order.Group.Abs
import Mathlib.Algebra.Order.Group.Unbundled.Abs
import Mathlib.Data.List.Sort
import Verif.Lemmas.Dijkstra
import Verif.Lemmas.PrmQuery

/-! Example worlds: points on a line with exact nearest neighbours and the reference shortest-path search. -/

namespace Verif.Prm

/-- Exact k nearest neighbours (the sample itself left out), sorted by distance. -/
def exactKnn {P K : Type*} [LinearOrder K] (dist : P → P → K) (S : List P) (k : ℕ) : Table K :=
  S.zipIdx.map fun a =>
    (((S.zipIdx.filter fun b => decide (b.2 ≠ a.2)).map fun b => (b.2, dist a.1 b.1)).insertionSort
      (fun x y : ℕ × K => x.2 ≤ y.2)).take k

theorem exactKnn_true {P K : Type*} [LinearOrder K] [AddCommGroup K] (w : World P K) (S : List P) (k : ℕ) :
    w.TrueTable S (exactKnn w.dist S k) := by
  refine ⟨by simp [exactKnn], ?_⟩
  intro i row hrow c hc
  unfold exactKnn at hrow
  rw [List.getElem?_map, List.getElem?_zipIdx] at hrow
  simp only [Option.map_map, Option.map_eq_some_iff, Function.comp, Nat.zero_add] at hrow
  obtain ⟨p, hp, rfl⟩ := hrow
  have h1 := List.mem_of_mem_take hc
  rw [List.mem_insertionSort, List.mem_map] at h1
  obtain ⟨⟨q, j⟩, hb, rfl⟩ := h1
  rw [List.mem_filter, mem_zipIdx'] at hb
  exact ⟨p, q, hp, hb.1, rfl⟩

theorem exactKnn_exact {P K : Type*} [LinearOrder K] (dist : P → P → K) (S : List P) (k i j : ℕ) (row : List (ℕ × K)) (p q : P)
    (hrow : (exactKnn dist S k)[i]? = some row) (hp : S[i]? = some p) (hq : S[j]? = some q) (hij : j ≠ i)
    (hno : ∀ d, (j, d) ∉ row) : ∀ c ∈ row, c.2 ≤ dist p q := by
  unfold exactKnn at hrow
  rw [List.getElem?_map, List.getElem?_zipIdx, hp] at hrow
  simp only [Option.map_some, Option.some.injEq, Nat.zero_add] at hrow
  subst hrow
  intro c hc
  have hs := List.pairwise_insertionSort (fun x y : ℕ × K => x.2 ≤ y.2)
    ((S.zipIdx.filter fun b => decide (b.2 ≠ i)).map fun b => (b.2, dist p b.1))
  have hmem : (j, dist p q) ∈ ((S.zipIdx.filter fun b => decide (b.2 ≠ i)).map fun b => (b.2, dist p b.1)).insertionSort
      (fun x y : ℕ × K => x.2 ≤ y.2) := by
    rw [List.mem_insertionSort, List.mem_map]
    exact ⟨(q, j), by rw [List.mem_filter, mem_zipIdx']; exact ⟨hq, by simpa using hij⟩, rfl⟩
  generalize ((S.zipIdx.filter fun b => decide (b.2 ≠ i)).map fun b => (b.2, dist p b.1)).insertionSort
      (fun x y : ℕ × K => x.2 ≤ y.2) = L at *
  rw [← List.take_append_drop k L, List.pairwise_append] at hs
  rw [← List.take_append_drop k L, List.mem_append] at hmem
  exact hs.2.2 c hc _ (hmem.resolve_left (hno _))

theorem exactKnn_ids {P K : Type*} [LinearOrder K] (dist : P → P → K) (S : List P) (i : ℕ) (p : P) :
    ((((S.zipIdx.filter fun b => decide (b.2 ≠ i)).map fun b => (b.2, dist p b.1)).insertionSort
      (fun x y : ℕ × K => x.2 ≤ y.2)).map (·.1)).Perm ((List.range S.length).erase i) := by
  refine ((List.perm_insertionSort _ _).map _).trans ?_
  rw [List.map_map, List.Nodup.erase_eq_filter List.nodup_range]
  have h : ((fun c : ℕ × K => c.1) ∘ fun b : P × ℕ => (b.2, dist p b.1)) = fun b => b.2 := rfl
  rw [h, show List.range S.length = S.zipIdx.map (·.2) by rw [List.zipIdx_map_snd, List.range_eq_range'], List.filter_map]
  refine List.Perm.of_eq ?_
  congr 1
  apply List.filter_congr
  intro b _
  by_cases hb : b.2 = i <;> simp [hb]

theorem exactKnn_table {P K : Type*} [LinearOrder K] [AddCommGroup K] (w : World P K) (S : List P) (k : ℕ) :
    w.ExactTable S k (exactKnn w.dist S k) := by
  have hrow : ∀ (i : ℕ) (row : List (ℕ × K)), (exactKnn w.dist S k)[i]? = some row → ∃ p, S[i]? = some p ∧
      row = (((S.zipIdx.filter fun b => decide (b.2 ≠ i)).map fun b => (b.2, w.dist p b.1)).insertionSort
        (fun x y : ℕ × K => x.2 ≤ y.2)).take k := by
    intro i row h
    unfold exactKnn at h
    rw [List.getElem?_map, List.getElem?_zipIdx] at h
    simp only [Option.map_map, Option.map_eq_some_iff, Function.comp, Nat.zero_add] at h
    obtain ⟨p, hp, rfl⟩ := h
    exact ⟨p, hp, rfl⟩
  refine ⟨fun i j row p q => exactKnn_exact w.dist S k i j row p q, ?_, ?_⟩
  · intro i row h
    obtain ⟨p, hp, rfl⟩ := hrow i row h
    have h1 := (exactKnn_ids w.dist S i p).length_eq
    rw [List.length_map, List.length_erase_of_mem (List.mem_range.2 (lt_of_some hp)), List.length_range] at h1
    rw [List.length_take, h1]
  · intro i row h
    obtain ⟨p, hp, rfl⟩ := hrow i row h
    have h1 := exactKnn_ids w.dist S i p
    refine ⟨?_, ?_⟩
    · rw [List.map_take]
      exact (h1.nodup_iff.2 (List.nodup_range.erase i)).sublist (List.take_sublist _ _)
    · intro c hc
      have h2 := h1.mem_iff.1 (List.mem_map.2 ⟨c, List.mem_of_mem_take hc, rfl⟩)
      exact ((List.nodup_range).mem_erase_iff.1 h2).1

/-- Points on the rational line; checker and sampler are free. -/
def lineWorld (check : ℚ → ℚ → Bool) (draw : ℕ → ℚ) : World ℚ ℚ where
  check := check
  draw := draw
  dist p q := |p - q|
  knn := exactKnn fun p q => |p - q|
  knnUpdate S new k := exactKnn (fun p q => |p - q|) (S ++ new) k
  shortest := refShortest
  visits E _ := E

theorem lineWorld_sound (check : ℚ → ℚ → Bool) (draw : ℕ → ℚ) : (lineWorld check draw).Sound where
  dist_symm p q := abs_sub_comm p q
  dist_nonneg p q := abs_nonneg (p - q)
  dijkstra := refShortest_correct
  knn_true S k := exactKnn_true (lineWorld check draw) S k
  knnUpdate_true S new k := exactKnn_true (lineWorld check draw) (S ++ new) k

theorem lineWorld_visits (check : ℚ → ℚ → Bool) (draw : ℕ → ℚ) : (lineWorld check draw).VisitsAll :=
  fun _ _ => ⟨fun _ he => he, fun _ he _ => he⟩

theorem lineWorld_exact (check : ℚ → ℚ → Bool) (draw : ℕ → ℚ) : (lineWorld check draw).ExactKnn :=
  fun S k i j row p q => exactKnn_exact (fun p q : ℚ => |p - q|) S k i j row p q

theorem lineWorld_table (check : ℚ → ℚ → Bool) (draw : ℕ → ℚ) (S : List ℚ) (k : ℕ) :
    (lineWorld check draw).ExactTable S k ((lineWorld check draw).knn S k) := exactKnn_table (lineWorld check draw) S k

end Verif.Prm
