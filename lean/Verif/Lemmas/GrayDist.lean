import Mathlib.Tactic.Linarith
import Mathlib.Tactic.FieldSimp
import Mathlib.Tactic.Ring
import Verif.Lemmas.Gray

/-!
`_distance_to_wall_in_cube` in terms of walls.
-/

set_option linter.unusedSectionVars false

namespace Verif.Gray

open Verif.Spec

variable {K : Type*} [Field K] [LinearOrder K] [IsStrictOrderedRing K] {n : ℕ}

theorem unblock_fold (c : Fin (n + 1) → ℤ) (l : List (Fin (n + 1) → ℤ)) (w : (Fin (n + 1) → Bool) × (Fin (n + 1) → Bool))
    (i : Fin (n + 1)) :
    ((l.foldl (fun w nb => unblockWall c nb w) w).1 i = true ↔ w.1 i = true ∨ ∃ nb ∈ l, nb i < c i) ∧
    ((l.foldl (fun w nb => unblockWall c nb w) w).2 i = true ↔ w.2 i = true ∨ ∃ nb ∈ l, c i < nb i) := by
  induction l generalizing w with
  | nil => simp
  | cons a l ih =>
    rw [List.foldl_cons]
    have := ih (unblockWall c a w)
    rw [this.1, this.2]
    unfold unblockWall
    simp only [Bool.or_eq_true, decide_eq_true_eq, List.mem_cons, exists_eq_or_imp]
    constructor
    · rw [or_assoc]; refine or_congr Iff.rfl (or_congr ?_ Iff.rfl); omega
    · rw [or_assoc]; refine or_congr Iff.rfl (or_congr ?_ Iff.rfl); omega

theorem neighbours_list {l : List (Fin (n + 1) → ℤ)} (hl : l.Nodup) {k : ℕ} {c : Fin (n + 1) → ℤ} (hc : l[k]? = some c)
    (nb : Fin (n + 1) → ℤ) :
    nb ∈ (if k = 0 then [] else (l[k - 1]?).toList) ++ (l[k + 1]?).toList ↔ Neighbour l c nb := by
  have idx : ∀ k', l[k']? = some c → k' = k := by
    intro k' h'
    rw [List.getElem?_eq_some_iff] at hc h'
    obtain ⟨h1, h2⟩ := hc
    obtain ⟨h3, h4⟩ := h'
    exact (List.Nodup.getElem_inj_iff hl).1 (h4.trans h2.symm)
  rw [List.mem_append]
  constructor
  · rintro (h | h)
    · right
      by_cases hk : k = 0
      · simp [hk] at h
      · rw [if_neg hk, Option.mem_toList] at h
        exact ⟨k - 1, h, by rw [Nat.sub_add_cancel (by omega)]; exact hc⟩
    · left
      rw [Option.mem_toList] at h
      exact ⟨k, hc, h⟩
  · rintro (⟨k', h1, h2⟩ | ⟨k', h1, h2⟩)
    · right
      rw [idx k' h1] at h2
      rw [Option.mem_toList]; exact h2
    · left
      have := idx _ h2
      rw [if_neg (by omega), Option.mem_toList, ← this]
      exact h1

theorem map_sub_nonneg (d : WithTop K) (th : K) : 0 ≤ d.map (· - th) ↔ (th : WithTop K) ≤ d := by
  cases d with
  | top => simp
  | coe d =>
    rw [WithTop.map_coe]
    norm_cast
    exact sub_nonneg

theorem ite_top_le (b : Bool) (th v : K) : (th : WithTop K) ≤ (if b = true then ⊤ else (v : WithTop K)) ↔ b = true ∨ th ≤ v := by
  cases b <;> simp

/-- Neighbours in a chain of adjacent cubes. -/
theorem neighbour_adj {l : List (Fin (n + 1) → ℤ)} (hch : l.IsChain CubeAdj) {c nb} (h : Neighbour l c nb) : CubeAdj c nb := by
  have key : ∀ {a b}, Consecutive l a b → CubeAdj a b := by
    rintro a b ⟨k, h1, h2⟩
    rw [List.isChain_iff_getElem] at hch
    rw [List.getElem?_eq_some_iff] at h1 h2
    obtain ⟨h3, h4⟩ := h1
    obtain ⟨h5, h6⟩ := h2
    have := hch k h5
    rw [h4, h6] at this
    exact this
  rcases h with h | h
  · exact key h
  · exact cubeAdj_symm (key h)

/-- The wall distance is nonnegative exactly if the point is clear of the cube's walls. -/
theorem dist_nonneg_iff {e : GrayCodeWalls K n} (hl : e.cubes.Nodup) (hch : e.cubes.IsChain CubeAdj) {c : Fin (n + 1) → ℤ}
    (hc : c ∈ e.cubes) (x : Fin (n + 1) → K) :
    ∃ d, distanceToWallInCube e c x = .ok d ∧ (0 ≤ d ↔ ClearOfWalls e.cubes e.thickness c x) := by
  obtain ⟨k, hk⟩ := List.getElem?_of_mem hc
  unfold distanceToWallInCube
  rw [successors_eq hl hk, predecessors_eq hl hk]
  refine ⟨_, rfl, ?_⟩
  rw [map_sub_nonneg, le_min_iff, Finset.le_inf_iff, Finset.le_inf_iff]
  simp only [Finset.mem_univ, true_implies, ite_top_le, ← forall_and]
  unfold ClearOfWalls
  refine forall_congr' fun i => ?_
  rw [(unblock_fold c _ _ i).1, (unblock_fold c _ _ i).2]
  simp only [Bool.false_eq_true, false_or]
  have lo : (∃ nb ∈ (if k = 0 then [] else (e.cubes[k - 1]?).toList) ++ (e.cubes[k + 1]?).toList, nb i < c i) ↔
      ∃ nb, Neighbour e.cubes c nb ∧ nb i = c i - 1 := by
    refine exists_congr fun nb => ?_
    rw [neighbours_list hl hk]
    refine and_congr_right fun h => ?_
    obtain ⟨j, h1, h2⟩ := neighbour_adj hch h
    rcases eq_or_ne i j with rfl | hij
    · omega
    · have := h2 i hij; omega
  have hi : (∃ nb ∈ (if k = 0 then [] else (e.cubes[k - 1]?).toList) ++ (e.cubes[k + 1]?).toList, c i < nb i) ↔
      ∃ nb, Neighbour e.cubes c nb ∧ nb i = c i + 1 := by
    refine exists_congr fun nb => ?_
    rw [neighbours_list hl hk]
    refine and_congr_right fun h => ?_
    obtain ⟨j, h1, h2⟩ := neighbour_adj hch h
    rcases eq_or_ne i j with rfl | hij
    · omega
    · have := h2 i hij; omega
  rw [lo, hi]
  constructor
  · rintro ⟨h1, h2⟩
    refine ⟨h1.symm.imp_left fun h => by linarith, h2.symm.imp_left fun h => by linarith⟩
  · rintro ⟨h1, h2⟩
    refine ⟨h1.symm.imp_right fun h => by linarith, h2.symm.imp_right fun h => by linarith⟩

theorem init_ok {length : ℕ} {th : K} {e : GrayCodeWalls K n} (h : GrayCodeWalls.init n length th = .ok e) :
    1 ≤ n ∧ 0 < length ∧ e.cubes = order n length ∧ e.thickness = th ∧ e.length = length ∧
    e.cubeCenterLengths = (fun _ => 1 - 2 * th) ∧ e.openWallLengths = Fin.cons th (fun _ => 1 - 2 * th) ∧
    e.nNodes = length * 2 ^ n ∧ e.curveArclength = (length * 2 ^ n : ℕ) - 1 := by
  unfold GrayCodeWalls.init at h
  split at h
  · cases h
  · split at h
    · cases h
    · next h1 h2 =>
      cases h
      refine ⟨by omega, by omega, rfl, rfl, rfl, by simp, by simp, order_length _ _, ?_⟩
      simp only [order_length]
      ring

end Verif.Gray
