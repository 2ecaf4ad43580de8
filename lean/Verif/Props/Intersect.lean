import Mathlib.Tactic.LinearCombination
import Mathlib.Tactic.FieldSimp
import Mathlib.Tactic.NormNum
import Mathlib.Tactic.Linarith
import Verif.Model.Util
import Verif.Spec.Geometry

/-!
Properties C12 and C13: the segment intersection test.
-/

set_option linter.unusedSectionVars false

namespace Verif.Props

open Verif.Util Verif.Spec

variable {K : Type*} [Field K] [LinearOrder K] [IsStrictOrderedRing K]

/-- The test in terms of the three cross products, without division by zero. -/
theorem detectIntersect_iff (a b c d : K × K) :
    detectIntersect a b c d = true ↔
      (cross2d (b - a) (d - c) = 0 ∧ cross2d (c - a) (b - a) = 0) ∨
      (cross2d (b - a) (d - c) ≠ 0 ∧
        (0 ≤ cross2d (c - a) (d - c) / cross2d (b - a) (d - c) ∧ cross2d (c - a) (d - c) / cross2d (b - a) (d - c) ≤ 1) ∧
        (0 ≤ cross2d (c - a) (b - a) / cross2d (b - a) (d - c) ∧ cross2d (c - a) (b - a) / cross2d (b - a) (d - c) ≤ 1)) := by
  unfold detectIntersect
  by_cases h : cross2d (b - a) (d - c) = 0
  · simp [h]
  · simp [h]
    tauto

theorem sharePoint_iff (a b c d : K × K) :
    SharePoint K a b c d ↔ ∃ s u : K, 0 ≤ s ∧ s ≤ 1 ∧ 0 ≤ u ∧ u ≤ 1 ∧
      a.1 + s * (b.1 - a.1) = c.1 + u * (d.1 - c.1) ∧ a.2 + s * (b.2 - a.2) = c.2 + u * (d.2 - c.2) := by
  unfold SharePoint
  simp only [segment_eq_image', Set.mem_image, Set.mem_Icc]
  constructor
  · rintro ⟨p, ⟨s, ⟨h1, h2⟩, rfl⟩, u, ⟨h3, h4⟩, h⟩
    have e1 := congrArg Prod.fst h
    have e2 := congrArg Prod.snd h
    simp at e1 e2
    exact ⟨s, u, h1, h2, h3, h4, e1.symm, e2.symm⟩
  · rintro ⟨s, u, h1, h2, h3, h4, e1, e2⟩
    refine ⟨_, ⟨s, ⟨h1, h2⟩, rfl⟩, u, ⟨h3, h4⟩, ?_⟩
    ext
    · simp; exact e1.symm
    · simp; exact e2.symm

/-- C12. Two segments with a common point are always reported as intersecting. -/
theorem C12_no_miss (a b c d : K × K) (h : SharePoint K a b c d) : detectIntersect a b c d = true := by
  rw [sharePoint_iff] at h
  obtain ⟨s, u, hs0, hs1, hu0, hu1, e1, e2⟩ := h
  rw [detectIntersect_iff]
  by_cases hx : cross2d (b - a) (d - c) = 0
  · left
    refine ⟨hx, ?_⟩
    simp only [cross2d, Prod.fst_sub, Prod.snd_sub] at hx ⊢
    linear_combination (-(b.2 - a.2)) * e1 + (b.1 - a.1) * e2 + u * hx
  · right
    have k1 : cross2d (c - a) (d - c) / cross2d (b - a) (d - c) = s := by
      rw [div_eq_iff hx]
      simp only [cross2d, Prod.fst_sub, Prod.snd_sub]
      linear_combination (-(d.2 - c.2)) * e1 + (d.1 - c.1) * e2
    have k2 : cross2d (c - a) (b - a) / cross2d (b - a) (d - c) = u := by
      rw [div_eq_iff hx]
      simp only [cross2d, Prod.fst_sub, Prod.snd_sub]
      linear_combination (-(b.2 - a.2)) * e1 + (b.1 - a.1) * e2
    rw [k1, k2]
    exact ⟨hx, ⟨hs0, hs1⟩, hu0, hu1⟩

/-- C12 is not vacuous: the diagonals of a square. -/
example : SharePoint ℚ (0, 0) (1, 1) (0, 1) (1, 0) :=
  (sharePoint_iff _ _ _ _).2 ⟨1 / 2, 1 / 2, by norm_num, by norm_num, by norm_num, by norm_num, by norm_num, by norm_num⟩

theorem parallel_iff (a b c d : K × K) : Parallel a b c d ↔ cross2d (b - a) (d - c) = 0 := by
  simp only [Parallel, cross2d, Prod.fst_sub, Prod.snd_sub, sub_eq_zero]

/-- C13. For non-parallel segments the test is exact. -/
theorem C13_exact (a b c d : K × K) (h : ¬ Parallel a b c d) :
    detectIntersect a b c d = true ↔ SharePoint K a b c d := by
  refine ⟨fun hd => ?_, C12_no_miss a b c d⟩
  rw [parallel_iff] at h
  rw [detectIntersect_iff] at hd
  rcases hd with ⟨h0, -⟩ | ⟨-, ⟨h1, h2⟩, h3, h4⟩
  · exact absurd h0 h
  · rw [sharePoint_iff]
    refine ⟨_, _, h1, h2, h3, h4, ?_, ?_⟩
    · field_simp
      simp only [cross2d, Prod.fst_sub, Prod.snd_sub]
      ring
    · field_simp
      simp only [cross2d, Prod.fst_sub, Prod.snd_sub]
      ring

/-- Parallel segments: the answer is yes exactly if the second segment's first endpoint is on the line of the first. -/
theorem C13_parallel (a b c d : K × K) (h : Parallel a b c d) :
    detectIntersect a b c d = true ↔ (c.1 - a.1) * (b.2 - a.2) = (c.2 - a.2) * (b.1 - a.1) := by
  rw [parallel_iff] at h
  rw [detectIntersect_iff]
  simp only [h, true_and, ne_eq, not_true_eq_false, false_and, or_false]
  simp only [cross2d, Prod.fst_sub, Prod.snd_sub, sub_eq_zero]

theorem parallel_swap1 (a b c d : K × K) : Parallel b a c d ↔ Parallel a b c d := by
  unfold Parallel
  constructor <;> intro h <;> linear_combination -h

theorem parallel_swap2 (a b c d : K × K) : Parallel a b d c ↔ Parallel a b c d := by
  unfold Parallel
  constructor <;> intro h <;> linear_combination -h

theorem parallel_comm (a b c d : K × K) : Parallel c d a b ↔ Parallel a b c d := by
  unfold Parallel
  constructor <;> intro h <;> linear_combination -h

theorem share_swap1 (a b c d : K × K) : SharePoint K b a c d ↔ SharePoint K a b c d := by
  unfold SharePoint; rw [segment_symm]

theorem share_swap2 (a b c d : K × K) : SharePoint K a b d c ↔ SharePoint K a b c d := by
  unfold SharePoint; rw [segment_symm K d c]

theorem share_comm (a b c d : K × K) : SharePoint K c d a b ↔ SharePoint K a b c d := by
  unfold SharePoint; constructor <;> rintro ⟨p, h1, h2⟩ <;> exact ⟨p, h2, h1⟩

/-- C13. Exchanging the endpoints of the first segment does not change the answer. -/
theorem C13_swap_first (a b c d : K × K) : detectIntersect b a c d = detectIntersect a b c d := by
  rw [Bool.eq_iff_iff]
  by_cases h : Parallel a b c d
  · rw [C13_parallel _ _ _ _ ((parallel_swap1 a b c d).2 h), C13_parallel _ _ _ _ h]
    constructor <;> intro e <;> linear_combination -e
  · rw [C13_exact _ _ _ _ (mt (parallel_swap1 a b c d).1 h), C13_exact _ _ _ _ h, share_swap1]

/-- C13. Exchanging the endpoints of the second segment does not change the answer. -/
theorem C13_swap_second (a b c d : K × K) : detectIntersect a b d c = detectIntersect a b c d := by
  rw [Bool.eq_iff_iff]
  by_cases h : Parallel a b c d
  · rw [C13_parallel _ _ _ _ ((parallel_swap2 a b c d).2 h), C13_parallel _ _ _ _ h]
    unfold Parallel at h
    constructor <;> intro e
    · linear_combination e + h
    · linear_combination e - h
  · rw [C13_exact _ _ _ _ (mt (parallel_swap2 a b c d).1 h), C13_exact _ _ _ _ h, share_swap2]

/-- If `v` is parallel to `w ≠ 0` and `w` is parallel to `u` then `v` is parallel to `u`. -/
theorem parallel_trans {v1 v2 w1 w2 u1 u2 : K} (hw : w1 ≠ 0 ∨ w2 ≠ 0) (h1 : v1 * w2 = v2 * w1) (h2 : w1 * u2 = w2 * u1) :
    v1 * u2 = v2 * u1 := by
  rcases hw with hw | hw
  · apply mul_left_cancel₀ hw
    linear_combination v1 * h2 + u1 * h1
  · apply mul_left_cancel₀ hw
    linear_combination v2 * h2 + u2 * h1

/-- C13. Exchanging the two segments does not change the answer if neither is a single point. -/
theorem C13_swap_segments (a b c d : K × K) (hab : a ≠ b) (hcd : c ≠ d) :
    detectIntersect c d a b = detectIntersect a b c d := by
  have nz : ∀ {p q : K × K}, p ≠ q → q.1 - p.1 ≠ 0 ∨ q.2 - p.2 ≠ 0 := by
    intro p q hpq
    by_contra hcon
    push Not at hcon
    exact hpq (Prod.ext (sub_eq_zero.1 hcon.1).symm (sub_eq_zero.1 hcon.2).symm)
  rw [Bool.eq_iff_iff]
  by_cases h : Parallel a b c d
  · have h' := (parallel_comm a b c d).2 h
    rw [C13_parallel _ _ _ _ h', C13_parallel _ _ _ _ h]
    unfold Parallel at h h'
    constructor
    · intro e
      have := parallel_trans (nz hcd) e h'
      linear_combination -this
    · intro e
      have := parallel_trans (nz hab) e h
      linear_combination -this
  · rw [C13_exact _ _ _ _ (mt (parallel_comm a b c d).1 h), C13_exact _ _ _ _ h, share_comm]

/-- C13 needs its hypotheses: disjoint collinear segments are reported as intersecting, -/
theorem C13_collinear_false_positive :
    detectIntersect (K := ℚ) (0, 0) (1, 0) (2, 0) (3, 0) = true ∧ ¬ SharePoint ℚ (0, 0) (1, 0) (2, 0) (3, 0) := by
  constructor
  · rw [C13_parallel _ _ _ _ (by norm_num [Parallel])]; norm_num
  · rw [sharePoint_iff]
    rintro ⟨s, u, h1, h2, h3, h4, e, -⟩
    norm_num at e
    linarith

/-- and a single point tested against a segment it is not on depends on the argument order. -/
theorem C13_degenerate_asymmetric :
    detectIntersect (K := ℚ) (5, 5) (5, 5) (0, 0) (1, 0) = true ∧
    detectIntersect (K := ℚ) (0, 0) (1, 0) (5, 5) (5, 5) = false := by
  constructor
  · rw [C13_parallel _ _ _ _ (by norm_num [Parallel])]
  · rw [← Bool.not_eq_true, C13_parallel _ _ _ _ (by norm_num [Parallel])]; norm_num

/-- C13 is not vacuous: non-parallel segments of both kinds. -/
example : ¬ Parallel (K := ℚ) (0, 0) (1, 1) (0, 1) (1, 0) ∧ ¬ Parallel (K := ℚ) (0, 0) (1, 0) (5, 1) (5, 2) := by
  constructor <;> norm_num [Parallel]

end Verif.Props
