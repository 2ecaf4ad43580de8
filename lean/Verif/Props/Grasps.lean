import Verif.Model.Grasps
import Mathlib.Tactic.Linarith
import Mathlib.Tactic.Ring
import Mathlib.Tactic.FinCases
import Mathlib.LinearAlgebra.Matrix.NonsingularInverse

/-! Grasps from above: C101. -/

namespace Verif.Props

open Verif.Grasps

theorem shift_mul (t : V) (a : Frame) : (Frame.shift t).mul a = ⟨a.R, a.t + t⟩ := by
  simp [Frame.shift, Frame.mul]

/-- The grasp with yaw `a`, `d` above the centre. -/
theorem grasp_eq (center : V) (d a : ℝ) :
    ((((Frame.unit.mul (.shift ![0, 0, d])).mul (.yaw a)).mul (.pitch Real.pi)).mul (.shift (Frame.unit.t - center))).mul .unit =
      ⟨!![-Real.cos a, -Real.sin a, 0; -Real.sin a, Real.cos a, 0; 0, 0, -1], ![Real.cos a * center 0 + Real.sin a * center 1, Real.sin a * center 0 - Real.cos a * center 1, center 2 + d]⟩ := by
  ext i j
  · fin_cases i <;> fin_cases j <;> simp [Frame.unit, Frame.mul, Frame.shift, Frame.yaw, Frame.pitch]
  · fin_cases i <;> simp [Frame.unit, Frame.mul, Frame.shift, Frame.yaw, Frame.pitch, Matrix.mulVec, dotProduct, Fin.sum_univ_succ] <;> ring

theorem grasp_inv (center : V) (d a : ℝ) :
    (⟨!![-Real.cos a, -Real.sin a, 0; -Real.sin a, Real.cos a, 0; 0, 0, -1], ![Real.cos a * center 0 + Real.sin a * center 1, Real.sin a * center 0 - Real.cos a * center 1, center 2 + d]⟩ : Frame).inv =
      ⟨!![-Real.cos a, -Real.sin a, 0; -Real.sin a, Real.cos a, 0; 0, 0, -1], center + ![0, 0, d]⟩ := by
  have h1 := Real.sin_sq_add_cos_sq a
  ext i j
  · fin_cases i <;> fin_cases j <;> simp [Frame.inv]
  · fin_cases i <;> simp [Frame.inv, Matrix.mulVec, dotProduct, Fin.sum_univ_succ]
    · linear_combination (center 0) * h1
    · linear_combination (center 1) * h1

theorem mem_topGrasps {center : V} {w l h : ℝ} {under : Bool} {maxWidth gl : ℝ} {g : Frame} (hg : g ∈ topGrasps center w l h under .unit .unit maxWidth gl) :
    ∃ a : ℝ, g = ⟨!![-Real.cos a, -Real.sin a, 0; -Real.sin a, Real.cos a, 0; 0, 0, -1],
      ![Real.cos a * center 0 + Real.sin a * center 1, Real.sin a * center 0 - Real.cos a * center 1, center 2 + (h / 2 - gl)]⟩ := by
  simp only [topGrasps, List.mem_append] at hg
  rcases hg with hg | hg
  · split at hg
    · obtain ⟨i, -, rfl⟩ := List.mem_map.1 hg
      exact ⟨_, grasp_eq _ _ _⟩
    · simp at hg
  · split at hg
    · obtain ⟨i, -, rfl⟩ := List.mem_map.1 hg
      exact ⟨_, grasp_eq _ _ _⟩
    · simp at hg

/-- C101, poses: the poses made from an angle are rotations around the third and the second axis, products and inverses of rigid poses are rigid, and the tool's pose is the one
from which the grasp leads to the body, for every rigid grasp. -/
theorem C101_rigid (a : ℝ) (t : V) (X Y : Frame) (hX : X.R * X.R.transpose = 1) (hY : Y.R * Y.R.transpose = 1) :
    ((Frame.yaw a).R * (Frame.yaw a).R.transpose = 1 ∧ (Frame.yaw a).R.mulVec ![0, 0, 1] = ![0, 0, 1] ∧ (Frame.yaw a).R.mulVec ![1, 0, 0] = ![Real.cos a, Real.sin a, 0]) ∧
    ((Frame.pitch a).R * (Frame.pitch a).R.transpose = 1 ∧ (Frame.pitch a).R.mulVec ![0, 1, 0] = ![0, 1, 0] ∧
      (Frame.pitch a).R.mulVec ![0, 0, 1] = ![Real.sin a, 0, Real.cos a]) ∧
    ((X.mul Y).R * (X.mul Y).R.transpose = 1 ∧ X.inv.R * X.inv.R.transpose = 1) ∧
    (X.mul X.inv = .unit ∧ X.inv.mul X = .unit ∧ (endEffector Y X).mul X = Y) ∧
    ((X.mul Y).R.mulVec t + (X.mul Y).t = X.R.mulVec (Y.R.mulVec t + Y.t) + X.t) := by
  have hX' : X.R.transpose * X.R = 1 := mul_eq_one_comm.1 hX
  have inv1 : X.mul X.inv = .unit := by
    refine Frame.ext hX ?_
    simp only [Frame.mul, Frame.inv, Frame.unit, Matrix.mulVec_neg, Matrix.mulVec_mulVec, hX, Matrix.one_mulVec, neg_add_cancel]
  have inv2 : X.inv.mul X = .unit := by
    refine Frame.ext hX' ?_
    simp only [Frame.mul, Frame.inv, Frame.unit, add_neg_cancel]
  have h1 := Real.sin_sq_add_cos_sq a
  refine ⟨⟨?_, ?_, ?_⟩, ⟨?_, ?_, ?_⟩, ⟨?_, ?_⟩, ⟨inv1, inv2, ?_⟩, ?_⟩
  · ext i j
    fin_cases i <;> fin_cases j <;> simp [Frame.yaw, Matrix.mul_apply, Fin.sum_univ_succ] <;> linarith
  · ext i
    fin_cases i <;> simp [Frame.yaw, Matrix.mulVec, dotProduct, Fin.sum_univ_succ]
  · ext i
    fin_cases i <;> simp [Frame.yaw, Matrix.mulVec, dotProduct, Fin.sum_univ_succ]
  · ext i j
    fin_cases i <;> fin_cases j <;> simp [Frame.pitch, Matrix.mul_apply, Fin.sum_univ_succ] <;> linarith
  · ext i
    fin_cases i <;> simp [Frame.pitch, Matrix.mulVec, dotProduct, Fin.sum_univ_succ]
  · ext i
    fin_cases i <;> simp [Frame.pitch, Matrix.mulVec, dotProduct, Fin.sum_univ_succ]
  · simp only [Frame.mul, Matrix.transpose_mul]
    rw [Matrix.mul_assoc, ← Matrix.mul_assoc Y.R, hY, Matrix.one_mul, hX]
  · simp only [Frame.inv, Matrix.transpose_transpose]
    exact hX'
  · have assoc : (Y.mul X.inv).mul X = Y.mul (X.inv.mul X) := by
      simp only [Frame.mul, Matrix.mul_assoc, Matrix.mulVec_add, Matrix.mulVec_mulVec, add_assoc]
    unfold endEffector
    rw [assoc, inv2]
    simp [Frame.mul, Frame.unit]
  · simp only [Frame.mul, Matrix.mulVec_add, Matrix.mulVec_mulVec, add_assoc]

/-- C101, position: for a body at any pose, the tool is over the centre of the body, `grasp_length` below the top of its box, and points down, against the upward direction of the body. -/
theorem C101_top {center : V} {w l h : ℝ} {under : Bool} {maxWidth gl : ℝ} {g : Frame} (hg : g ∈ topGrasps center w l h under .unit .unit maxWidth gl) (X : Frame) :
    (endEffector X g).t = X.R.mulVec (center + ![0, 0, h / 2 - gl]) + X.t ∧ (endEffector X g).R.mulVec ![0, 0, 1] = X.R.mulVec ![0, 0, -1] := by
  obtain ⟨a, rfl⟩ := mem_topGrasps hg
  simp only [endEffector, Frame.mul, grasp_inv]
  refine ⟨trivial, ?_⟩
  rw [← Matrix.mulVec_mulVec]
  congr 1
  ext i
  fin_cases i <;> simp [Matrix.mulVec, dotProduct, Fin.sum_univ_succ]

/-- C101, held: the body that moves with the tool is where it was grasped. -/
theorem C101_held {center : V} {w l h : ℝ} {under : Bool} {maxWidth gl : ℝ} {g : Frame} (hg : g ∈ topGrasps center w l h under .unit .unit maxWidth gl) (X : Frame) :
    (endEffector X g).mul g = X := by
  obtain ⟨a, rfl⟩ := mem_topGrasps hg
  have h1 := Real.sin_sq_add_cos_sq a
  simp only [endEffector, grasp_inv, Frame.mul]
  have e : (!![-Real.cos a, -Real.sin a, 0; -Real.sin a, Real.cos a, 0; 0, 0, -1] : Matrix (Fin 3) (Fin 3) ℝ) * !![-Real.cos a, -Real.sin a, 0; -Real.sin a, Real.cos a, 0; 0, 0, -1] = 1 := by
    ext i j
    fin_cases i <;> fin_cases j <;> simp [Matrix.mul_apply, Fin.sum_univ_succ] <;> first | ring1 | linear_combination h1
  refine Frame.ext ?_ ?_
  · simp only
    rw [Matrix.mul_assoc, e, Matrix.mul_one]
  · simp only
    rw [← Matrix.mulVec_mulVec, ← add_assoc, ← Matrix.mulVec_add]
    have : (!![-Real.cos a, -Real.sin a, 0; -Real.sin a, Real.cos a, 0; 0, 0, -1] : Matrix (Fin 3) (Fin 3) ℝ).mulVec
        ![Real.cos a * center 0 + Real.sin a * center 1, Real.sin a * center 0 - Real.cos a * center 1, center 2 + (h / 2 - gl)] + (center + ![0, 0, h / 2 - gl]) = 0 := by
      ext i
      fin_cases i <;> simp [Matrix.vecHead, Matrix.vecTail]
      · linear_combination (-center 0) * h1
      · linear_combination (-center 1) * h1
    rw [this]
    simp

/-- C101, number: one grasp (two with `under`) for each of width and length that is small enough. -/
theorem C101_count (center : V) (w l h : ℝ) (under : Bool) (tool body : Frame) (maxWidth gl : ℝ) :
    (topGrasps center w l h under tool body maxWidth gl).length = ((if w ≤ maxWidth then 1 else 0) + (if l ≤ maxWidth then 1 else 0)) * (if under then 2 else 1) := by
  simp only [topGrasps, List.length_append]
  split_ifs <;> simp

/-- C101, turns: the four grasps used differ by quarter turns: the tool's first axis points along each of the four horizontal axes of the body. The approach pose is one centimetre above in the world. -/
theorem C101_turns (center : V) {w l h maxWidth : ℝ} (hw : w ≤ maxWidth) (hl : l ≤ maxWidth) (X : Frame) :
    (graspInfoTop center w l h maxWidth).map (fun g => (endEffector X g).R.mulVec ![1, 0, 0]) =
        [X.R.mulVec ![0, -1, 0], X.R.mulVec ![0, 1, 0], X.R.mulVec ![-1, 0, 0], X.R.mulVec ![1, 0, 0]] ∧
      ∀ g ∈ graspInfoTop center w l h maxWidth, (approach.mul (endEffector X g)).R = (endEffector X g).R ∧
        (approach.mul (endEffector X g)).t = X.R.mulVec (center + ![0, 0, h / 2]) + X.t + ![0, 0, 1 / 100] := by
  refine ⟨?_, ?_⟩
  · have key : ∀ a : ℝ, (endEffector X (⟨!![-Real.cos a, -Real.sin a, 0; -Real.sin a, Real.cos a, 0; 0, 0, -1],
        ![Real.cos a * center 0 + Real.sin a * center 1, Real.sin a * center 0 - Real.cos a * center 1, center 2 + (h / 2 - 0)]⟩)).R.mulVec ![1, 0, 0] = X.R.mulVec ![-Real.cos a, -Real.sin a, 0] := by
      intro a
      simp only [endEffector, grasp_inv, Frame.mul]
      rw [← Matrix.mulVec_mulVec]
      congr 1
      ext i
      fin_cases i <;> simp [Matrix.mulVec, dotProduct, Fin.sum_univ_succ]
    have hc : Real.cos (Real.pi / 2 + Real.pi) = 0 := by rw [Real.cos_add_pi]; simp
    have hs : Real.sin (Real.pi / 2 + Real.pi) = -1 := by rw [Real.sin_add_pi]; simp
    simp only [graspInfoTop, topGrasps, if_pos hw, if_pos hl, if_true, grasp_eq, List.range_succ, List.range_zero, List.nil_append, List.map_append, List.cons_append, List.map_cons, List.map_nil, key]
    simp only [Nat.cast_zero, zero_mul, add_zero, Nat.cast_one, one_mul, Real.cos_pi_div_two, Real.sin_pi_div_two, Real.cos_zero, Real.sin_zero, Real.cos_pi, Real.sin_pi, hc, hs, neg_zero, neg_neg]
  · intro g hg
    have := (C101_top hg X).1
    simp only [sub_zero] at this
    simp only [approach, shift_mul, this, and_self]

/-- C101 is not vacuous: an upright box of width 0.06 and height 0.2 at (0.5, 0, 0.1): the tool is at height 0.2, its approach pose at height 0.21. -/
theorem C101_nonvacuous : ∃ gs, graspInfoTop 0 (6 / 100) (6 / 100) (1 / 5) 1 = gs ∧ gs.length = 4 ∧ ∀ g ∈ gs,
    (endEffector (.shift ![1 / 2, 0, 1 / 10]) g).t = ![1 / 2, 0, 1 / 5] := by
  refine ⟨_, rfl, ?_, ?_⟩
  · rw [graspInfoTop, C101_count]
    norm_num
  · intro g hg
    rw [(C101_top hg _).1]
    ext i
    fin_cases i <;> simp [Frame.shift] <;> norm_num

end Verif.Props
