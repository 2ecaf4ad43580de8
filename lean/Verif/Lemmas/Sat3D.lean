import Mathlib.Analysis.LocallyConvex.Separation
import Mathlib.Analysis.Normed.Module.FiniteDimension
import Mathlib.Algebra.Order.Floor.Semiring
import Mathlib.Tactic.Linarith
import Mathlib.Tactic.Ring
import Mathlib.Tactic.LinearCombination
import Mathlib.Tactic.FieldSimp
import Mathlib.Tactic.Positivity
import Mathlib.Tactic.FinCases
import Verif.Model.Sat3D
import Verif.Spec.Sat3D
import Verif.Lemmas.Sat2D

/-! Lemmas on the separating-axis test for boxes in space. -/

namespace Verif.Sat3D

open Verif.Spec

/-- The vectors that span the shape built by `vertices`. -/
def gen (b : Box) (k : Fin 3) : V3 := fun r => b.half r * b.rot r k

/-- Half width of the shape along `n`. -/
noncomputable def width (b : Box) (n : V3) : ℝ := |dot (gen b 0) n| + |dot (gen b 1) n| + |dot (gen b 2) n|

theorem dot_vertex (b : Box) (s n : V3) : dot (fun r => b.center r + ∑ k, b.half r * s k * b.rot r k) n =
    dot b.center n + s 0 * dot (gen b 0) n + s 1 * dot (gen b 1) n + s 2 * dot (gen b 2) n := by
  simp only [dot, gen, Fin.sum_univ_three]; ring

theorem sign_exists (x : ℝ) : ∃ s : ℝ, (s = 1 ∨ s = -1) ∧ s * x = |x| := by
  rcases le_total 0 x with h | h
  · exact ⟨1, .inl rfl, by rw [abs_of_nonneg h, one_mul]⟩
  · exact ⟨-1, .inr rfl, by rw [abs_of_nonpos h]; ring⟩

theorem signs_mem (x y z : ℝ) (hx : x = 1 ∨ x = -1) (hy : y = 1 ∨ y = -1) (hz : z = 1 ∨ z = -1) : ![x, y, z] ∈ signs := by
  unfold signs
  rcases hx with rfl | rfl <;> rcases hy with rfl | rfl <;> rcases hz with rfl | rfl <;> simp

theorem signs_abs (s : V3) (h : s ∈ signs) (k : Fin 3) : |s k| = 1 := by
  unfold signs at h
  simp only [List.mem_cons, List.not_mem_nil, or_false] at h
  rcases h with rfl | rfl | rfl | rfl | rfl | rfl | rfl | rfl <;> fin_cases k <;> simp

theorem mul_le_abs {s x : ℝ} (hs : |s| = 1) : s * x ≤ |x| := by
  calc s * x ≤ |s * x| := le_abs_self _
    _ = |x| := by rw [abs_mul, hs, one_mul]

theorem neg_abs_le_mul {s x : ℝ} (hs : |s| = 1) : -|x| ≤ s * x := by
  have := neg_abs_le (s * x)
  rwa [abs_mul, hs, one_mul] at this

theorem projMax_eq (b : Box) (n : V3) : projMax (vertices b) n = dot b.center n + width b n := by
  have hne : ((vertices b).map fun v => dot v n) ≠ [] := by simp [vertices, signs]
  obtain ⟨m, h1, h2, h3⟩ := Sat2D.pyMax_ok _ hne
  unfold projMax
  rw [h1]
  show m = _
  apply le_antisymm
  · simp only [vertices, List.map_map, List.mem_map, Function.comp] at h2
    obtain ⟨s, hs, rfl⟩ := h2
    rw [dot_vertex]
    have h0 := mul_le_abs (x := dot (gen b 0) n) (signs_abs s hs 0)
    have h1 := mul_le_abs (x := dot (gen b 1) n) (signs_abs s hs 1)
    have h2 := mul_le_abs (x := dot (gen b 2) n) (signs_abs s hs 2)
    unfold width
    linarith
  · obtain ⟨x, hx, ex⟩ := sign_exists (dot (gen b 0) n)
    obtain ⟨y, hy, ey⟩ := sign_exists (dot (gen b 1) n)
    obtain ⟨z, hz, ez⟩ := sign_exists (dot (gen b 2) n)
    have hm := h3 (dot (fun r => b.center r + ∑ k, b.half r * (![x, y, z] : V3) k * b.rot r k) n) (by
      simp only [vertices, List.map_map, List.mem_map, Function.comp]
      exact ⟨_, signs_mem x y z hx hy hz, rfl⟩)
    rw [dot_vertex] at hm
    simp only [Matrix.cons_val_zero, Matrix.cons_val_one, Matrix.cons_val] at hm
    unfold width
    linarith

theorem projMin_eq (b : Box) (n : V3) : projMin (vertices b) n = dot b.center n - width b n := by
  have hne : ((vertices b).map fun v => dot v n) ≠ [] := by simp [vertices, signs]
  obtain ⟨m, h1, h2, h3⟩ := Sat2D.pyMin_ok _ hne
  unfold projMin
  rw [h1]
  show m = _
  apply le_antisymm
  · obtain ⟨x, hx, ex⟩ := sign_exists (dot (gen b 0) n)
    obtain ⟨y, hy, ey⟩ := sign_exists (dot (gen b 1) n)
    obtain ⟨z, hz, ez⟩ := sign_exists (dot (gen b 2) n)
    have hneg : ∀ x : ℝ, (x = 1 ∨ x = -1) → (-x = 1 ∨ -x = -1) := by
      rintro x (rfl | rfl)
      · exact .inr rfl
      · exact .inl (neg_neg _)
    have hm := h3 (dot (fun r => b.center r + ∑ k, b.half r * (![-x, -y, -z] : V3) k * b.rot r k) n) (by
      simp only [vertices, List.map_map, List.mem_map, Function.comp]
      exact ⟨_, signs_mem _ _ _ (hneg x hx) (hneg y hy) (hneg z hz), rfl⟩)
    rw [dot_vertex] at hm
    simp only [Matrix.cons_val_zero, Matrix.cons_val_one, Matrix.cons_val] at hm
    unfold width
    linarith
  · simp only [vertices, List.map_map, List.mem_map, Function.comp] at h2
    obtain ⟨s, hs, rfl⟩ := h2
    rw [dot_vertex]
    have h0 := neg_abs_le_mul (x := dot (gen b 0) n) (signs_abs s hs 0)
    have h1 := neg_abs_le_mul (x := dot (gen b 1) n) (signs_abs s hs 1)
    have h2 := neg_abs_le_mul (x := dot (gen b 2) n) (signs_abs s hs 2)
    unfold width
    linarith

/-- The axis `n` separates the two shapes. -/
def Separates (a b : Box) (n : V3) : Prop := width a n + width b n < |dot b.center n - dot a.center n|

theorem separates_iff (a b : Box) (n : V3) : (decide (projMax (vertices a) n < projMin (vertices b) n) ||
    decide (projMax (vertices b) n < projMin (vertices a) n)) = true ↔ Separates a b n := by
  rw [Bool.or_eq_true, decide_eq_true_iff, decide_eq_true_iff, projMax_eq, projMin_eq, projMax_eq, projMin_eq]
  unfold Separates
  rw [lt_abs]
  constructor
  · rintro (h | h)
    · left; linarith
    · right; linarith
  · rintro (h | h)
    · left; linarith
    · right; linarith

theorem sat_iff (a b : Box) : sat a b = true ↔ ∀ n ∈ axes a b, ¬ Separates a b n := by
  unfold sat
  have key : ∀ (l : List V3) (acc : Bool), l.foldl (fun acc axis =>
      acc && !(decide (projMax (vertices a) axis < projMin (vertices b) axis) ||
        decide (projMax (vertices b) axis < projMin (vertices a) axis))) acc = true ↔
      acc = true ∧ ∀ n ∈ l, ¬ Separates a b n := by
    intro l
    induction l with
    | nil => intro acc; simp
    | cons m l ih =>
      intro acc
      rw [List.foldl_cons, ih, Bool.and_eq_true, Bool.not_eq_true', ← Bool.not_eq_true, separates_iff]
      simp only [List.mem_cons, forall_eq_or_imp]
      tauto
  rw [key]
  simp

theorem dot_smul (v n : V3) (k : ℝ) : dot v (fun r => k * n r) = k * dot v n := by simp only [dot]; ring

theorem width_smul (b : Box) (n : V3) (k : ℝ) : width b (fun r => k * n r) = |k| * width b n := by
  unfold width
  rw [dot_smul, dot_smul, dot_smul, abs_mul, abs_mul, abs_mul]; ring

theorem separates_smul (a b : Box) (n : V3) {k : ℝ} (hk : k ≠ 0) : Separates a b (fun r => k * n r) ↔ Separates a b n := by
  unfold Separates
  rw [width_smul, width_smul, dot_smul, dot_smul, ← mul_sub, abs_mul, ← mul_add]
  exact mul_lt_mul_iff_right₀ (abs_pos.2 hk)

theorem separates_unit (a b : Box) (n : V3) : Separates a b (unit n) ↔ Separates a b n := by
  unfold unit
  split
  · rename_i h
    have : (fun r => n r / √(dot n n)) = fun r => (√(dot n n))⁻¹ * n r := by
      funext r; rw [div_eq_inv_mul]
    rw [this]
    exact separates_smul a b n (inv_ne_zero h.ne')
  · rfl

/-- A shared point of the two built shapes excludes every separating axis. -/
theorem not_separates (a b : Box) (s t : V3) (hs : ∀ k, |s k| ≤ 1) (ht : ∀ k, |t k| ≤ 1)
    (h : ∀ r, a.center r + ∑ k, s k * gen a k r = b.center r + ∑ k, t k * gen b k r) (n : V3) : ¬ Separates a b n := by
  have hd : dot b.center n - dot a.center n = s 0 * dot (gen a 0) n + s 1 * dot (gen a 1) n + s 2 * dot (gen a 2) n -
      (t 0 * dot (gen b 0) n + t 1 * dot (gen b 1) n + t 2 * dot (gen b 2) n) := by
    have h0 := h 0
    have h1 := h 1
    have h2 := h 2
    simp only [Fin.sum_univ_three] at h0 h1 h2
    simp only [dot]
    linear_combination (-n 0) * h0 + (-n 1) * h1 + (-n 2) * h2
  have hb : ∀ {u x : ℝ}, |u| ≤ 1 → |u * x| ≤ |x| := by
    intro u x hu
    rw [abs_mul]
    exact mul_le_of_le_one_left (abs_nonneg x) hu
  unfold Separates
  rw [not_lt, hd]
  have e0 := hb (x := dot (gen a 0) n) (hs 0)
  have e1 := hb (x := dot (gen a 1) n) (hs 1)
  have e2 := hb (x := dot (gen a 2) n) (hs 2)
  have f0 := hb (x := dot (gen b 0) n) (ht 0)
  have f1 := hb (x := dot (gen b 1) n) (ht 1)
  have f2 := hb (x := dot (gen b 2) n) (ht 2)
  rw [abs_le] at e0 e1 e2 f0 f1 f2 ⊢
  unfold width
  constructor <;> linarith [e0.1, e0.2, e1.1, e1.2, e2.1, e2.2, f0.1, f0.2, f1.1, f1.2, f2.1, f2.2]

/-! ### The descent argument for exactness -/

/-- `n·c` minus the weighted absolute projections. -/
noncomputable def gain (L : List (V3 × ℝ)) (c n : V3) : ℝ := dot c n - (L.map fun u => u.2 * |dot u.1 n|).sum

/-- `x` is in the closed cell of `n`. -/
def InCell (L : List (V3 × ℝ)) (n x : V3) : Prop :=
  ∀ u ∈ L, 0 ≤ dot u.1 n * dot u.1 x ∧ (dot u.1 n = 0 → dot u.1 x = 0)

/-- The point `x + t y`. -/
def along (x : V3) (t : ℝ) (y : V3) : V3 := fun r => x r + t * y r

theorem dot_along (u x y : V3) (t : ℝ) : dot u (along x t y) = dot u x + t * dot u y := by simp only [dot, along]; ring

theorem abs_comb {m x y α β : ℝ} (hα : 0 ≤ α) (hβ : 0 ≤ β) (hx : 0 ≤ m * x) (hy : 0 ≤ m * y) (hx0 : m = 0 → x = 0)
    (hy0 : m = 0 → y = 0) : |α * x + β * y| = α * |x| + β * |y| := by
  rcases lt_trichotomy m 0 with hm | hm | hm
  · have h1 : x ≤ 0 := by by_contra hc; push Not at hc; nlinarith
    have h2 : y ≤ 0 := by by_contra hc; push Not at hc; nlinarith
    rw [abs_of_nonpos h1, abs_of_nonpos h2, abs_of_nonpos (by nlinarith [mul_nonneg hα (neg_nonneg.2 h1), mul_nonneg hβ (neg_nonneg.2 h2)])]
    ring
  · rw [hx0 hm, hy0 hm]; simp
  · have h1 : 0 ≤ x := by by_contra hc; push Not at hc; nlinarith
    have h2 : 0 ≤ y := by by_contra hc; push Not at hc; nlinarith
    rw [abs_of_nonneg h1, abs_of_nonneg h2, abs_of_nonneg (by positivity)]

theorem gain_comb {L : List (V3 × ℝ)} {c n x y : V3} {α β : ℝ} (hα : 0 ≤ α) (hβ : 0 ≤ β) (hx : InCell L n x) (hy : InCell L n y) :
    gain L c (fun r => α * x r + β * y r) = α * gain L c x + β * gain L c y := by
  have hd : ∀ u : V3, dot u (fun r => α * x r + β * y r) = α * dot u x + β * dot u y := fun u => by simp only [dot]; ring
  unfold gain
  rw [hd]
  have hs : (L.map fun u => u.2 * |dot u.1 (fun r => α * x r + β * y r)|).sum =
      α * (L.map fun u => u.2 * |dot u.1 x|).sum + β * (L.map fun u => u.2 * |dot u.1 y|).sum := by
    induction L with
    | nil => simp
    | cons u L ih =>
      rw [List.map_cons, List.sum_cons, ih (fun v hv => hx v (List.mem_cons_of_mem _ hv)) (fun v hv => hy v (List.mem_cons_of_mem _ hv)),
        hd, abs_comb hα hβ (hx u (by simp)).1 (hy u (by simp)).1 (hx u (by simp)).2 (hy u (by simp)).2]
      simp only [List.map_cons, List.sum_cons]
      ring
  rw [hs]; ring

/-- Going from `n` along `e`: either `e` itself is in the closed cell, or the boundary of the cell is met. -/
theorem walk {L : List (V3 × ℝ)} {n e : V3} (h0 : ∀ u ∈ L, dot u.1 n = 0 → dot u.1 e = 0) :
    InCell L n e ∨ ∃ t, 0 < t ∧ InCell L n (along n t e) ∧ ∃ u ∈ L, dot u.1 n ≠ 0 ∧ dot u.1 (along n t e) = 0 := by
  induction L with
  | nil => left; intro u hu; cases hu
  | cons v L ih =>
    have h0' : ∀ u ∈ L, dot u.1 n = 0 → dot u.1 e = 0 := fun u hu => h0 u (List.mem_cons_of_mem _ hu)
    have hv0 := h0 v (by simp)
    have cons : ∀ {x : V3}, InCell L n x → 0 ≤ dot v.1 n * dot v.1 x → (dot v.1 n = 0 → dot v.1 x = 0) → InCell (v :: L) n x := by
      intro x hx h1 h2 u hu
      rw [List.mem_cons] at hu
      rcases hu with rfl | hu
      · exact ⟨h1, h2⟩
      · exact hx u hu
    have hzero : ∀ t, dot v.1 n = 0 → dot v.1 (along n t e) = 0 := by
      intro t h; rw [dot_along, h, hv0 h]; ring
    rcases ih h0' with hin | ⟨t, ht, hin, u, hu, hun, hut⟩
    · by_cases hs : 0 ≤ dot v.1 n * dot v.1 e
      · left; exact cons hin hs hv0
      · right
        push Not at hs
        have hvn : dot v.1 n ≠ 0 := by rintro h; rw [h, zero_mul] at hs; exact lt_irrefl _ hs
        have hve : dot v.1 e ≠ 0 := by rintro h; rw [h, mul_zero] at hs; exact lt_irrefl _ hs
        have ht : 0 < -(dot v.1 n) / dot v.1 e := by
          have : -(dot v.1 n) / dot v.1 e = -(dot v.1 n * dot v.1 e) / (dot v.1 e * dot v.1 e) := by field_simp
          rw [this]
          exact div_pos (by linarith) (mul_self_pos.2 hve)
        have hz : dot v.1 (along n (-(dot v.1 n) / dot v.1 e) e) = 0 := by
          rw [dot_along]; field_simp; ring
        refine ⟨_, ht, cons ?_ ?_ (hzero _), v, by simp, hvn, hz⟩
        · intro u hu
          refine ⟨?_, fun h => by rw [dot_along, h, h0' u hu h]; ring⟩
          rw [dot_along, mul_add]
          have h1 := mul_self_nonneg (dot u.1 n)
          have h2 := mul_nonneg ht.le (hin u hu).1
          linarith
        · rw [hz, mul_zero]
    · by_cases hs : 0 ≤ dot v.1 n * dot v.1 (along n t e)
      · right
        exact ⟨t, ht, cons hin hs (hzero t), u, List.mem_cons_of_mem _ hu, hun, hut⟩
      · right
        push Not at hs
        have hvn : dot v.1 n ≠ 0 := by rintro h; rw [h, zero_mul] at hs; exact lt_irrefl _ hs
        rw [dot_along, mul_add] at hs
        have hse : dot v.1 n * dot v.1 e < 0 := by
          by_contra hc
          push Not at hc
          have := mul_nonneg ht.le hc
          nlinarith [mul_self_nonneg (dot v.1 n)]
        have hve : dot v.1 e ≠ 0 := by rintro h; rw [h, mul_zero] at hse; exact lt_irrefl _ hse
        set s := -(dot v.1 n) / dot v.1 e with hsdef
        have hs0 : 0 < s := by
          have : s = -(dot v.1 n * dot v.1 e) / (dot v.1 e * dot v.1 e) := by rw [hsdef]; field_simp
          rw [this]
          exact div_pos (by linarith) (mul_self_pos.2 hve)
        have hz : dot v.1 (along n s e) = 0 := by
          rw [dot_along, hsdef]; field_simp; ring
        have hst : s < t := by
          have h1 : s * (dot v.1 n * dot v.1 e) = -(dot v.1 n * dot v.1 n) := by rw [hsdef]; field_simp
          nlinarith
        refine ⟨s, hs0, cons ?_ ?_ (hzero _), v, by simp, hvn, hz⟩
        · intro u hu
          refine ⟨?_, fun h => by rw [dot_along, h, h0' u hu h]; ring⟩
          have h1 := (hin u hu).1
          rw [dot_along, mul_add] at h1 ⊢
          have h2 := mul_self_nonneg (dot u.1 n)
          by_contra hc
          push Not at hc
          have h3 : dot u.1 n * dot u.1 e < 0 := by
            by_contra hcc
            push Not at hcc
            have := mul_nonneg hs0.le hcc
            nlinarith
          nlinarith
        · rw [hz, mul_zero]

/-- From a direction of positive gain, moving along `d`: `d`, `-d` or a boundary point of the cell has positive gain. -/
theorem descend {L : List (V3 × ℝ)} {c n d : V3} (hn : 0 < gain L c n) (h0 : ∀ u ∈ L, dot u.1 n = 0 → dot u.1 d = 0)
    (hd : ∃ u ∈ L, dot u.1 d ≠ 0) :
    ∃ x, 0 < gain L c x ∧ ((∃ s, x = fun r => s * d r) ∨ ∃ t, x = along n t d ∧ ∃ u ∈ L, dot u.1 n ≠ 0 ∧ dot u.1 x = 0) := by
  have hneg : ∀ u : V3, dot u (fun r => -1 * d r) = -dot u d := fun u => by simp only [dot]; ring
  have hal : ∀ t, along n t (fun r => -1 * d r) = along n (-t) d := fun t => by funext r; simp only [along]; ring
  have hcomb : ∀ {x y : V3} {α β : ℝ}, 0 < α → 0 < β → InCell L n x → InCell L n y → (n = fun r => α * x r + β * y r) →
      0 < gain L c x ∨ 0 < gain L c y := by
    intro x y α β hα hβ hx hy he
    rw [he, gain_comb hα.le hβ.le hx hy] at hn
    by_contra hc
    push Not at hc
    nlinarith [mul_nonneg hα.le (neg_nonneg.2 hc.1), mul_nonneg hβ.le (neg_nonneg.2 hc.2)]
  rcases walk (e := d) h0 with h1 | ⟨t, ht, h1, u, hu, hun, hut⟩
  · rcases walk (L := L) (n := n) (e := fun r => -1 * d r) (fun u hu h => by rw [hneg, h0 u hu h, neg_zero]) with h2 | ⟨t, ht, h2, u, hu, hun, hut⟩
    · exfalso
      obtain ⟨u, hu, hud⟩ := hd
      have a := (h1 u hu).1
      have b := (h2 u hu).1
      rw [hneg] at b
      have hun : dot u.1 n ≠ 0 := fun h => hud (h0 u hu h)
      have : dot u.1 n * dot u.1 d = 0 := by nlinarith
      exact (mul_ne_zero hun hud) this
    · rcases hcomb (x := along n t (fun r => -1 * d r)) (y := d) (α := 1) one_pos ht h2 h1 (by funext r; simp only [along]; ring) with h | h
      · exact ⟨_, h, .inr ⟨-t, hal t, u, hu, hun, hut⟩⟩
      · exact ⟨d, h, .inl ⟨1, by funext r; ring⟩⟩
  · rcases walk (L := L) (n := n) (e := fun r => -1 * d r) (fun u hu h => by rw [hneg, h0 u hu h, neg_zero]) with h2 | ⟨s, hs, h2, v, hv, hvn, hvs⟩
    · rcases hcomb (x := along n t d) (y := fun r => -1 * d r) (α := 1) one_pos ht h1 h2 (by funext r; simp only [along]; ring) with h | h
      · exact ⟨_, h, .inr ⟨t, rfl, u, hu, hun, hut⟩⟩
      · exact ⟨_, h, .inl ⟨-1, rfl⟩⟩
    · have hst : s + t ≠ 0 := (add_pos hs ht).ne'
      have hsp : 0 < s + t := add_pos hs ht
      rcases hcomb (x := along n t d) (y := along n s (fun r => -1 * d r)) (α := s / (s + t)) (β := t / (s + t)) (div_pos hs hsp) (div_pos ht hsp) h1 h2
        (by funext r; simp only [along]; field_simp; ring) with h | h
      · exact ⟨_, h, .inr ⟨t, rfl, u, hu, hun, hut⟩⟩
      · exact ⟨_, h, .inr ⟨-s, hal s, v, hv, hvn, hvs⟩⟩

theorem dot_self_pos {v : V3} (h : v ≠ 0) : 0 < dot v v := by
  have h0 : 0 ≤ dot v v := by
    have := mul_self_nonneg (v 0); have := mul_self_nonneg (v 1); have := mul_self_nonneg (v 2)
    simp only [dot]; linarith
  rcases h0.lt_or_eq with h1 | h1
  · exact h1
  · exfalso
    apply h
    simp only [dot] at h1
    have e0 : v 0 = 0 := by nlinarith [mul_self_nonneg (v 0), mul_self_nonneg (v 1), mul_self_nonneg (v 2)]
    have e1 : v 1 = 0 := by nlinarith [mul_self_nonneg (v 0), mul_self_nonneg (v 1), mul_self_nonneg (v 2)]
    have e2 : v 2 = 0 := by nlinarith [mul_self_nonneg (v 0), mul_self_nonneg (v 1), mul_self_nonneg (v 2)]
    funext r
    fin_cases r
    · exact e0
    · exact e1
    · exact e2

/-- A vector orthogonal to two others is a multiple of their cross product. -/
theorem parallel_cross {u v x : V3} (hc : cross u v ≠ 0) (hu : dot u x = 0) (hv : dot v x = 0) : ∃ k, x = fun r => k * cross u v r := by
  have hp := (dot_self_pos hc).ne'
  refine ⟨dot x (cross u v) / dot (cross u v) (cross u v), ?_⟩
  have key : ∀ r, x r * dot (cross u v) (cross u v) = dot x (cross u v) * cross u v r := by
    simp only [dot] at hu hv
    have key : ∀ r : Fin 3, r = 0 ∨ r = 1 ∨ r = 2 := by decide
    intro r
    rcases key r with rfl | rfl | rfl <;> simp only [dot, cross, Matrix.cons_val_zero, Matrix.cons_val_one, Matrix.cons_val]
    · linear_combination (v 0 * (u 0 * u 0 + u 1 * u 1 + u 2 * u 2) - u 0 * (u 0 * v 0 + u 1 * v 1 + u 2 * v 2)) * hv -
        (v 0 * (u 0 * v 0 + u 1 * v 1 + u 2 * v 2) - u 0 * (v 0 * v 0 + v 1 * v 1 + v 2 * v 2)) * hu
    · linear_combination (v 1 * (u 0 * u 0 + u 1 * u 1 + u 2 * u 2) - u 1 * (u 0 * v 0 + u 1 * v 1 + u 2 * v 2)) * hv -
        (v 1 * (u 0 * v 0 + u 1 * v 1 + u 2 * v 2) - u 1 * (v 0 * v 0 + v 1 * v 1 + v 2 * v 2)) * hu
    · linear_combination (v 2 * (u 0 * u 0 + u 1 * u 1 + u 2 * u 2) - u 2 * (u 0 * v 0 + u 1 * v 1 + u 2 * v 2)) * hv -
        (v 2 * (u 0 * v 0 + u 1 * v 1 + u 2 * v 2) - u 2 * (v 0 * v 0 + v 1 * v 1 + v 2 * v 2)) * hu
  funext r
  rw [div_mul_eq_mul_div, eq_div_iff hp]
  exact key r

theorem triple (u v w : V3) : dot u (cross v w) = dot w (cross u v) := by
  simp only [dot, cross, Matrix.cons_val_zero, Matrix.cons_val_one, Matrix.cons_val]; ring

theorem dot_cross_left (u v : V3) : dot u (cross u v) = 0 := by
  simp only [dot, cross, Matrix.cons_val_zero, Matrix.cons_val_one, Matrix.cons_val]; ring

theorem dot_cross_right (u v : V3) : dot v (cross u v) = 0 := by
  simp only [dot, cross, Matrix.cons_val_zero, Matrix.cons_val_one, Matrix.cons_val]; ring

theorem cross_anti (u v : V3) : cross u v = fun r => -1 * cross v u r := by
  funext r
  have key : ∀ r : Fin 3, r = 0 ∨ r = 1 ∨ r = 2 := by decide
  rcases key r with rfl | rfl | rfl <;> simp only [cross, Matrix.cons_val_zero, Matrix.cons_val_one, Matrix.cons_val] <;> ring

theorem cross_self (u : V3) : cross u u = 0 := by
  funext r
  have key : ∀ r : Fin 3, r = 0 ∨ r = 1 ∨ r = 2 := by decide
  rcases key r with rfl | rfl | rfl <;> simp only [cross, Matrix.cons_val_zero, Matrix.cons_val_one, Matrix.cons_val, Pi.zero_apply] <;> ring

theorem dot_zero (u : V3) : dot u 0 = 0 := by simp [dot]

theorem dot_comm (u v : V3) : dot u v = dot v u := by simp only [dot]; ring

theorem gain_zero (L : List (V3 × ℝ)) (c : V3) : gain L c 0 = 0 := by
  unfold gain
  have : (L.map fun u => u.2 * |dot u.1 (0 : V3)|) = L.map fun _ => (0 : ℝ) := by
    apply List.map_congr_left; intro u _; rw [dot_zero, abs_zero, mul_zero]
  rw [this, dot_zero]
  simp

/-- Parallel vectors: what is orthogonal to one is orthogonal to the other. -/
theorem orthogonal_of_parallel {u v n : V3} (hv : v ≠ 0) (h : cross v u = 0) (hn : dot v n = 0) : dot u n = 0 := by
  have hp := (dot_self_pos hv).ne'
  have h0 : v 1 * u 2 - v 2 * u 1 = 0 := congrFun h 0
  have h1 : v 2 * u 0 - v 0 * u 2 = 0 := congrFun h 1
  have h2 : v 0 * u 1 - v 1 * u 0 = 0 := congrFun h 2
  have : dot v v * dot u n = 0 := by
    simp only [dot] at hn ⊢
    linear_combination (v 1 * n 2 - v 2 * n 1) * h0 + (v 2 * n 0 - v 0 * n 2) * h1 + (v 0 * n 1 - v 1 * n 0) * h2 +
      (u 0 * v 0 + u 1 * v 1 + u 2 * v 2) * hn
  exact (mul_eq_zero.1 this).resolve_left hp

/-- Among the directions, three span space. -/
structure Spanning (L : List (V3 × ℝ)) : Prop where
  ne : ∀ u ∈ L, u.1 ≠ 0
  basis : ∀ d : V3, (∀ u ∈ L, dot u.1 d = 0) → d = 0

theorem exists_nonparallel {L : List (V3 × ℝ)} (hL : Spanning L) {v : V3} (hv : v ≠ 0) : ∃ u ∈ L, cross v u.1 ≠ 0 := by
  by_contra hc
  push Not at hc
  have hall : ∀ n, dot v n = 0 → n = 0 := fun n hn => hL.basis n fun u hu => orthogonal_of_parallel hv (hc u hu) hn
  have h2 : cross v ![1, 0, 0] = 0 := hall _ (dot_cross_left _ _)
  have h3 : cross v ![0, 1, 0] = 0 := hall _ (dot_cross_left _ _)
  apply hv
  have a1 := congrFun h2 1
  have a2 := congrFun h2 2
  have a3 := congrFun h3 2
  simp [cross] at a1 a2 a3
  funext r
  have key : ∀ r : Fin 3, r = 0 ∨ r = 1 ∨ r = 2 := by decide
  rcases key r with rfl | rfl | rfl
  · exact a3
  · exact a2
  · exact a1

/-- If some direction has positive gain, so does some multiple of a cross product of two of the given directions. -/
theorem descent {L : List (V3 × ℝ)} (hL : Spanning L) {c n : V3} (hn : 0 < gain L c n) :
    ∃ u ∈ L, ∃ v ∈ L, ∃ k, 0 < gain L c (fun r => k * cross u.1 v.1 r) := by
  have hdir : ∀ {d : V3}, d ≠ 0 → ∃ u ∈ L, dot u.1 d ≠ 0 := by
    intro d hd
    by_contra hc
    push Not at hc
    exact hd (hL.basis d hc)
  -- a direction of positive gain orthogonal to one of the given directions
  have stepA : ∃ x, 0 < gain L c x ∧ ∃ u ∈ L, dot u.1 x = 0 := by
    by_cases h : ∃ u ∈ L, dot u.1 n = 0
    · exact ⟨n, hn, h⟩
    · push Not at h
      have hn0 : n ≠ 0 := by rintro rfl; rw [gain_zero] at hn; exact lt_irrefl _ hn
      obtain ⟨u, hu, _⟩ := hdir hn0
      obtain ⟨v, hv, huv⟩ := exists_nonparallel hL (hL.ne u hu)
      obtain ⟨x, hx, ⟨s, rfl⟩ | ⟨t, rfl, w, hw, _, hwx⟩⟩ := descend (d := cross u.1 v.1) hn (fun w hw h0 => absurd h0 (h w hw)) (hdir huv)
      · exact ⟨_, hx, u, hu, by rw [dot_smul, dot_cross_left, mul_zero]⟩
      · exact ⟨_, hx, w, hw, hwx⟩
  obtain ⟨x, hx, u, hu, hux⟩ := stepA
  by_cases h : ∃ v ∈ L, dot v.1 x = 0 ∧ cross u.1 v.1 ≠ 0
  · obtain ⟨v, hv, hvx, huv⟩ := h
    obtain ⟨k, hk⟩ := parallel_cross huv hux hvx
    exact ⟨u, hu, v, hv, k, hk ▸ hx⟩
  · push Not at h
    obtain ⟨v, hv, huv⟩ := exists_nonparallel hL (hL.ne u hu)
    obtain ⟨y, hy, ⟨s, rfl⟩ | ⟨t, rfl, w, hw, hwx, hwy⟩⟩ := descend (d := cross u.1 v.1) hx (fun w hw h0 => by
      rw [triple, ← dot_zero v.1, cross_anti, h w hw h0]
      simp [dot]) (hdir huv)
    · exact ⟨u, hu, v, hv, s, hy⟩
    · have huw : cross u.1 w.1 ≠ 0 := fun hc => hwx (orthogonal_of_parallel (hL.ne u hu) hc hux)
      obtain ⟨k, hk⟩ := parallel_cross (x := along x t (cross u.1 v.1)) huw
        (by rw [dot_along, hux, dot_cross_left]; ring) hwy
      exact ⟨u, hu, w, hw, k, hk ▸ hy⟩

/-! ### Boxes -/

theorem gen_eq {b : Box} (h : MixesEqualAxes b.half b.rot) (k : Fin 3) : gen b k = fun r => b.half k * b.rot r k := by
  funext r
  unfold gen
  rcases h r k with h | h
  · rw [h, mul_zero, mul_zero]
  · rw [h]

/-- The six directions with their half widths. -/
noncomputable def dirs (a b : Box) : List (V3 × ℝ) :=
  [(a.column 0, |a.half 0|), (a.column 1, |a.half 1|), (a.column 2, |a.half 2|),
   (b.column 0, |b.half 0|), (b.column 1, |b.half 1|), (b.column 2, |b.half 2|)]

theorem abs_gen {b : Box} (h : MixesEqualAxes b.half b.rot) (k : Fin 3) (n : V3) : |dot (gen b k) n| = |b.half k| * |dot (b.column k) n| := by
  rw [gen_eq h, ← abs_mul]
  congr 1
  simp only [dot, Box.column]; ring

theorem gain_eq {a b : Box} (ha : MixesEqualAxes a.half a.rot) (hb : MixesEqualAxes b.half b.rot) (n : V3) :
    gain (dirs a b) (fun r => b.center r - a.center r) n = dot b.center n - dot a.center n - (width a n + width b n) := by
  unfold gain width dirs
  rw [abs_gen ha, abs_gen ha, abs_gen ha, abs_gen hb, abs_gen hb, abs_gen hb]
  simp only [List.map_cons, List.map_nil, List.sum_cons, List.sum_nil]
  have : dot (fun r => b.center r - a.center r) n = dot b.center n - dot a.center n := by simp only [dot]; ring
  rw [this]; ring

theorem separates_of_gain {a b : Box} (ha : MixesEqualAxes a.half a.rot) (hb : MixesEqualAxes b.half b.rot) {n : V3} {k : ℝ}
    (h : 0 < gain (dirs a b) (fun r => b.center r - a.center r) (fun r => k * n r)) : Separates a b n := by
  have hk : k ≠ 0 := by
    rintro rfl
    have : (fun r => (0 : ℝ) * n r) = 0 := by funext r; simp
    rw [this, gain_zero] at h
    exact lt_irrefl _ h
  rw [← separates_smul a b n hk]
  rw [gain_eq ha hb] at h
  unfold Separates
  exact lt_of_lt_of_le (by linarith) (le_abs_self _)

theorem column_dot {b : Box} (h : OrthonormalColumns b.rot) (i j : Fin 3) : dot (b.column i) (b.column j) = if i = j then 1 else 0 := by
  rw [← h i j, Fin.sum_univ_three]; rfl

theorem column_ne {b : Box} (h : OrthonormalColumns b.rot) (i : Fin 3) : b.column i ≠ 0 := by
  intro hc
  have := column_dot h i i
  rw [if_pos rfl, hc, dot_zero] at this
  exact zero_ne_one this

theorem parseval {b : Box} (h : OrthonormalColumns b.rot) {d : V3} (h0 : dot (b.column 0) d = 0) (h1 : dot (b.column 1) d = 0)
    (h2 : dot (b.column 2) d = 0) : d = 0 := by
  have hc : cross (b.column 0) (b.column 1) ≠ 0 := by
    intro hc
    have e := orthogonal_of_parallel (column_ne h 0) hc (n := b.column 1) (by rw [column_dot h]; simp)
    rw [column_dot h] at e
    simp at e
  obtain ⟨k, hk⟩ := parallel_cross hc (x := b.column 2) (by rw [column_dot h]; simp) (by rw [column_dot h]; simp)
  obtain ⟨l, hl⟩ := parallel_cross hc h0 h1
  have hk0 : k ≠ 0 := by
    rintro rfl
    apply column_ne h 2
    rw [hk]; funext r; simp
  have hd : d = fun r => (l / k) * b.column 2 r := by
    rw [hl, hk]; funext r; field_simp
  rw [hd, dot_smul, column_dot h, if_pos rfl, mul_one] at h2
  rw [hd, h2]; funext r; simp

/-- A vector is the sum of its components along the columns. -/
theorem expand {b : Box} (h : OrthonormalColumns b.rot) (y : V3) (r : Fin 3) :
    y r = dot (b.column 0) y * b.column 0 r + dot (b.column 1) y * b.column 1 r + dot (b.column 2) y * b.column 2 r := by
  have hd : ∀ i, dot (b.column i) (fun r => y r - (dot (b.column 0) y * b.column 0 r + dot (b.column 1) y * b.column 1 r + dot (b.column 2) y * b.column 2 r)) =
      dot (b.column i) y - (dot (b.column 0) y * dot (b.column i) (b.column 0) + dot (b.column 1) y * dot (b.column i) (b.column 1) +
        dot (b.column 2) y * dot (b.column i) (b.column 2)) := by
    intro i
    simp only [dot]
    ring
  have := parseval h (d := fun r => y r - (dot (b.column 0) y * b.column 0 r + dot (b.column 1) y * b.column 1 r + dot (b.column 2) y * b.column 2 r))
    (by rw [hd, column_dot h, column_dot h, column_dot h]; simp) (by rw [hd, column_dot h, column_dot h, column_dot h]; simp)
    (by rw [hd, column_dot h, column_dot h, column_dot h]; simp)
  exact sub_eq_zero.1 (congrFun this r)

theorem dot_self_columns {b : Box} (h : OrthonormalColumns b.rot) (y : V3) :
    dot y y = dot (b.column 0) y ^ 2 + dot (b.column 1) y ^ 2 + dot (b.column 2) y ^ 2 := by
  have e0 := expand h y 0
  have e1 := expand h y 1
  have e2 := expand h y 2
  generalize hp : dot (b.column 0) y = p at *
  generalize hq : dot (b.column 1) y = q at *
  generalize hs : dot (b.column 2) y = s at *
  have : dot y y = p * dot (b.column 0) y + q * dot (b.column 1) y + s * dot (b.column 2) y := by
    simp only [dot]
    linear_combination (y 0) * e0 + (y 1) * e1 + (y 2) * e2
  rw [this, hp, hq, hs]
  ring

/-- The width along a unit vector is at most `√3` times the largest half width. -/
theorem width_sq_le {b : Box} (h : OrthonormalColumns b.rot) {H : ℝ} (hH : ∀ k, |b.half k| ≤ H) {n : V3} (hn : dot n n = 1) : width b n ^ 2 ≤ 3 * H ^ 2 := by
  have hg : ∀ k, dot (gen b k) n = dot (b.column k) (fun r => b.half r * n r) := by
    intro k
    simp only [dot, gen, Box.column]
    ring
  have hs := dot_self_columns h fun r => b.half r * n r
  rw [← hg, ← hg, ← hg] at hs
  have hm : dot (fun r => b.half r * n r) (fun r => b.half r * n r) ≤ H ^ 2 := by
    have hsq : ∀ k, b.half k ^ 2 ≤ H ^ 2 := fun k => by
      rw [← sq_abs]
      exact pow_le_pow_left₀ (abs_nonneg _) (hH k) 2
    have : H ^ 2 = H ^ 2 * dot n n := by rw [hn, mul_one]
    rw [this]
    simp only [dot]
    nlinarith [mul_le_mul_of_nonneg_right (hsq 0) (sq_nonneg (n 0)), mul_le_mul_of_nonneg_right (hsq 1) (sq_nonneg (n 1)),
      mul_le_mul_of_nonneg_right (hsq 2) (sq_nonneg (n 2))]
  unfold width
  rw [hs, ← sq_abs (dot (gen b 0) n), ← sq_abs (dot (gen b 1) n), ← sq_abs (dot (gen b 2) n)] at hm
  nlinarith [sq_nonneg (|dot (gen b 0) n| - |dot (gen b 1) n|), sq_nonneg (|dot (gen b 1) n| - |dot (gen b 2) n|),
    sq_nonneg (|dot (gen b 0) n| - |dot (gen b 2) n|)]

theorem dirs_spanning {a b : Box} (ha : OrthonormalColumns a.rot) (hb : OrthonormalColumns b.rot) : Spanning (dirs a b) := by
  refine ⟨?_, fun d hd => parseval ha (hd (a.column 0, |a.half 0|) (by simp [dirs])) (hd (a.column 1, |a.half 1|) (by simp [dirs]))
    (hd (a.column 2, |a.half 2|) (by simp [dirs]))⟩
  intro u hu
  simp only [dirs, List.mem_cons, List.not_mem_nil, or_false] at hu
  rcases hu with rfl | rfl | rfl | rfl | rfl | rfl
  all_goals first | exact column_ne ha _ | exact column_ne hb _

theorem mem_dirs {a b : Box} {u : V3 × ℝ} (h : u ∈ dirs a b) : (∃ i, u.1 = a.column i) ∨ ∃ i, u.1 = b.column i := by
  simp only [dirs, List.mem_cons, List.not_mem_nil, or_false] at h
  rcases h with rfl | rfl | rfl | rfl | rfl | rfl
  · exact .inl ⟨0, rfl⟩
  · exact .inl ⟨1, rfl⟩
  · exact .inl ⟨2, rfl⟩
  · exact .inr ⟨0, rfl⟩
  · exact .inr ⟨1, rfl⟩
  · exact .inr ⟨2, rfl⟩

theorem separates_ne {a b : Box} {n : V3} (h : Separates a b n) : n ≠ 0 := by
  rintro rfl
  unfold Separates width at h
  simp [dot_zero] at h

/-- The cross product of two axes of one box points along an axis of that box. -/
theorem cross_same {a b c : Box} (hc : OrthonormalColumns c.rot) {i j : Fin 3} (h : Separates a b (cross (c.column i) (c.column j))) :
    ∃ k, Separates a b (c.column k) := by
  have hne := separates_ne h
  have hij : i ≠ j := by rintro rfl; exact hne (cross_self _)
  obtain ⟨k, hki, hkj⟩ : ∃ k : Fin 3, k ≠ i ∧ k ≠ j :=
    (by decide : ∀ i j : Fin 3, ∃ k : Fin 3, k ≠ i ∧ k ≠ j) i j
  refine ⟨k, ?_⟩
  obtain ⟨l, hl⟩ := parallel_cross hne (x := c.column k) (by rw [column_dot hc, if_neg hki.symm]) (by rw [column_dot hc, if_neg hkj.symm])
  have hl0 : l ≠ 0 := by
    rintro rfl
    apply column_ne hc k
    rw [hl]; funext r; simp
  rw [hl]
  exact (separates_smul a b _ hl0).2 h

theorem fin3 : ∀ r : Fin 3, r = 0 ∨ r = 1 ∨ r = 2 := by decide

theorem column_mem_axes (a b : Box) (k : Fin 3) : a.column k ∈ axes a b ∧ b.column k ∈ axes a b := by
  rcases fin3 k with rfl | rfl | rfl <;> simp [axes]

theorem cross_mem_axes (a b : Box) (i j : Fin 3) : unit (cross (a.column i) (b.column j)) ∈ axes a b := by
  rcases fin3 i with rfl | rfl | rfl <;> rcases fin3 j with rfl | rfl | rfl <;> simp [axes]

/-- Boxes without a common point are separated along one of the fifteen axes. -/
theorem axis_of_gain {a b : Box} (ha : MixesEqualAxes a.half a.rot) (hb : MixesEqualAxes b.half b.rot)
    (oa : OrthonormalColumns a.rot) (ob : OrthonormalColumns b.rot) {n : V3}
    (h : 0 < gain (dirs a b) (fun r => b.center r - a.center r) n) : ∃ m ∈ axes a b, Separates a b m := by
  obtain ⟨u, hu, v, hv, k, hk⟩ := descent (dirs_spanning oa ob) h
  have hs := separates_of_gain ha hb hk
  rcases mem_dirs hu with ⟨i, hi⟩ | ⟨i, hi⟩ <;> rcases mem_dirs hv with ⟨j, hj⟩ | ⟨j, hj⟩ <;> rw [hi, hj] at hs
  · obtain ⟨l, hl⟩ := cross_same oa hs
    exact ⟨_, (column_mem_axes a b l).1, hl⟩
  · exact ⟨_, cross_mem_axes a b i j, (separates_unit a b _).2 hs⟩
  · rw [cross_anti, separates_smul a b _ (by norm_num)] at hs
    exact ⟨_, cross_mem_axes a b j i, (separates_unit a b _).2 hs⟩
  · obtain ⟨l, hl⟩ := cross_same ob hs
    exact ⟨_, (column_mem_axes a b l).2, hl⟩

/-! ### Separation of solid boxes -/

theorem solidBox_image (c h : V3) (R : Fin 3 → V3) :
    solidBox c h R = (fun t : V3 => (fun r => c r + ∑ k, t k * h k * R r k : V3)) '' Set.Icc (fun _ => -1) (fun _ => 1) := by
  ext x
  constructor
  · rintro ⟨t, ht, hx⟩
    exact ⟨t, ⟨fun k => (abs_le.1 (ht k)).1, fun k => (abs_le.1 (ht k)).2⟩, (funext hx).symm⟩
  · rintro ⟨t, ht, rfl⟩
    exact ⟨t, fun k => abs_le.2 ⟨ht.1 k, ht.2 k⟩, fun r => rfl⟩

theorem solidBox_compact (c h : V3) (R : Fin 3 → V3) : IsCompact (solidBox c h R) := by
  rw [solidBox_image]
  apply isCompact_Icc.image
  fun_prop

theorem solidBox_convex (c h : V3) (R : Fin 3 → V3) : Convex ℝ (solidBox c h R) := by
  rintro x ⟨s, hs, hx⟩ y ⟨t, ht, hy⟩ α β hα hβ hαβ
  refine ⟨fun k => α * s k + β * t k, fun k => ?_, fun r => ?_⟩
  · have h1 := abs_le.1 (hs k)
    have h2 := abs_le.1 (ht k)
    rw [abs_le]
    constructor <;> nlinarith
  · show α * x r + β * y r = _
    rw [hx r, hy r]
    simp only [Fin.sum_univ_three]
    linear_combination (c r) * hαβ

theorem exists_gain {a b : Box} (ha : MixesEqualAxes a.half a.rot) (hb : MixesEqualAxes b.half b.rot)
    (h : solidBox a.center a.half a.rot ∩ solidBox b.center b.half b.rot = ∅) :
    ∃ n, 0 < gain (dirs a b) (fun r => b.center r - a.center r) n := by
  obtain ⟨f, c, d, h1, h2, h3⟩ := geometric_hahn_banach_compact_closed (solidBox_convex a.center a.half a.rot) (solidBox_compact _ _ _)
    (solidBox_convex b.center b.half b.rot) (solidBox_compact _ _ _).isClosed (Set.disjoint_iff_inter_eq_empty.2 h)
  set n : V3 := ![f ![1, 0, 0], f ![0, 1, 0], f ![0, 0, 1]] with hn
  have hf : ∀ p : V3, f p = dot p n := by
    intro p
    have : p = p 0 • (![1, 0, 0] : V3) + p 1 • (![0, 1, 0] : V3) + p 2 • (![0, 0, 1] : V3) := by
      funext r
      rcases fin3 r with rfl | rfl | rfl <;> simp
    conv_lhs => rw [this]
    rw [map_add, map_add, map_smul, map_smul, map_smul]
    rfl
  refine ⟨n, ?_⟩
  rw [gain_eq ha hb]
  have hv : ∀ (b : Box), MixesEqualAxes b.half b.rot → ∀ s : V3, (∀ k, |s k| ≤ 1) →
      ∃ x ∈ solidBox b.center b.half b.rot, dot x n = dot b.center n + s 0 * dot (gen b 0) n + s 1 * dot (gen b 1) n + s 2 * dot (gen b 2) n := by
    intro b hb s hs
    refine ⟨_, ⟨s, hs, fun r => rfl⟩, ?_⟩
    rw [gen_eq hb, gen_eq hb, gen_eq hb]
    simp only [dot, Fin.sum_univ_three]; ring
  have hpm : ∀ x : ℝ, (x = 1 ∨ x = -1) → |x| ≤ 1 := by rintro x (rfl | rfl) <;> simp
  have hmax : ∀ b : Box, ∃ s : V3, (∀ k, |s k| ≤ 1) ∧ ∀ k, s k * dot (gen b k) n = |dot (gen b k) n| := by
    intro b
    have := fun k => sign_exists (dot (gen b k) n)
    choose s hs1 hs2 using this
    exact ⟨s, fun k => hpm _ (hs1 k), hs2⟩
  obtain ⟨s, hs1, hs2⟩ := hmax a
  obtain ⟨t, ht1, ht2⟩ := hmax b
  obtain ⟨x, hx, ex⟩ := hv a ha s hs1
  obtain ⟨y, hy, ey⟩ := hv b hb (fun k => -t k) (fun k => by rw [abs_neg]; exact ht1 k)
  have e1 := h1 x hx
  have e2 := h3 y hy
  rw [hf] at e1 e2
  have s0 := hs2 0; have s1 := hs2 1; have s2 := hs2 2
  have t0 := ht2 0; have t1 := ht2 1; have t2 := ht2 2
  unfold width
  linarith

/-! ### Motions -/

/-- Placeholder for lists that are long enough. -/
def noBox : Box := ⟨0, 0, 0⟩

theorem fold_columns (f : Box → Bool) {α ι : Type} (rows : List α) (B : ι → α → Box) (js : List ι) (init : α → Bool) :
    (js.map fun j => rows.map (B j)).foldl (fun valids column => List.zipWith (fun v p => v && !f p) valids column) (rows.map init) =
    rows.map fun r => init r && js.all fun j => !f (B j r) := by
  induction js generalizing init with
  | nil => simp
  | cons j js ih =>
    rw [List.map_cons, List.foldl_cons, List.zipWith_map, List.zipWith_self, ih fun a => init a && !f (B j a)]
    apply List.map_congr_left
    intro r _
    simp [Bool.and_assoc]

theorem fold_obstacles {α ι : Type} (rows : List α) (B : ι → α → Box) (js : List ι) (obstacles : List Oobb) (init : α → Bool) :
    obstacles.foldl (fun valids o => (js.map fun j => rows.map (B j)).foldl
      (fun valids column => List.zipWith (fun v p => v && !sat o.box p) valids column) valids) (rows.map init) =
    rows.map fun r => init r && obstacles.all fun o => js.all fun j => !sat o.box (B j r) := by
  induction obstacles generalizing init with
  | nil => simp
  | cons o os ih =>
    rw [List.foldl_cons, fold_columns (fun p => sat o.box p), ih fun r => init r && js.all fun j => !sat o.box (B j r)]
    apply List.map_congr_left
    intro r _
    simp [Bool.and_assoc]

theorem range_all (l : List Box) (f : Box → Bool) : ((List.range l.length).all fun j => f (l[j]?.getD noBox)) = l.all f := by
  rw [Bool.eq_iff_iff, List.all_eq_true, List.all_eq_true]
  constructor
  · intro h x hx
    obtain ⟨j, hj, rfl⟩ := List.getElem_of_mem hx
    have := h j (List.mem_range.2 hj)
    rwa [List.getElem?_eq_getElem hj] at this
  · intro h j hj
    rw [List.mem_range] at hj
    rw [List.getElem?_eq_getElem hj]
    exact h _ (List.getElem_mem hj)

theorem numSteps_ok (rows : List (Conf × Conf)) (h : rows ≠ []) : ∃ m, (∃ r ∈ rows, m = confDist r.1 r.2) ∧
    (∀ r ∈ rows, confDist r.1 r.2 ≤ m) ∧ numSteps rows = .ok ⌊m / (3 / 100)⌋₊ := by
  obtain ⟨m, h1, h2, h3⟩ := Sat2D.pyMax_ok (rows.map fun r => confDist r.1 r.2) (by simpa using h)
  refine ⟨m, ?_, fun r hr => h3 _ (List.mem_map.2 ⟨r, hr, rfl⟩), ?_⟩
  · obtain ⟨r, hr, h⟩ := List.mem_map.1 h2
    exact ⟨r, hr, h.symm⟩
  · unfold numSteps
    rw [h1]; rfl

/-- The answer for one motion. -/
noncomputable def rowValid (obstacles : List Oobb) (lower upper : V3) (poses : List Pose) : Bool :=
  obstacles.all fun o => poses.all fun p => !sat o.box (Oobb.mk lower upper p).box

theorem isMotionValid_ok (interp : Conf → Conf → ℕ → List Pose) (lower upper : V3) (obstacles : List Oobb) (rows : List (Conf × Conf))
    (hne : rows ≠ []) {n : ℕ} (hn : numSteps rows = .ok n) (len : ℕ) (hlen : ∀ r ∈ rows, (interp r.1 r.2 (n + 2)).length = len) :
    isMotionValid interp lower upper obstacles rows = .ok (rows.map fun r => rowValid obstacles lower upper (interp r.1 r.2 (n + 2))) := by
  unfold isMotionValid
  rw [hn, Sat2D.ok_bind]
  set boxes : Conf × Conf → List Box := fun r => (interp r.1 r.2 (n + 2)).map fun p => (Oobb.mk lower upper p).box with hboxes
  have hbl : ∀ r ∈ rows, (boxes r).length = len := fun r hr => by rw [hboxes]; simp [hlen r hr]
  obtain ⟨r0, rest, rfl⟩ := List.exists_cons_of_ne_nil hne
  have h0 : item ((r0 :: rest).map boxes) 0 = .ok (boxes r0) := rfl
  show (item ((r0 :: rest).map boxes) 0 >>= _) = _
  rw [h0, Sat2D.ok_bind, hbl r0 (by simp)]
  have hstack : ((List.range len).mapM fun j => ((r0 :: rest).map boxes).mapM fun l => item l j) =
      .ok ((List.range len).map fun j => (r0 :: rest).map fun r => (boxes r)[j]?.getD noBox) := by
    apply Sat2D.mapM_ok
    intro j hj
    rw [List.mem_range] at hj
    rw [Sat2D.mapM_ok (fun l => item l j) (fun l => l[j]?.getD noBox) _ ?_, List.map_map]
    · rfl
    · intro l hl
      obtain ⟨r, hr, rfl⟩ := List.mem_map.1 hl
      have hj' : j < (boxes r).length := by rw [hbl r hr]; exact hj
      unfold item
      rw [List.getElem?_eq_getElem hj']
      rfl
  show ((List.range len).mapM _ >>= _) = _
  rw [hstack, Sat2D.ok_bind, fold_obstacles (r0 :: rest) (fun j r => (boxes r)[j]?.getD noBox) (List.range len) obstacles fun _ => true]
  congr 1
  apply List.map_congr_left
  intro r hr
  rw [Bool.true_and]
  unfold rowValid
  congr 1
  funext o
  rw [← hbl r hr, range_all (boxes r) fun b => !sat o.box b, hboxes, List.all_map]
  rfl

end Verif.Sat3D
