import Mathlib.Analysis.SpecialFunctions.Sqrt
import Mathlib.Tactic.Linarith
import Verif.Lemmas.Float32
import Verif.Spec.FloatAnn

/-! Error bounds for distances in single precision. -/

namespace Verif.Ann

open Verif

/-- The triangle inequality in the plane, for square roots. -/
theorem sqrt_tri (x y p q : ℝ) : |√(p ^ 2 + q ^ 2) - √(x ^ 2 + y ^ 2)| ≤ √((p - x) ^ 2 + (q - y) ^ 2) := by
  have key : ∀ x y p q : ℝ, √(p ^ 2 + q ^ 2) ≤ √(x ^ 2 + y ^ 2) + √((p - x) ^ 2 + (q - y) ^ 2) := by
    intro x y p q
    have hA : 0 ≤ √(x ^ 2 + y ^ 2) := Real.sqrt_nonneg _
    have hB : 0 ≤ √((p - x) ^ 2 + (q - y) ^ 2) := Real.sqrt_nonneg _
    have hA2 := Real.sq_sqrt (show 0 ≤ x ^ 2 + y ^ 2 by positivity)
    have hB2 := Real.sq_sqrt (show 0 ≤ (p - x) ^ 2 + (q - y) ^ 2 by positivity)
    rw [Real.sqrt_le_left (by positivity)]
    have hc : x * (p - x) + y * (q - y) ≤ √(x ^ 2 + y ^ 2) * √((p - x) ^ 2 + (q - y) ^ 2) := by
      refine le_trans (le_abs_self _) (abs_le_of_sq_le_sq ?_ (mul_nonneg hA hB)) 
      rw [mul_pow, hA2, hB2]
      nlinarith [sq_nonneg (x * (q - y) - y * (p - x))]
    nlinarith
  rw [abs_le]
  have h1 := key x y p q
  have h2 := key p q x y
  rw [show (x - p) ^ 2 + (y - q) ^ 2 = (p - x) ^ 2 + (q - y) ^ 2 by ring] at h2
  constructor <;> linarith

/-- Moving every coordinate of both points by at most `e` changes their distance by at most `2 e √n`. -/
theorem euclid_moved (f : ℝ → ℝ) (e : ℝ) (he : 0 ≤ e) (a : List ℝ) : ∀ b : List ℝ, a.length = b.length → (∀ x ∈ a, |f x - x| ≤ e) → (∀ x ∈ b, |f x - x| ≤ e) →
    |euclid (a.map f) (b.map f) - euclid a b| ≤ 2 * e * √(a.length : ℝ) := by
  induction a with
  | nil => intro b _ _ _; simp [euclid]
  | cons x a ih =>
    intro b hab ha hb
    cases b with
    | nil => simp at hab
    | cons y b =>
      have ih := ih b (by simpa using hab) (fun z hz => ha z (List.mem_cons_of_mem _ hz)) (fun z hz => hb z (List.mem_cons_of_mem _ hz))
      have hx := ha x List.mem_cons_self
      have hy := hb y List.mem_cons_self
      have hs : ∀ a b : List ℝ, 0 ≤ (List.zipWith (fun x y => (x - y) ^ 2) a b).sum := by
        intro a b
        apply List.sum_nonneg
        intro z hz
        obtain ⟨u, v, -, -, rfl⟩ : ∃ u v : ℝ, True ∧ True ∧ (u - v) ^ 2 = z := by
          rw [List.mem_iff_getElem] at hz
          obtain ⟨i, hi, rfl⟩ := hz
          exact ⟨_, _, trivial, trivial, by rw [List.getElem_zipWith]⟩
        positivity
      have hc : ∀ (x y : ℝ) (a b : List ℝ), euclid (x :: a) (y :: b) = √((x - y) ^ 2 + euclid a b ^ 2) := by
        intro x y a b
        unfold euclid
        rw [Real.sq_sqrt (hs a b), List.zipWith_cons_cons, List.sum_cons]
      rw [List.map_cons, List.map_cons, hc, hc]
      refine (sqrt_tri _ _ _ _).trans ?_
      rw [Real.sqrt_le_left (by positivity), mul_pow, Real.sq_sqrt (by positivity)]
      have h1 : |f x - f y - (x - y)| ≤ 2 * e := by
        rw [show f x - f y - (x - y) = (f x - x) - (f y - y) by ring]
        have := abs_sub (f x - x) (f y - y)
        linarith
      have h1' : (f x - f y - (x - y)) ^ 2 ≤ (2 * e) ^ 2 := by
        rw [← sq_abs]; exact pow_le_pow_left₀ (abs_nonneg _) h1 2
      have h2' : (euclid (a.map f) (b.map f) - euclid a b) ^ 2 ≤ (2 * e) ^ 2 * a.length := by
        rw [← sq_abs]
        refine (pow_le_pow_left₀ (abs_nonneg _) ih 2).trans ?_
        rw [mul_pow, Real.sq_sqrt (by positivity)]
      rw [List.length_cons]
      push_cast
      linarith

/-- From squares to the numbers. -/
theorem near_of_sq {y E δ t : ℝ} (hy : 0 ≤ y) (hE : 0 ≤ E) (hδ : 0 ≤ δ) (ht : 0 ≤ t) (h : |y ^ 2 - E ^ 2| ≤ δ * E ^ 2 + t ^ 2) : |y - E| ≤ δ * E + t := by
  by_contra hn
  rw [not_le] at hn
  have e : |y ^ 2 - E ^ 2| = |y - E| * (y + E) := by
    rw [show y ^ 2 - E ^ 2 = (y - E) * (y + E) by ring, abs_mul, abs_of_nonneg (show 0 ≤ y + E by linarith)]
  have hM : |y - E| ≤ y + E := by rw [abs_le]; constructor <;> linarith
  rw [e] at h
  have h0 : 0 ≤ δ * E := mul_nonneg hδ hE
  have hpos : 0 < y + E := by linarith
  have h1 : (δ * E + t) * (y + E) < |y - E| * (y + E) := mul_lt_mul_of_pos_right hn hpos
  have h2 : δ * E * E ≤ δ * E * (y + E) := mul_le_mul_of_nonneg_left (by linarith) h0
  have h3 : t * t ≤ t * (y + E) := mul_le_mul_of_nonneg_left (by linarith) ht
  nlinarith

/-- The distance that is returned for a half square `h` that is off by at most `η` of it. -/
theorem single_dist {h H η : ℝ} (hH : 0 ≤ H) (hη : 0 ≤ η) (hη1 : η ≤ 1) (hh : |h - H| ≤ η * H) :
    |Float32.fl (√(Float32.fl (Float32.fl h * 2))) - √(2 * H)| ≤ (2 * η + 2 ^ (-22 : ℤ)) * √(2 * H) + 2 ^ (-73 : ℤ) := by
  have hh0 : 0 ≤ h := by
    have := (abs_le.1 hh).1
    nlinarith
  have h1 := Float32.fl_err h
  rw [abs_of_nonneg hh0] at h1
  have hx0 : 0 ≤ Float32.fl h := Float32.fl_nonneg hh0
  have hdouble : Float32.fl (Float32.fl h * 2) = 2 * Float32.fl h := by
    rw [mul_comm]
    exact Float32.fl_float (Float32.isFloat_fl h).double
  rw [hdouble]
  set x := Float32.fl h with hx
  have h3 := Float32.fl_err (√(2 * x))
  rw [abs_of_nonneg (Real.sqrt_nonneg _)] at h3
  set y := √(2 * x) with hy
  set E := √(2 * H) with hE
  have hy0 : 0 ≤ y := Real.sqrt_nonneg _
  have hE0 : 0 ≤ E := Real.sqrt_nonneg _
  have hy2 : y ^ 2 = 2 * x := Real.sq_sqrt (by linarith)
  have hE2 : E ^ 2 = 2 * H := Real.sq_sqrt (by linarith)
  set z := Float32.fl y with hz
  have e1 : (2 : ℝ) ^ (-24 : ℤ) = 1 / 16777216 := by norm_num
  have e2 : (2 : ℝ) ^ (-22 : ℤ) = 1 / 4194304 := by norm_num
  have e3 : 2 * (2 : ℝ) ^ (-150 : ℤ) ≤ ((2 : ℝ) ^ (-74 : ℤ)) ^ 2 := by norm_num
  have e4 : (2 : ℝ) ^ (-150 : ℤ) ≤ 1 / 4 * (2 : ℝ) ^ (-74 : ℤ) := by norm_num
  have e5 : (2 : ℝ) ^ (-73 : ℤ) = 2 * (2 : ℝ) ^ (-74 : ℤ) := by norm_num
  have ht : (0 : ℝ) ≤ 2 ^ (-74 : ℤ) := by positivity
  rw [e1] at h1 h3
  rw [e2, e5]
  generalize (2 : ℝ) ^ (-74 : ℤ) = t at *
  generalize (2 : ℝ) ^ (-150 : ℤ) = τ at *
  have hhH : h ≤ (1 + η) * H := by
    have := (abs_le.1 hh).2
    linarith
  have hxH : |x - H| ≤ (η + 2 * (1 / 16777216)) * H + τ := by
    have := abs_add_le (x - h) (h - H)
    rw [show x - h + (h - H) = x - H by ring] at this
    have : η * H ≤ H := by nlinarith
    linarith
  have key : |y - E| ≤ (η + 2 * (1 / 16777216)) * E + t := by
    refine near_of_sq hy0 hE0 (by linarith) ht ?_
    rw [hy2, hE2, show 2 * x - 2 * H = 2 * (x - H) by ring, abs_mul, abs_of_pos (by norm_num : (0 : ℝ) < 2)]
    linarith
  have hyE := (abs_le.1 key).2
  have := abs_add_le (z - y) (y - E)
  rw [show z - y + (y - E) = z - E by ring] at this
  have : η * E ≤ E := by nlinarith
  have hηE : 0 ≤ η * E := mul_nonneg hη hE0
  linarith

/-- Both errors together, for rows of `n` coordinates up to `R`. -/
theorem single_euclid {R η : ℝ} (hR : 1 ≤ R) (hη : 0 ≤ η) (hη1 : η ≤ 1 / 4) (a b : List ℝ) (hab : a.length = b.length) (hn : 1 ≤ a.length)
    (ha : ∀ x ∈ a, |x| ≤ R) (hb : ∀ x ∈ b, |x| ≤ R) {h : ℝ}
    (hh : |h - halfSq (a.map Float32.fl) (b.map Float32.fl)| ≤ η * halfSq (a.map Float32.fl) (b.map Float32.fl)) :
    |Float32.fl (√(Float32.fl (Float32.fl h * 2))) - euclid a b| ≤ (2 * η + 2 ^ (-22 : ℤ)) * euclid a b + 2 ^ (-21 : ℤ) * √(a.length : ℝ) * R := by
  have hu : (0 : ℝ) ≤ 2 ^ (-24 : ℤ) * R + 2 ^ (-150 : ℤ) := by positivity
  have hcoord : ∀ x : ℝ, |x| ≤ R → |Float32.fl x - x| ≤ 2 ^ (-24 : ℤ) * R + 2 ^ (-150 : ℤ) := by
    intro x hx
    have := Float32.fl_err x
    have : (2 : ℝ) ^ (-24 : ℤ) * |x| ≤ 2 ^ (-24 : ℤ) * R := mul_le_mul_of_nonneg_left hx (by positivity)
    linarith
  have hm := euclid_moved Float32.fl _ hu a b hab (fun x hx => hcoord x (ha x hx)) (fun x hx => hcoord x (hb x hx))
  have hE : √(2 * halfSq (a.map Float32.fl) (b.map Float32.fl)) = euclid (a.map Float32.fl) (b.map Float32.fl) := by
    unfold halfSq euclid
    rw [mul_div_cancel₀ _ (by norm_num)]
  have hH : 0 ≤ halfSq (a.map Float32.fl) (b.map Float32.fl) := by
    have h0 := (abs_nonneg _).trans hh
    by_contra hneg
    rw [not_le] at hneg
    have h1 := hh
    unfold halfSq at hneg
    have : 0 ≤ (List.zipWith (fun x y : ℝ => (x - y) ^ 2) (a.map Float32.fl) (b.map Float32.fl)).sum := by
      apply List.sum_nonneg
      intro z hz
      rw [List.mem_iff_getElem] at hz
      obtain ⟨i, hi, rfl⟩ := hz
      rw [List.getElem_zipWith]
      positivity
    linarith
  have hs := single_dist hH hη (by linarith) hh
  rw [hE] at hs
  set E' := euclid (a.map Float32.fl) (b.map Float32.fl)
  set z := Float32.fl (√(Float32.fl (Float32.fl h * 2)))
  set E := euclid a b
  have hE'0 : 0 ≤ E' := Real.sqrt_nonneg _
  have hE0 : 0 ≤ E := Real.sqrt_nonneg _
  have hr1 : 1 ≤ √(a.length : ℝ) := by
    rw [Real.one_le_sqrt]
    exact_mod_cast hn
  set r := √(a.length : ℝ)
  have e1 : (2 : ℝ) ^ (-24 : ℤ) = 1 / 16777216 := by norm_num
  have e2 : (2 : ℝ) ^ (-22 : ℤ) = 1 / 4194304 := by norm_num
  have e3 : (2 : ℝ) ^ (-21 : ℤ) = 1 / 2097152 := by norm_num
  have e4 : (2 : ℝ) ^ (-150 : ℤ) ≤ 1 / 1000000000000 := by norm_num
  have e5 : (2 : ℝ) ^ (-73 : ℤ) ≤ 1 / 1000000000000 := by norm_num
  rw [e1] at hm
  rw [e2] at hs
  rw [e2, e3]
  generalize (2 : ℝ) ^ (-73 : ℤ) = t at *
  generalize (2 : ℝ) ^ (-150 : ℤ) = τ at *
  have := abs_add_le (z - E') (E' - E)
  rw [show z - E' + (E' - E) = z - E by ring] at this
  have hD := (abs_le.1 hm).2
  have hrR : 1 ≤ r * R := by nlinarith
  have hrr : r ≤ r * R := by nlinarith
  have hDb : 2 * (1 / 16777216 * R + τ) * r ≤ 2 * (1 / 16777216) * (r * R) + 2 / 1000000000000 * (r * R) := by
    have : τ * r ≤ 1 / 1000000000000 * r := mul_le_mul_of_nonneg_right e4 (by linarith)
    nlinarith
  have hc : (2 * η + 1 / 4194304) * E' ≤ (2 * η + 1 / 4194304) * E + (2 * (1 / 4) + 1 / 4194304) * (2 * (1 / 16777216 * R + τ) * r) := by
    have h1 : (2 * η + 1 / 4194304) * E' ≤ (2 * η + 1 / 4194304) * (E + 2 * (1 / 16777216 * R + τ) * r) :=
      mul_le_mul_of_nonneg_left (by linarith) (by linarith)
    have h2 : (2 * η + 1 / 4194304) * (2 * (1 / 16777216 * R + τ) * r) ≤ (2 * (1 / 4) + 1 / 4194304) * (2 * (1 / 16777216 * R + τ) * r) := by
      apply mul_le_mul_of_nonneg_right (by linarith)
      have := (abs_nonneg _).trans hm
      exact this
    linarith
  have : |z - E| ≤ (2 * η + 1 / 4194304) * E + 1 / 2097152 * (r * R) := by linarith
  linarith

end Verif.Ann
