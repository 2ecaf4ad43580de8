import Verif.Lemmas.FloatSat
import Verif.Lemmas.FloatSigned
import Verif.Spec.FloatSat

/-! Rounding errors of the separating-axis test. -/

namespace Verif.FloatSat

open Verif.Spec Verif.Sat2D

variable {rd : ℝ → ℝ} {dotR : V2 → V2 → ℝ} {u τ : ℝ}

/-- The triangle inequality for sums. -/
theorem tri {z : ℝ} (x y : ℝ) (h : z = x + y := by ring) : |z| ≤ |x| + |y| := h ▸ abs_add_le x y

/-- The computed norm. -/
theorem norm_err (hrd : Rounds rd u τ) (hu : 0 ≤ u) (hu' : u ≤ 1 / 1000) (hτ : 0 ≤ τ) (x y N : ℝ) (hN : 0 < N) (hxy : x ^ 2 + y ^ 2 = N ^ 2)
    (h1 : τ ≤ u * N ^ 2) (h2 : τ ≤ u * N) : |rd (√(rd (rd (x * x) + rd (y * y)))) - N| ≤ 9 * u * N := by
  have ha := hrd (x * x)
  have hb := hrd (y * y)
  set a := rd (x * x)
  set b := rd (y * y)
  have hc := hrd (a + b)
  set c := rd (a + b)
  have hs := hrd (√c)
  set s := rd (√c)
  rw [abs_of_nonneg (mul_self_nonneg x)] at ha
  rw [abs_of_nonneg (mul_self_nonneg y)] at hb
  have hN2 : 0 < N ^ 2 := by positivity
  have huN : 0 ≤ u * N ^ 2 := by positivity
  have hab : |a + b - N ^ 2| ≤ 3 * (u * N ^ 2) := by
    have e : u * (x * x) + u * (y * y) = u * N ^ 2 := by rw [← hxy]; ring
    rw [abs_le] at *
    constructor <;> nlinarith
  have huu : u * (u * N ^ 2) ≤ 1 / 1000 * (u * N ^ 2) := mul_le_mul_of_nonneg_right hu' huN
  have habs : |a + b| ≤ N ^ 2 + 3 * (u * N ^ 2) := by
    have : |a + b| ≤ |a + b - N ^ 2| + |N ^ 2| := tri (a + b - N ^ 2) (N ^ 2)
    rw [abs_of_pos hN2] at this
    linarith
  have hcN : |c - N ^ 2| ≤ 6 * (u * N ^ 2) := by
    have h3 : |c - N ^ 2| ≤ |c - (a + b)| + |a + b - N ^ 2| := tri (c - (a + b)) (a + b - N ^ 2)
    have h4 : u * |a + b| ≤ u * (N ^ 2 + 3 * (u * N ^ 2)) := mul_le_mul_of_nonneg_left habs hu
    nlinarith
  have hc0 : 0 ≤ c := by
    have := (abs_le.1 hcN).1
    nlinarith
  have hsq := Real.sq_sqrt hc0
  have hs0 := Real.sqrt_nonneg c
  have hroot : |√c - N| ≤ 6 * (u * N) := by
    have e : |√c - N| * (√c + N) = |c - N ^ 2| := by
      rw [← abs_of_nonneg (by positivity : 0 ≤ √c + N), ← abs_mul]
      congr 1
      nlinarith
    have h5 : |√c - N| * N ≤ |√c - N| * (√c + N) := mul_le_mul_of_nonneg_left (by linarith) (abs_nonneg _)
    have h6 : |√c - N| * N ≤ 6 * (u * N) * N := by nlinarith
    exact le_of_mul_le_mul_right h6 hN
  rw [abs_of_nonneg hs0] at hs
  have h7 : |s - N| ≤ |s - √c| + |√c - N| := tri (s - √c) (√c - N)
  have h8 : √c ≤ N + 6 * (u * N) := by linarith [(abs_le.1 hroot).2]
  have h9 : u * √c ≤ u * (N + 6 * (u * N)) := mul_le_mul_of_nonneg_left h8 hu
  have huN' : 0 ≤ u * N := by positivity
  have huu' : u * (u * N) ≤ 1 / 1000 * (u * N) := mul_le_mul_of_nonneg_right hu' huN'
  nlinarith

/-- One coordinate of the computed unit vector. -/
theorem unit_err (hrd : Rounds rd u τ) (hu : 0 ≤ u) (hu' : u ≤ 1 / 1000) (x N s : ℝ) (hN : 0 < N) (hx : |x| ≤ N)
    (hs : |s - N| ≤ 9 * u * N) (h3 : τ ≤ u) : 0 < s ∧ |rd (x / s) - x / N| ≤ 12 * u := by
  have huN : 0 ≤ u * N := by positivity
  have hsl : 991 / 1000 * N ≤ s := by
    have := (abs_le.1 hs).1
    nlinarith
  have hs0 : 0 < s := by nlinarith
  refine ⟨hs0, ?_⟩
  have hr := hrd (x / s)
  have e1 : |x / s - x / N| ≤ 91 / 10 * u := by
    have : x / s - x / N = x * (N - s) / (s * N) := by field_simp
    rw [this, abs_div, abs_mul, abs_of_pos (by positivity : 0 < s * N), div_le_iff₀ (by positivity), abs_sub_comm]
    calc |x| * |s - N| ≤ N * (9 * u * N) := mul_le_mul hx hs (abs_nonneg _) hN.le
      _ ≤ 91 / 10 * u * (991 / 1000 * N * N) := by nlinarith [mul_nonneg huN hN.le]
      _ ≤ 91 / 10 * u * (s * N) := mul_le_mul_of_nonneg_left (mul_le_mul_of_nonneg_right hsl hN.le) (by positivity)
  have e2 : |x / s| ≤ 11 / 10 := by
    rw [abs_div, abs_of_pos hs0, div_le_iff₀ hs0]
    linarith
  have e3 : u * |x / s| ≤ u * (11 / 10) := mul_le_mul_of_nonneg_left e2 hu
  have e4 : |rd (x / s) - x / N| ≤ |rd (x / s) - x / s| + |x / s - x / N| := tri (rd (x / s) - x / s) (x / s - x / N)
  linarith

theorem abs_le_of_sq_add {x y N : ℝ} (hN : 0 ≤ N) (h : x ^ 2 + y ^ 2 = N ^ 2) : |x| ≤ N := by
  rw [← abs_of_nonneg hN]
  exact sq_le_sq.1 (by nlinarith [sq_nonneg y])

/-- The computed unit vector of a vector. -/
theorem vecNormalizeR_err (hrd : Rounds rd u τ) (hu : 0 ≤ u) (hu' : u ≤ 1 / 1000) (hτ : 0 ≤ τ) (v : V2) (N : ℝ) (hN : 0 < N)
    (hv : v.1 ^ 2 + v.2 ^ 2 = N ^ 2) (h1 : τ ≤ u * N ^ 2) (h2 : τ ≤ u * N) (h3 : τ ≤ u) :
    ∃ n, vecNormalizeR rd v = some n ∧ |n.1 - v.1 / N| ≤ 12 * u ∧ |n.2 - v.2 / N| ≤ 12 * u := by
  have hs := norm_err hrd hu hu' hτ v.1 v.2 N hN hv h1 h2
  obtain ⟨hs0, e1⟩ := unit_err hrd hu hu' v.1 N _ hN (abs_le_of_sq_add hN.le hv) hs h3
  obtain ⟨-, e2⟩ := unit_err hrd hu hu' v.2 N _ hN (abs_le_of_sq_add (y := v.1) hN.le (by linarith)) hs h3
  refine ⟨(rd (v.1 / rd (√(rd (rd (v.1 * v.1) + rd (v.2 * v.2))))), rd (v.2 / rd (√(rd (rd (v.1 * v.1) + rd (v.2 * v.2)))))), ?_, e1, e2⟩
  unfold vecNormalizeR
  simp only [if_neg hs0.ne']

/-- The direction of a vector whose coordinates were rounded. -/
theorem dir_err (hrd : Rounds rd u τ) (hu : 0 ≤ u) (hu' : u ≤ 1 / 1000) (d : V2) (D : ℝ) (hD : 0 < D)
    (hd : d.1 ^ 2 + d.2 ^ 2 = D ^ 2) (h2 : τ ≤ u * D) :
    ∃ N, 99 / 100 * D ≤ N ∧ (rd d.1) ^ 2 + (rd d.2) ^ 2 = N ^ 2 ∧ |rd d.1 / N - d.1 / D| ≤ 5 * u ∧ |rd d.2 / N - d.2 / D| ≤ 5 * u := by
  have hx := abs_le_of_sq_add hD.le hd
  have hy := abs_le_of_sq_add (y := d.1) hD.le (by linarith : d.2 ^ 2 + d.1 ^ 2 = D ^ 2)
  have ex : |rd d.1 - d.1| ≤ 2 * (u * D) := by
    have := mul_le_mul_of_nonneg_left hx hu
    linarith [hrd d.1]
  have ey : |rd d.2 - d.2| ≤ 2 * (u * D) := by
    have := mul_le_mul_of_nonneg_left hy hu
    linarith [hrd d.2]
  set x := rd d.1
  set y := rd d.2
  set N := √(x ^ 2 + y ^ 2)
  have hN2 : x ^ 2 + y ^ 2 = N ^ 2 := (Real.sq_sqrt (by positivity)).symm
  have hN0 : 0 ≤ N := Real.sqrt_nonneg _
  have huD : 0 ≤ u * D := by positivity
  have hsx : (x - d.1) ^ 2 ≤ 4 * (u * D) ^ 2 := by
    rw [← sq_abs (x - d.1)]
    calc |x - d.1| ^ 2 ≤ (2 * (u * D)) ^ 2 := pow_le_pow_left₀ (abs_nonneg _) ex 2
      _ = _ := by ring
  have hsy : (y - d.2) ^ 2 ≤ 4 * (u * D) ^ 2 := by
    rw [← sq_abs (y - d.2)]
    calc |y - d.2| ^ 2 ≤ (2 * (u * D)) ^ 2 := pow_le_pow_left₀ (abs_nonneg _) ey 2
      _ = _ := by ring
  -- the difference of the lengths
  have hlen : |N - D| ≤ 3 * (u * D) := by
    have hcs : x * d.1 + y * d.2 ≤ N * D := by
      refine (le_abs_self _).trans (abs_le_of_sq_le_sq ?_ (by positivity))
      have : (N * D) ^ 2 = (x ^ 2 + y ^ 2) * (d.1 ^ 2 + d.2 ^ 2) := by rw [mul_pow, ← hN2, hd]
      rw [this]
      nlinarith [sq_nonneg (x * d.2 - y * d.1)]
    have hsq : (N - D) ^ 2 ≤ (3 * (u * D)) ^ 2 := by
      have : (N - D) ^ 2 ≤ (x - d.1) ^ 2 + (y - d.2) ^ 2 := by nlinarith
      nlinarith [sq_nonneg (u * D)]
    exact abs_le_of_sq_le_sq hsq (by positivity)
  have hNl : 99 / 100 * D ≤ N := by
    have := (abs_le.1 hlen).1
    nlinarith
  have hN : 0 < N := by nlinarith
  have key : ∀ z w : ℝ, |z| ≤ N → |z - w| ≤ 2 * (u * D) → |z / N - w / D| ≤ 5 * u := by
    intro z w hz hzw
    have e : z / N - w / D = z / N * ((D - N) / D) + (z - w) / D := by field_simp; ring
    have h1 : |z / N| ≤ 1 := by
      rw [abs_div, abs_of_pos hN, div_le_one hN]
      exact hz
    have h2 : |(D - N) / D| ≤ 3 * u := by
      rw [abs_div, abs_of_pos hD, div_le_iff₀ hD, abs_sub_comm]
      linarith
    have h3 : |(z - w) / D| ≤ 2 * u := by
      rw [abs_div, abs_of_pos hD, div_le_iff₀ hD]
      linarith
    rw [e]
    calc _ ≤ |z / N * ((D - N) / D)| + |(z - w) / D| := abs_add_le _ _
      _ ≤ 1 * (3 * u) + 2 * u := by
        rw [abs_mul]
        exact add_le_add (mul_le_mul h1 h2 (abs_nonneg _) zero_le_one) h3
      _ = 5 * u := by ring
  exact ⟨N, hNl, hN2, key x d.1 (abs_le_of_sq_add hN0 hN2) ex, key y d.2 (abs_le_of_sq_add (y := x) hN0 (by linarith)) ey⟩

/-- The computed axis of a computed edge is near the unit normal of the edge. -/
theorem axis_err (hrd : Rounds rd u τ) (hu : 0 ≤ u) (hu' : u ≤ 1 / 1000) (hτ : 0 ≤ τ) (d : V2) (D : ℝ) (hD : 0 < D)
    (hd : d.1 ^ 2 + d.2 ^ 2 = D ^ 2) (h1 : 2 * τ ≤ u * D ^ 2) (h2 : 2 * τ ≤ u * D) (h3 : τ ≤ u) :
    ∃ n, vecNormalizeR rd (orthogonal (rd d.1, rd d.2)) = some n ∧ |n.1 - d.2 / D| ≤ 17 * u ∧ |n.2 - -d.1 / D| ≤ 17 * u := by
  obtain ⟨N, hNl, hN2, ex, ey⟩ := dir_err hrd hu hu' d D hD hd (by linarith)
  have hN : 0 < N := by nlinarith
  have hNN : (99 / 100 * D) ^ 2 ≤ N ^ 2 := pow_le_pow_left₀ (by positivity) hNl 2
  obtain ⟨n, hn, f1, f2⟩ := vecNormalizeR_err hrd hu hu' hτ (orthogonal (rd d.1, rd d.2)) N hN (by simp only [orthogonal]; linarith)
    (by have := mul_le_mul_of_nonneg_left hNN hu; nlinarith [mul_nonneg hu (sq_nonneg D)])
    (by have := mul_le_mul_of_nonneg_left hNl hu; nlinarith [mul_nonneg hu hD.le]) h3
  refine ⟨n, hn, ?_, ?_⟩
  · simp only [orthogonal] at f1
    have : |n.1 - d.2 / D| ≤ |n.1 - rd d.2 / N| + |rd d.2 / N - d.2 / D| := tri (n.1 - rd d.2 / N) (rd d.2 / N - d.2 / D)
    linarith
  · simp only [orthogonal] at f2
    have e : |(-rd d.1) / N - -d.1 / D| = |rd d.1 / N - d.1 / D| := by rw [← abs_neg]; congr 1; ring
    have : |n.2 - -d.1 / D| ≤ |n.2 - (-rd d.1) / N| + |(-rd d.1) / N - -d.1 / D| := tri (n.2 - (-rd d.1) / N) ((-rd d.1) / N - -d.1 / D)
    linarith

/-- Both ways of computing a dot product are accurate. -/
theorem dotPlain_accurate (hrd : Rounds rd u τ) (hu : 0 ≤ u) (hu' : u ≤ 1 / 1000) (hτ : 0 ≤ τ) : DotAccurate (dotPlain rd) u τ := by
  intro v w
  unfold dotPlain
  have h1 := hrd (v.1 * w.1)
  have h2 := hrd (v.2 * w.2)
  set a := v.1 * w.1
  set b := v.2 * w.2
  have h3 := hrd (rd a + rd b)
  have e1 : |rd a + rd b - (a + b)| ≤ u * (|a| + |b|) + 2 * τ := by
    have : rd a + rd b - (a + b) = (rd a - a) + (rd b - b) := by ring
    rw [this]
    linarith [abs_add_le (rd a - a) (rd b - b)]
  have e2 : |rd a + rd b| ≤ (|a| + |b|) + (u * (|a| + |b|) + 2 * τ) := by
    have : |rd a + rd b| ≤ |rd a + rd b - (a + b)| + |a + b| := tri (rd a + rd b - (a + b)) (a + b)
    linarith [abs_add_le a b]
  have e3 := mul_le_mul_of_nonneg_left e2 hu
  have e4 : |rd (rd a + rd b) - (a + b)| ≤ |rd (rd a + rd b) - (rd a + rd b)| + |rd a + rd b - (a + b)| := tri (rd (rd a + rd b) - (rd a + rd b)) (rd a + rd b - (a + b))
  have hs : 0 ≤ |a| + |b| := by positivity
  have h5 : u * (u * (|a| + |b|)) ≤ 1 / 1000 * (u * (|a| + |b|)) := mul_le_mul_of_nonneg_right hu' (by positivity)
  have h6 : u * τ ≤ 1 / 1000 * τ := mul_le_mul_of_nonneg_right hu' hτ
  have h7 : 0 ≤ u * (|a| + |b|) := by positivity
  nlinarith

theorem dotFused_accurate (hrd : Rounds rd u τ) (hu : 0 ≤ u) (hu' : u ≤ 1 / 1000) (hτ : 0 ≤ τ) : DotAccurate (dotFused rd) u τ := by
  intro v w
  unfold dotFused
  have h1 := hrd (v.1 * w.1)
  set a := v.1 * w.1
  set b := v.2 * w.2
  have h3 := hrd (rd a + b)
  have hub : 0 ≤ u * |b| := by positivity
  have e1 : |rd a + b - (a + b)| ≤ u * (|a| + |b|) + 2 * τ := by
    have : rd a + b - (a + b) = rd a - a := by ring
    rw [this]
    linarith
  have e2 : |rd a + b| ≤ (|a| + |b|) + (u * (|a| + |b|) + 2 * τ) := by
    have : |rd a + b| ≤ |rd a + b - (a + b)| + |a + b| := tri (rd a + b - (a + b)) (a + b)
    linarith [abs_add_le a b]
  have e3 := mul_le_mul_of_nonneg_left e2 hu
  have e4 : |rd (rd a + b) - (a + b)| ≤ |rd (rd a + b) - (rd a + b)| + |rd a + b - (a + b)| := tri (rd (rd a + b) - (rd a + b)) (rd a + b - (a + b))
  have hs : 0 ≤ |a| + |b| := by positivity
  have h5 : u * (u * (|a| + |b|)) ≤ 1 / 1000 * (u * (|a| + |b|)) := mul_le_mul_of_nonneg_right hu' (by positivity)
  have h6 : u * τ ≤ 1 / 1000 * τ := mul_le_mul_of_nonneg_right hu' hτ
  have h7 : 0 ≤ u * (|a| + |b|) := by positivity
  nlinarith

/-- What is needed of an axis: it is within `17u` of a unit vector `w` in each coordinate. -/
structure NearUnit (u : ℝ) (n w : V2) : Prop where
  unit : w.1 ^ 2 + w.2 ^ 2 = 1
  x : |n.1 - w.1| ≤ 17 * u
  y : |n.2 - w.2| ≤ 17 * u

theorem NearUnit.sum_le {n w : V2} (h : NearUnit u n w) (hu' : u ≤ 1 / 1000) : |n.1| + |n.2| ≤ 29 / 20 := by
  have h1 : |n.1| ≤ |n.1 - w.1| + |w.1| := tri (n.1 - w.1) w.1
  have h2 : |n.2| ≤ |n.2 - w.2| + |w.2| := tri (n.2 - w.2) w.2
  have h3 : |w.1| + |w.2| ≤ 1415 / 1000 := by
    refine (le_abs_self _).trans (abs_le_of_sq_le_sq ?_ (by norm_num))
    nlinarith [sq_nonneg (|w.1| - |w.2|), sq_abs w.1, sq_abs w.2, h.unit]
  linarith [h.x, h.y]

/-- A computed dot product with an axis is within `5uR` of the exact one. -/
theorem dot_axis_err (hd : DotAccurate dotR u τ) (hu : 0 ≤ u) (hu' : u ≤ 1 / 1000) {n w : V2} (h : NearUnit u n w) (v : V2) (R : ℝ)
    (hR : 8 * τ ≤ u * R) (hv : |v.1| ≤ R ∧ |v.2| ≤ R) : |dotR v n - dot v n| ≤ 5 * (u * R) := by
  have h1 := hd v n
  have hR0 : 0 ≤ R := (abs_nonneg _).trans hv.1
  have h2 : |v.1 * n.1| + |v.2 * n.2| ≤ R * (29 / 20) := by
    rw [abs_mul, abs_mul]
    have := mul_le_mul_of_nonneg_right hv.1 (abs_nonneg n.1)
    have := mul_le_mul_of_nonneg_right hv.2 (abs_nonneg n.2)
    nlinarith [mul_le_mul_of_nonneg_left (h.sum_le hu') hR0]
  have h3 := mul_le_mul_of_nonneg_left h2 (by positivity : 0 ≤ 3 * u)
  unfold dot
  nlinarith [mul_nonneg hu hR0]

/-- The exact dot products with an axis and with the unit vector near it. -/
theorem dot_near {n w : V2} (h : NearUnit u n w) (v : V2) (R : ℝ) (hv : |v.1| ≤ R ∧ |v.2| ≤ R) : |dot v n - dot v w| ≤ 34 * (u * R) := by
  have e : dot v n - dot v w = v.1 * (n.1 - w.1) + v.2 * (n.2 - w.2) := by unfold dot; ring
  have hR0 : 0 ≤ R := (abs_nonneg _).trans hv.1
  rw [e]
  calc _ ≤ |v.1 * (n.1 - w.1)| + |v.2 * (n.2 - w.2)| := abs_add_le _ _
    _ ≤ R * (17 * u) + R * (17 * u) := by
      rw [abs_mul, abs_mul]
      exact add_le_add (mul_le_mul hv.1 h.x (abs_nonneg _) hR0) (mul_le_mul hv.2 h.y (abs_nonneg _) hR0)
    _ = _ := by ring

/-- The polygons are separated in some direction, up to an overlap of less than `η`. -/
def NearSep (η : ℝ) (va vb : List V2) : Prop := ∃ w : V2, w.1 ^ 2 + w.2 ^ 2 = 1 ∧
  ((∀ a ∈ va, ∀ b ∈ vb, dot a w < dot b w + η) ∨ (∀ a ∈ va, ∀ b ∈ vb, dot b w < dot a w + η))

/-- When the computed dot products separate the vertices, they are nearly separated. -/
theorem nearSep_of_separatesR (hd : DotAccurate dotR u τ) (hu : 0 ≤ u) (hu' : u ≤ 1 / 1000) {n w : V2} (h : NearUnit u n w) (va vb : List V2) (R : ℝ)
    (hR : 8 * τ ≤ u * R) (ha : InBox R va) (hb : InBox R vb) (hR0 : 0 ≤ R) (hs : SeparatesR dotR va vb n) : NearSep (11 * (u * R)) va vb := by
  have huR : 0 ≤ u * R := by positivity
  have hw1 : |w.1| ≤ 1 := abs_le_of_sq_add (y := w.2) zero_le_one (by rw [h.unit]; norm_num)
  have hw2 : |w.2| ≤ 1 := abs_le_of_sq_add (y := w.1) zero_le_one (by rw [add_comm, h.unit]; norm_num)
  have hwn : 96 / 100 ≤ dot w n := by
    have e : dot w n = 1 + (w.1 * (n.1 - w.1) + w.2 * (n.2 - w.2)) := by unfold dot; nlinarith [h.unit]
    have h1 : |w.1 * (n.1 - w.1)| ≤ 1 * (17 * u) := by rw [abs_mul]; exact mul_le_mul hw1 h.x (abs_nonneg _) zero_le_one
    have h2 : |w.2 * (n.2 - w.2)| ≤ 1 * (17 * u) := by rw [abs_mul]; exact mul_le_mul hw2 h.y (abs_nonneg _) zero_le_one
    rw [e]
    linarith [(abs_le.1 h1).1, (abs_le.1 h2).1]
  set K := √(n.1 ^ 2 + n.2 ^ 2)
  have hK2 : n.1 ^ 2 + n.2 ^ 2 = K ^ 2 := (Real.sq_sqrt (by positivity)).symm
  have hK0 : 0 ≤ K := Real.sqrt_nonneg _
  have hK : 96 / 100 ≤ K := by
    refine hwn.trans ((le_abs_self _).trans (abs_le_of_sq_le_sq ?_ hK0))
    rw [← hK2]
    have : dot w n ^ 2 + (w.1 * n.2 - w.2 * n.1) ^ 2 = (w.1 ^ 2 + w.2 ^ 2) * (n.1 ^ 2 + n.2 ^ 2) := by unfold dot; ring
    rw [h.unit] at this
    nlinarith [sq_nonneg (w.1 * n.2 - w.2 * n.1)]
  have hKp : 0 < K := by linarith
  have e : ∀ v : V2, dot v (n.1 / K, n.2 / K) = dot v n / K := by intro v; simp only [dot]; ring
  have key : ∀ x y : V2, (|x.1| ≤ R ∧ |x.2| ≤ R) → (|y.1| ≤ R ∧ |y.2| ≤ R) → dotR x n < dotR y n → dot x n / K < dot y n / K + 11 * (u * R) := by
    intro x y hx hy hlt
    have g1 := abs_le.1 (dot_axis_err hd hu hu' h x R hR hx)
    have g2 := abs_le.1 (dot_axis_err hd hu hu' h y R hR hy)
    rw [← sub_lt_iff_lt_add', ← sub_div, div_lt_iff₀ hKp]
    have : 11 * (u * R) * (96 / 100) ≤ 11 * (u * R) * K := mul_le_mul_of_nonneg_left hK (by positivity)
    linarith [g1.1, g1.2, g2.1, g2.2]
  refine ⟨(n.1 / K, n.2 / K), by simp only; rw [div_pow, div_pow, ← add_div, hK2, div_self (by positivity)], ?_⟩
  simp only [e]
  exact hs.imp (fun hs a ma b mb => key a b (ha a ma) (hb b mb) (hs a ma b mb)) (fun hs a ma b mb => key b a (hb b mb) (ha a ma) (hs a ma b mb))

/-- A small shift makes nearly separated polygons disjoint. -/
theorem NearSep.shift {η : ℝ} {va vb : List V2} (h : NearSep η va vb) (hη : 0 ≤ η) (hna : va ≠ []) (hnb : vb ≠ []) :
    ∃ t : V2, |t.1| ≤ η ∧ |t.2| ≤ η ∧ ∀ x ∈ polygonHull va, ∀ y ∈ polygonHull vb, x ≠ y + t := by
  obtain ⟨w, hw, hs⟩ := h
  have hw1 : |w.1| ≤ 1 := abs_le_of_sq_add (y := w.2) zero_le_one (by rw [hw]; norm_num)
  have hw2 : |w.2| ≤ 1 := abs_le_of_sq_add (y := w.1) zero_le_one (by rw [add_comm, hw]; norm_num)
  have hbound : ∀ z k : ℝ, |z| ≤ 1 → |k| = η → |k * z| ≤ η := by
    intro z k hz hk
    rw [abs_mul, hk]
    exact mul_le_of_le_one_right hη hz
  have hdiff : ∀ k : ℝ, ∀ y : V2, dot (y + ((k * w.1, k * w.2) : V2)) w = dot y w + k := by
    intro k y
    have : dot (y + ((k * w.1, k * w.2) : V2)) w = dot y w + k * (w.1 ^ 2 + w.2 ^ 2) := by
      simp only [dot, Prod.fst_add, Prod.snd_add]; ring
    rw [this, hw, mul_one]
  obtain ⟨la, ua, -, -, -, ⟨a1, ha1, e1⟩, ⟨a2, ha2, e2⟩, hA⟩ := project_ok va w hna
  obtain ⟨lb, ub, -, -, -, ⟨b1, hb1, f1⟩, ⟨b2, hb2, f2⟩, hB⟩ := project_ok vb w hnb
  rcases hs with hs | hs
  · have hlt := hs a2 ha2 b1 hb1
    refine ⟨(η * w.1, η * w.2), hbound _ _ hw1 (abs_of_nonneg hη), hbound _ _ hw2 (abs_of_nonneg hη), fun x hx y hy he => ?_⟩
    have x1 := hull_le va w ua (fun v hv => (hA v hv).2) x hx
    have y1 := hull_ge vb w lb (fun v hv => (hB v hv).1) y hy
    rw [he, hdiff] at x1
    linarith
  · have hlt := hs a1 ha1 b2 hb2
    refine ⟨(-η * w.1, -η * w.2), hbound _ _ hw1 (by rw [abs_neg, abs_of_nonneg hη]), hbound _ _ hw2 (by rw [abs_neg, abs_of_nonneg hη]), fun x hx y hy he => ?_⟩
    have x1 := hull_ge va w la (fun v hv => (hA v hv).1) x hx
    have y1 := hull_le vb w ub (fun v hv => (hB v hv).2) y hy
    rw [he, hdiff] at x1
    linarith

/-- Moving the vertices a little keeps polygons nearly separated. -/
theorem NearSep.perturb {η e e' : ℝ} {va vb va' vb' : List V2} (h : NearSep η va vb)
    (ha : ∀ v ∈ va', ∃ w ∈ va, |v.1 - w.1| ≤ e ∧ |v.2 - w.2| ≤ e) (hb : ∀ v ∈ vb', ∃ w ∈ vb, |v.1 - w.1| ≤ e' ∧ |v.2 - w.2| ≤ e') :
    NearSep (η + 2 * e + 2 * e') va' vb' := by
  obtain ⟨w, hw, hs⟩ := h
  have hw1 : |w.1| ≤ 1 := abs_le_of_sq_add (y := w.2) zero_le_one (by rw [hw]; norm_num)
  have hw2 : |w.2| ≤ 1 := abs_le_of_sq_add (y := w.1) zero_le_one (by rw [add_comm, hw]; norm_num)
  have hdot : ∀ (x y : V2) (k : ℝ), |x.1 - y.1| ≤ k → |x.2 - y.2| ≤ k → |dot x w - dot y w| ≤ 2 * k := by
    intro x y k h1 h2
    have e : dot x w - dot y w = (x.1 - y.1) * w.1 + (x.2 - y.2) * w.2 := by unfold dot; ring
    have g1 : |(x.1 - y.1) * w.1| ≤ k := by
      rw [abs_mul]
      exact (mul_le_of_le_one_right (abs_nonneg _) hw1).trans h1
    have g2 : |(x.2 - y.2) * w.2| ≤ k := by
      rw [abs_mul]
      exact (mul_le_of_le_one_right (abs_nonneg _) hw2).trans h2
    rw [e]
    linarith [abs_add_le ((x.1 - y.1) * w.1) ((x.2 - y.2) * w.2)]
  refine ⟨w, hw, hs.imp (fun hs a ma b mb => ?_) (fun hs a ma b mb => ?_)⟩ <;>
    obtain ⟨a', ma', a1, a2⟩ := ha a ma <;> obtain ⟨b', mb', b1, b2⟩ := hb b mb <;>
    have k1 := abs_le.1 (hdot a a' _ a1 a2) <;> have k2 := abs_le.1 (hdot b b' _ b1 b2) <;>
    linarith [hs a' ma' b' mb', k1.1, k1.2, k2.1, k2.2]

/-- A gap of at least `79uR` along the unit vector is seen by the computed dot products. -/
theorem separatesR_of_gap (hd : DotAccurate dotR u τ) (hu : 0 < u) (hu' : u ≤ 1 / 1000) {n w : V2} (h : NearUnit u n w) (va vb : List V2) (R g : ℝ)
    (hR : 8 * τ ≤ u * R) (hR0 : 0 < R) (ha : InBox R va) (hb : InBox R vb) (hg : 79 * (u * R) ≤ g)
    (hs : (∀ a ∈ va, ∀ b ∈ vb, dot a w + g ≤ dot b w) ∨ (∀ a ∈ va, ∀ b ∈ vb, dot b w + g ≤ dot a w)) : SeparatesR dotR va vb n := by
  have huR : 0 < u * R := by positivity
  have key : ∀ v : V2, (|v.1| ≤ R ∧ |v.2| ≤ R) → |dotR v n - dot v w| ≤ 39 * (u * R) := by
    intro v hv
    have h1 := dot_axis_err hd hu.le hu' h v R hR hv
    have h2 := dot_near h v R hv
    have : |dotR v n - dot v w| ≤ |dotR v n - dot v n| + |dot v n - dot v w| := tri (dotR v n - dot v n) (dot v n - dot v w)
    linarith
  rcases hs with hs | hs
  · refine .inl fun a ma b mb => ?_
    linarith [(abs_le.1 (key a (ha a ma))).2, (abs_le.1 (key b (hb b mb))).1, hs a ma b mb]
  · refine .inr fun a ma b mb => ?_
    linarith [(abs_le.1 (key a (ha a ma))).1, (abs_le.1 (key b (hb b mb))).2, hs a ma b mb]

/-- The numbers that bound the rounding errors: relative error `u`, absolute error `τ`, for edges of length at least `ℓ` and coordinates at most `R`. -/
structure Scale (u τ ℓ R : ℝ) : Prop where
  u0 : 0 < u
  u1 : u ≤ 1 / 1000
  τ0 : 0 ≤ τ
  ℓ0 : 0 < ℓ
  sq : 2 * τ ≤ u * ℓ ^ 2
  lin : 2 * τ ≤ u * ℓ
  one : τ ≤ u
  size : 8 * τ ≤ u * R
  R0 : 0 < R

/-- The axes of a polygon with long edges. -/
theorem axisAtR_near (hrd : Rounds rd u τ) {ℓ R : ℝ} (sc : Scale u τ ℓ R) (vs : List V2) (h : LongEdges ℓ vs) (i : ℕ) (hi : i < vs.length) :
    ∃ p q n D, IsEdge vs p q ∧ axisAtR rd vs i = some n ∧ D = √((q.1 - p.1) ^ 2 + (q.2 - p.2) ^ 2) ∧ 0 < D ∧
      NearUnit u n ((q.2 - p.2) / D, -(q.1 - p.1) / D) := by
  have hi' : i < (verticesToEdges vs).length := by simpa [verticesToEdges] using hi
  obtain ⟨p, q, he, e⟩ := (mem_edges vs _).1 (List.getElem_mem hi')
  have hD := h.2 p q he
  set D := √((q.1 - p.1) ^ 2 + (q.2 - p.2) ^ 2) with hDdef
  have hD0 : 0 < D := sc.ℓ0.trans_le hD
  have hsq : (q.1 - p.1) ^ 2 + (q.2 - p.2) ^ 2 = D ^ 2 := (Real.sq_sqrt (by positivity)).symm
  have hℓ : ℓ ^ 2 ≤ D ^ 2 := pow_le_pow_left₀ sc.ℓ0.le hD 2
  obtain ⟨n, hn, h1, h2⟩ := axis_err hrd sc.u0.le sc.u1 sc.τ0 (q.1 - p.1, q.2 - p.2) D hD0 hsq
    (sc.sq.trans (mul_le_mul_of_nonneg_left hℓ sc.u0.le)) (sc.lin.trans (mul_le_mul_of_nonneg_left hD sc.u0.le)) sc.one
  refine ⟨p, q, n, D, he, ?_, rfl, hD0, ⟨?_, h1, h2⟩⟩
  · have hl : i < (edgesR rd vs).length := by rw [edgesR_length]; exact hi
    have : (edgesR rd vs)[i] = (rd (q.1 - p.1), rd (q.2 - p.2)) := by simp only [edgesR, List.getElem_map, e]
    rw [axisAtR, List.getElem?_eq_getElem hl, this]
    exact hn
  · simp only
    rw [div_pow, div_pow, neg_sq, ← add_div, add_comm, hsq, div_self (by positivity)]

theorem axisTestR_some_false (va vb : List V2) (w : V2) : axisTestR dotR va vb (some w) = false ↔ SeparatesR dotR va vb w := by
  classical
  simp only [axisTestR, decide_eq_false_iff_not, not_not]

/-- When a row is answered "no collision", the polygons are nearly separated. -/
theorem rowTestR_nearSep (hrd : Rounds rd u τ) (hd : DotAccurate dotR u τ) {ℓ R : ℝ} (sc : Scale u τ ℓ R) (n : ℕ) (va vb : List V2)
    (la : va.length = n) (lb : vb.length = n) (ea : LongEdges ℓ va) (eb : LongEdges ℓ vb) (ha : InBox R va) (hb : InBox R vb)
    (h : rowTestR rd dotR n va vb = false) :
    NearSep (11 * (u * R)) va vb := by
  unfold rowTestR at h
  rw [List.all_eq_false] at h
  obtain ⟨i, hi, h⟩ := h
  rw [List.mem_range] at hi
  rw [Bool.not_eq_true, Bool.and_eq_false_iff] at h
  rcases h with h | h
  · obtain ⟨p, q, w, D, -, hw, -, -, hn⟩ := axisAtR_near hrd sc va ea i (by omega)
    rw [hw, axisTestR_some_false] at h
    exact nearSep_of_separatesR hd sc.u0.le sc.u1 hn va vb R sc.size ha hb sc.R0.le h
  · obtain ⟨p, q, w, D, -, hw, -, -, hn⟩ := axisAtR_near hrd sc vb eb i (by omega)
    rw [hw, axisTestR_some_false] at h
    exact nearSep_of_separatesR hd sc.u0.le sc.u1 hn va vb R sc.size ha hb sc.R0.le h

/-- A gap along an edge in the exact unit normal. -/
theorem gap_normal {p q : V2} {g D : ℝ} {va vb : List V2} (hD : D = √((q.1 - p.1) ^ 2 + (q.2 - p.2) ^ 2)) (hD0 : 0 < D) (h : GapAlong p q g va vb) :
    (∀ a ∈ va, ∀ b ∈ vb, dot a ((q.2 - p.2) / D, -(q.1 - p.1) / D) + g ≤ dot b ((q.2 - p.2) / D, -(q.1 - p.1) / D)) ∨
    (∀ a ∈ va, ∀ b ∈ vb, dot b ((q.2 - p.2) / D, -(q.1 - p.1) / D) + g ≤ dot a ((q.2 - p.2) / D, -(q.1 - p.1) / D)) := by
  have e : ∀ v : V2, dot v ((q.2 - p.2) / D, -(q.1 - p.1) / D) = ((q.2 - p.2) * v.1 - (q.1 - p.1) * v.2) / D := by
    intro v; simp only [dot]; ring
  unfold GapAlong at h
  rw [← hD] at h
  have key : ∀ x y : ℝ, x + g * D ≤ y → x / D + g ≤ y / D := by
    intro x y hxy
    rw [le_div_iff₀ hD0, add_mul, div_mul_cancel₀ _ hD0.ne']
    exact hxy
  simp only [e]
  exact h.imp (fun h a ha b hb => key _ _ (h a ha b hb)) (fun h a ha b hb => key _ _ (h a ha b hb))

/-- A row whose polygons have a gap along an edge is answered "no collision". -/
theorem rowTestR_gap (hrd : Rounds rd u τ) (hd : DotAccurate dotR u τ) {ℓ R : ℝ} (sc : Scale u τ ℓ R) (n : ℕ) (va vb : List V2)
    (la : va.length = n) (lb : vb.length = n) (ea : LongEdges ℓ va) (eb : LongEdges ℓ vb) (ha : InBox R va) (hb : InBox R vb)
    (g : ℝ) (hg : 79 * (u * R) ≤ g) (h : ∃ p q, (IsEdge va p q ∨ IsEdge vb p q) ∧ GapAlong p q g va vb) : rowTestR rd dotR n va vb = false := by
  have key : ∀ vs : List V2, vs.length = n → LongEdges ℓ vs → ∀ p q, IsEdge vs p q → GapAlong p q g va vb →
      ∃ i < n, axisTestR dotR va vb (axisAtR rd vs i) = false := by
    intro vs hl he p q hpq hgap
    obtain ⟨i, h1, h2⟩ := hpq
    have hi : i < vs.length := (List.getElem?_eq_some_iff.1 h1).1
    have hi' : i < (verticesToEdges vs).length := by simpa [verticesToEdges] using hi
    have hD1 : 0 < √((q.1 - p.1) ^ 2 + (q.2 - p.2) ^ 2) := sc.ℓ0.trans_le (he.2 p q ⟨i, h1, h2⟩)
    have hedge : (verticesToEdges vs)[i] = (q.1 - p.1, q.2 - p.2) := by
      simp only [verticesToEdges, List.getElem_map, List.getElem_range, edgeDirection, List.getD_eq_getElem?_getD, h1, h2, Option.getD_some]
    obtain ⟨w', hw', f1, f2⟩ := axis_err hrd sc.u0.le sc.u1 sc.τ0 (q.1 - p.1, q.2 - p.2) _ hD1 (Real.sq_sqrt (by positivity)).symm
      (sc.sq.trans (mul_le_mul_of_nonneg_left (pow_le_pow_left₀ sc.ℓ0.le (he.2 p q ⟨i, h1, h2⟩) 2) sc.u0.le))
      (sc.lin.trans (mul_le_mul_of_nonneg_left (he.2 p q ⟨i, h1, h2⟩) sc.u0.le)) sc.one
    have hax : axisAtR rd vs i = some w' := by
      have hl : i < (edgesR rd vs).length := by rw [edgesR_length]; exact hi
      have : (edgesR rd vs)[i] = (rd (q.1 - p.1), rd (q.2 - p.2)) := by simp only [edgesR, List.getElem_map, hedge]
      rw [axisAtR, List.getElem?_eq_getElem hl, this]
      exact hw'
    refine ⟨i, by omega, ?_⟩
    rw [hax, axisTestR_some_false]
    have hunit : NearUnit u w' ((q.2 - p.2) / √((q.1 - p.1) ^ 2 + (q.2 - p.2) ^ 2), -(q.1 - p.1) / √((q.1 - p.1) ^ 2 + (q.2 - p.2) ^ 2)) := by
      refine ⟨?_, f1, f2⟩
      have hsq := Real.sq_sqrt (by positivity : 0 ≤ (q.1 - p.1) ^ 2 + (q.2 - p.2) ^ 2)
      have : (q.2 - p.2) ^ 2 + (q.1 - p.1) ^ 2 = (q.1 - p.1) ^ 2 + (q.2 - p.2) ^ 2 := add_comm _ _
      simp only
      rw [div_pow, div_pow, neg_sq, ← add_div, this, hsq, div_self]
      rw [← hsq]
      positivity
    exact separatesR_of_gap hd sc.u0 sc.u1 hunit va vb R g sc.size sc.R0 ha hb hg (gap_normal rfl hD1 hgap)
  obtain ⟨p, q, hpq, hgap⟩ := h
  unfold rowTestR
  rw [List.all_eq_false]
  rcases hpq with hpq | hpq
  · obtain ⟨i, hi, hf⟩ := key va la ea p q hpq hgap
    exact ⟨i, List.mem_range.2 hi, by simp [hf]⟩
  · obtain ⟨i, hi, hf⟩ := key vb lb eb p q hpq hgap
    exact ⟨i, List.mem_range.2 hi, by simp [hf]⟩

end Verif.FloatSat
