import Verif.Lemmas.FloatSatErr
import Verif.Props.Sat2D

/-! C136: the batched separating-axis test in floats. -/

namespace Verif.Props

open Verif.Spec Verif.Sat2D Verif.FloatSat Verif.Float64

/-- Without rounding this is the model with real numbers. -/
theorem C136_exact : vecSatR id (fun v w => v.1 * w.1 + v.2 * w.2) = vecSat := by
  have h1 : vecNormalizeR id = vecNormalize := by
    funext v
    simp only [vecNormalizeR, vecNormalize, id, pow_two]
  funext n pa pb
  have h2 : vecAxesR id = vecAxes := by
    funext e
    simp only [vecAxesR, vecAxes, h1]
  unfold vecSatR vecSat
  rw [h2]
  rfl

theorem fl_rounds : Rounds fl (2 ^ (-53 : ℤ)) (2 ^ (-1075 : ℤ)) := fl_err

/-- The assumption on the dot product holds for both ways of computing it: with every operation rounded, and with a fused multiply-add. -/
theorem C136_dots : DotAccurate (dotPlain fl) (2 ^ (-53 : ℤ)) (2 ^ (-1075 : ℤ)) ∧ DotAccurate (dotFused fl) (2 ^ (-53 : ℤ)) (2 ^ (-1075 : ℤ)) :=
  ⟨dotPlain_accurate fl_rounds (by positivity) (by norm_num) (by positivity), dotFused_accurate fl_rounds (by positivity) (by norm_num) (by positivity)⟩

/-- A polygon with long edges does not fit into a tiny box. -/
theorem box_of_longEdges {R ℓ : ℝ} {vs : List (ℝ × ℝ)} (h : LongEdges ℓ vs) (hb : InBox R vs) : ℓ ≤ 4 * R := by
  obtain ⟨p, hp⟩ := List.exists_mem_of_ne_nil vs h.1
  obtain ⟨⟨q, he⟩, -⟩ := exists_edges vs p hp
  have hq := (mem_of_edge he).2
  have hl := h.2 p q he
  have h1 := hb p hp
  have h2 := hb q hq
  have hR : 0 ≤ R := (abs_nonneg _).trans h1.1
  refine hl.trans ?_
  rw [Real.sqrt_le_left (by positivity)]
  have e1 : |q.1 - p.1| ≤ 2 * R := by linarith [abs_sub q.1 p.1, h1.1, h2.1]
  have e2 : |q.2 - p.2| ≤ 2 * R := by linarith [abs_sub q.2 p.2, h1.2, h2.2]
  have f1 : (q.1 - p.1) ^ 2 ≤ (2 * R) ^ 2 := sq_le_sq.2 (by rwa [abs_of_nonneg (by positivity : 0 ≤ 2 * R)])
  have f2 : (q.2 - p.2) ^ 2 ≤ (2 * R) ^ 2 := sq_le_sq.2 (by rwa [abs_of_nonneg (by positivity : 0 ≤ 2 * R)])
  nlinarith

theorem binary64_scale {R : ℝ} {vs : List (ℝ × ℝ)} (h : LongEdges (2 ^ (-400 : ℤ)) vs) (hb : InBox R vs) :
    Scale (2 ^ (-53 : ℤ)) (2 ^ (-1075 : ℤ)) (2 ^ (-400 : ℤ)) R := by
  have hR := box_of_longEdges h hb
  have hR' : (2 : ℝ) ^ (-402 : ℤ) ≤ R := by
    have : (2 : ℝ) ^ (-400 : ℤ) = 4 * 2 ^ (-402 : ℤ) := by rw [show (-400 : ℤ) = 2 + -402 by norm_num, zpow_add₀ two_ne_zero]; congr 1; norm_num
    linarith
  have z : ∀ a b : ℤ, (2 : ℝ) ^ a * 2 ^ b = 2 ^ (a + b) := fun a b => (zpow_add₀ two_ne_zero a b).symm
  have mono : ∀ a b : ℤ, a ≤ b → (2 : ℝ) ^ a ≤ 2 ^ b := fun a b h => zpow_le_zpow_right₀ one_le_two h
  have e2 : (2 : ℝ) * 2 ^ (-1075 : ℤ) = 2 ^ (-1074 : ℤ) := by simpa using z 1 (-1075)
  have e8 : (8 : ℝ) * 2 ^ (-1075 : ℤ) = 2 ^ (-1072 : ℤ) := by
    have := z 3 (-1075)
    rw [show (2 : ℝ) ^ (3 : ℤ) = 8 by norm_num] at this
    exact this
  refine ⟨by positivity, by norm_num, by positivity, by positivity, ?_, ?_, ?_, ?_, lt_of_lt_of_le (by positivity) hR'⟩
  · rw [e2, pow_two, z, z]
    exact mono _ _ (by norm_num)
  · rw [e2, z]
    exact mono _ _ (by norm_num)
  · exact mono _ _ (by norm_num)
  · calc (8 : ℝ) * 2 ^ (-1075 : ℤ) ≤ 2 ^ (-53 : ℤ) * 2 ^ (-402 : ℤ) := by
          rw [e8, z]
          exact mono _ _ (by norm_num)
      _ ≤ 2 ^ (-53 : ℤ) * R := mul_le_mul_of_nonneg_left hR' (by positivity)

theorem vecSatR_rows (dotR : ℝ × ℝ → ℝ × ℝ → ℝ) (R : ℝ) (n : ℕ) (pa pb : List (List (ℝ × ℝ))) (hlen : pa.length = pb.length)
    (ha : ∀ vs ∈ pa, FloatRow n R vs) (hb : ∀ vs ∈ pb, FloatRow n R vs) :
    ∃ rs, vecSatR fl dotR n pa pb = .ok rs ∧ rs.length = pa.length ∧ ∀ (i : ℕ) (va vb : List (ℝ × ℝ)), pa[i]? = some va → pb[i]? = some vb →
      rs[i]? = some (rowTestR fl dotR n va vb) := by
  refine ⟨_, vecSatR_ok n pa pb hlen (fun vs h => (ha vs h).1) (fun vs h => (hb vs h).1), by simp [hlen], fun i va vb h1 h2 => ?_⟩
  rw [List.getElem?_zipWith, h1, h2]

/-- C136: in floats, for polygons whose edges are at least 2^-400 long and whose coordinates are at most `R`, the batched test returns an answer for every row. When
the answer is "no collision", moving one polygon by at most 2^-49 R in each coordinate makes the regions disjoint: an overlap deeper than that is
never missed. -/
theorem C136_no_collision (dotR : ℝ × ℝ → ℝ × ℝ → ℝ) (hd : DotAccurate dotR (2 ^ (-53 : ℤ)) (2 ^ (-1075 : ℤ))) (R : ℝ) (n : ℕ)
    (pa pb : List (List (ℝ × ℝ))) (hlen : pa.length = pb.length) (ha : ∀ vs ∈ pa, FloatRow n R vs) (hb : ∀ vs ∈ pb, FloatRow n R vs) :
    ∃ rs, vecSatR fl dotR n pa pb = .ok rs ∧ rs.length = pa.length ∧
      ∀ (i : ℕ) (va vb : List (ℝ × ℝ)), pa[i]? = some va → pb[i]? = some vb → rs[i]? = some false →
        ∃ t : ℝ × ℝ, |t.1| ≤ 2 ^ (-49 : ℤ) * R ∧ |t.2| ≤ 2 ^ (-49 : ℤ) * R ∧ ∀ x ∈ polygonHull va, ∀ y ∈ polygonHull vb, x ≠ y + t := by
  obtain ⟨rs, h1, h2, h3⟩ := vecSatR_rows dotR R n pa pb hlen ha hb
  refine ⟨rs, h1, h2, fun i va vb hva hvb hf => ?_⟩
  have A := ha va (List.mem_of_getElem? hva)
  have B := hb vb (List.mem_of_getElem? hvb)
  rw [h3 i va vb hva hvb, Option.some_inj] at hf
  have sc := binary64_scale A.2.1 A.2.2
  obtain ⟨t, t1, t2, ht⟩ := (rowTestR_nearSep fl_rounds hd sc n va vb A.1 B.1 A.2.1 B.2.1 A.2.2 B.2.2 hf).shift
    (by have := mul_pos sc.u0 sc.R0; linarith) A.2.1.1 B.2.1.1
  have hle : 11 * ((2 : ℝ) ^ (-53 : ℤ) * R) ≤ 2 ^ (-49 : ℤ) * R := by
    have := mul_le_mul_of_nonneg_right (by norm_num : 11 * (2 : ℝ) ^ (-53 : ℤ) ≤ 2 ^ (-49 : ℤ)) sc.R0.le
    linarith
  exact ⟨t, t1.trans hle, t2.trans hle, ht⟩

/-- C136: when the line along some edge has the polygons on different sides with a gap of at least 2^-46 R, the answer is "no collision". -/
theorem C136_gap (dotR : ℝ × ℝ → ℝ × ℝ → ℝ) (hd : DotAccurate dotR (2 ^ (-53 : ℤ)) (2 ^ (-1075 : ℤ))) (R : ℝ) (n : ℕ)
    (pa pb : List (List (ℝ × ℝ))) (hlen : pa.length = pb.length) (ha : ∀ vs ∈ pa, FloatRow n R vs) (hb : ∀ vs ∈ pb, FloatRow n R vs) :
    ∃ rs, vecSatR fl dotR n pa pb = .ok rs ∧ rs.length = pa.length ∧
      ∀ (i : ℕ) (va vb : List (ℝ × ℝ)), pa[i]? = some va → pb[i]? = some vb →
        (∃ p q, (IsEdge va p q ∨ IsEdge vb p q) ∧ GapAlong p q (2 ^ (-46 : ℤ) * R) va vb) → rs[i]? = some false := by
  obtain ⟨rs, h1, h2, h3⟩ := vecSatR_rows dotR R n pa pb hlen ha hb
  refine ⟨rs, h1, h2, fun i va vb hva hvb hg => ?_⟩
  have A := ha va (List.mem_of_getElem? hva)
  have B := hb vb (List.mem_of_getElem? hvb)
  rw [h3 i va vb hva hvb, Option.some_inj]
  have sc := binary64_scale A.2.1 A.2.2
  refine rowTestR_gap fl_rounds hd sc n va vb A.1 B.1 A.2.1 B.2.1 A.2.2 B.2.2 _ ?_ hg
  have := mul_le_mul_of_nonneg_right (by norm_num : 79 * (2 : ℝ) ^ (-53 : ℤ) ≤ 2 ^ (-46 : ℤ)) sc.R0.le
  linarith

theorem rect_floatRow {x0 y0 x1 y1 R : ℝ} (hx : x0 + 2 ^ (-400 : ℤ) ≤ x1) (hy : y0 + 2 ^ (-400 : ℤ) ≤ y1) (h1 : -R ≤ x0) (h2 : x1 ≤ R) (h3 : -R ≤ y0) (h4 : y1 ≤ R) :
    FloatRow 4 R (rect x0 y0 x1 y1) := by
  have hp : (0 : ℝ) < 2 ^ (-400 : ℤ) := by positivity
  unfold FloatRow
  generalize (2 : ℝ) ^ (-400 : ℤ) = ℓ at *
  refine ⟨rfl, ⟨by simp [rect], fun p q h => ?_⟩, fun v hv => ?_⟩
  · rcases (isEdge_four _ _ _ _ p q).1 h with ⟨rfl, rfl⟩ | ⟨rfl, rfl⟩ | ⟨rfl, rfl⟩ | ⟨rfl, rfl⟩ <;> simp only <;> apply Real.le_sqrt_of_sq_le <;> nlinarith
  · simp only [rect, List.mem_cons, List.not_mem_nil, or_false] at hv
    rcases hv with rfl | rfl | rfl | rfl <;> refine ⟨abs_le.2 ⟨?_, ?_⟩, abs_le.2 ⟨?_, ?_⟩⟩ <;> simp only <;> linarith

theorem mem_polygonHull_rect {x0 y0 x1 y1 : ℝ} (hx : x0 ≤ x1) (hy : y0 ≤ y1) {p : ℝ × ℝ} (h : p ∈ polygonHull (rect x0 y0 x1 y1)) :
    x0 ≤ p.1 ∧ p.1 ≤ x1 ∧ y0 ≤ p.2 ∧ p.2 ≤ y1 := by
  have key : ∀ v ∈ rect x0 y0 x1 y1, x0 ≤ v.1 ∧ v.1 ≤ x1 ∧ y0 ≤ v.2 ∧ v.2 ≤ y1 := by
    intro v hv
    simp only [rect, List.mem_cons, List.not_mem_nil, or_false] at hv
    rcases hv with rfl | rfl | rfl | rfl <;> simp [hx, hy]
  have a := hull_ge _ (1, 0) x0 (fun v hv => by simpa [dot] using (key v hv).1) p h
  have b := hull_le _ (1, 0) x1 (fun v hv => by simpa [dot] using (key v hv).2.1) p h
  have c := hull_ge _ (0, 1) y0 (fun v hv => by simpa [dot] using (key v hv).2.2.1) p h
  have d := hull_le _ (0, 1) y1 (fun v hv => by simpa [dot] using (key v hv).2.2.2) p h
  simp only [dot, mul_one, mul_zero, add_zero, zero_add] at a b c d
  exact ⟨a, b, c, d⟩

/-- C136 for two axis-parallel rectangles: the test reports a collision when they overlap by more than 2^-49 R in both coordinates, and no collision when they
are at least 2^-46 R apart in one coordinate. -/
theorem C136_rectangles (dotR : ℝ × ℝ → ℝ × ℝ → ℝ) (hd : DotAccurate dotR (2 ^ (-53 : ℤ)) (2 ^ (-1075 : ℤ))) (R x0 y0 x1 y1 x2 y2 x3 y3 : ℝ)
    (ha : FloatRow 4 R (rect x0 y0 x1 y1)) (hb : FloatRow 4 R (rect x2 y2 x3 y3)) (hx : x0 ≤ x1) (hy : y0 ≤ y1) (hx' : x2 ≤ x3) (hy' : y2 ≤ y3) :
    (x2 + 2 ^ (-49 : ℤ) * R < x1 → x0 + 2 ^ (-49 : ℤ) * R < x3 → y2 + 2 ^ (-49 : ℤ) * R < y1 → y0 + 2 ^ (-49 : ℤ) * R < y3 →
      vecSatR fl dotR 4 [rect x0 y0 x1 y1] [rect x2 y2 x3 y3] = .ok [true]) ∧
    (x1 + 2 ^ (-46 : ℤ) * R ≤ x2 ∨ x3 + 2 ^ (-46 : ℤ) * R ≤ x0 ∨ y1 + 2 ^ (-46 : ℤ) * R ≤ y2 ∨ y3 + 2 ^ (-46 : ℤ) * R ≤ y0 →
      vecSatR fl dotR 4 [rect x0 y0 x1 y1] [rect x2 y2 x3 y3] = .ok [false]) := by
  have hA : ∀ vs ∈ [rect x0 y0 x1 y1], FloatRow 4 R vs := by simpa using ha
  have hB : ∀ vs ∈ [rect x2 y2 x3 y3], FloatRow 4 R vs := by simpa using hb
  have one : ∀ (rs : List Bool) (b : Bool), rs.length = 1 → rs[0]? = some b → rs = [b] := by
    intro rs b hl h
    match rs, hl with
    | [c], _ => simpa using h
  constructor
  · intro o1 o2 o3 o4
    obtain ⟨rs, e, hl, h⟩ := C136_no_collision dotR hd R 4 [rect x0 y0 x1 y1] [rect x2 y2 x3 y3] rfl hA hB
    have hl' : rs.length = 1 := by simpa using hl
    rw [e, one rs true hl']
    have h0 := h 0 _ _ rfl rfl
    match rs, hl' with
    | [true], _ => rfl
    | [false], _ =>
      exfalso
      obtain ⟨t, t1, t2, ht⟩ := h0 rfl
      have R0 := (binary64_scale ha.2.1 ha.2.2).R0
      have hg : 0 ≤ (2 : ℝ) ^ (-49 : ℤ) * R := by positivity
      generalize (2 : ℝ) ^ (-49 : ℤ) * R = g at *
      rw [abs_le] at t1 t2
      have c1 : max x0 (x2 + t.1) ≤ min x1 (x3 + t.1) := by
        rw [max_le_iff, le_min_iff, le_min_iff]
        exact ⟨⟨hx, by linarith⟩, by linarith, by linarith⟩
      have c2 : max y0 (y2 + t.2) ≤ min y1 (y3 + t.2) := by
        rw [max_le_iff, le_min_iff, le_min_iff]
        exact ⟨⟨hy, by linarith⟩, by linarith, by linarith⟩
      refine ht (max x0 (x2 + t.1), max y0 (y2 + t.2)) (rect_mem _ _ _ _ hx hy _ (le_max_left _ _) (c1.trans (min_le_left _ _)) (le_max_left _ _)
        (c2.trans (min_le_left _ _))) (max x0 (x2 + t.1) - t.1, max y0 (y2 + t.2) - t.2) (rect_mem _ _ _ _ hx' hy' _ ?_ ?_ ?_ ?_) ?_
      · simp only; linarith [le_max_right x0 (x2 + t.1)]
      · simp only; linarith [c1.trans (min_le_right _ _)]
      · simp only; linarith [le_max_right y0 (y2 + t.2)]
      · simp only; linarith [c2.trans (min_le_right _ _)]
      · ext <;> simp
  · intro ho
    obtain ⟨rs, e, hl, h⟩ := C136_gap dotR hd R 4 [rect x0 y0 x1 y1] [rect x2 y2 x3 y3] rfl hA hB
    rw [e, one rs false (by simpa using hl)]
    refine h 0 _ _ rfl rfl ?_
    generalize (2 : ℝ) ^ (-46 : ℤ) * R = g at *
    have hxl : 0 < x1 - x0 := by
      have := ha.2.1.2 _ _ ((isEdge_four _ _ _ _ _ _).2 (.inl ⟨rfl, rfl⟩))
      rcases hx.eq_or_lt with h | h
      · rw [h] at this
        simp at this
        exact absurd this (by rw [not_le]; positivity)
      · linarith
    have hyl : 0 < y1 - y0 := by
      have := ha.2.1.2 _ _ ((isEdge_four _ _ _ _ _ _).2 (.inr (.inl ⟨rfl, rfl⟩)))
      rcases hy.eq_or_lt with h | h
      · rw [h] at this
        simp at this
        exact absurd this (by rw [not_le]; positivity)
      · linarith
    have kx : x1 + g ≤ x2 ∨ x3 + g ≤ x0 → GapAlong (x1, y0) (x1, y1) g (rect x0 y0 x1 y1) (rect x2 y2 x3 y3) := by
      intro hgap
      have e : √((x1 - x1) ^ 2 + (y1 - y0) ^ 2) = y1 - y0 := by rw [sub_self, zero_pow two_ne_zero, zero_add]; exact Real.sqrt_sq hyl.le
      unfold GapAlong
      simp only [e]
      rcases hgap with hgap | hgap
      · left
        intro a ma b mb
        simp only [rect, List.mem_cons, List.not_mem_nil, or_false] at ma mb
        have h1 : a.1 ≤ x1 := by rcases ma with rfl | rfl | rfl | rfl <;> simp [hx]
        have h2 : x2 ≤ b.1 := by rcases mb with rfl | rfl | rfl | rfl <;> simp [hx']
        nlinarith [mul_le_mul_of_nonneg_left (by linarith : a.1 + g ≤ b.1) hyl.le]
      · right
        intro a ma b mb
        simp only [rect, List.mem_cons, List.not_mem_nil, or_false] at ma mb
        have h1 : x0 ≤ a.1 := by rcases ma with rfl | rfl | rfl | rfl <;> simp [hx]
        have h2 : b.1 ≤ x3 := by rcases mb with rfl | rfl | rfl | rfl <;> simp [hx']
        nlinarith [mul_le_mul_of_nonneg_left (by linarith : b.1 + g ≤ a.1) hyl.le]
    have ky : y1 + g ≤ y2 ∨ y3 + g ≤ y0 → GapAlong (x0, y0) (x1, y0) g (rect x0 y0 x1 y1) (rect x2 y2 x3 y3) := by
      intro hgap
      have e : √((x1 - x0) ^ 2 + (y0 - y0) ^ 2) = x1 - x0 := by rw [sub_self, zero_pow two_ne_zero, add_zero]; exact Real.sqrt_sq hxl.le
      unfold GapAlong
      simp only [e]
      rcases hgap with hgap | hgap
      · right
        intro a ma b mb
        simp only [rect, List.mem_cons, List.not_mem_nil, or_false] at ma mb
        have h1 : a.2 ≤ y1 := by rcases ma with rfl | rfl | rfl | rfl <;> simp [hy]
        have h2 : y2 ≤ b.2 := by rcases mb with rfl | rfl | rfl | rfl <;> simp [hy']
        nlinarith [mul_le_mul_of_nonneg_left (by linarith : a.2 + g ≤ b.2) hxl.le]
      · left
        intro a ma b mb
        simp only [rect, List.mem_cons, List.not_mem_nil, or_false] at ma mb
        have h1 : y0 ≤ a.2 := by rcases ma with rfl | rfl | rfl | rfl <;> simp [hy]
        have h2 : b.2 ≤ y3 := by rcases mb with rfl | rfl | rfl | rfl <;> simp [hy']
        nlinarith [mul_le_mul_of_nonneg_left (by linarith : b.2 + g ≤ a.2) hxl.le]
    rcases ho with ho | ho | ho | ho
    · exact ⟨_, _, .inl ((isEdge_four _ _ _ _ _ _).2 (.inr (.inl ⟨rfl, rfl⟩))), kx (.inl ho)⟩
    · exact ⟨_, _, .inl ((isEdge_four _ _ _ _ _ _).2 (.inr (.inl ⟨rfl, rfl⟩))), kx (.inr ho)⟩
    · exact ⟨_, _, .inl ((isEdge_four _ _ _ _ _ _).2 (.inl ⟨rfl, rfl⟩)), ky (.inl ho)⟩
    · exact ⟨_, _, .inl ((isEdge_four _ _ _ _ _ _).2 (.inl ⟨rfl, rfl⟩)), ky (.inr ho)⟩

/-- Two unit squares that are 1 apart, and two that overlap: both answers occur. -/
theorem C136_nonvacuous : FloatRow 4 3 (rect 0 0 1 1) ∧ FloatRow 4 3 (rect 2 0 3 1) ∧ FloatRow 4 3 (rect (1/2) (1/2) (3/2) (3/2)) ∧
    vecSatR fl (dotPlain fl) 4 [rect 0 0 1 1] [rect 2 0 3 1] = .ok [false] ∧
    vecSatR fl (dotFused fl) 4 [rect 0 0 1 1] [rect (1/2) (1/2) (3/2) (3/2)] = .ok [true] := by
  have hp : (2 : ℝ) ^ (-400 : ℤ) ≤ 1 := zpow_le_one_of_nonpos₀ one_le_two (by norm_num)
  have a : FloatRow 4 3 (rect 0 0 1 1) := rect_floatRow (by linarith) (by linarith) (by norm_num) (by norm_num) (by norm_num) (by norm_num)
  have b : FloatRow 4 3 (rect 2 0 3 1) := rect_floatRow (by linarith) (by linarith) (by norm_num) (by norm_num) (by norm_num) (by norm_num)
  have c : FloatRow 4 3 (rect (1/2) (1/2) (3/2) (3/2)) := rect_floatRow (by linarith) (by linarith) (by norm_num) (by norm_num) (by norm_num) (by norm_num)
  exact ⟨a, b, c, (C136_rectangles _ C136_dots.1 3 _ _ _ _ _ _ _ _ a b (by norm_num) (by norm_num) (by norm_num) (by norm_num)).2 (.inl (by norm_num)),
    (C136_rectangles _ C136_dots.2 3 _ _ _ _ _ _ _ _ a c (by norm_num) (by norm_num) (by norm_num) (by norm_num)).1 (by norm_num) (by norm_num) (by norm_num) (by norm_num)⟩

/-- The computed dot products of six vertices with the axis of the edge from (-2, -1) to (4, 7). -/
theorem touching_dots : SeparatesR (dotPlain fl) [(-2, -1), (4, 7), (-2, 7)] [(1, 3), (4, -1), (7, 3)] (fl (8 / 10), fl (-6 / 10)) := by
  have e1 : fl ((8 / 10)) = (3602879701896397 / 4503599627370496) := by
    rw [fl_rat (m := 7205759403792794) (k := 53) (by norm_num) (by norm_num) (by norm_num) (.inl (by rw [abs_lt]; norm_num))]; norm_num
  have e2 : fl ((-6 / 10)) = (-(5404319552844595 / 9007199254740992)) := by
    rw [fl_rat_neg (m := 5404319552844595) (k := 53) (by norm_num) (by norm_num) (by norm_num) (.inl (by rw [abs_lt]; norm_num))]; norm_num
  have e3 : fl ((-(2)) * (3602879701896397 / 4503599627370496)) = (-(3602879701896397 / 2251799813685248)) := by
    rw [fl_rat_neg (m := 7205759403792794) (k := 52) (by norm_num) (by norm_num) (by norm_num) (.inl (by rw [abs_lt]; norm_num))]; norm_num
  have e4 : fl ((-(1)) * (-(5404319552844595 / 9007199254740992))) = (5404319552844595 / 9007199254740992) := by
    rw [fl_rat (m := 5404319552844595) (k := 53) (by norm_num) (by norm_num) (by norm_num) (.inl (by rw [abs_lt]; norm_num))]; norm_num
  have e5 : fl ((-(3602879701896397 / 2251799813685248)) + (5404319552844595 / 9007199254740992)) = (-(1)) := by
    rw [fl_rat_neg (m := 4503599627370496) (k := 52) (by norm_num) (by norm_num) (by norm_num) (.inr ⟨by norm_num [abs_of_pos, abs_of_neg], by norm_num⟩)]; norm_num
  have e6 : fl ((4) * (3602879701896397 / 4503599627370496)) = (3602879701896397 / 1125899906842624) := by
    rw [fl_rat (m := 7205759403792794) (k := 51) (by norm_num) (by norm_num) (by norm_num) (.inl (by rw [abs_lt]; norm_num))]; norm_num
  have e7 : fl ((7) * (-(5404319552844595 / 9007199254740992))) = (-(4728779608739021 / 1125899906842624)) := by
    rw [fl_rat_neg (m := 4728779608739021) (k := 50) (by norm_num) (by norm_num) (by norm_num) (.inl (by rw [abs_lt]; norm_num))]; norm_num
  have e8 : fl ((3602879701896397 / 1125899906842624) + (-(4728779608739021 / 1125899906842624))) = (-(1)) := by
    rw [fl_rat_neg (m := 4503599627370496) (k := 52) (by norm_num) (by norm_num) (by norm_num) (.inl (by rw [abs_lt]; norm_num))]; norm_num
  have e9 : fl ((-(2)) * (3602879701896397 / 4503599627370496)) = (-(3602879701896397 / 2251799813685248)) := by
    rw [fl_rat_neg (m := 7205759403792794) (k := 52) (by norm_num) (by norm_num) (by norm_num) (.inl (by rw [abs_lt]; norm_num))]; norm_num
  have e10 : fl ((7) * (-(5404319552844595 / 9007199254740992))) = (-(4728779608739021 / 1125899906842624)) := by
    rw [fl_rat_neg (m := 4728779608739021) (k := 50) (by norm_num) (by norm_num) (by norm_num) (.inl (by rw [abs_lt]; norm_num))]; norm_num
  have e11 : fl ((-(3602879701896397 / 2251799813685248)) + (-(4728779608739021 / 1125899906842624))) = (-(1632554864921805 / 281474976710656)) := by
    rw [fl_rat_neg (m := 6530219459687220) (k := 50) (by norm_num) (by norm_num) (by norm_num) (.inr ⟨by norm_num [abs_of_pos, abs_of_neg], by norm_num⟩)]; norm_num
  have e12 : fl ((1) * (3602879701896397 / 4503599627370496)) = (3602879701896397 / 4503599627370496) := by
    rw [fl_rat (m := 7205759403792794) (k := 53) (by norm_num) (by norm_num) (by norm_num) (.inl (by rw [abs_lt]; norm_num))]; norm_num
  have e13 : fl ((3) * (-(5404319552844595 / 9007199254740992))) = (-(2026619832316723 / 1125899906842624)) := by
    rw [fl_rat_neg (m := 8106479329266892) (k := 52) (by norm_num) (by norm_num) (by norm_num) (.inr ⟨by norm_num [abs_of_pos, abs_of_neg], by norm_num⟩)]; norm_num
  have e14 : fl ((3602879701896397 / 4503599627370496) + (-(2026619832316723 / 1125899906842624))) = (-(4503599627370495 / 4503599627370496)) := by
    rw [fl_rat_neg (m := 9007199254740990) (k := 53) (by norm_num) (by norm_num) (by norm_num) (.inl (by rw [abs_lt]; norm_num))]; norm_num
  have e15 : fl ((4) * (3602879701896397 / 4503599627370496)) = (3602879701896397 / 1125899906842624) := by
    rw [fl_rat (m := 7205759403792794) (k := 51) (by norm_num) (by norm_num) (by norm_num) (.inl (by rw [abs_lt]; norm_num))]; norm_num
  have e16 : fl ((-(1)) * (-(5404319552844595 / 9007199254740992))) = (5404319552844595 / 9007199254740992) := by
    rw [fl_rat (m := 5404319552844595) (k := 53) (by norm_num) (by norm_num) (by norm_num) (.inl (by rw [abs_lt]; norm_num))]; norm_num
  have e17 : fl ((3602879701896397 / 1125899906842624) + (5404319552844595 / 9007199254740992)) = (8556839292003943 / 2251799813685248) := by
    rw [fl_rat (m := 8556839292003943) (k := 51) (by norm_num) (by norm_num) (by norm_num) (.inl (by rw [abs_lt]; norm_num))]; norm_num
  have e18 : fl ((7) * (3602879701896397 / 4503599627370496)) = (6305039478318695 / 1125899906842624) := by
    rw [fl_rat (m := 6305039478318695) (k := 50) (by norm_num) (by norm_num) (by norm_num) (.inl (by rw [abs_lt]; norm_num))]; norm_num
  have e19 : fl ((3) * (-(5404319552844595 / 9007199254740992))) = (-(2026619832316723 / 1125899906842624)) := by
    rw [fl_rat_neg (m := 8106479329266892) (k := 52) (by norm_num) (by norm_num) (by norm_num) (.inr ⟨by norm_num [abs_of_pos, abs_of_neg], by norm_num⟩)]; norm_num
  have e20 : fl ((6305039478318695 / 1125899906842624) + (-(2026619832316723 / 1125899906842624))) = (1069604911500493 / 281474976710656) := by
    rw [fl_rat (m := 8556839292003944) (k := 51) (by norm_num) (by norm_num) (by norm_num) (.inl (by rw [abs_lt]; norm_num))]; norm_num
  left
  intro a ma b mb
  simp only [List.mem_cons, List.not_mem_nil, or_false] at ma mb
  rcases ma with rfl | rfl | rfl <;> rcases mb with rfl | rfl | rfl <;>
    simp only [dotPlain, e1, e2, e3, e4, e5, e6, e7, e8, e9, e10, e11, e12, e13, e14, e15, e16, e17, e18, e19, e20] <;> norm_num

theorem isEdge_three (a b c p q : ℝ × ℝ) : IsEdge [a, b, c] p q ↔ (p = a ∧ q = b) ∨ (p = b ∧ q = c) ∨ (p = c ∧ q = a) := by
  constructor
  · rintro ⟨i, h1, h2⟩
    rcases i with _ | _ | _ | i
    · left; simpa [eq_comm] using And.intro h1 h2
    · right; left; simpa [eq_comm] using And.intro h1 h2
    · right; right; simpa [eq_comm] using And.intro h1 h2
    · simp at h1
  · rintro (⟨rfl, rfl⟩ | ⟨rfl, rfl⟩ | ⟨rfl, rfl⟩)
    · exact ⟨0, rfl, rfl⟩
    · exact ⟨1, rfl, rfl⟩
    · exact ⟨2, rfl, by simp⟩

/-- The first axis of the first triangle. -/
theorem touching_axis : axisAtR fl [(-2, -1), (4, 7), (-2, 7)] 0 = some (fl (8 / 10), fl (-6 / 10)) := by
  have f6 : fl 6 = 6 := by
    rw [fl_rat (m := 6755399441055744) (k := 50) (by norm_num) (by norm_num) (by norm_num) (.inl (by rw [abs_lt]; norm_num))]; norm_num
  have f8 : fl 8 = 8 := by
    rw [fl_rat (m := 4503599627370496) (k := 49) (by norm_num) (by norm_num) (by norm_num) (.inl (by rw [abs_lt]; norm_num))]; norm_num
  have f36 : fl 36 = 36 := by
    rw [fl_rat (m := 5066549580791808) (k := 47) (by norm_num) (by norm_num) (by norm_num) (.inl (by rw [abs_lt]; norm_num))]; norm_num
  have f64 : fl 64 = 64 := by
    rw [fl_rat (m := 4503599627370496) (k := 46) (by norm_num) (by norm_num) (by norm_num) (.inl (by rw [abs_lt]; norm_num))]; norm_num
  have f100 : fl 100 = 100 := by
    rw [fl_rat (m := 7036874417766400) (k := 46) (by norm_num) (by norm_num) (by norm_num) (.inl (by rw [abs_lt]; norm_num))]; norm_num
  have f10 : fl 10 = 10 := by
    rw [fl_rat (m := 5629499534213120) (k := 49) (by norm_num) (by norm_num) (by norm_num) (.inl (by rw [abs_lt]; norm_num))]; norm_num
  have hs : √(100 : ℝ) = 10 := by rw [show (100 : ℝ) = 10 ^ 2 by norm_num]; exact Real.sqrt_sq (by norm_num)
  have he : (edgesR fl [(-2, -1), (4, 7), (-2, 7)])[0]? = some (6, 8) := by
    simp only [edgesR, verticesToEdges, edgeDirection, List.length_cons, List.length_nil, List.map_map]
    rw [List.getElem?_map]
    norm_num
    exact ⟨f6, f8⟩
  rw [axisAtR, he]
  have hn : fl (√(fl (fl ((8 : ℝ) * 8) + fl ((-6 : ℝ) * -6)))) = 10 := by
    rw [show (8 : ℝ) * 8 = 64 by norm_num, show (-6 : ℝ) * -6 = 36 by norm_num, f64, f36, show (64 : ℝ) + 36 = 100 by norm_num, f100, hs, f10]
  show (if fl (√(fl (fl ((8 : ℝ) * 8) + fl ((-6 : ℝ) * -6)))) = 0 then none else
    some (fl (8 / fl (√(fl (fl ((8 : ℝ) * 8) + fl ((-6 : ℝ) * -6))))), fl (-6 / fl (√(fl (fl ((8 : ℝ) * 8) + fl ((-6 : ℝ) * -6))))))) = _
  rw [if_neg (by rw [hn]; norm_num), hn]

/-- The tolerance is needed: a corner of one triangle lies on an edge of the other, so the regions have a common point, but in floats the test reports no
collision. With real numbers it reports one. -/
theorem C136_touching_false : ∃ va vb : List (ℝ × ℝ), FloatRow 3 7 va ∧ FloatRow 3 7 vb ∧ (∃ x, x ∈ polygonHull va ∧ x ∈ polygonHull vb) ∧
    vecSatR fl (dotPlain fl) 3 [va] [vb] = .ok [false] ∧ vecSat 3 [va] [vb] = .ok [true] := by
  have hp : (2 : ℝ) ^ (-400 : ℤ) ≤ 1 := zpow_le_one_of_nonpos₀ one_le_two (by norm_num)
  have row : ∀ a b c : ℝ × ℝ, InBox 7 [a, b, c] → 1 ≤ (b.1 - a.1) ^ 2 + (b.2 - a.2) ^ 2 → 1 ≤ (c.1 - b.1) ^ 2 + (c.2 - b.2) ^ 2 →
      1 ≤ (a.1 - c.1) ^ 2 + (a.2 - c.2) ^ 2 → FloatRow 3 7 [a, b, c] := by
    intro a b c hbox h1 h2 h3
    refine ⟨rfl, ⟨by simp, fun p q he => hp.trans (Real.le_sqrt_of_sq_le ?_)⟩, hbox⟩
    rw [one_pow]
    rcases (isEdge_three _ _ _ _ _).1 he with ⟨rfl, rfl⟩ | ⟨rfl, rfl⟩ | ⟨rfl, rfl⟩ <;> assumption
  have box : ∀ a b c : ℝ × ℝ, (|a.1| ≤ 7 ∧ |a.2| ≤ 7) → (|b.1| ≤ 7 ∧ |b.2| ≤ 7) → (|c.1| ≤ 7 ∧ |c.2| ≤ 7) → InBox 7 [a, b, c] := by
    intro a b c h1 h2 h3 v hv
    simp only [List.mem_cons, List.not_mem_nil, or_false] at hv
    rcases hv with rfl | rfl | rfl <;> assumption
  have A : FloatRow 3 7 [(-2, -1), (4, 7), (-2, 7)] := row _ _ _ (box _ _ _ (by constructor <;> norm_num [abs_le]) (by constructor <;> norm_num [abs_le])
    (by constructor <;> norm_num [abs_le])) (by norm_num) (by norm_num) (by norm_num)
  have B : FloatRow 3 7 [(1, 3), (4, -1), (7, 3)] := row _ _ _ (box _ _ _ (by constructor <;> norm_num [abs_le]) (by constructor <;> norm_num [abs_le])
    (by constructor <;> norm_num [abs_le])) (by norm_num) (by norm_num) (by norm_num)
  have proper : ∀ vs, FloatRow 3 7 vs → ProperEdges vs := by
    intro vs h
    refine ⟨h.2.1.1, fun p q he hpq => ?_⟩
    have := h.2.1.2 p q he
    rw [hpq] at this
    simp only [sub_self, ne_eq, OfNat.ofNat_ne_zero, not_false_eq_true, zero_pow, add_zero, Real.sqrt_zero] at this
    exact absurd this (by rw [not_le]; positivity)
  have hx : ∃ x, x ∈ polygonHull [((-2 : ℝ), (-1 : ℝ)), (4, 7), (-2, 7)] ∧ x ∈ polygonHull [((1 : ℝ), (3 : ℝ)), (4, -1), (7, 3)] := by
    refine ⟨(1, 3), ?_, subset_convexHull ℝ _ (by simp)⟩
    apply (convex_convexHull ℝ {p | p ∈ [((-2 : ℝ), (-1 : ℝ)), (4, 7), (-2, 7)]}).segment_subset (subset_convexHull ℝ _ (by simp : ((-2 : ℝ), (-1 : ℝ)) ∈ _))
      (subset_convexHull ℝ _ (by simp : ((4 : ℝ), (7 : ℝ)) ∈ _))
    refine ⟨1 / 2, 1 / 2, by norm_num, by norm_num, by norm_num, ?_⟩
    ext <;> norm_num
  refine ⟨_, _, A, B, hx, ?_, ?_⟩
  · rw [vecSatR_ok 3 [[(-2, -1), (4, 7), (-2, 7)]] [[(1, 3), (4, -1), (7, 3)]] rfl (by simp) (by simp)]
    have : rowTestR fl (dotPlain fl) 3 [(-2, -1), (4, 7), (-2, 7)] [(1, 3), (4, -1), (7, 3)] = false := by
      unfold rowTestR
      rw [List.all_eq_false]
      refine ⟨0, by simp, ?_⟩
      rw [touching_axis, (axisTestR_some_false _ _ _).2 touching_dots]
      simp
    simp [this]
  · obtain ⟨rs, h1, h2, h3⟩ := C51_vectorised_agrees 3 [[(-2, -1), (4, 7), (-2, 7)]] [[(1, 3), (4, -1), (7, 3)]] rfl
      (by simpa using proper _ A) (by simpa using proper _ B)
    obtain ⟨r, e1, e2⟩ := h3 0 _ _ rfl rfl
    rw [C50_sat2d_never_misses _ _ (proper _ A) (proper _ B) hx] at e1
    rw [h1]
    match rs, h2 with
    | [c], _ =>
      simp only [List.getElem?_cons_zero, Option.some.injEq] at e2
      rw [e2, ← Except.ok.inj e1]

end Verif.Props
