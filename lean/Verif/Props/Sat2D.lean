import Mathlib.Tactic.NormNum
import Verif.Lemmas.Sat2D

/-! Planar separating-axis test: C50, C51, C52. -/

namespace Verif.Props

open Verif.Sat2D Verif.Spec

/-! ### Example polygons -/

theorem isEdge_four (a b c d p q : ℝ × ℝ) : IsEdge [a, b, c, d] p q ↔ (p = a ∧ q = b) ∨ (p = b ∧ q = c) ∨ (p = c ∧ q = d) ∨ (p = d ∧ q = a) := by
  constructor
  · rintro ⟨i, h1, h2⟩
    rcases i with _ | _ | _ | _ | i
    · left; simpa [eq_comm] using And.intro h1 h2
    · right; left; simpa [eq_comm] using And.intro h1 h2
    · right; right; left; simpa [eq_comm] using And.intro h1 h2
    · right; right; right; simpa [eq_comm] using And.intro h1 h2
    · simp at h1
  · rintro (⟨rfl, rfl⟩ | ⟨rfl, rfl⟩ | ⟨rfl, rfl⟩ | ⟨rfl, rfl⟩)
    · exact ⟨0, rfl, rfl⟩
    · exact ⟨1, rfl, rfl⟩
    · exact ⟨2, rfl, rfl⟩
    · exact ⟨3, rfl, by simp⟩

theorem isEdge_two (a b p q : ℝ × ℝ) : IsEdge [a, b] p q ↔ (p = a ∧ q = b) ∨ (p = b ∧ q = a) := by
  constructor
  · rintro ⟨i, h1, h2⟩
    rcases i with _ | _ | i
    · left; simpa [eq_comm] using And.intro h1 h2
    · right; simpa [eq_comm] using And.intro h1 h2
    · simp at h1
  · rintro (⟨rfl, rfl⟩ | ⟨rfl, rfl⟩)
    · exact ⟨0, rfl, rfl⟩
    · exact ⟨1, rfl, by simp⟩

/-- An axis-parallel rectangle, counter-clockwise. -/
def rect (x0 y0 x1 y1 : ℝ) : List (ℝ × ℝ) := [(x0, y0), (x1, y0), (x1, y1), (x0, y1)]

/-- A square standing on a corner, clockwise. -/
def diamond (x y r : ℝ) : List (ℝ × ℝ) := [(x - r, y), (x, y + r), (x + r, y), (x, y - r)]

theorem rect_proper (x0 y0 x1 y1 : ℝ) (hx : x0 < x1) (hy : y0 < y1) : ProperEdges (rect x0 y0 x1 y1) := by
  refine ⟨by simp [rect], fun p q h => ?_⟩
  rcases (isEdge_four _ _ _ _ p q).1 h with ⟨rfl, rfl⟩ | ⟨rfl, rfl⟩ | ⟨rfl, rfl⟩ | ⟨rfl, rfl⟩ <;> simp [hx.ne, hx.ne', hy.ne, hy.ne']

theorem rect_convex (x0 y0 x1 y1 : ℝ) (hx : x0 < x1) (hy : y0 < y1) : ConvexPolygon (rect x0 y0 x1 y1) := by
  have hx' : 0 < x1 - x0 := by linarith
  have hy' : 0 < y1 - y0 := by linarith
  refine ⟨⟨(x0, y0), by simp [rect], (x1, y0), by simp [rect], (x1, y1), by simp [rect], ?_⟩, .inl fun p q h r hr => ?_⟩
  · simp only [turn]
    nlinarith [mul_pos hx' hy']
  · have hm := mul_pos hx' hy'
    simp only [rect, List.mem_cons, List.not_mem_nil, or_false] at hr
    rcases (isEdge_four _ _ _ _ p q).1 h with ⟨rfl, rfl⟩ | ⟨rfl, rfl⟩ | ⟨rfl, rfl⟩ | ⟨rfl, rfl⟩ <;>
      rcases hr with rfl | rfl | rfl | rfl <;> simp only [turn] <;> nlinarith

theorem diamond_proper (x y r : ℝ) (hr : 0 < r) : ProperEdges (diamond x y r) := by
  refine ⟨by simp [diamond], fun p q h => ?_⟩
  rcases (isEdge_four _ _ _ _ p q).1 h with ⟨rfl, rfl⟩ | ⟨rfl, rfl⟩ | ⟨rfl, rfl⟩ | ⟨rfl, rfl⟩ <;> intro h0 <;>
    have h1 := congrArg Prod.fst h0 <;> simp only at h1 <;> linarith

theorem diamond_convex (x y r : ℝ) (hr : 0 < r) : ConvexPolygon (diamond x y r) := by
  have hm := mul_pos hr hr
  refine ⟨⟨(x - r, y), by simp [diamond], (x, y + r), by simp [diamond], (x + r, y), by simp [diamond], ?_⟩, .inr fun p q h z hz => ?_⟩
  · simp only [turn]
    nlinarith
  · simp only [diamond, List.mem_cons, List.not_mem_nil, or_false] at hz
    rcases (isEdge_four _ _ _ _ p q).1 h with ⟨rfl, rfl⟩ | ⟨rfl, rfl⟩ | ⟨rfl, rfl⟩ | ⟨rfl, rfl⟩ <;>
      rcases hz with rfl | rfl | rfl | rfl <;> simp only [turn] <;> nlinarith

theorem rect_mem (x0 y0 x1 y1 : ℝ) (hx : x0 ≤ x1) (hy : y0 ≤ y1) (p : ℝ × ℝ) (h1 : x0 ≤ p.1) (h2 : p.1 ≤ x1) (h3 : y0 ≤ p.2) (h4 : p.2 ≤ y1) :
    p ∈ polygonHull (rect x0 y0 x1 y1) := by
  have hseg : ∀ y, (x0, y) ∈ polygonHull (rect x0 y0 x1 y1) → (x1, y) ∈ polygonHull (rect x0 y0 x1 y1) → (p.1, y) ∈ polygonHull (rect x0 y0 x1 y1) := by
    intro y ha hb
    have hs := (convex_convexHull ℝ _).segment_subset ha hb
    apply hs
    rcases hx.eq_or_lt with rfl | hx
    · rw [le_antisymm h2 h1]
      exact left_mem_segment _ _ _
    · refine ⟨(x1 - p.1) / (x1 - x0), (p.1 - x0) / (x1 - x0), div_nonneg (by linarith) (by linarith), div_nonneg (by linarith) (by linarith), ?_, ?_⟩
      · rw [← add_div, div_eq_one_iff_eq (by linarith)]; ring
      · have : x1 - x0 ≠ 0 := by linarith
        ext <;> simp <;> field_simp <;> ring
  have hv : ∀ v ∈ rect x0 y0 x1 y1, v ∈ polygonHull (rect x0 y0 x1 y1) := fun v hv => subset_convexHull ℝ _ hv
  have b := hseg y0 (hv _ (by simp [rect])) (hv _ (by simp [rect]))
  have t := hseg y1 (hv _ (by simp [rect])) (hv _ (by simp [rect]))
  apply (convex_convexHull ℝ _).segment_subset b t
  rcases hy.eq_or_lt with rfl | hy
  · rw [show p = (p.1, y0) from Prod.ext rfl (le_antisymm h4 h3)]
    exact left_mem_segment _ _ _
  · refine ⟨(y1 - p.2) / (y1 - y0), (p.2 - y0) / (y1 - y0), div_nonneg (by linarith) (by linarith), div_nonneg (by linarith) (by linarith), ?_, ?_⟩
    · rw [← add_div, div_eq_one_iff_eq (by linarith)]; ring
    · have : y1 - y0 ≠ 0 := by linarith
      ext <;> simp <;> field_simp <;> ring

/-! ### C50 -/

/-- C50: when the regions of two polygons without repeated consecutive vertices have a common point, the test reports a collision. -/
theorem C50_sat2d_never_misses (va vb : List (ℝ × ℝ)) (ha : ProperEdges va) (hb : ProperEdges vb)
    (h : ∃ x, x ∈ polygonHull va ∧ x ∈ polygonHull vb) : sat va vb = .ok true := by
  obtain ⟨x, h1, h2⟩ := h
  exact (sat_true_iff va vb ha hb).2 fun e _ => not_separates_of_common va vb ha.1 hb.1 _ x h1 h2

/-- Two squares that touch in a corner only. -/
theorem C50_nonvacuous : ProperEdges (rect 0 0 1 1) ∧ ProperEdges (rect 1 1 2 2) ∧
    ∃ x, x ∈ polygonHull (rect 0 0 1 1) ∧ x ∈ polygonHull (rect 1 1 2 2) :=
  ⟨rect_proper _ _ _ _ (by norm_num) (by norm_num), rect_proper _ _ _ _ (by norm_num) (by norm_num), (1, 1),
    rect_mem _ _ _ _ (by norm_num) (by norm_num) _ (by norm_num) (by norm_num) (by norm_num) (by norm_num),
    rect_mem _ _ _ _ (by norm_num) (by norm_num) _ (by norm_num) (by norm_num) (by norm_num) (by norm_num)⟩

/-! ### C52 -/

/-- C52: for convex polygons the test reports a collision exactly when the regions have a common point. -/
theorem C52_sat2d_exact (va vb : List (ℝ × ℝ)) (ca : ConvexPolygon va) (cb : ConvexPolygon vb) (ha : ProperEdges va) (hb : ProperEdges vb) :
    (∃ r, sat va vb = .ok r) ∧ (sat va vb = .ok true ↔ ∃ x, x ∈ polygonHull va ∧ x ∈ polygonHull vb) := by
  constructor
  · rcases sat_ok va vb ha hb with h | h
    · exact ⟨_, h.1⟩
    · exact ⟨_, h.1⟩
  · refine ⟨fun h => ?_, C50_sat2d_never_misses va vb ha hb⟩
    by_contra hno
    have hempty : polygonHull va ∩ polygonHull vb = ∅ := by
      rw [Set.eq_empty_iff_forall_notMem]
      exact fun x hx => hno ⟨x, hx.1, hx.2⟩
    obtain ⟨u, hu⟩ := exists_direction va vb hempty
    obtain ⟨e, he, hs⟩ := exists_separating_edge va vb ca cb ha hb u hu
    exact (sat_true_iff va vb ha hb).1 h e he hs

/-- A counter-clockwise square and a clockwise square standing on a corner, near each other but disjoint, with overlapping bounding boxes;
the test tells them apart. -/
theorem C52_nonvacuous : ConvexPolygon (rect 0 0 1 1) ∧ ConvexPolygon (diamond (17/10) (17/10) 1) ∧ ProperEdges (rect 0 0 1 1) ∧
    ProperEdges (diamond (17/10) (17/10) 1) ∧ sat (rect 0 0 1 1) (diamond (17/10) (17/10) 1) = .ok false ∧
    sat (rect 0 0 1 1) (diamond (14/10) (14/10) 1) = .ok true := by
  refine ⟨rect_convex _ _ _ _ (by norm_num) (by norm_num), diamond_convex _ _ _ (by norm_num), rect_proper _ _ _ _ (by norm_num) (by norm_num),
    diamond_proper _ _ _ (by norm_num), ?_, ?_⟩
  · rcases sat_ok (rect 0 0 1 1) (diamond (17/10) (17/10) 1) (rect_proper _ _ _ _ (by norm_num) (by norm_num)) (diamond_proper _ _ _ (by norm_num)) with h | h
    · refine absurd ?_ (h.2 (-1, 1) (List.mem_append_right _ ((mem_edges _ _).2 ⟨(17/10, 17/10 - 1), (17/10 - 1, 17/10), ?_, by norm_num⟩)))
      · left
        intro a ha b hb
        simp only [rect, diamond, List.mem_cons, List.not_mem_nil, or_false] at ha hb
        rcases ha with rfl | rfl | rfl | rfl <;> rcases hb with rfl | rfl | rfl | rfl <;> norm_num [dot, orthogonal]
      · exact (isEdge_four _ _ _ _ _ _).2 (.inr (.inr (.inr ⟨rfl, rfl⟩)))
    · exact h.1
  · apply C50_sat2d_never_misses _ _ (rect_proper _ _ _ _ (by norm_num) (by norm_num)) (diamond_proper _ _ _ (by norm_num))
    refine ⟨(9/10, 9/10), rect_mem _ _ _ _ (by norm_num) (by norm_num) _ (by norm_num) (by norm_num) (by norm_num) (by norm_num), ?_⟩
    have m1 : ((14/10 - 1, 14/10) : ℝ × ℝ) ∈ polygonHull (diamond (14/10) (14/10) 1) := subset_convexHull ℝ _ (by simp [diamond])
    have m2 : ((14/10, 14/10 - 1) : ℝ × ℝ) ∈ polygonHull (diamond (14/10) (14/10) 1) := subset_convexHull ℝ _ (by simp [diamond])
    apply (convex_convexHull ℝ _).segment_subset m1 m2
    exact ⟨1/2, 1/2, by norm_num, by norm_num, by norm_num, by ext <;> norm_num⟩

/-- The condition that the vertices are not on one line is needed: two disjoint segments on one line (polygons with two vertices) are
reported to collide. -/
theorem C52_flat_polygons_false : ∃ va vb : List (ℝ × ℝ), ProperEdges va ∧ ProperEdges vb ∧ (¬ ∃ x, x ∈ polygonHull va ∧ x ∈ polygonHull vb) ∧
    sat va vb = .ok true := by
  have p1 : ProperEdges [((0 : ℝ), (0 : ℝ)), (1, 0)] := by
    refine ⟨by simp, fun p q h => ?_⟩
    rcases (isEdge_two _ _ p q).1 h with ⟨rfl, rfl⟩ | ⟨rfl, rfl⟩ <;> simp
  have p2 : ProperEdges [((2 : ℝ), (0 : ℝ)), (3, 0)] := by
    refine ⟨by simp, fun p q h => ?_⟩
    rcases (isEdge_two _ _ p q).1 h with ⟨rfl, rfl⟩ | ⟨rfl, rfl⟩ <;> simp
  refine ⟨_, _, p1, p2, ?_, ?_⟩
  · rintro ⟨x, h1, h2⟩
    refine not_separates_of_common _ _ (by simp) (by simp) (1, 0) x h1 h2 (.inl ?_)
    intro a ha b hb
    simp only [List.mem_cons, List.not_mem_nil, or_false] at ha hb
    rcases ha with rfl | rfl <;> rcases hb with rfl | rfl <;> norm_num [dot]
  · rw [sat_true_iff _ _ p1 p2]
    intro e he hs
    have h0 : e.2 = 0 := by
      rcases List.mem_append.1 he with he | he <;> obtain ⟨p, q, hpq, rfl⟩ := (mem_edges _ _).1 he <;>
        rcases (isEdge_two _ _ p q).1 hpq with ⟨rfl, rfl⟩ | ⟨rfl, rfl⟩ <;> simp
    rcases hs with hs | hs <;> have := hs (0, 0) (by simp) (2, 0) (by simp) <;> simp [dot, orthogonal, h0] at this

/-! ### C51 -/

/-- The row answer of the batched test is the answer of the scalar test. -/
theorem sat_eq_rowTest (n : ℕ) (va vb : List (ℝ × ℝ)) (la : va.length = n) (lb : vb.length = n) (pa' : ProperEdges va) (pb' : ProperEdges vb) :
    sat va vb = .ok (rowTest n va vb) := by
  have haxis : ∀ vs : List V2, vs.length = n → ProperEdges vs → ∀ (j : ℕ) (e : V2), (verticesToEdges vs)[j]? = some e →
      (axisTest va vb (axisAt vs j) = true ↔ ¬ Separates va vb (orthogonal e)) := by
    intro vs hl hp j e he
    have hne := edge_ne vs hp e (List.mem_of_getElem? he)
    simp only [axisAt, he, Option.bind_some, vecNormalize_ok e hne, axisTest, decide_eq_true_eq, unitNormal_separates va vb e hne]
  have hall : rowTest n va vb = true ↔ ∀ e ∈ verticesToEdges va ++ verticesToEdges vb, ¬ Separates va vb (orthogonal e) := by
    unfold rowTest
    simp only [List.all_eq_true, List.mem_range, Bool.and_eq_true]
    constructor
    · intro h e he
      rcases List.mem_append.1 he with he | he
      · obtain ⟨j, hj⟩ := List.mem_iff_getElem?.1 he
        have hjn : j < n := by
          rw [← la, ← edges_length va]
          by_contra h'
          rw [List.getElem?_eq_none (by omega)] at hj
          cases hj
        exact (haxis va la pa' j e hj).1 (h j hjn).1
      · obtain ⟨j, hj⟩ := List.mem_iff_getElem?.1 he
        have hjn : j < n := by
          rw [← lb, ← edges_length vb]
          by_contra h'
          rw [List.getElem?_eq_none (by omega)] at hj
          cases hj
        exact (haxis vb lb pb' j e hj).1 (h j hjn).2
    · intro h j hj
      have j1 : j < (verticesToEdges va).length := by rw [edges_length, la]; exact hj
      have j2 : j < (verticesToEdges vb).length := by rw [edges_length, lb]; exact hj
      exact ⟨(haxis va la pa' j _ (List.getElem?_eq_getElem j1)).2 (h _ (List.mem_append_left _ (List.getElem_mem j1))),
        (haxis vb lb pb' j _ (List.getElem?_eq_getElem j2)).2 (h _ (List.mem_append_right _ (List.getElem_mem j2)))⟩
  rcases sat_ok va vb pa' pb' with ⟨s1, s2⟩ | ⟨s1, e, he, s2⟩
  · rw [s1, hall.2 s2]
  · rw [s1]
    congr 1
    cases hr : rowTest n va vb with
    | false => rfl
    | true => exact absurd s2 (hall.1 hr e he)

/-- C51: on batches of polygons with equally many vertices and without repeated consecutive vertices, the batched test returns for every row the
answer of the scalar test. -/
theorem C51_vectorised_agrees (n : ℕ) (pa pb : List (List (ℝ × ℝ))) (hlen : pa.length = pb.length) (ha : ∀ vs ∈ pa, vs.length = n ∧ ProperEdges vs)
    (hb : ∀ vs ∈ pb, vs.length = n ∧ ProperEdges vs) :
    ∃ rs, vecSat n pa pb = .ok rs ∧ rs.length = pa.length ∧
      ∀ (i : ℕ) (va vb : List (ℝ × ℝ)), pa[i]? = some va → pb[i]? = some vb → ∃ r, sat va vb = .ok r ∧ rs[i]? = some r := by
  refine ⟨_, vecSat_ok n pa pb hlen (fun vs h => (ha vs h).1) (fun vs h => (hb vs h).1), by simp [hlen], ?_⟩
  intro i va vb h1 h2
  exact ⟨rowTest n va vb, sat_eq_rowTest n va vb (ha va (List.mem_of_getElem? h1)).1 (hb vb (List.mem_of_getElem? h2)).1
    (ha va (List.mem_of_getElem? h1)).2 (hb vb (List.mem_of_getElem? h2)).2, by rw [List.getElem?_zipWith, h1, h2]⟩

theorem C51_nonvacuous : ∃ pa pb : List (List (ℝ × ℝ)), pa.length = pb.length ∧ (∀ vs ∈ pa, vs.length = 4 ∧ ProperEdges vs) ∧
    (∀ vs ∈ pb, vs.length = 4 ∧ ProperEdges vs) ∧ vecSat 4 pa pb = .ok [false, true] := by
  have hA : ∀ vs ∈ [rect 0 0 1 1, rect 0 0 1 1], vs.length = 4 ∧ ProperEdges vs := by
    simp only [List.mem_cons, List.not_mem_nil, or_false, or_self, forall_eq]
    exact ⟨rfl, rect_proper _ _ _ _ (by norm_num) (by norm_num)⟩
  have hB : ∀ vs ∈ [diamond (17/10) (17/10) 1, diamond (14/10) (14/10) 1], vs.length = 4 ∧ ProperEdges vs := by
    simp only [List.mem_cons, List.not_mem_nil, or_false, forall_eq_or_imp, forall_eq]
    exact ⟨⟨rfl, diamond_proper _ _ _ (by norm_num)⟩, ⟨rfl, diamond_proper _ _ _ (by norm_num)⟩⟩
  refine ⟨[rect 0 0 1 1, rect 0 0 1 1], [diamond (17/10) (17/10) 1, diamond (14/10) (14/10) 1], rfl, hA, hB, ?_⟩
  obtain ⟨rs, h1, h2, h3⟩ := C51_vectorised_agrees 4 [rect 0 0 1 1, rect 0 0 1 1] [diamond (17/10) (17/10) 1, diamond (14/10) (14/10) 1] rfl hA hB
  obtain ⟨r0, s0, t0⟩ := h3 0 _ _ rfl rfl
  obtain ⟨r1, s1, t1⟩ := h3 1 _ _ rfl rfl
  rw [C52_nonvacuous.2.2.2.2.1] at s0
  rw [C52_nonvacuous.2.2.2.2.2] at s1
  cases s0
  cases s1
  rw [h1]
  match rs, h2, t0, t1 with
  | [a, b], _, t0, t1 =>
    simp at t0 t1
    rw [t0, t1]

theorem mapM_zeroDivision {α β : Type} (f : α → Except PyErr β) (l : List α) (h : ∀ x ∈ l, (∃ b, f x = .ok b) ∨ f x = .error .zeroDivision)
    (hex : ∃ x ∈ l, f x = .error .zeroDivision) : l.mapM f = .error .zeroDivision := by
  induction l with
  | nil => obtain ⟨x, hx, -⟩ := hex; cases hx
  | cons a l ih =>
    rw [List.mapM_cons]
    rcases h a (by simp) with ⟨b, hb⟩ | hb
    · have : ∃ x ∈ l, f x = .error .zeroDivision := by
        obtain ⟨x, hx, hf⟩ := hex
        rcases List.mem_cons.1 hx with rfl | hx
        · rw [hf] at hb; cases hb
        · exact ⟨x, hx, hf⟩
      rw [hb, ih (fun x hx => h x (by simp [hx])) this]
      rfl
    · rw [hb]
      rfl

/-- When a polygon repeats a vertex (a zero edge), the scalar test raises ZeroDivisionError while the batched test answers "no collision" for that
row, whatever the position of the polygons: there the batched test can miss an overlap. -/
theorem C51_repeated_vertex (n : ℕ) (va vb : List (ℝ × ℝ)) (la : va.length = n) (lb : vb.length = n) (p : ℝ × ℝ) (h : IsEdge va p p) :
    sat va vb = .error .zeroDivision ∧ vecSat n [va] [vb] = .ok [false] := by
  obtain ⟨i, h1, h2⟩ := h
  have hi : i < va.length := by
    by_contra h'
    rw [List.getElem?_eq_none (by omega)] at h1
    cases h1
  have hedge : (verticesToEdges va)[i]? = some (0, 0) := by
    unfold verticesToEdges
    rw [List.getElem?_map, List.getElem?_range hi]
    simp [List.getD_eq_getElem?_getD, h1, h2, edgeDirection]
  constructor
  · unfold sat
    have herr : ((verticesToEdges va ++ verticesToEdges vb).mapM fun e => Sat2D.normalize (orthogonal e)) = .error .zeroDivision := by
      apply mapM_zeroDivision
      · intro e _
        unfold Sat2D.normalize
        split
        · exact .inr rfl
        · exact .inl ⟨_, rfl⟩
      · refine ⟨(0, 0), List.mem_append_left _ (List.mem_of_getElem? hedge), ?_⟩
        unfold Sat2D.normalize orthogonal
        simp
    simp only [herr]
    rfl
  · rw [vecSat_ok n [va] [vb] rfl (by simpa using la) (by simpa using lb)]
    have : rowTest n va vb = false := by
      unfold rowTest
      rw [List.all_eq_false]
      refine ⟨i, List.mem_range.2 (by omega), ?_⟩
      simp [axisAt, hedge, vecNormalize, orthogonal, axisTest]
    simp [this]

theorem C51_repeated_vertex_nonvacuous : ∃ va vb : List (ℝ × ℝ), va.length = 4 ∧ vb.length = 4 ∧ IsEdge va (0, 0) (0, 0) ∧
    ∃ x, x ∈ polygonHull va ∧ x ∈ polygonHull vb :=
  ⟨[(0, 0), (0, 0), (1, 0), (0, 1)], rect 0 0 1 1, rfl, rfl, (isEdge_four _ _ _ _ _ _).2 (.inl ⟨rfl, rfl⟩), (0, 0),
    subset_convexHull ℝ _ (by simp), subset_convexHull ℝ _ (by simp [rect])⟩

end Verif.Props
