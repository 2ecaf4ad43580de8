import Mathlib.Tactic.Linarith
import Mathlib.Tactic.Ring
import Mathlib.Tactic.FieldSimp
import Mathlib.Tactic.NormNum
import Mathlib.Data.List.Nodup
import Mathlib.Algebra.Order.Ring.Rat
import Mathlib.Algebra.Order.Ring.Abs
import Verif.Spec.Bin

/-! Properties of the containers: C74 (clearance), C75 (shape), C76 (arrangement and pairing). -/

set_option linter.unusedSimpArgs false
set_option linter.unusedSectionVars false

namespace Verif.Props

open Verif.Spec Verif.Bin

variable {K : Type*} [Field K] [LinearOrder K] [IsStrictOrderedRing K]

/-! ### C75 -/

theorem axis_cases (i : Fin 3) : i = 0 ∨ i = 1 ∨ i = 2 := by
  have : ∀ i : Fin 3, i = 0 ∨ i = 1 ∨ i = 2 := by decide
  exact this i

theorem axis_forall {p : Fin 3 → Prop} : (∀ j, p j) ↔ p 0 ∧ p 1 ∧ p 2 :=
  ⟨fun h => ⟨h 0, h 1, h 2⟩, fun h j => by rcases axis_cases j with rfl | rfl | rfl <;> simp [h]⟩

/-- One slab: the part of the block within the thickness of one side. -/
theorem covers_slab (dims : Fin 3 → K) (t : K) (index : Fin 3) (ht : t ≤ dims index) (sign : ℤ) (hs : sign = -1 ∨ sign = 1) (x : Fin 3 → K) :
    Covers { center := fun j => (if j = 2 then dims 2 / 2 else 0) + (if j = index then (sign : K) * (dims index - t) / 2 else 0),
             half := fun j => (if j = index then t else dims j) / 2 } x ↔
      Block dims x ∧ (sign = -1 → x index ≤ lowEnd dims index + t) ∧ (sign = 1 → highEnd dims index - t ≤ x index) := by
  unfold Covers Block lowEnd highEnd
  simp only [axis_forall]
  have h0 : ((0 : Fin 3) = 2) = False := by decide
  have h1 : ((1 : Fin 3) = 2) = False := by decide
  have h2 : ((0 : Fin 3) = 1) = False := by decide
  have h3 : ((2 : Fin 3) = 0) = False := by decide
  have h4 : ((2 : Fin 3) = 1) = False := by decide
  have h5 : ((1 : Fin 3) = 0) = False := by decide
  rcases axis_cases index with rfl | rfl | rfl <;> rcases hs with rfl | rfl <;>
    simp only [h0, h1, h2, h3, h4, h5, if_true, if_false, Int.cast_neg, Int.cast_one, forall_const, true_and, and_true,
      show ((-1 : ℤ) = 1) = False from by simp, show ((1 : ℤ) = -1) = False from by simp, false_imp_iff, true_imp_iff] <;>
    refine ⟨?_, ?_⟩ <;> rintro ⟨_, _⟩ <;> refine ⟨?_, ?_⟩ <;> (try refine ⟨?_, ?_⟩) <;> (try refine ⟨?_, ?_⟩) <;> (try refine ⟨?_, ?_⟩) <;> linarith

/-- **C75**. A hollow shape covers exactly the points of its outer block that lie within the wall thickness of one of the requested
sides. -/
theorem C75_shape (indices : Fin 3 → List ℤ) (hs : ∀ i, ∀ sign ∈ indices i, sign = -1 ∨ sign = 1) (dims : Fin 3 → K) (t : K) (ht : ∀ i, t ≤ dims i)
    (x : Fin 3 → K) :
    (∃ l ∈ hollowShapes indices dims t, Covers l x) ↔
      Block dims x ∧ ∃ i, (-1 ∈ indices i ∧ x i ≤ lowEnd dims i + t) ∨ (1 ∈ indices i ∧ highEnd dims i - t ≤ x i) := by
  simp only [hollowShapes, List.mem_flatMap, List.mem_map, List.mem_insertionSort, List.mem_finRange, true_and]
  constructor
  · rintro ⟨l, ⟨i, sign, hsign, rfl⟩, h⟩
    rw [covers_slab dims t i (ht i) sign (hs i sign hsign)] at h
    refine ⟨h.1, i, ?_⟩
    rcases hs i sign hsign with rfl | rfl
    · exact .inl ⟨hsign, h.2.1 rfl⟩
    · exact .inr ⟨hsign, h.2.2 rfl⟩
  · rintro ⟨hb, i, ⟨hsign, h⟩ | ⟨hsign, h⟩⟩
    · exact ⟨_, ⟨i, -1, hsign, rfl⟩, (covers_slab dims t i (ht i) (-1) (.inl rfl) x).2 ⟨hb, fun _ => h, fun h' => by simp at h'⟩⟩
    · exact ⟨_, ⟨i, 1, hsign, rfl⟩, (covers_slab dims t i (ht i) 1 (.inr rfl) x).2 ⟨hb, fun h' => by simp at h', fun _ => h⟩⟩

/-- **C75** for the containers of the experiment: the block without the cavity, which is open at the top. -/
theorem C75_bin (dims : Fin 3 → K) (t : K) (ht : ∀ i, t ≤ dims i) (x : Fin 3 → K) :
    (∃ l ∈ hollowShapes Bin.bin dims t, Covers l x) ↔
      Block dims x ∧ ¬ (-dims 0 / 2 + t < x 0 ∧ x 0 < dims 0 / 2 - t ∧ -dims 1 / 2 + t < x 1 ∧ x 1 < dims 1 / 2 - t ∧ t < x 2) := by
  have hs : ∀ i, ∀ sign ∈ Bin.bin i, sign = -1 ∨ sign = 1 := by
    intro i
    rcases axis_cases i with rfl | rfl | rfl <;> simp [Bin.bin]
  rw [C75_shape Bin.bin hs dims t ht]
  refine and_congr_right fun hb => ?_
  simp only [not_and_or, not_lt]
  constructor
  · rintro ⟨i, h⟩
    rcases axis_cases i with rfl | rfl | rfl <;> simp only [Bin.bin, lowEnd, highEnd, Matrix.cons_val_zero, Matrix.cons_val_one, Matrix.cons_val, List.mem_cons,
      List.not_mem_nil, or_false, or_true, true_or, true_and, if_true, if_false, zero_add, show ((0 : Fin 3) = 2) = False from by decide,
      show ((1 : Fin 3) = 2) = False from by decide, show ((1 : ℤ) = -1) = False from by simp, false_and] at h <;> tauto
  · rintro (h | h | h | h | h)
    · exact ⟨0, .inl ⟨by simp [Bin.bin], by simpa [lowEnd] using h⟩⟩
    · exact ⟨0, .inr ⟨by simp [Bin.bin], by simpa [highEnd] using h⟩⟩
    · exact ⟨1, .inl ⟨by simp [Bin.bin], by simpa [lowEnd] using h⟩⟩
    · exact ⟨1, .inr ⟨by simp [Bin.bin], by simpa [highEnd] using h⟩⟩
    · exact ⟨2, .inl ⟨by simp [Bin.bin], by simpa [lowEnd] using h⟩⟩

/-- **C75** for the other named shapes: a tray is a container, a cubby is open at the side of larger first coordinates, a fence has no floor, and the two pairs of walls
stand on a floor. -/
theorem C75_named (dims : Fin 3 → K) (t : K) (ht : ∀ i, t ≤ dims i) (x : Fin 3 → K) :
    ((∃ l ∈ hollowShapes tray dims t, Covers l x) ↔
      Block dims x ∧ ¬ (-dims 0 / 2 + t < x 0 ∧ x 0 < dims 0 / 2 - t ∧ -dims 1 / 2 + t < x 1 ∧ x 1 < dims 1 / 2 - t ∧ t < x 2)) ∧
    ((∃ l ∈ hollowShapes cubby dims t, Covers l x) ↔
      Block dims x ∧ ¬ (-dims 0 / 2 + t < x 0 ∧ -dims 1 / 2 + t < x 1 ∧ x 1 < dims 1 / 2 - t ∧ t < x 2 ∧ x 2 < dims 2 - t)) ∧
    ((∃ l ∈ hollowShapes fence dims t, Covers l x) ↔
      Block dims x ∧ ¬ (-dims 0 / 2 + t < x 0 ∧ x 0 < dims 0 / 2 - t ∧ -dims 1 / 2 + t < x 1 ∧ x 1 < dims 1 / 2 - t)) ∧
    ((∃ l ∈ hollowShapes xWalls dims t, Covers l x) ↔ Block dims x ∧ ¬ (-dims 0 / 2 + t < x 0 ∧ x 0 < dims 0 / 2 - t ∧ t < x 2)) ∧
    ((∃ l ∈ hollowShapes yWalls dims t, Covers l x) ↔ Block dims x ∧ ¬ (-dims 1 / 2 + t < x 1 ∧ x 1 < dims 1 / 2 - t ∧ t < x 2)) := by
  have key : ∀ indices : Fin 3 → List ℤ, (∀ i, ∀ sign ∈ indices i, sign = -1 ∨ sign = 1) → ((∃ l ∈ hollowShapes indices dims t, Covers l x) ↔
      Block dims x ∧ (((-1 ∈ indices 0 ∧ x 0 ≤ -dims 0 / 2 + t) ∨ (1 ∈ indices 0 ∧ dims 0 / 2 - t ≤ x 0)) ∨
        ((-1 ∈ indices 1 ∧ x 1 ≤ -dims 1 / 2 + t) ∨ (1 ∈ indices 1 ∧ dims 1 / 2 - t ≤ x 1)) ∨
        ((-1 ∈ indices 2 ∧ x 2 ≤ t) ∨ (1 ∈ indices 2 ∧ dims 2 - t ≤ x 2)))) := by
    intro indices hs
    rw [C75_shape indices hs dims t ht]
    refine and_congr_right fun _ => ?_
    constructor
    · rintro ⟨i, h⟩
      rcases axis_cases i with rfl | rfl | rfl
      · exact .inl (by simpa [lowEnd, highEnd] using h)
      · exact .inr (.inl (by simpa [lowEnd, highEnd] using h))
      · exact .inr (.inr (by simpa [lowEnd, highEnd] using h))
    · rintro (h | h | h)
      · exact ⟨0, by simpa [lowEnd, highEnd] using h⟩
      · exact ⟨1, by simpa [lowEnd, highEnd] using h⟩
      · exact ⟨2, by simpa [lowEnd, highEnd] using h⟩
  refine ⟨?_, ?_, ?_, ?_, ?_⟩
  · rw [key tray (by intro i; rcases axis_cases i with rfl | rfl | rfl <;> simp [tray])]
    refine and_congr_right fun _ => ?_
    simp only [not_and_or, not_lt]
    simp [tray, -tsub_le_iff_right, or_assoc]
  · rw [key cubby (by intro i; rcases axis_cases i with rfl | rfl | rfl <;> simp [cubby])]
    refine and_congr_right fun _ => ?_
    simp only [not_and_or, not_lt]
    simp [cubby, -tsub_le_iff_right, or_assoc]
  · rw [key fence (by intro i; rcases axis_cases i with rfl | rfl | rfl <;> simp [fence])]
    refine and_congr_right fun _ => ?_
    simp only [not_and_or, not_lt]
    simp [fence, -tsub_le_iff_right, or_assoc]
  · rw [key xWalls (by intro i; rcases axis_cases i with rfl | rfl | rfl <;> simp [xWalls])]
    refine and_congr_right fun _ => ?_
    simp only [not_and_or, not_lt]
    simp [xWalls, -tsub_le_iff_right, or_assoc]
  · rw [key yWalls (by intro i; rcases axis_cases i with rfl | rfl | rfl <;> simp [yWalls])]
    refine and_congr_right fun _ => ?_
    simp only [not_and_or, not_lt]
    simp [yWalls, -tsub_le_iff_right, or_assoc]

theorem bin_links (dims : Fin 3 → K) (t : K) : hollowShapes Bin.bin dims t =
    [⟨fun j => (if j = 2 then dims 2 / 2 else 0) + (if j = 0 then ((-1 : ℤ) : K) * (dims 0 - t) / 2 else 0), fun j => (if j = 0 then t else dims j) / 2⟩,
     ⟨fun j => (if j = 2 then dims 2 / 2 else 0) + (if j = 0 then ((1 : ℤ) : K) * (dims 0 - t) / 2 else 0), fun j => (if j = 0 then t else dims j) / 2⟩,
     ⟨fun j => (if j = 2 then dims 2 / 2 else 0) + (if j = 1 then ((-1 : ℤ) : K) * (dims 1 - t) / 2 else 0), fun j => (if j = 1 then t else dims j) / 2⟩,
     ⟨fun j => (if j = 2 then dims 2 / 2 else 0) + (if j = 1 then ((1 : ℤ) : K) * (dims 1 - t) / 2 else 0), fun j => (if j = 1 then t else dims j) / 2⟩,
     ⟨fun j => (if j = 2 then dims 2 / 2 else 0) + (if j = 2 then ((-1 : ℤ) : K) * (dims 2 - t) / 2 else 0), fun j => (if j = 2 then t else dims j) / 2⟩] := by
  have h : ∀ i : Fin 3, (Bin.bin i).insertionSort (· ≤ ·) = Bin.bin i := by decide
  unfold hollowShapes
  simp only [h, show List.finRange 3 = [0, 1, 2] from rfl, List.flatMap_cons, List.flatMap_nil, List.append_nil]
  rfl

/-- **C75**: the link used as placement surface of a container is its floor. -/
theorem C75_floor (dims : Fin 3 → K) (t : K) (ht : ∀ i, t ≤ dims i) :
    ∃ l, (hollowShapes Bin.bin dims t)[bottomLink]? = some l ∧ ∀ x, Covers l x ↔ Block dims x ∧ x 2 ≤ t := by
  rw [bin_links]
  refine ⟨_, rfl, fun x => ?_⟩
  rw [covers_slab dims t 2 (ht 2) (-1) (.inl rfl)]
  simp [lowEnd]

/-- **C75** on a container of the default size. -/
theorem C75_nonvacuous : (∀ i : Fin 3, (1 / 100 : ℚ) ≤ (![3 / 10, 4 / 10, 15 / 100] : Fin 3 → ℚ) i) ∧
    (∃ l ∈ hollowShapes Bin.bin ![3 / 10, 4 / 10, 15 / 100] (1 / 100 : ℚ), Covers l ![29 / 200, 0, 1 / 10]) ∧
    ¬ (∃ l ∈ hollowShapes Bin.bin ![3 / 10, 4 / 10, 15 / 100] (1 / 100 : ℚ), Covers l ![0, 0, 1 / 10]) := by
  have h : ∀ i : Fin 3, (1 / 100 : ℚ) ≤ (![3 / 10, 4 / 10, 15 / 100] : Fin 3 → ℚ) i := by
    intro i; rcases axis_cases i with rfl | rfl | rfl <;> norm_num [Matrix.cons_val_two]
  refine ⟨h, (C75_bin _ _ h _).2 ⟨?_, ?_⟩, fun hc => ((C75_bin _ _ h _).1 hc).2 ?_⟩
  · intro j
    rcases axis_cases j with rfl | rfl | rfl <;> simp [lowEnd, highEnd, show ((0 : Fin 3) = 2) = False from by decide,
      show ((1 : Fin 3) = 2) = False from by decide] <;> norm_num
  · norm_num
  · refine ⟨?_, ?_, ?_, ?_, ?_⟩ <;> simp <;> norm_num

/-! ### C74 -/

/-- Inner faces of the two walls across the first coordinate: upper face of the first link, lower face of the second. -/
theorem wall_faces (dims at' : Fin 3 → K) (t : K) : ∃ w1 w2, ((hollowShapes Bin.bin dims t).map (Link.moved at'))[0]? = some w1 ∧
    ((hollowShapes Bin.bin dims t).map (Link.moved at'))[1]? = some w2 ∧ w1.center 0 + w1.half 0 = at' 0 - dims 0 / 2 + t ∧
    w2.center 0 - w2.half 0 = at' 0 + dims 0 / 2 - t := by
  rw [bin_links]
  refine ⟨_, _, rfl, rfl, ?_, ?_⟩ <;> simp [Link.moved] <;> ring

theorem hasClearance_iff (a b w r : K) (hr : 0 ≤ r) : HasClearance a b w r ↔ r ≤ (b - a - w) / 2 := by
  unfold HasClearance FitsBetween
  constructor
  · intro h
    have := (h r (by rw [abs_of_nonneg hr])).2
    linarith
  · intro h s hs
    have := abs_le.1 hs
    constructor <;> linarith

/-- What the code computes. -/
theorem hallway_bin (dims at' : Fin 3 → K) (t : K) : hallway ((hollowShapes Bin.bin dims t).map (Link.moved at')) = some (dims 0 - t) := by
  rw [bin_links]
  simp [hallway, Link.moved]
  ring

/-- **C74** (partial). For every container, wherever it stands, the clearance used for choosing the number of samples exceeds the true
clearance of an object of width `w` between the inner faces of the walls by exactly half of `W + w - (upper - lower) - buffer`; it is a
clearance of the object only if that is not positive. Missing: that it is one for the sizes of the experiment, which is false. -/
theorem C74_clearance_partial (dims at' : Fin 3 → K) (t lower upper buffer w : K) : ∃ w1 w2 h,
    ((hollowShapes Bin.bin dims t).map (Link.moved at'))[0]? = some w1 ∧ ((hollowShapes Bin.bin dims t).map (Link.moved at'))[1]? = some w2 ∧
    hallway ((hollowShapes Bin.bin dims t).map (Link.moved at')) = some h ∧
    (0 ≤ delta h lower upper buffer →
      (HasClearance (w1.center 0 + w1.half 0) (w2.center 0 - w2.half 0) w (delta h lower upper buffer) ↔ dims 0 + w ≤ upper - lower + buffer)) := by
  obtain ⟨w1, w2, h1, h2, h3, h4⟩ := wall_faces dims at' t
  refine ⟨w1, w2, dims 0 - t, h1, h2, hallway_bin dims at' t, fun hd => ?_⟩
  rw [hasClearance_iff _ _ _ _ hd, h3, h4]
  unfold delta
  constructor <;> intro h <;> linarith

/-- **C74** is false for every container of the experiment: with the default buffer of 2 cm and an object that is no wider than its bounding
box and whose bounding box is at most 4 cm wider than the object, the clearance used is not a clearance of the object. -/
theorem C74_false (minGap : K) (hg : 0 < minGap) (at' : Fin 3 → K) (length height lower upper w : K) (h1 : upper - lower ≤ w + 4 / 100) (w1 w2 : Link K) (h : K)
    (hw1 : ((hollowShapes Bin.bin ![containerWidth minGap, length, height] wallThickness).map (Link.moved at'))[0]? = some w1)
    (hw2 : ((hollowShapes Bin.bin ![containerWidth minGap, length, height] wallThickness).map (Link.moved at'))[1]? = some w2)
    (hh : hallway ((hollowShapes Bin.bin ![containerWidth minGap, length, height] wallThickness).map (Link.moved at')) = some h)
    (hd : 0 ≤ delta h lower upper (2 / 100)) :
    ¬ HasClearance (w1.center 0 + w1.half 0) (w2.center 0 - w2.half 0) w (delta h lower upper (2 / 100)) := by
  obtain ⟨u1, u2, h', e1, e2, e3, e4⟩ := C74_clearance_partial ![containerWidth minGap, length, height] at' wallThickness lower upper (2 / 100) w
  rw [hw1] at e1; rw [hw2] at e2; rw [hh] at e3
  obtain rfl := Option.some.inj e1
  obtain rfl := Option.some.inj e2
  obtain rfl := Option.some.inj e3
  rw [e4 hd]
  simp only [Matrix.cons_val_zero, containerWidth, not_le]
  linarith

/-- **C74**: the option `--delta` is documented as the difference between the hallway width and the largest object; the actual difference is
2 cm less, and the object does not fit at all if the option is less than 2 cm. -/
theorem C74_option_false (minGap : K) (at' : Fin 3 → K) (length height : K) : ∃ w1 w2,
    ((hollowShapes Bin.bin ![containerWidth minGap, length, height] wallThickness).map (Link.moved at'))[0]? = some w1 ∧
    ((hollowShapes Bin.bin ![containerWidth minGap, length, height] wallThickness).map (Link.moved at'))[1]? = some w2 ∧
    (w2.center 0 - w2.half 0) - (w1.center 0 + w1.half 0) - largestObject = minGap - 2 / 100 ∧
    (minGap < 2 / 100 → ∀ c, ¬ FitsBetween (w1.center 0 + w1.half 0) (w2.center 0 - w2.half 0) largestObject c) := by
  obtain ⟨w1, w2, h1, h2, h3, h4⟩ := wall_faces ![containerWidth minGap, length, height] at' wallThickness
  refine ⟨w1, w2, h1, h2, ?_, ?_⟩
  · rw [h3, h4]
    simp only [Matrix.cons_val_zero, containerWidth, wallThickness, largestObject]
    ring
  · intro hg c hc
    rw [h3, h4] at hc
    simp only [FitsBetween, Matrix.cons_val_zero, containerWidth, wallThickness, largestObject] at hc
    linarith [hc.1, hc.2]

/-- **C74** on the default settings: clearance used 5 cm, true clearance 1 cm. -/
theorem C74_nonvacuous : hallway ((hollowShapes Bin.bin ![containerWidth (4 / 100 : ℚ), 1 / 10, 15 / 100] wallThickness).map (Link.moved ![0, 0, 0])) = some (9 / 100) ∧
    delta (9 / 100 : ℚ) (-3 / 100) (3 / 100) (2 / 100) = 5 / 100 ∧ HasClearance (-4 / 100 : ℚ) (4 / 100) (6 / 100) (1 / 100) ∧
    ¬ HasClearance (-4 / 100 : ℚ) (4 / 100) (6 / 100) (5 / 100) := by
  refine ⟨?_, by norm_num [delta], ?_, ?_⟩
  · rw [hallway_bin]; norm_num [containerWidth, wallThickness]
  · rw [hasClearance_iff _ _ _ _ (by norm_num)]; norm_num
  · rw [hasClearance_iff _ _ _ _ (by norm_num)]; norm_num

/-! ### C76 -/

theorem binPositions_get (nx ny : ℕ) (width length cx cy : K) (k : ℕ) (at' : Fin 3 → K) (h : (binPositions nx ny width length cx cy)[k]? = some at') :
    ∃ i j : ℕ, i < nx ∧ j < ny ∧ k = i * ny + j ∧ at' = ![(i : K) * width + cx, (j : K) * length + cy, 0] := by
  induction nx generalizing k with
  | zero => simp [binPositions] at h
  | succ n ih =>
    unfold binPositions at h
    rw [List.range_succ, List.flatMap_append] at h
    have hlen : ((List.range n).flatMap fun i : ℕ => (List.range ny).map fun j : ℕ => (![(i : K) * width + cx, (j : K) * length + cy, 0] : Fin 3 → K)).length = n * ny := by
      rw [List.length_flatMap]
      simp
    by_cases hk : k < n * ny
    · rw [List.getElem?_append_left (by rw [hlen]; exact hk)] at h
      obtain ⟨i, j, h1, h2, h3, h4⟩ := ih k h
      exact ⟨i, j, by omega, h2, h3, h4⟩
    · rw [List.getElem?_append_right (by rw [hlen]; omega), hlen] at h
      simp only [List.flatMap_cons, List.flatMap_nil, List.append_nil, List.getElem?_map, Option.map_eq_some_iff, List.getElem?_range] at h
      obtain ⟨j, h1, h2⟩ := h
      obtain ⟨hj, rfl⟩ : k - n * ny < ny ∧ k - n * ny = j := by
        rw [List.getElem?_eq_some_iff] at h1
        obtain ⟨h3, h4⟩ := h1
        simp at h3 h4
        exact ⟨h3, h4⟩
      exact ⟨n, k - n * ny, by omega, hj, by omega, h2.symm⟩

/-- Each wall and the floor of a container lie in its outer block. -/
theorem link_in_outer (dims at' : Fin 3 → K) (t : K) (h0 : 0 ≤ t) (ht : ∀ i, t ≤ dims i) (l : Link K) (hl : l ∈ (hollowShapes Bin.bin dims t).map (Link.moved at'))
    (x : Fin 3 → K) (hx : Inside l x) : Inside (outer dims at') x := by
  rw [bin_links] at hl
  have t0 := ht 0
  have t1 := ht 1
  have t2 := ht 2
  have e0 : ((0 : Fin 3) = 2) = False := by decide
  have e1 : ((1 : Fin 3) = 2) = False := by decide
  have e2 : ((0 : Fin 3) = 1) = False := by decide
  have e3 : ((2 : Fin 3) = 0) = False := by decide
  have e4 : ((2 : Fin 3) = 1) = False := by decide
  have e5 : ((1 : Fin 3) = 0) = False := by decide
  simp only [List.map_cons, List.map_nil, List.mem_cons, List.not_mem_nil, or_false] at hl
  unfold Inside at hx ⊢
  rw [axis_forall] at hx ⊢
  rcases hl with rfl | rfl | rfl | rfl | rfl <;>
    simp only [outer, Link.moved, e0, e1, e2, e3, e4, e5, if_true, if_false, Int.cast_neg, Int.cast_one] at hx ⊢ <;>
    obtain ⟨⟨_, _⟩, ⟨_, _⟩, ⟨_, _⟩⟩ := hx <;> refine ⟨⟨?_, ?_⟩, ⟨?_, ?_⟩, ⟨?_, ?_⟩⟩ <;> linarith

/-- Outer blocks do not overlap. -/
theorem outer_disjoint (nx ny : ℕ) (dims : Fin 3 → K) (cx cy : K) (hd : 0 ≤ dims 0 ∧ 0 ≤ dims 1) (k l : ℕ) (hkl : k ≠ l) (p q : Fin 3 → K)
    (hp : (binPositions nx ny (dims 0) (dims 1) cx cy)[k]? = some p) (hq : (binPositions nx ny (dims 0) (dims 1) cx cy)[l]? = some q) (x : Fin 3 → K) :
    ¬ (Inside (outer dims p) x ∧ Inside (outer dims q) x) := by
  obtain ⟨i, j, _, hj, hk, rfl⟩ := binPositions_get _ _ _ _ _ _ _ _ hp
  obtain ⟨i', j', _, hj', hl, rfl⟩ := binPositions_get _ _ _ _ _ _ _ _ hq
  rintro ⟨h1, h2⟩
  have cells : ∀ (a b : ℕ) (d c y : K), 0 ≤ d → (a : K) * d + c - d / 2 < y → y < (a : K) * d + c + d / 2 → (b : K) * d + c - d / 2 < y →
      y < (b : K) * d + c + d / 2 → a = b := by
    intro a b d c y hd h1 h2 h3 h4
    by_contra hne
    rcases lt_or_gt_of_ne hne with h | h
    · have : (a : K) + 1 ≤ b := by exact_mod_cast h
      nlinarith
    · have : (b : K) + 1 ≤ a := by exact_mod_cast h
      nlinarith
  have e1 : i = i' := by
    have a1 := h1 0
    have a2 := h2 0
    simp [outer] at a1 a2
    exact cells i i' (dims 0) cx (x 0) hd.1 a1.1 a1.2 a2.1 a2.2
  have e2 : j = j' := by
    have a1 := h1 1
    have a2 := h2 1
    simp [outer] at a1 a2
    exact cells j j' (dims 1) cy (x 1) hd.2 a1.1 a1.2 a2.1 a2.2
  exact hkl (by rw [hk, hl, e1, e2])

/-- **C76**. Walls and floors of two different containers do not overlap: no point is in the interior of both. For any grid of containers and
any container size. -/
theorem C76_disjoint (nx ny : ℕ) (dims : Fin 3 → K) (cx cy t : K) (h0 : 0 ≤ t) (ht : ∀ i, t ≤ dims i) (k l : ℕ) (hkl : k ≠ l) (p q : Fin 3 → K)
    (hp : (binPositions nx ny (dims 0) (dims 1) cx cy)[k]? = some p) (hq : (binPositions nx ny (dims 0) (dims 1) cx cy)[l]? = some q)
    (u v : Link K) (hu : u ∈ (hollowShapes Bin.bin dims t).map (Link.moved p)) (hv : v ∈ (hollowShapes Bin.bin dims t).map (Link.moved q)) (x : Fin 3 → K) :
    ¬ (Inside u x ∧ Inside v x) := by
  rintro ⟨h1, h2⟩
  exact outer_disjoint nx ny dims cx cy ⟨h0.trans (ht 0), h0.trans (ht 1)⟩ k l hkl p q hp hq x
    ⟨link_in_outer dims p t h0 ht u hu x h1, link_in_outer dims q t h0 ht v hv x h2⟩

/-- **C76**: there are as many containers as grid cells. -/
theorem C76_count (nx ny : ℕ) (width length cx cy : K) : (binPositions nx ny width length cx cy).length = nx * ny := by
  simp [binPositions]

theorem isSinkName_bin (n : String) : isSinkName ("sink_" ++ n) = true := by
  unfold isSinkName
  rw [String.toList_append]
  simp

variable {B O : Type*} [DecidableEq B]

/-- **C76**: the containers stand on the floor in the middle before the robot: with a container at a position there is one at the position mirrored at the x-axis, and none of them is
more than 68 cm behind the origin. -/
theorem C76_centered (nx ny : ℕ) (width length : K) (hw : 0 ≤ width) (p : Fin 3 → K)
    (hp : p ∈ binPositions nx ny width length (binCenter ny length).1 (binCenter ny length).2) :
    ![p 0, -p 1, 0] ∈ binPositions nx ny width length (binCenter ny length).1 (binCenter ny length).2 ∧ -68 / 100 ≤ p 0 ∧ p 2 = 0 := by
  unfold binPositions at hp ⊢
  simp only [List.mem_flatMap, List.mem_map, List.mem_range] at hp ⊢
  obtain ⟨i, hi, j, hj, rfl⟩ := hp
  refine ⟨⟨i, hi, ny - 1 - j, by omega, ?_⟩, ?_, rfl⟩
  · have : ((ny - 1 - j : ℕ) : K) = (ny : K) - 1 - j := by
      rw [Nat.cast_sub (by omega), Nat.cast_sub (by omega), Nat.cast_one]
    rw [this]
    unfold binCenter
    congr 2
    · simp only [Matrix.cons_val_one, Matrix.cons_val_zero]
      ring
  · have : 0 ≤ (i : K) * width := mul_nonneg (Nat.cast_nonneg i) hw
    simp only [binCenter, Matrix.cons_val_zero]
    linarith

/-- **C76**. If the bins are named `sink_...`, the stove is named `stove` and the movable bodies are different, the boxes used for planning
the insertion of a body are those of the container it is inserted into. -/
theorem C76_pairing (name : B → String) (stove : B) (bins movable : List B) (boxes : B → O) (hstove : name stove = "stove")
    (hbins : ∀ b ∈ bins, ∃ n, name b = "sink_" ++ n) (hnd : movable.Nodup) (body sink : B) (h : (body, sink) ∈ targets name stove bins movable) :
    sink ∈ bins ∧ obstacleMap movable (bins.map boxes) body = some (boxes sink) := by
  have hsinks : sinks name stove bins = bins := by
    unfold sinks
    rw [List.filter_cons_of_neg (by rw [hstove]; decide), List.filter_eq_self]
    intro b hb
    obtain ⟨n, hn⟩ := hbins b hb
    rw [hn]; exact isSinkName_bin n
  unfold targets at h
  rw [hsinks] at h
  refine ⟨(List.of_mem_zip h).2, ?_⟩
  have hmem : (body, boxes sink) ∈ movable.zip (bins.map boxes) := by
    rw [List.zip_map_right]
    exact List.mem_map.2 ⟨_, h, rfl⟩
  unfold obstacleMap
  cases hf : (movable.zip (bins.map boxes)).reverse.find? fun x => decide (x.1 = body) with
  | none =>
    rw [List.find?_eq_none] at hf
    have := hf _ (List.mem_reverse.2 hmem)
    simp at this
  | some y =>
    have h1 : y.1 = body := by simpa using List.find?_some hf
    have h2 := List.mem_reverse.1 (List.mem_of_find?_eq_some hf)
    obtain ⟨n, hn⟩ := List.mem_iff_getElem?.1 hmem
    obtain ⟨m, hm⟩ := List.mem_iff_getElem?.1 h2
    rw [List.getElem?_zip_eq_some] at hn hm
    have hnm : n = m := by
      have hn' := hn.1
      have hm' := hm.1
      simp only [h1] at hm' hn'
      exact (List.nodup_iff_injective_get.1 hnd |> fun _ => by
        obtain ⟨a1, a2⟩ := List.getElem?_eq_some_iff.1 hn'
        obtain ⟨b1, b2⟩ := List.getElem?_eq_some_iff.1 hm'
        exact (List.Nodup.getElem_inj_iff hnd).1 (a2.trans b2.symm))
    subst hnm
    have := hn.2.symm.trans hm.2
    simp only [Option.some.injEq] at this
    simp [this]

/-- **C76** on two bins. -/
theorem C76_nonvacuous : targets (fun b : ℕ => if b = 0 then "stove" else "sink_" ++ toString b) 0 [1, 2] [5, 6] = [(5, 1), (6, 2)] ∧
    obstacleMap [5, 6] ([1, 2].map fun b : ℕ => 10 * b) 6 = some 20 ∧ (binPositions 2 4 (1 / 10 : ℚ) (1 / 10) 0 0)[5]? = some ![1 / 10, 1 / 10, 0] := by
  refine ⟨?_, by decide, ?_⟩
  · simp [targets, sinks, isSinkName_bin, show isSinkName "stove" = false from by decide]
  · simp [binPositions, show List.range 2 = [0, 1] from rfl, show List.range 4 = [0, 1, 2, 3] from rfl]

end Verif.Props
