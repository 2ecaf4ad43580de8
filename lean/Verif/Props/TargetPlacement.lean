import Verif.Props.Placement
import Verif.Props.Hallway
import Verif.Model.Anytime

/-! Placement of the targets in the hallway world: C95. -/

namespace Verif.Props

open Verif.Spec Verif.Placement Verif.Hallway Verif.Sat2D Verif.Turtlebot

theorem scene_radius (P : Problem) {i : ℕ} {r : ℝ} (h : P.sizes[i]? = some r) : P.sizes.getD i 0 = r := by
  simp [List.getD_eq_getElem?_getD, h]

/-- What the first or second call of `sample_placements` of the hallway world achieves. -/
theorem placed_room {P : Problem} {u : ℕ → ℝ × ℝ} (hu : Draws2 u) {fuel : ℕ} {st st' : State Thing} {answer : Bool} {surface : Thing} {x0 x1 : ℝ}
    (hs : (scene P).aabb surface = (![x0, 0, -1 / 1000], ![x1, 3 / 2, 0])) (hx : x1 - x0 = 3 / 2) (hsf : surface = .floor1 ∨ surface = .floor2)
    (hr : ∀ r ∈ P.sizes, r ≤ 3 / 4)
    (h : samplePlacements (scene P) u (fun _ => 1 / 100) fuel (((List.range P.sizes.length).map Thing.target).map fun t => (t, surface))
      ((List.range P.obstacles.length).map Thing.wall) st = some (answer, st')) :
    answer = true ∧ WellPlaced P x0 x1 (((List.range P.sizes.length).map Thing.target).map st'.pos) ∧ ∀ i, st'.pos (.wall i) = st.pos (.wall i) := by
  have hfits : ∀ i < P.sizes.length, Fits (scene P) (.target i) surface := by
    intro i hi j hj
    have hri := hr _ (List.getElem_mem hi)
    have hg : P.sizes.getD i 0 = P.sizes[i] := scene_radius P (List.getElem?_eq_getElem hi)
    rw [hs]
    fin_cases j
    · simp only [scene, hg]
      simp
      linarith
    · simp only [scene, hg]
      simp
      linarith
    · exact absurd rfl hj
  have hans : answer = true := by
    cases answer with
    | true => rfl
    | false =>
      obtain ⟨x, hx, hn, -⟩ := (C94_refused hu h).1 rfl
      simp only [List.map_map, List.mem_map, List.mem_range, Function.comp_apply] at hx
      obtain ⟨i, hi, rfl⟩ := hx
      exact absurd (hfits i hi) hn
  subst hans
  have hfst : ((((List.range P.sizes.length).map Thing.target).map fun t => (t, surface)).map Prod.fst) = (List.range P.sizes.length).map Thing.target := by
    simp [List.map_map, Function.comp_def]
  have hinj : Function.Injective Thing.target := fun a b h => by cases h; rfl
  obtain ⟨h1, h2, h3, h4⟩ := C94_placed hu (by rw [hfst]; exact List.nodup_range.map hinj) h
  rw [hfst] at h2 h4
  have hmem : ∀ i < P.sizes.length, (Thing.target i, surface) ∈ (((List.range P.sizes.length).map Thing.target).map fun t => (t, surface)) := by
    intro i hi
    simp [List.mem_map, hi]
  have hget : ∀ (i : ℕ) (p : P3), (((List.range P.sizes.length).map Thing.target).map st'.pos)[i]? = some p → i < P.sizes.length ∧ p = st'.pos (.target i) := by
    intro i p hp
    obtain ⟨hi, rfl⟩ := List.getElem?_eq_some_iff.1 hp
    simp only [List.length_map, List.length_range] at hi
    exact ⟨hi, by simp⟩
  have hpair : ∀ i j, i < j → j < P.sizes.length → (scene P).near (.target j) (st'.pos (.target j)) (.target i) (st'.pos (.target i)) (1 / 100) = false := by
    intro i j hij hj
    rw [List.pairwise_iff_getElem] at h3
    have := h3 i j (by simp; omega) (by simp; omega) hij
    simp only [List.getElem_map, List.getElem_range] at this
    exact this (by rcases hsf with rfl | rfl <;> simp)
  refine ⟨rfl, ⟨by simp, ?_, ?_, ?_⟩, fun i => h4 _ (by simp)⟩
  · intro i r p hi hp
    obtain ⟨hlt, rfl⟩ := hget i p hp
    obtain ⟨hon, hz⟩ := h1 _ (hmem i hlt)
    have e0 := hon 0 (by decide)
    have e1 := hon 1 (by decide)
    rw [hs] at e0 e1 hz
    simp only [scene, scene_radius P hi] at e0 e1 hz
    simp at e0 e1 hz
    refine ⟨by linarith, by linarith, by linarith, by linarith, ?_⟩
    norm_num
    linarith
  · intro i r p hi hp o ho q hq
    obtain ⟨hlt, rfl⟩ := hget i p hp
    obtain ⟨k, hk, rfl⟩ := List.mem_iff_getElem.1 ho
    have := h2 _ (hmem i hlt) (.wall k) (by simp [hk]) (by simp) (by rcases hsf with rfl | rfl <;> simp)
    simp only [scene, scene_radius P hi, List.getElem?_eq_getElem hk, decide_eq_false_iff_not, not_exists, not_and, not_le] at this
    have := this q.1 q.2 hq.1 hq.2
    unfold flatDist
    norm_num at this ⊢
    exact this
  · intro i j r r' p p' hij hi hp hj hp'
    obtain ⟨hlt, rfl⟩ := hget i p hp
    obtain ⟨hlt', rfl⟩ := hget j p' hp'
    unfold flatDist
    rcases lt_or_gt_of_ne hij with hlt2 | hlt2
    · have := hpair i j hlt2 hlt'
      simp only [scene, scene_radius P hi, scene_radius P hj, decide_eq_false_iff_not, not_le] at this
      rw [show ((st'.pos (.target j) 0 - st'.pos (.target i) 0) ^ 2 + (st'.pos (.target j) 1 - st'.pos (.target i) 1) ^ 2) =
        ((st'.pos (.target i) 0 - st'.pos (.target j) 0) ^ 2 + (st'.pos (.target i) 1 - st'.pos (.target j) 1) ^ 2) by ring] at this
      norm_num at this ⊢
      linarith
    · have := hpair j i hlt2 hlt
      simp only [scene, scene_radius P hi, scene_radius P hj, decide_eq_false_iff_not, not_le] at this
      norm_num at this ⊢
      linarith

/-- C95. If the largest target fits into a room and the placement ends, then the goal poses are in the first room and the initial poses in the second one; in both cases the
targets are clear of the walls and of each other. -/
theorem C95_placed {scale dd : ℝ} {num : ℕ} {u : ℕ → ℝ} (hu : ∀ i, 0 ≤ u i ∧ u i < 1) {P : Problem} (h : hallwayManip scale dd num u = .ok P)
    (hfit : scale * 0.179 + 0.1 ≤ 3 / 4) {v : ℕ → ℝ × ℝ} (hv : Draws2 v) {fuel : ℕ} {goals inits : List P3} (hp : placeTargets P v fuel = some (goals, inits)) :
    WellPlaced P (-3) (-3 / 2) goals ∧ WellPlaced P (3 / 2) 3 inits := by
  have hr : ∀ r ∈ P.sizes, r ≤ 3 / 4 := fun r hr => ((C88_sizes hu h).2.1 r hr).2.trans hfit
  unfold placeTargets at hp
  simp only at hp
  split at hp
  · cases hp
  · rename_i a st e1
    split at hp
    · cases hp
    · rename_i b st' e2
      simp only [Option.some.injEq, Prod.mk.injEq] at hp
      obtain ⟨rfl, rfl⟩ := hp
      refine ⟨(placed_room hv ?_ ?_ (Or.inl rfl) hr e1).2.1, (placed_room hv ?_ ?_ (Or.inr rfl) hr e2).2.1⟩
      · simp only [scene, hallLength]; norm_num
      · norm_num
      · simp only [scene, hallLength]; norm_num
      · norm_num

/-- Above or below a wall: the vertical distance. -/
theorem gap_y {r g0 g1 : ℝ} {o : Box} (hl : 0 ≤ o.l) (hx : |g0 - o.x| ≤ o.w / 2)
    (h : ∀ q ∈ Box.region o, r + 0.01 < Real.sqrt ((g0 - q.1) ^ 2 + (g1 - q.2) ^ 2)) (hr : 0 ≤ r) : o.l / 2 + r < |g1 - o.y| := by
  have key : ∀ y, |y - o.y| ≤ o.l / 2 → r + 0.01 < |g1 - y| := by
    intro y hy
    have := h (g0, y) ⟨hx, hy⟩
    simpa [Real.sqrt_sq_eq_abs] using this
  have h1 := key (o.y + o.l / 2) (by rw [add_sub_cancel_left, abs_of_nonneg (by linarith)])
  have h2 := key (o.y - o.l / 2) (by rw [sub_sub_cancel_left, abs_neg, abs_of_nonneg (by linarith)])
  by_cases hin : |g1 - o.y| ≤ o.l / 2
  · have := key g1 hin
    norm_num at this
    linarith
  · push Not at hin
    rcases le_total 0 (g1 - o.y) with h0 | h0
    · rw [abs_of_nonneg h0] at hin ⊢
      rw [abs_of_nonneg (by linarith)] at h1
      norm_num at h1
      linarith
    · rw [abs_of_nonpos h0] at hin ⊢
      rw [abs_of_nonpos (by linarith)] at h2
      norm_num at h2
      linarith

theorem gap_x {r g0 g1 : ℝ} {o : Box} (hw : 0 ≤ o.w) (hy : |g1 - o.y| ≤ o.l / 2)
    (h : ∀ q ∈ Box.region o, r + 0.01 < Real.sqrt ((g0 - q.1) ^ 2 + (g1 - q.2) ^ 2)) (hr : 0 ≤ r) : o.w / 2 + r < |g0 - o.x| :=
  gap_y (o := ⟨o.y, o.x, o.l, o.w⟩) hw hy (fun q hq => by rw [add_comm ((g1 - q.1) ^ 2)]; exact h (q.2, q.1) ⟨hq.2, hq.1⟩) hr

/-- The check answers one value for one motion. -/
theorem single_answer {scale dd : ℝ} {num : ℕ} {u : ℕ → ℝ} {P : Problem} (h : hallwayManip scale dd num u = .ok P) (hg : P.gap ≤ 7 / 5)
    {r : ℝ} (hr : 0 < r) {m : (ℝ × ℝ) × (ℝ × ℝ)} {rs : List Bool} {b : Bool}
    (e : isMotionValid (rect (-r) (-r) r r) (P.obstacles.map Box.corners) [m] = .ok rs) (hrs : rs[0]? = some b) : rs = [b] := by
  obtain ⟨-, -, -, ho, -⟩ := manip_eq h
  have hsz : ∀ o ∈ P.obstacles, 0 < o.w ∧ 0 < o.l := by rw [ho]; exact rooms_sizes (by norm_num) (by linarith)
  obtain ⟨N, rs', -, e', hlen, -⟩ := C53_motion_poses_partial (rect (-r) (-r) r r) (P.obstacles.map Box.corners) [m]
    ⟨rect_convex _ _ _ _ (by linarith) (by linarith), rect_proper _ _ _ _ (by linarith) (by linarith)⟩ (by
    intro o ho
    obtain ⟨b, hb, rfl⟩ := List.mem_map.1 ho
    obtain ⟨w, l⟩ := hsz b hb
    refine ⟨rfl, rect_convex _ _ _ _ (by linarith) (by linarith), rect_proper _ _ _ _ (by linarith) (by linarith)⟩) (by simp)
  rw [e] at e'
  injection e' with e'
  subst e'
  match rs, hlen, hrs with
  | [b], _, hrs => simpa using hrs

/-- A square body at a pose at which it touches nothing is accepted there. -/
theorem pose_accepted {scale dd : ℝ} {num : ℕ} {u : ℕ → ℝ} {P : Problem} (h : hallwayManip scale dd num u = .ok P) (hg : P.gap ≤ 7 / 5)
    {r : ℝ} (hr : 0 < r) {p : ℝ × ℝ} (hf : ∀ o ∈ P.obstacles, o.w / 2 + r < |p.1 - o.x| ∨ o.l / 2 + r < |p.2 - o.y|) :
    isMotionValid (rect (-r) (-r) r r) (P.obstacles.map Box.corners) [(p, p)] = .ok [true] := by
  obtain ⟨-, -, -, ho, -⟩ := manip_eq h
  have hsz : ∀ o ∈ P.obstacles, 0 < o.w ∧ 0 < o.l := by rw [ho]; exact rooms_sizes (by norm_num) (by linarith)
  obtain ⟨rs, e, hrs⟩ := C90_free h hg hr hr (motions := [(p, p)]) (i := 0) rfl (by
    rw [segment_same]
    rintro x rfl
    exact (freeAt_block hr.le hr.le fun o ho => ⟨(hsz o ho).1.le, (hsz o ho).2.le⟩).2 hf)
  rw [e, single_answer h hg hr e hrs]

/-- A square body that overlaps an obstacle is refused there. -/
theorem pose_refused {scale dd : ℝ} {num : ℕ} {u : ℕ → ℝ} {P : Problem} (h : hallwayManip scale dd num u = .ok P) (hg : P.gap ≤ 7 / 5)
    {r : ℝ} (hr : 0 < r) {p : ℝ × ℝ} (hf : ∃ o ∈ P.obstacles, |p.1 - o.x| ≤ o.w / 2 + r ∧ |p.2 - o.y| ≤ o.l / 2 + r) :
    isMotionValid (rect (-r) (-r) r r) (P.obstacles.map Box.corners) [(p, p)] = .ok [false] := by
  obtain ⟨-, -, -, ho, -⟩ := manip_eq h
  have hsz : ∀ o ∈ P.obstacles, 0 < o.w ∧ 0 < o.l := by rw [ho]; exact rooms_sizes (by norm_num) (by linarith)
  have hrob : ConvexPolygon (rect (-r) (-r) r r) ∧ ProperEdges (rect (-r) (-r) r r) :=
    ⟨rect_convex _ _ _ _ (by linarith) (by linarith), rect_proper _ _ _ _ (by linarith) (by linarith)⟩
  obtain ⟨N, rs, -, e, hlen, -⟩ := C53_motion_poses_partial (rect (-r) (-r) r r) (P.obstacles.map Box.corners) [(p, p)] hrob (by
    intro o ho
    obtain ⟨b, hb, rfl⟩ := List.mem_map.1 ho
    obtain ⟨w, l⟩ := hsz b hb
    refine ⟨rfl, rect_convex _ _ _ _ (by linarith) (by linarith), rect_proper _ _ _ _ (by linarith) (by linarith)⟩) (by simp)
  rw [e]
  match rs, hlen, e with
  | [false], _, _ => rfl
  | [true], _, e =>
    exfalso
    obtain ⟨n, x, x0, -, hfree, -⟩ := accepted_poses hrob rfl hsz ⟨[(p, p)], [true], 0, e, rfl, rfl⟩
    have := hfree 0 (by omega)
    rw [x0] at this
    have hblock : FreeAt P.obstacles (block r r) p := by
      intro o ho v hv
      refine this o ho v (rect_mem _ _ _ _ (by linarith) (by linarith) _ ?_ ?_ ?_ ?_)
      · linarith [(abs_le.1 hv.1).1]
      · linarith [(abs_le.1 hv.1).2]
      · linarith [(abs_le.1 hv.2).1]
      · linarith [(abs_le.1 hv.2).2]
    rw [freeAt_block hr.le hr.le fun o ho => ⟨(hsz o ho).1.le, (hsz o ho).2.le⟩] at hblock
    obtain ⟨o, ho, h1, h2⟩ := hf
    rcases hblock o ho with hh | hh <;> linarith

/-- C95 (part): where a carried target starts and ends, the motion planner's first check accepts its pose, provided the target is not beside the end of the walls of the
hallway. Missing: the bounding square of a target at the mouth of the hallway may touch a wall (`C95_goal_assert_false`). -/
theorem C95_poses_partial {scale dd : ℝ} {num : ℕ} {u : ℕ → ℝ} {P : Problem} (h : hallwayManip scale dd num u = .ok P) (hg : P.gap ≤ 7 / 5)
    {goals inits : List P3} (hG : WellPlaced P (-3) (-3 / 2) goals) (hI : WellPlaced P (3 / 2) 3 inits) {i : ℕ} {r : ℝ} (hr : 0 < r)
    (hi : P.sizes[i]? = some r) {g s : P3} (hgi : goals[i]? = some g) (hsi : inits[i]? = some s) :
    (g 0 + r < -1.55 → isMotionValid (rect (-r) (-r) r r) (P.obstacles.map Box.corners) [((g 0, g 1), (g 0, g 1))] = .ok [true]) ∧
    (1.55 < s 0 - r → isMotionValid (rect (-r) (-r) r r) (P.obstacles.map Box.corners) [((s 0, s 1), (s 0, s 1))] = .ok [true]) := by
  obtain ⟨-, -, -, ho, -⟩ := manip_eq h
  constructor
  · intro hx
    obtain ⟨b1, b2, b3, b4, -⟩ := hG.room i r g hi hgi
    have hw := hG.walls i r g hi hgi
    apply pose_accepted h hg hr
    norm_num at hx
    rw [ho] at hw ⊢
    unfold flatDist at hw
    generalize g 0 = g0 at *
    generalize g 1 = g1 at *
    unfold rooms at hw ⊢
    simp only [List.forall_mem_cons, hallLength, thick] at hw ⊢
    obtain ⟨w1, w2, w3, -⟩ := hw
    have v1 := gap_y (by norm_num) (by rw [abs_le]; constructor <;> linarith) w1 hr.le
    have v2 := gap_y (by norm_num) (by rw [abs_le]; constructor <;> linarith) w2 hr.le
    have v3 := gap_x (by norm_num) (by rw [abs_le]; constructor <;> linarith) w3 hr.le
    simp only at v1 v2 v3
    refine ⟨Or.inr v1, Or.inr v2, Or.inl v3, ?_, ?_, ?_, ?_, ?_, ?_, ?_, ?_, ?_, by simp⟩ <;>
    · left
      rw [lt_abs]
      right
      linarith
  · intro hx
    obtain ⟨b1, b2, b3, b4, -⟩ := hI.room i r s hi hsi
    have hw := hI.walls i r s hi hsi
    apply pose_accepted h hg hr
    norm_num at hx
    rw [ho] at hw ⊢
    unfold flatDist at hw
    generalize s 0 = g0 at *
    generalize s 1 = g1 at *
    unfold rooms at hw ⊢
    simp only [List.forall_mem_cons, hallLength, thick] at hw ⊢
    obtain ⟨-, -, -, -, -, w1, w2, w3, -⟩ := hw
    have v1 := gap_y (by norm_num) (by rw [abs_le]; constructor <;> linarith) w1 hr.le
    have v2 := gap_y (by norm_num) (by rw [abs_le]; constructor <;> linarith) w2 hr.le
    have v3 := gap_x (by norm_num) (by rw [abs_le]; constructor <;> linarith) w3 hr.le
    simp only at v1 v2 v3
    refine ⟨?_, ?_, ?_, ?_, ?_, Or.inr v1, Or.inr v2, Or.inl v3, ?_, ?_, ?_, ?_, by simp⟩ <;>
    · left
      rw [lt_abs]
      left
      linarith

/-! ### Explicit placements -/

/-- One body is put where its draw says. -/
theorem place_step {β : Type*} [DecidableEq β] {s : Scene β} {u : ℕ → ℝ × ℝ} {b surface : β} {items : List (β × β)} {minDistance : β → ℝ} {obstacles : List β} {st : State β} {fuel : ℕ}
    (hf : Fits s b surface)
    (hn : ∀ o ∈ obstacles, o ≠ b → o ≠ surface → s.near b (placeOf s b surface (u st.drawn)) o (st.pos o) (minDistance b) = false) :
    samplePlacements s u minDistance (fuel + 1) ((b, surface) :: items) obstacles st =
      samplePlacements s u minDistance (fuel + 1) items (obstacles ++ [b]) ⟨Function.update st.pos b (placeOf s b surface (u st.drawn)), st.drawn + 1⟩ := by
  rw [samplePlacements, C94_first_partial (n := 0) hf (by omega) (by simp) (by simpa using hn)]
  simp

theorem place_nil {β : Type*} [DecidableEq β] (s : Scene β) (u : ℕ → ℝ × ℝ) (minDistance : β → ℝ) (fuel : ℕ) (obstacles : List β) (st : State β) :
    samplePlacements s u minDistance fuel [] obstacles st = some (true, st) := rfl

/-- A disc whose centre is at the stated distances from a box is not near to it. -/
theorem near_wall {P : Problem} {i j : ℕ} {r d : ℝ} {o : Box} (hi : P.sizes[i]? = some r) (hj : P.obstacles[j]? = some o) (hrd : 0 ≤ r + d) {p q : P3} {a b : ℝ}
    (h : (o.w / 2 + (r + d) < |p 0 - o.x|) ∨ (o.l / 2 + (r + d) < |p 1 - o.y|) ∨
      (0 ≤ a ∧ 0 ≤ b ∧ o.w / 2 + a ≤ |p 0 - o.x| ∧ o.l / 2 + b ≤ |p 1 - o.y| ∧ (r + d) ^ 2 < a ^ 2 + b ^ 2)) :
    (scene P).near (.target i) p (.wall j) q d = false := by
  simp only [scene, scene_radius P hi, hj, decide_eq_false_iff_not, not_exists, not_and, not_le]
  intro x y hx hy
  apply Real.lt_sqrt_of_sq_lt
  have tx : |p 0 - o.x| ≤ |p 0 - x| + |x - o.x| := by
    have := abs_add_le (p 0 - x) (x - o.x)
    rwa [sub_add_sub_cancel] at this
  have ty : |p 1 - o.y| ≤ |p 1 - y| + |y - o.y| := by
    have := abs_add_le (p 1 - y) (y - o.y)
    rwa [sub_add_sub_cancel] at this
  rw [← sq_abs (p 0 - x), ← sq_abs (p 1 - y)]
  have n0 := abs_nonneg (p 0 - x)
  have n1 := abs_nonneg (p 1 - y)
  generalize |p 0 - x| = X at *
  generalize |p 1 - y| = Y at *
  rcases h with h | h | ⟨ha, hb, h1, h2, h3⟩
  · have : r + d < X := by linarith
    nlinarith
  · have : r + d < Y := by linarith
    nlinarith
  · have : a ≤ X := by linarith
    have : b ≤ Y := by linarith
    nlinarith

/-- The world of the experiment with one target. -/
theorem world1 : ∃ P, hallwayManip (3 / 10) (5 / 100) 1 (fun _ => 0) = .ok P ∧ P.sizes = [1537 / 10000] ∧ P.gap = 3574 / 10000 := by
  obtain ⟨P, hP⟩ := (C88_answers (3 / 10) (5 / 100) 1 (fun _ => 0)).2 (by norm_num)
  obtain ⟨-, -, -, hgap⟩ := C88_sizes (fun i => by norm_num) hP
  refine ⟨P, hP, ?_, by rw [hgap]; norm_num⟩
  rw [(manip_eq hP).2.1]
  simp only [targetSizes, botRadius]
  norm_num

/-- The world of the experiment with two targets, the second one of the smallest size. -/
theorem world2 : ∃ P, hallwayManip (3 / 10) (5 / 100) 2 (fun _ => 0) = .ok P ∧ P.sizes = [1537 / 10000, 537 / 10000] ∧ P.gap = 3574 / 10000 := by
  obtain ⟨P, hP⟩ := (C88_answers (3 / 10) (5 / 100) 2 (fun _ => 0)).2 (by norm_num)
  obtain ⟨-, -, -, hgap⟩ := C88_sizes (fun i => by norm_num) hP
  refine ⟨P, hP, ?_, by rw [hgap]; norm_num⟩
  rw [(manip_eq hP).2.1]
  simp only [targetSizes, botRadius, targetRadius]
  norm_num

/-- The walls of these worlds. -/
theorem world_walls {scale dd : ℝ} {num : ℕ} {u : ℕ → ℝ} {P : Problem} (h : hallwayManip scale dd num u = .ok P) (hg : P.gap = 3574 / 10000) :
    P.obstacles = [⟨-9 / 4, 0, 8 / 5, 1 / 10⟩, ⟨-9 / 4, 3 / 2, 8 / 5, 1 / 10⟩, ⟨-61 / 20, 3 / 4, 1 / 10, 8 / 5⟩, ⟨-3 / 2, 24787 / 20000, 1 / 10, 6213 / 10000⟩,
      ⟨3 / 2, 5213 / 20000, 1 / 10, 6213 / 10000⟩, ⟨9 / 4, 3 / 2, 8 / 5, 1 / 10⟩, ⟨9 / 4, 0, 8 / 5, 1 / 10⟩, ⟨61 / 20, 3 / 4, 1 / 10, 8 / 5⟩,
      ⟨-3 / 2, 5213 / 20000, 1 / 10, 6213 / 10000⟩, ⟨3 / 2, 24787 / 20000, 1 / 10, 6213 / 10000⟩, ⟨0, 9787 / 10000, 3, 1 / 10⟩, ⟨0, 5213 / 10000, 3, 1 / 10⟩] := by
  rw [(manip_eq h).2.2.2.1, hg]
  simp only [rooms, hallLength, thick, List.cons.injEq, Box.mk.injEq]
  norm_num

theorem walls_not_near {P : Problem} {i : ℕ} {r : ℝ} (hi : P.sizes[i]? = some r) (hr : 0 ≤ r) {p : P3} {pos : Thing → P3}
    (h : ∀ o ∈ P.obstacles, (o.w / 2 + (r + 1 / 100) < |p 0 - o.x|) ∨ (o.l / 2 + (r + 1 / 100) < |p 1 - o.y|) ∨
      ∃ a b, (0 ≤ a ∧ 0 ≤ b ∧ o.w / 2 + a ≤ |p 0 - o.x| ∧ o.l / 2 + b ≤ |p 1 - o.y| ∧ (r + 1 / 100) ^ 2 < a ^ 2 + b ^ 2)) :
    ∀ o ∈ (List.range P.obstacles.length).map Thing.wall, (scene P).near (.target i) p o (pos o) (1 / 100) = false := by
  intro o ho
  obtain ⟨j, hj, rfl⟩ := List.mem_map.1 ho
  rw [List.mem_range] at hj
  rcases h _ (List.getElem_mem hj) with hh | hh | ⟨a, b, hh⟩
  · exact near_wall (a := 0) (b := 0) hi (List.getElem?_eq_getElem hj) (by linarith) (Or.inl hh)
  · exact near_wall (a := 0) (b := 0) hi (List.getElem?_eq_getElem hj) (by linarith) (Or.inr (Or.inl hh))
  · exact near_wall (a := a) (b := b) hi (List.getElem?_eq_getElem hj) (by linarith) (Or.inr (Or.inr hh))

theorem fits_floor {P : Problem} {i : ℕ} {r : ℝ} (hi : P.sizes[i]? = some r) (hr : r ≤ 3 / 4) :
    Fits (scene P) (.target i) .floor1 ∧ Fits (scene P) (.target i) .floor2 := by
  constructor
  all_goals
    intro j hj
    fin_cases j
    · simp only [scene, scene_radius P hi, hallLength]
      simp
      linarith
    · simp only [scene, scene_radius P hi, hallLength]
      simp
      linarith
    · exact absurd rfl hj

/-- Where the draw puts a target. -/
theorem placeOf_floor {P : Problem} {i : ℕ} {r : ℝ} (hi : P.sizes[i]? = some r) (u : ℝ × ℝ) :
    placeOf (scene P) (.target i) .floor1 u = ![-3 + r + (3 / 2 - 2 * r) * u.1, r + (3 / 2 - 2 * r) * u.2, 51 / 1000] ∧
      placeOf (scene P) (.target i) .floor2 u = ![3 / 2 + r + (3 / 2 - 2 * r) * u.1, r + (3 / 2 - 2 * r) * u.2, 51 / 1000] := by
  constructor
  all_goals
    funext j
    fin_cases j
    · simp [placeOf, scene, hallLength, List.getD_eq_getElem?_getD, hi]; first | ring1 | (ring_nf; simp)
    · simp [placeOf, scene, hallLength, List.getD_eq_getElem?_getD, hi]
    · simp [placeOf, scene, hallLength, List.getD_eq_getElem?_getD, hi]; norm_num

/-- C95 fails for the planner's checks: in the world of the experiment the placement may put a target beside the mouth of the hallway, clear of all walls by more than 0.01, but with a
bounding square that touches a wall. The motion check refuses the goal pose, so that the attempt to carry the target there ends with AssertionError ("Goal in collision"). -/
theorem C95_goal_assert_false : ∃ (P : Problem) (v : ℕ → ℝ × ℝ) (g s : P3) (r : ℝ), hallwayManip (3 / 10) (5 / 100) 1 (fun _ => 0) = .ok P ∧ P.sizes = [r] ∧ Draws2 v ∧
    (∀ fuel, placeTargets P v (fuel + 1) = some ([g], [s])) ∧
    isMotionValid (rect (-r) (-r) r r) (P.obstacles.map Box.corners) [((g 0, g 1), (g 0, g 1))] = .ok [false] ∧
    ∀ (w : Prm.World (ℝ × ℝ) ℝ) (start : ℝ × ℝ) (minS maxS : ℕ) (factor : ℝ) (k : ℕ) (truncate : Bool) (drawn fuel : ℕ), w.check (g 0, g 1) (g 0, g 1) = false →
      Anytime.plan w start (g 0, g 1) minS maxS factor k truncate drawn fuel = some ([], .error .assertion) := by
  obtain ⟨P, hP, hs, hg⟩ := world1
  have hw := world_walls hP hg
  have hi : P.sizes[0]? = some (1537 / 10000) := by rw [hs]; rfl
  refine ⟨P, fun n => if n = 0 then (11863 / 11926, 6250 / 11926) else (1 / 2, 1 / 2), ![-166 / 100, 7787 / 10000, 51 / 1000], ![9 / 4, 3 / 4, 51 / 1000], 1537 / 10000,
    hP, hs, ?_, ?_, ?_, ?_⟩
  · intro n
    simp only
    split_ifs <;> norm_num
  · intro fuel
    have hg1 : placeOf (scene P) (.target 0) .floor1 (11863 / 11926, 6250 / 11926) = ![-166 / 100, 7787 / 10000, 51 / 1000] := by
      rw [(placeOf_floor hi _).1]; norm_num
    have hs1 : placeOf (scene P) (.target 0) .floor2 (1 / 2, 1 / 2) = ![9 / 4, 3 / 4, 51 / 1000] := by
      rw [(placeOf_floor hi _).2]; norm_num
    unfold placeTargets
    have hl : P.sizes.length = 1 := by rw [hs]; rfl
    simp only [hl, List.range_one, List.map_cons, List.map_nil]
    rw [place_step (fits_floor hi (by norm_num)).1 (by
      intro o ho _ _
      refine walls_not_near hi (by norm_num) ?_ o ho
      simp only [if_pos]
      rw [hg1, hw]
      simp only [List.forall_mem_cons]
      refine ⟨?_, ?_, ?_, Or.inr (Or.inr ⟨11 / 100, 15 / 100, ?_⟩), ?_, ?_, ?_, ?_, ?_, ?_, Or.inr (Or.inr ⟨16 / 100, 15 / 100, ?_⟩), ?_, by simp⟩ <;> norm_num [abs_of_nonneg, abs_of_nonpos])]
    simp only [place_nil, if_pos, hg1]
    rw [place_step (fits_floor hi (by norm_num)).2 (by
      intro o ho _ _
      refine walls_not_near hi (by norm_num) ?_ o ho
      simp only [zero_add, one_ne_zero, if_false]
      rw [hs1, hw]
      simp only [List.forall_mem_cons]
      refine ⟨?_, ?_, ?_, ?_, ?_, ?_, ?_, ?_, ?_, ?_, ?_, ?_, by simp⟩ <;> norm_num [abs_of_nonneg, abs_of_nonpos])]
    simp only [place_nil, zero_add, one_ne_zero, if_false, hs1, Function.update_self]
  · refine pose_refused hP (by rw [hg]; norm_num) (by norm_num) ⟨⟨-3 / 2, 24787 / 20000, 1 / 10, 6213 / 10000⟩, by rw [hw]; simp, ?_, ?_⟩
    · simp; norm_num [abs_of_nonpos]
    · simp; norm_num [abs_of_nonpos]
  · intro w start minS maxS factor k truncate drawn fuel hc
    unfold Anytime.plan Anytime.planBy
    simp only [hc, if_true]
    split_ifs <;> rfl

/-- C95 fails for targets that are too large: the answer of `sample_placements` is not looked at. For a target with a radius over 0.75 the initial pose and the goal pose are both the origin,
whatever the draws. -/
theorem C95_ignored_false {scale dd : ℝ} (hbig : 3 / 4 < scale * 0.179 + 0.1) {u : ℕ → ℝ} {P : Problem} (h : hallwayManip scale dd 1 u = .ok P) {v : ℕ → ℝ × ℝ} (fuel : ℕ) :
    placeTargets P v (fuel + 1) = some ([0], [0]) := by
  have hs : P.sizes = [scale * (179 / 1000) + 1 / 10] := by
    rw [(manip_eq h).2.1]
    simp [targetSizes, botRadius]
  have hi : P.sizes[0]? = some (scale * (179 / 1000) + 1 / 10) := by rw [hs]; rfl
  have hl : P.sizes.length = 1 := by rw [hs]; rfl
  have nf : ∀ f, f = Thing.floor1 ∨ f = Thing.floor2 → ¬ Fits (scene P) (.target 0) f := by
    intro f hf hfit
    have := hfit 0 (by decide)
    norm_num at hbig
    rcases hf with rfl | rfl <;> simp only [scene, scene_radius P hi, hallLength] at this <;> simp at this <;> linarith
  have step : ∀ f, f = Thing.floor1 ∨ f = Thing.floor2 → ∀ st : State Thing, samplePlacements (scene P) v (fun _ => 1 / 100) (fuel + 1) [(.target 0, f)]
      ((List.range P.obstacles.length).map Thing.wall) st = some (false, ⟨Function.update st.pos (.target 0) 0, st.drawn⟩) := by
    intro f hf st
    rw [samplePlacements, loop]
    unfold attempt
    rw [onAABB_none _ (nf f hf)]
  unfold placeTargets
  simp only [hl, List.range_one, List.map_cons, List.map_nil]
  rw [step _ (Or.inl rfl)]
  simp only
  rw [step _ (Or.inr rfl)]
  simp

/-- C95 fails for carrying: the other targets are no obstacles for the motion check. In the world of the experiment with two targets, placed in a possible way, the check accepts the straight
motion of the large target from its initial pose to its goal pose, which runs over the small one where that stands at the beginning. -/
theorem C95_other_targets_false : ∃ (P : Problem) (v : ℕ → ℝ × ℝ) (goals inits : List P3) (g s s' : P3) (r : ℝ), hallwayManip (3 / 10) (5 / 100) 2 (fun _ => 0) = .ok P ∧ Draws2 v ∧
    (∀ fuel, placeTargets P v (fuel + 1) = some (goals, inits)) ∧ P.sizes[0]? = some r ∧ goals[0]? = some g ∧ inits[0]? = some s ∧ inits[1]? = some s' ∧
    isMotionValid (rect (-r) (-r) r r) (P.obstacles.map Box.corners) [((s 0, s 1), (g 0, g 1))] = .ok [true] ∧
    (s' 0, s' 1) ∈ segment ℝ (s 0, s 1) (g 0, g 1) := by
  obtain ⟨P, hP, hs, hg⟩ := world2
  have hw := world_walls hP hg
  have hi : P.sizes[0]? = some (1537 / 10000) := by rw [hs]; rfl
  have hj : P.sizes[1]? = some (537 / 10000) := by rw [hs]; rfl
  refine ⟨P, fun n => if n = 1 then (1463 / 13926, 1463 / 13926) else if n = 3 then (1963 / 13926, 1 / 2) else (1 / 2, 1 / 2),
    [![-9 / 4, 3 / 4, 51 / 1000], ![-28 / 10, 2 / 10, 51 / 1000]], [![9 / 4, 3 / 4, 51 / 1000], ![7 / 4, 3 / 4, 51 / 1000]],
    ![-9 / 4, 3 / 4, 51 / 1000], ![9 / 4, 3 / 4, 51 / 1000], ![7 / 4, 3 / 4, 51 / 1000], 1537 / 10000, hP, ?_, ?_, hi, rfl, rfl, rfl, ?_, ?_⟩
  · intro n
    simp only
    split_ifs <;> norm_num
  · intro fuel
    have p0 : placeOf (scene P) (.target 0) .floor1 (1 / 2, 1 / 2) = ![-9 / 4, 3 / 4, 51 / 1000] := by
      rw [(placeOf_floor hi _).1]; norm_num
    have p1 : placeOf (scene P) (.target 1) .floor1 (1463 / 13926, 1463 / 13926) = ![-28 / 10, 2 / 10, 51 / 1000] := by
      rw [(placeOf_floor hj _).1]; norm_num
    have p2 : placeOf (scene P) (.target 0) .floor2 (1 / 2, 1 / 2) = ![9 / 4, 3 / 4, 51 / 1000] := by
      rw [(placeOf_floor hi _).2]; norm_num
    have p3 : placeOf (scene P) (.target 1) .floor2 (1963 / 13926, 1 / 2) = ![7 / 4, 3 / 4, 51 / 1000] := by
      rw [(placeOf_floor hj _).2]; norm_num
    unfold placeTargets
    have hl : P.sizes.length = 2 := by rw [hs]; rfl
    have hr2 : List.range 2 = [0, 1] := rfl
    simp only [hl, hr2, List.map_cons, List.map_nil]
    rw [place_step (fits_floor hi (by norm_num)).1 (by
      intro o ho _ _
      refine walls_not_near hi (by norm_num) ?_ o ho
      simp only [OfNat.zero_ne_ofNat, zero_ne_one, if_false]
      rw [p0, hw]
      simp only [List.forall_mem_cons]
      refine ⟨?_, ?_, ?_, ?_, ?_, ?_, ?_, ?_, ?_, ?_, ?_, ?_, by simp⟩ <;> norm_num [abs_of_nonneg, abs_of_nonpos])]
    simp only [OfNat.zero_ne_ofNat, zero_ne_one, if_false, p0, zero_add]
    rw [place_step (fits_floor hj (by norm_num)).1 (by
      intro o ho _ _
      simp only [if_pos]
      rw [p1]
      rcases List.mem_append.1 ho with ho | ho
      · refine walls_not_near hj (by norm_num) ?_ o ho
        rw [hw]
        simp only [List.forall_mem_cons]
        refine ⟨?_, ?_, ?_, ?_, ?_, ?_, ?_, ?_, ?_, ?_, ?_, ?_, by simp⟩ <;> norm_num [abs_of_nonneg, abs_of_nonpos]
      · rw [List.mem_singleton] at ho
        subst ho
        simp only [scene, scene_radius P hi, scene_radius P hj, Function.update_self, decide_eq_false_iff_not, not_le]
        apply Real.lt_sqrt_of_sq_lt
        simp
        norm_num)]
    simp only [place_nil, if_pos, p1]
    rw [place_step (fits_floor hi (by norm_num)).2 (by
      intro o ho _ _
      refine walls_not_near hi (by norm_num) ?_ o ho
      norm_num only [if_false]
      rw [p2, hw]
      simp only [List.forall_mem_cons]
      refine ⟨?_, ?_, ?_, ?_, ?_, ?_, ?_, ?_, ?_, ?_, ?_, ?_, by simp⟩ <;> norm_num [abs_of_nonneg, abs_of_nonpos])]
    norm_num only [if_false, p2]
    rw [place_step (fits_floor hj (by norm_num)).2 (by
      intro o ho _ _
      norm_num only [if_pos, if_true, if_false]
      rw [p3]
      rcases List.mem_append.1 ho with ho | ho
      · refine walls_not_near hj (by norm_num) ?_ o ho
        rw [hw]
        simp only [List.forall_mem_cons]
        refine ⟨?_, ?_, ?_, ?_, ?_, ?_, ?_, ?_, ?_, ?_, ?_, ?_, by simp⟩ <;> norm_num [abs_of_nonneg, abs_of_nonpos]
      · rw [List.mem_singleton] at ho
        subst ho
        simp only [scene, scene_radius P hi, scene_radius P hj, Function.update_self, decide_eq_false_iff_not, not_le]
        apply Real.lt_sqrt_of_sq_lt
        simp
        norm_num)]
    norm_num only [place_nil, if_pos, if_true, if_false, p3]
    simp
  · obtain ⟨rs, e, h1⟩ := C90_accepts hP (by rw [hg]; norm_num) (a := 1537 / 10000) (b := 1537 / 10000) (by norm_num) (by norm_num) (by norm_num) (by rw [hg]; norm_num)
      (motions := [((9 / 4, 3 / 4), (-9 / 4, 3 / 4))]) (i := 0) rfl (by norm_num [abs_of_nonneg]) (by norm_num [abs_of_nonpos])
    have := single_answer hP (by rw [hg]; norm_num) (by norm_num) e h1
    subst this
    simpa using e
  · refine ⟨8 / 9, 1 / 9, by norm_num, by norm_num, by norm_num, ?_⟩
    ext <;> simp <;> norm_num

/-- The hypotheses of C94 and C95 are met in the world of the experiment: with draws in the middle, the only target is put into the middle of the two rooms, and its poses pass the
planner's first check. -/
theorem C95_nonvacuous : ∃ (P : Problem) (v : ℕ → ℝ × ℝ) (g s : P3), hallwayManip (3 / 10) (5 / 100) 1 (fun _ => 0) = .ok P ∧ (3 / 10 : ℝ) * 0.179 + 0.1 ≤ 3 / 4 ∧ P.gap ≤ 7 / 5 ∧ Draws2 v ∧
    placeTargets P v 1 = some ([g], [s]) ∧ g 0 = -9 / 4 ∧ s 0 = 9 / 4 ∧ P.sizes = [0.1537] ∧ g 0 + 0.1537 < -1.55 ∧ 1.55 < s 0 - 0.1537 := by
  obtain ⟨P, hP, hs, hg⟩ := world1
  have hw := world_walls hP hg
  have hi : P.sizes[0]? = some (1537 / 10000) := by rw [hs]; rfl
  have hg1 : placeOf (scene P) (.target 0) .floor1 (1 / 2, 1 / 2) = ![-9 / 4, 3 / 4, 51 / 1000] := by
    rw [(placeOf_floor hi _).1]; norm_num
  have hs1 : placeOf (scene P) (.target 0) .floor2 (1 / 2, 1 / 2) = ![9 / 4, 3 / 4, 51 / 1000] := by
    rw [(placeOf_floor hi _).2]; norm_num
  refine ⟨P, fun _ => (1 / 2, 1 / 2), ![-9 / 4, 3 / 4, 51 / 1000], ![9 / 4, 3 / 4, 51 / 1000], hP, by norm_num, by rw [hg]; norm_num, fun n => by norm_num, ?_, by simp, by simp, by rw [hs]; norm_num,
    by norm_num, by norm_num⟩
  unfold placeTargets
  have hl : P.sizes.length = 1 := by rw [hs]; rfl
  simp only [hl, List.range_one, List.map_cons, List.map_nil]
  rw [place_step (fuel := 0) (fits_floor hi (by norm_num)).1 (by
    intro o ho _ _
    refine walls_not_near hi (by norm_num) ?_ o ho
    rw [hg1, hw]
    simp only [List.forall_mem_cons]
    refine ⟨?_, ?_, ?_, ?_, ?_, ?_, ?_, ?_, ?_, ?_, ?_, ?_, by simp⟩ <;> norm_num [abs_of_nonneg, abs_of_nonpos])]
  simp only [place_nil, hg1]
  rw [place_step (fuel := 0) (fits_floor hi (by norm_num)).2 (by
    intro o ho _ _
    refine walls_not_near hi (by norm_num) ?_ o ho
    rw [hs1, hw]
    simp only [List.forall_mem_cons]
    refine ⟨?_, ?_, ?_, ?_, ?_, ?_, ?_, ?_, ?_, ?_, ?_, ?_, by simp⟩ <;> norm_num [abs_of_nonneg, abs_of_nonpos])]
  simp only [place_nil, hs1, Function.update_self]

end Verif.Props
