import Verif.Lemmas.BoundingBoxes
import Verif.Props.HallwayExec
import Verif.Spec.Hallway

/-! C132: the environment built from bounding boxes is an exact picture of the bodies. -/

namespace Verif.Props

open Verif.Sat2D Verif.Spec Verif.Turtlebot Verif.Bag

/-- A polygon as the environment stores it, with the corners of a parallelogram. -/
structure Shape (ws : List (ℝ × ℝ)) (R : Set (ℝ × ℝ)) : Prop where
  four : ws.length = 4
  convex : ConvexPolygon ws
  proper : ProperEdges ws
  region : polygonHull ws = R

theorem placed_hull_iff (robot : List (ℝ × ℝ)) (t x : ℝ × ℝ) : x ∈ polygonHull (placed robot t) ↔ (x.1 - t.1, x.2 - t.2) ∈ polygonHull robot := by
  constructor
  · intro h
    have := placed_hull_mem (placed robot t) (-t) x h
    have e : placed (placed robot t) (-t) = robot := by
      simp only [placed, List.map_map]
      conv_rhs => rw [← List.map_id robot]
      refine List.map_congr_left fun v _ => ?_
      simp
    rw [e] at this
    simpa [sub_eq_add_neg] using this
  · intro h
    have := placed_hull_mem robot t _ h
    simpa using this

theorem isMotionValid_congr {robot robot' : List (ℝ × ℝ)} {R : Set (ℝ × ℝ)} (hr : Shape robot R) (hr' : Shape robot' R) {hulls hulls' : List (List (ℝ × ℝ))}
    (h : ∀ o ∈ hulls, ∃ o' ∈ hulls', ∃ O, Shape o O ∧ Shape o' O) (h' : ∀ o' ∈ hulls', ∃ o ∈ hulls, ∃ O, Shape o O ∧ Shape o' O)
    (motions : List ((ℝ × ℝ) × (ℝ × ℝ))) : isMotionValid robot hulls motions = isMotionValid robot' hulls' motions := by
  rcases eq_or_ne motions [] with rfl | hm
  · rfl
  obtain ⟨D, h1, ⟨m, hmem, hD⟩, h2⟩ := numSteps_ok robot motions hr.proper.1 hm
  obtain ⟨D', h1', ⟨m', hmem', hD'⟩, h2'⟩ := numSteps_ok robot' motions hr'.proper.1 hm
  have e : D = D' := by
    apply le_antisymm
    · rcases hD with rfl | rfl
      · exact (h2' m hmem).1
      · exact (h2' m hmem).2
    · rcases hD' with rfl | rfl
      · exact (h2 m' hmem').1
      · exact (h2 m' hmem').2
  subst e
  rw [isMotionValid_ok robot hulls motions _ h1 fun o ho => by obtain ⟨_, _, O, ho, _⟩ := h o ho; rw [ho.four, hr.four],
    isMotionValid_ok robot' hulls' motions _ h1' fun o ho => by obtain ⟨_, _, O, _, ho⟩ := h' o ho; rw [ho.four, hr'.four], hr.four, hr'.four]
  congr 1
  refine List.map_congr_left fun m _ => ?_
  have key : ∀ o o' O α, Shape o O → Shape o' O → rowTest 4 (placed robot (poseAt m α)) o = rowTest 4 (placed robot' (poseAt m α)) o' := by
    intro o o' O α so so'
    rw [Bool.eq_iff_iff, rowTest_iff 4 _ _ (by simpa [placed] using hr.four) so.four (placed_convex _ _ hr.convex) so.convex (placed_proper _ _ hr.proper) so.proper,
      rowTest_iff 4 _ _ (by simpa [placed] using hr'.four) so'.four (placed_convex _ _ hr'.convex) so'.convex (placed_proper _ _ hr'.proper) so'.proper]
    simp only [placed_hull_iff, hr.region, hr'.region, so.region, so'.region]
  rw [Bool.eq_iff_iff, List.all_eq_true, List.all_eq_true]
  constructor
  · rintro hall ⟨o', α⟩ hc
    rw [List.mem_product] at hc
    obtain ⟨o, ho, O, so, so'⟩ := h' o' hc.1
    have := hall (o, α) (List.mem_product.2 ⟨ho, hc.2⟩)
    simp only at this ⊢
    rwa [← key o o' O α so so']
  · rintro hall ⟨o, α⟩ hc
    rw [List.mem_product] at hc
    obtain ⟨o', ho, O, so, so'⟩ := h o hc.1
    have := hall (o', α) (List.mem_product.2 ⟨ho, hc.2⟩)
    simp only at this ⊢
    rwa [key o o' O α so so']

/-- The footprint of an upright box. -/
noncomputable def foot (o : Oobb) : Set (ℝ × ℝ) := polygonHull (para (base o) (side o) (depth o))

theorem foot_iff {o : Oobb} (h : Wide o.aabb) (x : ℝ × ℝ) : x ∈ foot o ↔ ∃ a b : ℝ, o.aabb.lower.1 ≤ a ∧ a ≤ o.aabb.upper.1 ∧ o.aabb.lower.2.1 ≤ b ∧
    b ≤ o.aabb.upper.2.1 ∧ x = (o.pos.1 + Real.cos o.yaw * a - Real.sin o.yaw * b, o.pos.2.1 + Real.sin o.yaw * a + Real.cos o.yaw * b) := by
  have w1 : 0 < o.aabb.upper.1 - o.aabb.lower.1 := by linarith [h.1]
  have w2 : 0 < o.aabb.upper.2.1 - o.aabb.lower.2.1 := by linarith [h.2]
  rw [foot, para_hull]
  constructor
  · rintro ⟨a, b, h1, h2, h3, h4, rfl⟩
    refine ⟨o.aabb.lower.1 + a * (o.aabb.upper.1 - o.aabb.lower.1), o.aabb.lower.2.1 + b * (o.aabb.upper.2.1 - o.aabb.lower.2.1), ?_, ?_, ?_, ?_, ?_⟩
    · nlinarith
    · nlinarith
    · nlinarith
    · nlinarith
    · ext <;> simp [base, side, depth] <;> ring
  · rintro ⟨a, b, h1, h2, h3, h4, rfl⟩
    refine ⟨(a - o.aabb.lower.1) / (o.aabb.upper.1 - o.aabb.lower.1), (b - o.aabb.lower.2.1) / (o.aabb.upper.2.1 - o.aabb.lower.2.1),
      div_nonneg (by linarith) w1.le, (div_le_one w1).2 (by linarith), div_nonneg (by linarith) w2.le, (div_le_one w2).2 (by linarith), ?_⟩
    ext <;> simp only [base, side, depth, Prod.fst_add, Prod.snd_add, Prod.smul_fst, Prod.smul_snd, smul_eq_mul] <;> field_simp <;> ring

theorem solid_iff {o : Oobb} (h : Wide o.aabb) (x : ℝ × ℝ × ℝ) :
    x ∈ solid o ↔ (x.1, x.2.1) ∈ foot o ∧ o.pos.2.2 + o.aabb.lower.2.2 ≤ x.2.2 ∧ x.2.2 ≤ o.pos.2.2 + o.aabb.upper.2.2 := by
  rw [foot_iff h]
  constructor
  · rintro ⟨a, b, c, h1, h2, h3, h4, h5, h6, rfl⟩
    exact ⟨⟨a, b, h1, h2, h3, h4, rfl⟩, by simp only; linarith, by simp only; linarith⟩
  · rintro ⟨⟨a, b, h1, h2, h3, h4, h5⟩, h6, h7⟩
    refine ⟨a, b, x.2.2 - o.pos.2.2, h1, h2, h3, h4, by linarith, by linarith, ?_⟩
    rw [Prod.mk.injEq] at h5
    ext
    · exact h5.1
    · exact h5.2
    · simp

theorem hull_shape {order : List (ℝ × ℝ) → Except PyErr (List ℕ)} (ho : HullLibrary order) {o : Oobb} (h : Wide o.aabb) :
    ∃ ws, (do let flat ← oobbFlatVertices (oobbVertices o); hull order flat : Except PyErr _) = .ok ws ∧ Shape ws (foot o) := by
  obtain ⟨ws, h1, h2, h3, h4, h5⟩ := hull_para ho (p := base o) (wide_det h)
  exact ⟨ws, by rw [flat_wide h]; exact h1, h2, h3, h4, h5⟩

theorem hulls_shape {order : List (ℝ × ℝ) → Except PyErr (List ℕ)} (ho : HullLibrary order) {obstacles : List Oobb} (h : ∀ o ∈ obstacles, Wide o.aabb) :
    ∃ hs, (obstacles.mapM fun o => do let flat ← oobbFlatVertices (oobbVertices o); hull order flat : Except PyErr _) = .ok hs ∧
      List.Forall₂ (fun o ws => Shape ws (foot o)) obstacles hs := by
  induction obstacles with
  | nil => exact ⟨[], rfl, .nil⟩
  | cons o os ih =>
    obtain ⟨hs, h1, h2⟩ := ih fun o ho => h o (by simp [ho])
    obtain ⟨ws, h3, h4⟩ := hull_shape ho (h o (by simp))
    exact ⟨ws :: hs, by rw [List.mapM_cons, h3, h1]; rfl, .cons h4 h2⟩

/-- The smallest box around the given points. -/
def Tight (vs : List (ℝ × ℝ × ℝ)) (b : (ℝ × ℝ) × (ℝ × ℝ) × (ℝ × ℝ)) : Prop :=
  (∀ v ∈ vs, b.1.1 ≤ v.1 ∧ v.1 ≤ b.1.2 ∧ b.2.1.1 ≤ v.2.1 ∧ v.2.1 ≤ b.2.1.2 ∧ b.2.2.1 ≤ v.2.2 ∧ v.2.2 ≤ b.2.2.2) ∧
  (∃ v ∈ vs, v.1 = b.1.1) ∧ (∃ v ∈ vs, v.1 = b.1.2) ∧ (∃ v ∈ vs, v.2.1 = b.2.1.1) ∧ (∃ v ∈ vs, v.2.1 = b.2.1.2) ∧
  (∃ v ∈ vs, v.2.2 = b.2.2.1) ∧ ∃ v ∈ vs, v.2.2 = b.2.2.2

theorem extents_ok {vs : List (ℝ × ℝ × ℝ)} (h : vs ≠ []) : ∃ b, extents vs = .ok b ∧ Tight vs b := by
  obtain ⟨a1, p1, q1, r1⟩ := pyMin_ok (vs.map (·.1)) (by simpa using h)
  obtain ⟨a2, p2, q2, r2⟩ := pyMax_ok (vs.map (·.1)) (by simpa using h)
  obtain ⟨a3, p3, q3, r3⟩ := pyMin_ok (vs.map (·.2.1)) (by simpa using h)
  obtain ⟨a4, p4, q4, r4⟩ := pyMax_ok (vs.map (·.2.1)) (by simpa using h)
  obtain ⟨a5, p5, q5, r5⟩ := pyMin_ok (vs.map (·.2.2)) (by simpa using h)
  obtain ⟨a6, p6, q6, r6⟩ := pyMax_ok (vs.map (·.2.2)) (by simpa using h)
  refine ⟨((a1, a2), (a3, a4), (a5, a6)), ?_, ?_, ?_, ?_, ?_, ?_, ?_, ?_⟩
  · unfold extents
    rw [p1, p2, p3, p4, p5, p6]
    rfl
  · intro v hv
    exact ⟨r1 _ (List.mem_map_of_mem hv), r2 _ (List.mem_map_of_mem hv), r3 _ (List.mem_map_of_mem hv), r4 _ (List.mem_map_of_mem hv),
      r5 _ (List.mem_map_of_mem hv), r6 _ (List.mem_map_of_mem hv)⟩
  exacts [List.mem_map.1 q1, List.mem_map.1 q2, List.mem_map.1 q3, List.mem_map.1 q4, List.mem_map.1 q5, List.mem_map.1 q6]

theorem make_ok {order : List (ℝ × ℝ) → Except PyErr (List ℕ)} (ho : HullLibrary order) {shape : Aabb} {obstacles : List Oobb} (hs : Wide shape)
    (hw : ∀ o ∈ obstacles, Wide o.aabb) (hne : obstacles ≠ []) :
    ∃ env, make order shape obstacles = .ok env ∧ Tight (obstacles.flatMap oobbVertices) env.bounds ∧ Shape env.robotVerts (foot ⟨shape, (0, 0, 0), 0⟩) ∧
      List.Forall₂ (fun o ws => Shape ws (foot o)) obstacles env.obstacleHulls := by
  obtain ⟨b, h1, h2⟩ := extents_ok (vs := obstacles.flatMap oobbVertices) (by
    cases obstacles with
    | nil => exact absurd rfl hne
    | cons o os => simp [oobbVertices, aabbVertices])
  obtain ⟨rv, h3, h4⟩ := hull_shape ho (o := ⟨shape, (0, 0, 0), 0⟩) hs
  obtain ⟨hs, h5, h6⟩ := hulls_shape ho hw
  refine ⟨⟨b, rv, hs⟩, ?_, h2, h4, h6⟩
  unfold make
  rw [h1, ok_bind, ← bind_assoc, h3, ok_bind, h5]
  rfl

theorem robot_foot {shape : Aabb} (hs : Wide shape) (x : ℝ × ℝ) : x ∈ foot ⟨shape, (0, 0, 0), 0⟩ ↔
    shape.lower.1 ≤ x.1 ∧ x.1 ≤ shape.upper.1 ∧ shape.lower.2.1 ≤ x.2 ∧ x.2 ≤ shape.upper.2.1 := by
  rw [foot_iff (o := ⟨shape, (0, 0, 0), 0⟩) hs]
  constructor
  · rintro ⟨a, b, h1, h2, h3, h4, rfl⟩
    simp only [Real.cos_zero, Real.sin_zero]
    exact ⟨by linarith, by linarith, by linarith, by linarith⟩
  · rintro ⟨h1, h2, h3, h4⟩
    exact ⟨x.1, x.2, h1, h2, h3, h4, by ext <;> simp⟩

/-- C132: for obstacles and a robot at least a millimetre wide and deep the environment is built, whatever order the hull library gives. For every non-empty batch of
motions there is a number `N` of poses, less than 0.08 apart, from the start to the goal, such that an accepted motion has the robot's body (the block of the width
and depth of its bounding box, at whatever height) disjoint from every obstacle at each of these poses. A rejected motion has a body, of every height
range that meets the heights of the obstacles, that touches an obstacle at one of the poses. -/
theorem C132_exact {order : List (ℝ × ℝ) → Except PyErr (List ℕ)} (ho : HullLibrary order) {shape : Aabb} {obstacles : List Oobb} (hs : Wide shape)
    (hw : ∀ o ∈ obstacles, Wide o.aabb) (hne : obstacles ≠ []) :
    ∃ env, make order shape obstacles = .ok env ∧ ∀ motions : List ((ℝ × ℝ) × (ℝ × ℝ)), motions ≠ [] →
      ∃ (N : ℕ) (rs : List Bool), 2 ≤ N ∧ env.isMotionValid motions = .ok rs ∧ rs.length = motions.length ∧
        ∀ (i : ℕ) (m : (ℝ × ℝ) × (ℝ × ℝ)), motions[i]? = some m →
          (rs[i]? = some true → ∀ z0 z1 : ℝ, ∀ k < N, ∀ o ∈ obstacles, Disjoint (blockAt shape z0 z1 (poseAt m ((k : ℝ) / ((N : ℝ) - 1)))) (solid o)) ∧
          (rs[i]? ≠ some true → ∀ z0 z1 : ℝ, (∀ o ∈ obstacles, ∃ z, z0 ≤ z ∧ z ≤ z1 ∧ o.pos.2.2 + o.aabb.lower.2.2 ≤ z ∧ z ≤ o.pos.2.2 + o.aabb.upper.2.2) →
            ∃ k < N, ∃ o ∈ obstacles, ¬ Disjoint (blockAt shape z0 z1 (poseAt m ((k : ℝ) / ((N : ℝ) - 1)))) (solid o)) ∧
          (∀ k : ℕ, |(poseAt m ((k + 1 : ℕ) / ((N : ℝ) - 1))).1 - (poseAt m ((k : ℝ) / ((N : ℝ) - 1))).1| < 0.08 ∧
            |(poseAt m ((k + 1 : ℕ) / ((N : ℝ) - 1))).2 - (poseAt m ((k : ℝ) / ((N : ℝ) - 1))).2| < 0.08) ∧
          poseAt m (((0 : ℕ) : ℝ) / ((N : ℝ) - 1)) = m.1 ∧ poseAt m (((N - 1 : ℕ) : ℝ) / ((N : ℝ) - 1)) = m.2 := by
  obtain ⟨env, h1, -, h3, h4⟩ := make_ok ho hs hw hne
  refine ⟨env, h1, fun motions hm => ?_⟩
  have hmem : ∀ ws ∈ env.obstacleHulls, ∃ o ∈ obstacles, Shape ws (foot o) := by
    intro ws hws
    obtain ⟨i, hi, rfl⟩ := List.getElem_of_mem hws
    have hi' : i < obstacles.length := by rw [h4.length_eq]; exact hi
    exact ⟨obstacles[i], List.getElem_mem _, h4.get hi' hi⟩
  have hmem' : ∀ o ∈ obstacles, ∃ ws ∈ env.obstacleHulls, Shape ws (foot o) := by
    intro o ho
    obtain ⟨i, hi, rfl⟩ := List.getElem_of_mem ho
    have hi' : i < env.obstacleHulls.length := by rw [← h4.length_eq]; exact hi
    exact ⟨env.obstacleHulls[i], List.getElem_mem _, h4.get hi hi'⟩
  obtain ⟨N, rs, hN, e1, e2, e3⟩ := C53_motion_poses_partial env.robotVerts env.obstacleHulls motions ⟨h3.convex, h3.proper⟩
    (fun ws hws => by obtain ⟨o, _, so⟩ := hmem ws hws; exact ⟨by rw [so.four, h3.four], so.convex, so.proper⟩) hm
  refine ⟨N, rs, hN, e1, e2, fun i m hi => ?_⟩
  obtain ⟨f1, f2, f3, f4⟩ := e3 i m hi
  refine ⟨fun ht z0 z1 k hk o ho => ?_, fun hf z0 z1 hz => ?_, f2, f3, f4⟩
  · rw [Set.disjoint_left]
    intro x hx hx'
    obtain ⟨ws, hws, so⟩ := hmem' o ho
    refine f1.1 ht k hk ws hws ⟨(x.1, x.2.1), ?_, ?_⟩
    · rw [placed_hull_iff, h3.region, robot_foot hs]
      exact ⟨hx.1, hx.2.1, hx.2.2.1, hx.2.2.2.1⟩
    · rw [so.region]
      exact ((solid_iff (hw o ho) x).1 hx').1
  · rw [Ne, f1] at hf
    push Not at hf
    obtain ⟨k, hk, ws, hws, x, hx, hx'⟩ := hf
    obtain ⟨o, ho, so⟩ := hmem ws hws
    obtain ⟨z, g1, g2, g3, g4⟩ := hz o ho
    rw [placed_hull_iff, h3.region, robot_foot hs] at hx
    rw [so.region] at hx'
    exact ⟨k, hk, o, ho, Set.not_disjoint_iff.2 ⟨(x.1, x.2, z), ⟨hx.1, hx.2.1, hx.2.2.1, hx.2.2.2, g1, g2⟩, (solid_iff (hw o ho) _).2 ⟨hx', g3, g4⟩⟩⟩

theorem hull_of_tight {obstacles : List Oobb} {b : (ℝ × ℝ) × (ℝ × ℝ) × (ℝ × ℝ)} (h : Tight (obstacles.flatMap oobbVertices) b)
    {o : Oobb} (ho : o ∈ obstacles) (x : ℝ × ℝ) (hx : x ∈ foot o) : b.1.1 ≤ x.1 ∧ x.1 ≤ b.1.2 ∧ b.2.1.1 ≤ x.2 ∧ x.2 ≤ b.2.1.2 := by
  have hc : ∀ v ∈ para (base o) (side o) (depth o), ∃ c ∈ oobbVertices o, (c.1, c.2.1) = v := by
    intro v hv
    have : v ∈ (oobbVertices o).map fun v => (v.1, v.2.1) := by
      rw [flat_corners]
      simp only [para, List.mem_cons, List.not_mem_nil, or_false] at hv ⊢
      tauto
    exact List.mem_map.1 this
  have hb : ∀ v ∈ para (base o) (side o) (depth o), b.1.1 ≤ v.1 ∧ v.1 ≤ b.1.2 ∧ b.2.1.1 ≤ v.2 ∧ v.2 ≤ b.2.1.2 := by
    intro v hv
    obtain ⟨c, hc1, rfl⟩ := hc v hv
    obtain ⟨p1, p2, p3, p4, -, -⟩ := h.1 c (List.mem_flatMap.2 ⟨o, ho, hc1⟩)
    exact ⟨p1, p2, p3, p4⟩
  have a1 := hull_ge _ (1, 0) b.1.1 (fun v hv => by simpa [dot] using (hb v hv).1) x hx
  have a2 := hull_le _ (1, 0) b.1.2 (fun v hv => by simpa [dot] using (hb v hv).2.1) x hx
  have a3 := hull_ge _ (0, 1) b.2.1.1 (fun v hv => by simpa [dot] using (hb v hv).2.2.1) x hx
  have a4 := hull_le _ (0, 1) b.2.1.2 (fun v hv => by simpa [dot] using (hb v hv).2.2.2) x hx
  simp only [dot, mul_one, mul_zero, add_zero, zero_add] at a1 a2 a3 a4
  exact ⟨a1, a2, a3, a4⟩

theorem vertices_solid {o : Oobb} (h : o.aabb.lower.1 ≤ o.aabb.upper.1 ∧ o.aabb.lower.2.1 ≤ o.aabb.upper.2.1 ∧ o.aabb.lower.2.2 ≤ o.aabb.upper.2.2) :
    ∀ v ∈ oobbVertices o, v ∈ solid o := by
  intro v hv
  obtain ⟨c, hc, rfl⟩ := List.mem_map.1 hv
  simp only [aabbVertices, List.mem_cons, List.not_mem_nil, or_false] at hc
  rcases hc with rfl | rfl | rfl | rfl | rfl | rfl | rfl | rfl <;> exact ⟨_, _, _, by simp [h], by simp [h], by simp [h], by simp [h], by simp [h], by simp [h], rfl⟩

/-- C132, the region that is sampled: the bounds are the smallest box that holds the bodies of all obstacles, and samples lie in it. -/
theorem C132_bounds {order : List (ℝ × ℝ) → Except PyErr (List ℕ)} (ho : HullLibrary order) {shape : Aabb} {obstacles : List Oobb} (hs : Wide shape)
    (hw : ∀ o ∈ obstacles, Wide o.aabb ∧ o.aabb.lower.2.2 ≤ o.aabb.upper.2.2) (hne : obstacles ≠ []) :
    ∃ env, make order shape obstacles = .ok env ∧
      (∀ o ∈ obstacles, ∀ x ∈ solid o, x.1 ∈ Set.Icc env.bounds.1.1 env.bounds.1.2 ∧ x.2.1 ∈ Set.Icc env.bounds.2.1.1 env.bounds.2.1.2 ∧
        x.2.2 ∈ Set.Icc env.bounds.2.2.1 env.bounds.2.2.2) ∧
      (∃ o ∈ obstacles, ∃ x ∈ solid o, x.1 = env.bounds.1.1) ∧ (∃ o ∈ obstacles, ∃ x ∈ solid o, x.1 = env.bounds.1.2) ∧
      (∃ o ∈ obstacles, ∃ x ∈ solid o, x.2.1 = env.bounds.2.1.1) ∧ (∃ o ∈ obstacles, ∃ x ∈ solid o, x.2.1 = env.bounds.2.1.2) ∧
      (∃ o ∈ obstacles, ∃ x ∈ solid o, x.2.2 = env.bounds.2.2.1) ∧ (∃ o ∈ obstacles, ∃ x ∈ solid o, x.2.2 = env.bounds.2.2.2) ∧
      ∀ u : ℝ × ℝ, u.1 ∈ Set.Icc 0 1 → u.2 ∈ Set.Icc 0 1 → (env.sample u).1 ∈ Set.Icc env.bounds.1.1 env.bounds.1.2 ∧
        (env.sample u).2 ∈ Set.Icc env.bounds.2.1.1 env.bounds.2.1.2 := by
  obtain ⟨env, h1, h2, -, -⟩ := make_ok ho hs (fun o ho => (hw o ho).1) hne
  have hatt : ∀ {P : ℝ × ℝ × ℝ → Prop}, (∃ v ∈ obstacles.flatMap oobbVertices, P v) → ∃ o ∈ obstacles, ∃ x ∈ solid o, P x := by
    rintro P ⟨v, hv, hp⟩
    obtain ⟨o, ho, hvo⟩ := List.mem_flatMap.1 hv
    exact ⟨o, ho, v, vertices_solid ⟨by linarith [(hw o ho).1.1], by linarith [(hw o ho).1.2], (hw o ho).2⟩ v hvo, hp⟩
  have hin : ∀ o ∈ obstacles, ∀ x ∈ solid o, x.1 ∈ Set.Icc env.bounds.1.1 env.bounds.1.2 ∧ x.2.1 ∈ Set.Icc env.bounds.2.1.1 env.bounds.2.1.2 ∧
        x.2.2 ∈ Set.Icc env.bounds.2.2.1 env.bounds.2.2.2 := by
    intro o ho x hx
    obtain ⟨g1, g2, g3⟩ := (solid_iff (hw o ho).1 x).1 hx
    obtain ⟨a1, a2, a3, a4⟩ := hull_of_tight h2 ho _ g1
    have b1 := (h2.1 (tformPoint o o.aabb.lower) (List.mem_flatMap.2 ⟨o, ho, List.mem_map_of_mem (by simp [aabbVertices])⟩)).2.2.2.2.1
    have b2 := (h2.1 (tformPoint o o.aabb.upper) (List.mem_flatMap.2 ⟨o, ho, List.mem_map_of_mem (by simp [aabbVertices])⟩)).2.2.2.2.2
    simp only [tformPoint] at b1 b2
    exact ⟨⟨a1, a2⟩, ⟨a3, a4⟩, by linarith, by linarith⟩
  refine ⟨env, h1, hin, hatt h2.2.1, hatt h2.2.2.1, hatt h2.2.2.2.1, hatt h2.2.2.2.2.1, hatt h2.2.2.2.2.2.1, hatt h2.2.2.2.2.2.2, fun u hu hv => ?_⟩
  obtain ⟨o, ho, x, hx, -⟩ := hatt h2.2.1
  obtain ⟨c1, c2, -⟩ := hin o ho x hx
  have d1 := c1.1.trans c1.2
  have d2 := c2.1.trans c2.2
  simp only [Env.sample, Set.mem_Icc] at *
  refine ⟨⟨?_, ?_⟩, ?_, ?_⟩ <;> nlinarith

/-- C132: neither the order in which the obstacles come out of the set of bodies, nor how often one is in it, nor the corner and direction that the hull library starts with, changes
an answer of the check, a sample or the bounds. -/
theorem C132_order {order order' : List (ℝ × ℝ) → Except PyErr (List ℕ)} (ho : HullLibrary order) (ho' : HullLibrary order') {shape : Aabb}
    {obstacles obstacles' : List Oobb} (hs : Wide shape) (hw : ∀ o ∈ obstacles, Wide o.aabb) (hne : obstacles ≠ []) (hsame : ∀ o, o ∈ obstacles ↔ o ∈ obstacles') :
    ∃ env env', make order shape obstacles = .ok env ∧ make order' shape obstacles' = .ok env' ∧ env.bounds = env'.bounds ∧
      ∀ motions, env.isMotionValid motions = env'.isMotionValid motions := by
  have hne' : obstacles' ≠ [] := by
    obtain ⟨o, ho⟩ := List.exists_mem_of_ne_nil _ hne
    exact List.ne_nil_of_mem ((hsame o).1 ho)
  obtain ⟨env, h1, h2, h3, h4⟩ := make_ok ho hs hw hne
  obtain ⟨env', h1', h2', h3', h4'⟩ := make_ok ho' hs (fun o ho => hw o ((hsame o).2 ho)) hne'
  refine ⟨env, env', h1, h1', ?_, fun motions => isMotionValid_congr h3 h3' ?_ ?_ motions⟩
  · have hv : ∀ v, v ∈ obstacles.flatMap oobbVertices ↔ v ∈ obstacles'.flatMap oobbVertices := by
      intro v
      simp only [List.mem_flatMap, hsame]
    obtain ⟨a0, ⟨v1, m1, q1⟩, ⟨v2, m2, q2⟩, ⟨v3, m3, q3⟩, ⟨v4, m4, q4⟩, ⟨v5, m5, q5⟩, v6, m6, q6⟩ := h2
    obtain ⟨b0, ⟨w1, n1, r1⟩, ⟨w2, n2, r2⟩, ⟨w3, n3, r3⟩, ⟨w4, n4, r4⟩, ⟨w5, n5, r5⟩, w6, n6, r6⟩ := h2'
    have A := fun v hv' => a0 v ((hv v).2 hv')
    have B := fun v hv' => b0 v ((hv v).1 hv')
    refine Prod.ext (Prod.ext ?_ ?_) (Prod.ext (Prod.ext ?_ ?_) (Prod.ext ?_ ?_)) <;> apply le_antisymm
    · rw [← r1]; exact (A w1 n1).1
    · rw [← q1]; exact (B v1 m1).1
    · rw [← q2]; exact (B v2 m2).2.1
    · rw [← r2]; exact (A w2 n2).2.1
    · rw [← r3]; exact (A w3 n3).2.2.1
    · rw [← q3]; exact (B v3 m3).2.2.1
    · rw [← q4]; exact (B v4 m4).2.2.2.1
    · rw [← r4]; exact (A w4 n4).2.2.2.1
    · rw [← r5]; exact (A w5 n5).2.2.2.2.1
    · rw [← q5]; exact (B v5 m5).2.2.2.2.1
    · rw [← q6]; exact (B v6 m6).2.2.2.2.2
    · rw [← r6]; exact (A w6 n6).2.2.2.2.2
  · intro ws hws
    obtain ⟨i, hi, rfl⟩ := List.getElem_of_mem hws
    have hi' : i < obstacles.length := by rw [h4.length_eq]; exact hi
    obtain ⟨j, hj, e⟩ := List.getElem_of_mem ((hsame _).1 (List.getElem_mem hi'))
    have hj' : j < env'.obstacleHulls.length := by rw [← h4'.length_eq]; exact hj
    refine ⟨env'.obstacleHulls[j], List.getElem_mem _, foot obstacles[i], h4.get hi' hi, ?_⟩
    rw [← e]
    exact h4'.get hj hj'
  · intro ws hws
    obtain ⟨i, hi, rfl⟩ := List.getElem_of_mem hws
    have hi' : i < obstacles'.length := by rw [h4'.length_eq]; exact hi
    obtain ⟨j, hj, e⟩ := List.getElem_of_mem ((hsame _).2 (List.getElem_mem hi'))
    have hj' : j < env.obstacleHulls.length := by rw [← h4.length_eq]; exact hj
    refine ⟨env.obstacleHulls[j], List.getElem_mem _, foot obstacles'[i], ?_, h4'.get hi' hi⟩
    rw [← e]
    exact h4.get hj hj'

/-- C132, when it cannot be built: with no obstacles ValueError is raised; with a robot or an obstacle that is less than a millimetre wide or deep, AssertionError. -/
theorem C132_raises {order : List (ℝ × ℝ) → Except PyErr (List ℕ)} (ho : HullLibrary order) (shape : Aabb) (obstacles : List Oobb) :
    (obstacles = [] → make order shape obstacles = .error .value) ∧
    (obstacles ≠ [] → Thin shape → make order shape obstacles = .error .assertion) ∧
    (Wide shape → (∀ o ∈ obstacles, Wide o.aabb ∨ Thin o.aabb) → (∃ o ∈ obstacles, Thin o.aabb) → make order shape obstacles = .error .assertion) := by
  refine ⟨?_, ?_, ?_⟩
  · rintro rfl
    rfl
  · intro hne ht
    obtain ⟨b, h1, -⟩ := extents_ok (vs := obstacles.flatMap oobbVertices) (by
      cases obstacles with
      | nil => exact absurd rfl hne
      | cons o os => simp [oobbVertices, aabbVertices])
    unfold make
    rw [h1, ok_bind, flat_thin (o := ⟨shape, (0, 0, 0), 0⟩) ht]
    rfl
  · intro hs hall hex
    have hne : obstacles ≠ [] := by
      obtain ⟨o, ho, -⟩ := hex
      exact List.ne_nil_of_mem ho
    obtain ⟨b, h1, -⟩ := extents_ok (vs := obstacles.flatMap oobbVertices) (by
      cases obstacles with
      | nil => exact absurd rfl hne
      | cons o os => simp [oobbVertices, aabbVertices])
    obtain ⟨rv, h3, -⟩ := hull_shape ho (o := ⟨shape, (0, 0, 0), 0⟩) hs
    have h5 : (obstacles.mapM fun o => do let flat ← oobbFlatVertices (oobbVertices o); hull order flat : Except PyErr _) = .error .assertion := by
      clear h1 hne
      induction obstacles with
      | nil => simp at hex
      | cons o os ih =>
        rw [List.mapM_cons]
        by_cases hto : Thin o.aabb
        · rw [flat_thin hto]
          rfl
        · obtain ⟨ws, h6, -⟩ := hull_shape ho ((hall o (by simp)).resolve_right hto)
          rw [h6, ok_bind, ih (fun o ho => hall o (by simp [ho])) (by
            obtain ⟨o', ho', ht'⟩ := hex
            rcases List.mem_cons.1 ho' with rfl | h
            · exact absurd ht' hto
            · exact ⟨o', h, ht'⟩)]
          rfl
    unfold make
    rw [h1, ok_bind, ← bind_assoc, h3, ok_bind, h5]
    rfl

theorem wall_foot {h z : ℝ} {b : Hallway.Box} (hw : 1 / 1000 ≤ b.w) (hl : 1 / 1000 ≤ b.l) : foot (wall h z b) = Verif.Spec.Box.region b := by
  ext x
  rw [foot_iff (o := wall h z b) ⟨by simp only [wall]; linarith, by simp only [wall]; linarith⟩]
  simp only [wall, Real.cos_zero, Real.sin_zero]
  constructor
  · rintro ⟨a, c, h1, h2, h3, h4, rfl⟩
    exact ⟨abs_le.2 ⟨by simp only; linarith, by simp only; linarith⟩, abs_le.2 ⟨by simp only; linarith, by simp only; linarith⟩⟩
  · rintro ⟨h1, h2⟩
    rw [abs_le] at h1 h2
    exact ⟨x.1 - b.x, x.2 - b.y, h1.1, h1.2, h2.1, h2.2, by ext <;> simp only <;> ring⟩

theorem corners_shape {b : Hallway.Box} (hw : 1 / 1000 ≤ b.w) (hl : 1 / 1000 ≤ b.l) : Shape b.corners (Verif.Spec.Box.region b) := by
  have e : b.corners = rect (b.x - b.w / 2) (b.y - b.l / 2) (b.x + b.w / 2) (b.y + b.l / 2) := rfl
  exact ⟨rfl, e ▸ rect_convex _ _ _ _ (by linarith) (by linarith), e ▸ rect_proper _ _ _ _ (by linarith) (by linarith), region_eq_hull b (by linarith) (by linarith)⟩

/-- C132, for the worlds of the planning experiments: the environment that the stream builds for a query, from the bodies of the walls and from the bounding box of the rover, or of the object it holds, answers
every batch of motions as the check with the rectangle of that box around the robot's position and the plain wall rectangles does, and samples from the extents of these. So what is proved about the check with the
rectangles (C88 to C93, C106, C122, C123, C130, C131) is true of the environment that is built. -/
theorem C132_worlds {order : List (ℝ × ℝ) → Except PyErr (List ℕ)} (ho : HullLibrary order) (rover : Aabb) (held : Option Aabb) (height z : ℝ) (walls : List Hallway.Box)
    (hs : Wide (held.getD rover)) (hw : ∀ b ∈ walls, 1 / 1000 ≤ b.w ∧ 1 / 1000 ≤ b.l) (hne : walls ≠ []) :
    ∃ env, queryEnv order rover held (walls.map (wall height z)) = .ok env ∧ Hallway.extents walls = .ok (env.bounds.1, env.bounds.2.1) ∧
      (∀ motions, env.isMotionValid motions =
        isMotionValid (rect (-(((held.getD rover).upper.1 - (held.getD rover).lower.1) / 2)) (-(((held.getD rover).upper.2.1 - (held.getD rover).lower.2.1) / 2))
          (((held.getD rover).upper.1 - (held.getD rover).lower.1) / 2) (((held.getD rover).upper.2.1 - (held.getD rover).lower.2.1) / 2))
          (walls.map Hallway.Box.corners) motions) := by
  have hq : queryEnv order rover held (walls.map (wall height z)) = make order (recentred (held.getD rover)) (walls.map (wall height z)) := rfl
  rw [hq]
  generalize held.getD rover = shape at hs
  have w1 : 0 < (shape.upper.1 - shape.lower.1) / 2 := by linarith [hs.1]
  have w2 : 0 < (shape.upper.2.1 - shape.lower.2.1) / 2 := by linarith [hs.2]
  have hs' : Wide (recentred shape) := ⟨by simp only [recentred]; linarith [hs.1], by simp only [recentred]; linarith [hs.2]⟩
  obtain ⟨env, h1, h2, h3, h4⟩ := make_ok ho hs' (obstacles := walls.map (wall height z)) (by
    intro o ho
    obtain ⟨b, hb, rfl⟩ := List.mem_map.1 ho
    exact ⟨by simp only [wall]; linarith [(hw b hb).1], by simp only [wall]; linarith [(hw b hb).2]⟩) (by simpa using hne)
  refine ⟨env, h1, ?_, fun motions => isMotionValid_congr (R := block ((shape.upper.1 - shape.lower.1) / 2) ((shape.upper.2.1 - shape.lower.2.1) / 2)) ?_ ?_ ?_ ?_ motions⟩
  · have hfor : ∀ v ∈ walls.flatMap Hallway.Box.corners, ∃ c ∈ (walls.map (wall height z)).flatMap oobbVertices, c.1 = v.1 ∧ c.2.1 = v.2 := by
      intro v hv
      obtain ⟨b, hb, hvb⟩ := List.mem_flatMap.1 hv
      have : ∃ c ∈ oobbVertices (wall height z b), c.1 = v.1 ∧ c.2.1 = v.2 := by
        simp only [Hallway.Box.corners, List.mem_cons, List.not_mem_nil, or_false] at hvb
        rcases hvb with rfl | rfl | rfl | rfl <;> simp [oobbVertices, aabbVertices, tformPoint, wall, sub_eq_add_neg]
      obtain ⟨c, hc, e⟩ := this
      exact ⟨c, List.mem_flatMap.2 ⟨_, List.mem_map_of_mem hb, hc⟩, e⟩
    have hback : ∀ c ∈ (walls.map (wall height z)).flatMap oobbVertices, ∃ v ∈ walls.flatMap Hallway.Box.corners, c.1 = v.1 ∧ c.2.1 = v.2 := by
      intro c hc
      obtain ⟨o, ho, hco⟩ := List.mem_flatMap.1 hc
      obtain ⟨b, hb, rfl⟩ := List.mem_map.1 ho
      have : ∃ v ∈ b.corners, c.1 = v.1 ∧ c.2.1 = v.2 := by
        simp only [oobbVertices, aabbVertices, tformPoint, wall, List.map_cons, List.map_nil, List.mem_cons, List.not_mem_nil, or_false] at hco
        rcases hco with rfl | rfl | rfl | rfl | rfl | rfl | rfl | rfl <;> simp [Hallway.Box.corners, sub_eq_add_neg]
      obtain ⟨v, hv, e⟩ := this
      exact ⟨v, List.mem_flatMap.2 ⟨b, hb, hv⟩, e⟩
    have hne' : walls.flatMap Hallway.Box.corners ≠ [] := by
      cases walls with
      | nil => exact absurd rfl hne
      | cons b bs => simp [Hallway.Box.corners]
    have hx : Hallway.extents walls = (do
        return ((← pyMin ((walls.flatMap Hallway.Box.corners).map (·.1)), ← pyMax ((walls.flatMap Hallway.Box.corners).map (·.1))),
          (← pyMin ((walls.flatMap Hallway.Box.corners).map (·.2)), ← pyMax ((walls.flatMap Hallway.Box.corners).map (·.2))))) := rfl
    rw [hx]
    generalize walls.flatMap Hallway.Box.corners = vs at hfor hback hne'
    obtain ⟨t0, ⟨v1, m1, q1⟩, ⟨v2, m2, q2⟩, ⟨v3, m3, q3⟩, ⟨v4, m4, q4⟩, -⟩ := h2
    have hmin : ∀ (f : ℝ × ℝ → ℝ) (m : ℝ), (∃ v ∈ vs, f v = m) → (∀ v ∈ vs, m ≤ f v) → pyMin (vs.map f) = .ok m := by
      rintro f m ⟨v, hv, rfl⟩ hle
      obtain ⟨a, p1, p2, p3⟩ := pyMin_ok (vs.map f) (by simpa using hne')
      obtain ⟨y, hy, rfl⟩ := List.mem_map.1 p2
      rw [p1, le_antisymm (p3 _ (List.mem_map_of_mem hv)) (hle y hy)]
    have hmax : ∀ (f : ℝ × ℝ → ℝ) (m : ℝ), (∃ v ∈ vs, f v = m) → (∀ v ∈ vs, f v ≤ m) → pyMax (vs.map f) = .ok m := by
      rintro f m ⟨v, hv, rfl⟩ hle
      obtain ⟨a, p1, p2, p3⟩ := pyMax_ok (vs.map f) (by simpa using hne')
      obtain ⟨y, hy, rfl⟩ := List.mem_map.1 p2
      rw [p1, le_antisymm (hle y hy) (p3 _ (List.mem_map_of_mem hv))]
    have hin : ∀ v ∈ vs, env.bounds.1.1 ≤ v.1 ∧ v.1 ≤ env.bounds.1.2 ∧ env.bounds.2.1.1 ≤ v.2 ∧ v.2 ≤ env.bounds.2.1.2 := by
      intro v hv
      obtain ⟨c, hc, e1, e2⟩ := hfor v hv
      obtain ⟨g1, g2, g3, g4, -⟩ := t0 c hc
      rw [← e1, ← e2]
      exact ⟨g1, g2, g3, g4⟩
    rw [hmin (·.1) env.bounds.1.1 ?_ fun v hv => (hin v hv).1, hmax (·.1) env.bounds.1.2 ?_ fun v hv => (hin v hv).2.1,
      hmin (·.2) env.bounds.2.1.1 ?_ fun v hv => (hin v hv).2.2.1, hmax (·.2) env.bounds.2.1.2 ?_ fun v hv => (hin v hv).2.2.2]
    · rfl
    · obtain ⟨v, hv, e1, e2⟩ := hback v4 m4; exact ⟨v, hv, by rw [← e2, q4]⟩
    · obtain ⟨v, hv, e1, e2⟩ := hback v3 m3; exact ⟨v, hv, by rw [← e2, q3]⟩
    · obtain ⟨v, hv, e1, e2⟩ := hback v2 m2; exact ⟨v, hv, by rw [← e1, q2]⟩
    · obtain ⟨v, hv, e1, e2⟩ := hback v1 m1; exact ⟨v, hv, by rw [← e1, q1]⟩
  · refine ⟨h3.four, h3.convex, h3.proper, ?_⟩
    rw [h3.region]
    ext x
    rw [robot_foot hs']
    simp only [recentred, block, Set.mem_ofPred_eq, abs_le]
    tauto
  · exact ⟨rfl, rect_convex _ _ _ _ (by linarith) (by linarith), rect_proper _ _ _ _ (by linarith) (by linarith), rect_hull w1 w2⟩
  · intro ws hws
    obtain ⟨i, hi, rfl⟩ := List.getElem_of_mem hws
    have hi' : i < (walls.map (wall height z)).length := by rw [h4.length_eq]; exact hi
    have hi'' : i < walls.length := by simpa using hi'
    have hb := hw walls[i] (List.getElem_mem _)
    have hsh := h4.get hi' hi
    simp only [List.get_eq_getElem, List.getElem_map, wall_foot hb.1 hb.2] at hsh
    exact ⟨walls[i].corners, List.mem_map_of_mem (List.getElem_mem _), _, hsh, corners_shape hb.1 hb.2⟩
  · intro ws hws
    obtain ⟨b, hb, rfl⟩ := List.mem_map.1 hws
    obtain ⟨i, hi, rfl⟩ := List.getElem_of_mem hb
    have hi' : i < (walls.map (wall height z)).length := by simpa using hi
    have hi'' : i < env.obstacleHulls.length := by rw [← h4.length_eq]; exact hi'
    have hb' := hw walls[i] (List.getElem_mem _)
    have hsh := h4.get hi' hi''
    simp only [List.get_eq_getElem, List.getElem_map, wall_foot hb'.1 hb'.2] at hsh
    exact ⟨_, List.getElem_mem hi'', _, hsh, corners_shape hb'.1 hb'.2⟩

/-- There is a library with the promised behaviour. -/
theorem hullLibrary_exists : ∃ order, HullLibrary order := by
  classical
  refine ⟨fun vs => if h : ∃ idx, HullOrder vs idx then .ok h.choose else .error .value, fun vs idx h => ?_⟩
  have hex : ∃ idx, HullOrder vs idx := ⟨idx, h⟩
  exact ⟨hex.choose, dif_pos hex, hex.choose_spec⟩

/-- A robot half a metre wide drives past a slanted obstacle, and would hit another one: both are wide enough, the environment is built, and the check says so. -/
theorem C132_nonvacuous : ∃ order, HullLibrary order ∧ ∃ env,
    make order ⟨(-1/4, -1/4, -1/4), (1/4, 1/4, 1/4)⟩ [⟨⟨(-1, -1, -1), (1, 1, 1)⟩, (0, 3, 1), Real.pi / 4⟩, ⟨⟨(-1/10, -1, -1), (1/10, 1, 1)⟩, (1, 0, 1), 0⟩] = .ok env ∧
    env.isMotionValid [((0, 0), (1/50, 0)), ((0, 0), (1, 0))] = .ok [true, false] := by
  obtain ⟨order, ho⟩ := hullLibrary_exists
  refine ⟨order, ho, ?_⟩
  have hs : Wide ⟨(-1/4, -1/4, -1/4), (1/4, 1/4, 1/4)⟩ := ⟨by norm_num, by norm_num⟩
  obtain ⟨env, h1, h2⟩ := C132_exact ho hs (obstacles := [⟨⟨(-1, -1, -1), (1, 1, 1)⟩, (0, 3, 1), Real.pi / 4⟩, ⟨⟨(-1/10, -1, -1), (1/10, 1, 1)⟩, (1, 0, 1), 0⟩]) (by
    intro o ho
    simp only [List.mem_cons, List.not_mem_nil, or_false] at ho
    rcases ho with rfl | rfl <;> exact ⟨by norm_num, by norm_num⟩) (by simp)
  refine ⟨env, h1, ?_⟩
  obtain ⟨N, rs, hN, e1, e2, e3⟩ := h2 [((0, 0), (1/50, 0)), ((0, 0), (1, 0))] (by simp)
  rw [e1]
  obtain ⟨g1, g2, g3, g4, g5⟩ := e3 0 ((0, 0), (1/50, 0)) rfl
  obtain ⟨k1, k2, k3, k4, k5⟩ := e3 1 ((0, 0), (1, 0)) rfl
  have ha : rs[0]? = some true := by
    by_contra hc
    obtain ⟨k, hk, o, ho, hd⟩ := g2 hc 0 (1/2) (by
      intro o ho
      simp only [List.mem_cons, List.not_mem_nil, or_false] at ho
      rcases ho with rfl | rfl <;> exact ⟨0, by norm_num⟩)
    have hN' : (0 : ℝ) < (N : ℝ) - 1 := by
      have : (2 : ℝ) ≤ N := by exact_mod_cast hN
      linarith
    have hα : (k : ℝ) / ((N : ℝ) - 1) ≤ 1 := by
      rw [div_le_one hN']
      have : (k : ℝ) + 1 ≤ N := by exact_mod_cast hk
      linarith
    generalize (k : ℝ) / ((N : ℝ) - 1) = α at hd hα
    obtain ⟨x, hx, hx'⟩ := Set.not_disjoint_iff.1 hd
    simp only [blockAt, poseAt, Set.mem_ofPred_eq] at hx
    obtain ⟨r1, r2, r3, r4, -⟩ := hx
    simp only [List.mem_cons, List.not_mem_nil, or_false] at ho
    rcases ho with rfl | rfl
    · obtain ⟨a, b, c, h1, h2, h3, h4, -, -, rfl⟩ := hx'
      simp only at h1 h2 h3 h4 r1 r2 r3 r4
      have p1 : |Real.sin (Real.pi / 4) * a| ≤ 1 := by
        rw [abs_mul]
        exact mul_le_one₀ (Real.abs_sin_le_one _) (abs_nonneg _) (abs_le.2 ⟨h1, h2⟩)
      have p2 : |Real.cos (Real.pi / 4) * b| ≤ 1 := by
        rw [abs_mul]
        exact mul_le_one₀ (Real.abs_cos_le_one _) (abs_nonneg _) (abs_le.2 ⟨h3, h4⟩)
      rw [abs_le] at p1 p2
      linarith [p1.1, p2.1]
    · obtain ⟨a, b, c, h1, h2, h3, h4, -, -, rfl⟩ := hx'
      simp only [Real.cos_zero, Real.sin_zero] at h1 h2 h3 h4 r1 r2 r3 r4
      linarith
  have hb : rs[1]? ≠ some true := by
    intro hc
    have := k1 hc 0 2 (N - 1) (by omega) ⟨⟨(-1/10, -1, -1), (1/10, 1, 1)⟩, (1, 0, 1), 0⟩ (by simp)
    rw [k5] at this
    refine Set.not_disjoint_iff.2 ⟨((1 : ℝ), (0 : ℝ), (1 : ℝ)), ?_, ?_⟩ this
    · simp only [blockAt, Set.mem_ofPred_eq]; norm_num
    · exact ⟨0, 0, 0, by norm_num, by norm_num, by norm_num, by norm_num, by norm_num, by norm_num, by simp⟩
  match rs, e2, ha, hb with
  | [a, b], _, ha, hb => simp_all

end Verif.Props
