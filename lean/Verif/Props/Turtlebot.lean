import Mathlib.Algebra.BigOperators.Group.List.Basic
import Mathlib.Data.List.Chain
import Verif.Model.Turtlebot
import Mathlib.Data.List.Range
import Verif.Props.Sat2D
import Verif.Spec.Path

/-! Turtlebot motion check and path interpolation: C53, C54, C64. -/

namespace Verif.Props

open Verif.Sat2D Verif.Spec Verif.Turtlebot

/-! ### C53 -/

/-- The pose of the robot after the fraction `α` of the motion. -/
def poseAt (m : (ℝ × ℝ) × (ℝ × ℝ)) (α : ℝ) : ℝ × ℝ := (m.1.1 + α * (m.2.1 - m.1.1), m.1.2 + α * (m.2.2 - m.1.2))

/-- The robot polygon moved to a position. -/
def placed (robot : List (ℝ × ℝ)) (t : ℝ × ℝ) : List (ℝ × ℝ) := robot.map fun v => (v.1 + t.1, v.2 + t.2)

theorem intermVerts_eq (robot : List V2) (m : V2 × V2) (α : ℝ) : intermVerts robot m α = placed robot (poseAt m α) := by
  unfold intermVerts placed poseAt
  apply List.map_congr_left
  intro v _
  ext <;> simp only <;> ring

theorem placed_edge (robot : List V2) (t p q : V2) (h : IsEdge (placed robot t) p q) :
    ∃ p' q', IsEdge robot p' q' ∧ p = (p'.1 + t.1, p'.2 + t.2) ∧ q = (q'.1 + t.1, q'.2 + t.2) := by
  obtain ⟨i, h1, h2⟩ := h
  unfold placed at h1 h2
  rw [List.length_map] at h2
  rw [List.getElem?_map, Option.map_eq_some_iff] at h1 h2
  obtain ⟨p', a1, rfl⟩ := h1
  obtain ⟨q', a2, rfl⟩ := h2
  exact ⟨p', q', ⟨i, a1, a2⟩, rfl, rfl⟩

theorem turn_placed (t p q r : V2) : turn (p.1 + t.1, p.2 + t.2) (q.1 + t.1, q.2 + t.2) (r.1 + t.1, r.2 + t.2) = turn p q r := by
  simp only [turn]; ring

theorem placed_proper (robot : List V2) (t : V2) (h : ProperEdges robot) : ProperEdges (placed robot t) := by
  refine ⟨by simpa [placed] using h.1, fun p q hpq => ?_⟩
  obtain ⟨p', q', h', rfl, rfl⟩ := placed_edge robot t p q hpq
  intro h0
  apply h.2 p' q' h'
  have h1 := congrArg Prod.fst h0
  have h2 := congrArg Prod.snd h0
  exact Prod.ext (add_right_cancel h1) (add_right_cancel h2)

theorem placed_convex (robot : List V2) (t : V2) (h : ConvexPolygon robot) : ConvexPolygon (placed robot t) := by
  obtain ⟨⟨p, hp, q, hq, r, hr, h1⟩, h2⟩ := h
  have hm : ∀ v ∈ robot, ((v.1 + t.1, v.2 + t.2) : V2) ∈ placed robot t := fun v hv => List.mem_map.2 ⟨v, hv, rfl⟩
  refine ⟨⟨_, hm p hp, _, hm q hq, _, hm r hr, by rw [turn_placed]; exact h1⟩, ?_⟩
  rcases h2 with h2 | h2
  · left
    intro p q hpq r hr
    obtain ⟨p', q', h', rfl, rfl⟩ := placed_edge robot t p q hpq
    obtain ⟨r', hr', rfl⟩ := List.mem_map.1 hr
    rw [turn_placed]
    exact h2 p' q' h' r' hr'
  · right
    intro p q hpq r hr
    obtain ⟨p', q', h', rfl, rfl⟩ := placed_edge robot t p q hpq
    obtain ⟨r', hr', rfl⟩ := List.mem_map.1 hr
    rw [turn_placed]
    exact h2 p' q' h' r' hr'

theorem pyMin_const (l : List ℝ) (c : ℝ) (hne : l ≠ []) (h : ∀ x ∈ l, x = c) : pyMin l = .ok c := by
  obtain ⟨m, h1, h2, -⟩ := pyMin_ok l hne
  rw [h1, h m h2]

theorem vertexMove_eq (robot : List V2) (m : V2 × V2) (h : robot ≠ []) : vertexMove robot m = .ok [|m.1.1 - m.2.1|, |m.1.2 - m.2.2|] := by
  unfold vertexMove
  rw [pyMin_const _ |m.1.1 - m.2.1| (by simpa using h), pyMin_const _ |m.1.2 - m.2.2| (by simpa using h)]
  · rfl
  · intro x hx
    obtain ⟨v, _, rfl⟩ := List.mem_map.1 hx
    congr 1; ring
  · intro x hx
    obtain ⟨v, _, rfl⟩ := List.mem_map.1 hx
    congr 1; ring

/-- The shared number of steps: it belongs to the largest coordinate change of the batch. -/
theorem numSteps_ok (robot : List V2) (motions : List (V2 × V2)) (hr : robot ≠ []) (hm : motions ≠ []) :
    ∃ D, numSteps robot motions = .ok (⌊D / (8 / 100)⌋₊ + 2) ∧ (∃ m ∈ motions, D = |m.1.1 - m.2.1| ∨ D = |m.1.2 - m.2.2|) ∧
      ∀ m ∈ motions, |m.1.1 - m.2.1| ≤ D ∧ |m.1.2 - m.2.2| ≤ D := by
  have h1 := mapM_ok (vertexMove robot) (fun m => [|m.1.1 - m.2.1|, |m.1.2 - m.2.2|]) motions fun m _ => vertexMove_eq robot m hr
  have hne : (motions.map fun m => [|m.1.1 - m.2.1|, |m.1.2 - m.2.2|]).flatten ≠ [] := by
    cases motions with
    | nil => exact absurd rfl hm
    | cons m l => simp
  obtain ⟨D, h2, h3, h4⟩ := pyMax_ok _ hne
  refine ⟨D, ?_, ?_, ?_⟩
  · unfold numSteps
    simp only [h1, ok_bind, h2]
    rfl
  · rw [List.mem_flatten] at h3
    obtain ⟨l, hl, hD⟩ := h3
    obtain ⟨m, hm', rfl⟩ := List.mem_map.1 hl
    exact ⟨m, hm', by simpa using hD⟩
  · intro m hm'
    constructor <;> apply h4 <;> rw [List.mem_flatten] <;> exact ⟨_, List.mem_map.2 ⟨m, hm', rfl⟩, by simp⟩

/-- All checks of one motion. -/
theorem isMotionValid_ok (robot : List V2) (hulls : List (List V2)) (motions : List (V2 × V2)) (n : ℕ)
    (hn : numSteps robot motions = .ok n) (hl : ∀ o ∈ hulls, o.length = robot.length) :
    isMotionValid robot hulls motions = .ok (motions.map fun m =>
      (hulls ×ˢ alphas n).all fun c => !rowTest robot.length (placed robot (poseAt m c.2)) c.1) := by
  unfold isMotionValid
  simp only [hn, ok_bind]
  have hfold : ∀ (cs : List (List V2 × ℝ)) (R : V2 × V2 → Bool), (∀ c ∈ cs, c.1.length = robot.length) →
      cs.foldlM (fun valids (c : List V2 × ℝ) => do
        let hits ← vecSat robot.length (motions.map fun m => intermVerts robot m c.2) (List.replicate motions.length c.1)
        return List.zipWith (fun v h => v && !h) valids hits) (motions.map R)
      = (.ok (motions.map fun m => R m && cs.all fun c => !rowTest robot.length (placed robot (poseAt m c.2)) c.1) : Except PyErr _) := by
    intro cs
    induction cs with
    | nil => intro R _; simp; rfl
    | cons c cs ih =>
      intro R hcs
      rw [List.foldlM_cons]
      have hv := vecSat_ok robot.length (motions.map fun m => intermVerts robot m c.2) (List.replicate motions.length c.1) (by simp)
        (by intro vs hvs; obtain ⟨m, _, rfl⟩ := List.mem_map.1 hvs; simp [intermVerts])
        (by intro vs hvs; rw [(List.mem_replicate.1 hvs).2]; exact hcs c (by simp))
      have hz : List.zipWith (rowTest robot.length) (motions.map fun m => intermVerts robot m c.2) (List.replicate motions.length c.1)
          = motions.map fun m => rowTest robot.length (placed robot (poseAt m c.2)) c.1 := by
        clear hv ih hn
        induction motions with
        | nil => simp
        | cons m l ih => simp [List.replicate_succ, intermVerts_eq] at ih ⊢; exact ih
      rw [hz] at hv
      simp only [hv, ok_bind]
      have hz2 : List.zipWith (fun v h => v && !h) (motions.map R) (motions.map fun m => rowTest robot.length (placed robot (poseAt m c.2)) c.1)
          = motions.map fun m => R m && !rowTest robot.length (placed robot (poseAt m c.2)) c.1 := by
        rw [List.zipWith_map, List.zipWith_self]
      rw [hz2]
      have := ih (fun m => R m && !rowTest robot.length (placed robot (poseAt m c.2)) c.1) fun c' h' => hcs c' (by simp [h'])
      show List.foldlM _ _ cs = _
      rw [this]
      simp [Bool.and_assoc]
  have h0 : List.replicate motions.length true = motions.map fun _ => true := by simp
  rw [h0, hfold (hulls ×ˢ alphas n) (fun _ => true) ?_]
  · simp
  · intro c hc
    rw [List.mem_product] at hc
    exact hl _ hc.1

/-- C53 (proved part): for every non-empty batch there is a number of poses `N`, such that for every motion the answer is "valid" exactly when the robot
placed at `start + k/(N-1) (goal - start)` shares no point with an obstacle, for all k from 0 (the start) to N-1 (the goal), and consecutive
poses are less than 0.08 apart in each coordinate. Missing: `N` is shared by the batch, see `C53_batch_dependent_false`. -/
theorem C53_motion_poses_partial (robot : List (ℝ × ℝ)) (hulls : List (List (ℝ × ℝ))) (motions : List ((ℝ × ℝ) × (ℝ × ℝ)))
    (hrob : ConvexPolygon robot ∧ ProperEdges robot) (hobs : ∀ o ∈ hulls, o.length = robot.length ∧ ConvexPolygon o ∧ ProperEdges o)
    (hm : motions ≠ []) :
    ∃ (N : ℕ) (rs : List Bool), 2 ≤ N ∧ isMotionValid robot hulls motions = .ok rs ∧ rs.length = motions.length ∧
      ∀ (i : ℕ) (m : (ℝ × ℝ) × (ℝ × ℝ)), motions[i]? = some m →
        (rs[i]? = some true ↔ ∀ k < N, ∀ o ∈ hulls,
          ¬ ∃ x, x ∈ polygonHull (placed robot (poseAt m ((k : ℝ) / ((N : ℝ) - 1)))) ∧ x ∈ polygonHull o) ∧
        (∀ k : ℕ, |(poseAt m ((k + 1 : ℕ) / ((N : ℝ) - 1))).1 - (poseAt m ((k : ℝ) / ((N : ℝ) - 1))).1| < 0.08 ∧
          |(poseAt m ((k + 1 : ℕ) / ((N : ℝ) - 1))).2 - (poseAt m ((k : ℝ) / ((N : ℝ) - 1))).2| < 0.08) ∧
        poseAt m (((0 : ℕ) : ℝ) / ((N : ℝ) - 1)) = m.1 ∧ poseAt m (((N - 1 : ℕ) : ℝ) / ((N : ℝ) - 1)) = m.2 := by
  obtain ⟨D, h1, ⟨m0, hm0, hD⟩, h2⟩ := numSteps_ok robot motions hrob.2.1 hm
  have hlt : D < 0.08 * ((⌊D / (8 / 100)⌋₊ : ℝ) + 1) := by
    have := Nat.lt_floor_add_one (D / (8 / 100))
    rw [div_lt_iff₀ (by norm_num)] at this
    linarith
  generalize ⌊D / (8 / 100)⌋₊ = F at h1 hlt
  have hN : (((F + 2 : ℕ) : ℝ) - 1) = (F : ℝ) + 1 := by push_cast; ring
  have hpos : (0 : ℝ) < (F : ℝ) + 1 := by positivity
  have hlast : ((F + 2 - 1 : ℕ) : ℝ) / (((F + 2 : ℕ) : ℝ) - 1) = 1 := by
    rw [hN, div_eq_one_iff_eq hpos.ne']
    push_cast [show F + 2 - 1 = F + 1 by omega]
    ring
  have hrs := isMotionValid_ok robot hulls motions _ h1 fun o ho => (hobs o ho).1
  have h2N : 2 ≤ F + 2 := by omega
  rw [← hN] at hlt hpos
  generalize F + 2 = N at *
  refine ⟨N, _, h2N, hrs, by simp, ?_⟩
  intro i m him
  refine ⟨?_, ?_, ?_, ?_⟩
  · rw [List.getElem?_map, him]
    simp only [Option.map_some, Option.some.injEq, List.all_eq_true, Bool.not_eq_true']
    have hrow : ∀ (o : List V2) (α : ℝ), o ∈ hulls → (rowTest robot.length (placed robot (poseAt m α)) o = false ↔
        ¬ ∃ x, x ∈ polygonHull (placed robot (poseAt m α)) ∧ x ∈ polygonHull o) := by
      intro o α ho
      obtain ⟨o1, o2, o3⟩ := hobs o ho
      have e1 := sat_eq_rowTest robot.length (placed robot (poseAt m α)) o (by simp [placed]) o1 (placed_proper _ _ hrob.2) o3
      have e2 := (C52_sat2d_exact _ o (placed_convex robot (poseAt m α) hrob.1) o2 (placed_proper _ _ hrob.2) o3).2
      rw [e1] at e2
      rw [← e2]
      cases rowTest robot.length (placed robot (poseAt m α)) o <;> simp
    constructor
    · intro h k hk o ho
      exact (hrow o _ ho).1 (h (o, _) (List.mem_product.2 ⟨ho, List.mem_map.2 ⟨k, List.mem_range.2 hk, rfl⟩⟩))
    · rintro h ⟨o, α⟩ hc
      obtain ⟨ho, hα⟩ := List.mem_product.1 hc
      obtain ⟨k, hk, rfl⟩ := List.mem_map.1 hα
      exact (hrow o _ ho).2 (h k (List.mem_range.1 hk) o ho)
  · intro k
    generalize (N : ℝ) - 1 = M at *
    obtain ⟨b1, b2⟩ := h2 m (List.mem_of_getElem? him)
    have hstep : ∀ a b : ℝ, |a - b| ≤ D → |(a + ((k + 1 : ℕ) : ℝ) / M * (b - a)) - (a + (k : ℝ) / M * (b - a))| < 0.08 := by
      intro a b hab
      have : (a + ((k + 1 : ℕ) : ℝ) / M * (b - a)) - (a + (k : ℝ) / M * (b - a)) = (b - a) / M := by
        push_cast
        field_simp
        ring
      rw [this, abs_div, abs_of_pos hpos, div_lt_iff₀ hpos, abs_sub_comm]
      exact hab.trans_lt hlt
    exact ⟨hstep _ _ b1, hstep _ _ b2⟩
  · simp [poseAt]
  · rw [hlast]
    simp [poseAt]

/-- C53 in whichever batch: a motion that is free along its whole length is accepted; and if it is accepted, every pose on it is less than 0.04
in each coordinate from a pose of the same motion in which the robot touches no obstacle. -/
theorem C53_any_batch (robot : List (ℝ × ℝ)) (hulls : List (List (ℝ × ℝ))) (motions : List ((ℝ × ℝ) × (ℝ × ℝ)))
    (hrob : ConvexPolygon robot ∧ ProperEdges robot) (hobs : ∀ o ∈ hulls, o.length = robot.length ∧ ConvexPolygon o ∧ ProperEdges o)
    {i : ℕ} {m : (ℝ × ℝ) × (ℝ × ℝ)} (hi : motions[i]? = some m) :
    ∃ rs, isMotionValid robot hulls motions = .ok rs ∧
      ((∀ t, 0 ≤ t → t ≤ 1 → ∀ o ∈ hulls, ¬ ∃ x, x ∈ polygonHull (placed robot (poseAt m t)) ∧ x ∈ polygonHull o) → rs[i]? = some true) ∧
      (rs[i]? = some true → ∀ t, 0 ≤ t → t ≤ 1 → ∃ s, 0 ≤ s ∧ s ≤ 1 ∧
        |(poseAt m s).1 - (poseAt m t).1| < 0.04 ∧ |(poseAt m s).2 - (poseAt m t).2| < 0.04 ∧
        ∀ o ∈ hulls, ¬ ∃ x, x ∈ polygonHull (placed robot (poseAt m s)) ∧ x ∈ polygonHull o) := by
  obtain ⟨N, rs, hN, h1, -, h2⟩ := C53_motion_poses_partial robot hulls motions hrob hobs (by rintro rfl; simp at hi)
  obtain ⟨hiff, hstep, -, -⟩ := h2 i m hi
  have hM : (0 : ℝ) < (N : ℝ) - 1 := by
    have : (2 : ℝ) ≤ N := by exact_mod_cast hN
    linarith
  have hle : ∀ k < N, (k : ℝ) ≤ (N : ℝ) - 1 := by
    intro k hk
    have : ((k + 1 : ℕ) : ℝ) ≤ N := by exact_mod_cast hk
    push_cast at this
    linarith
  refine ⟨rs, h1, fun h => hiff.2 fun k hk => h _ (by positivity) ((div_le_one hM).2 (hle k hk)), fun h t t0 t1 => ?_⟩
  have e1 := hstep 0
  clear h2 hstep
  have hk0 : 0 ≤ t * ((N : ℝ) - 1) + 1 / 2 := by positivity
  have f1 := Nat.floor_le hk0
  have f2 := Nat.lt_floor_add_one (t * ((N : ℝ) - 1) + 1 / 2)
  generalize ⌊t * ((N : ℝ) - 1) + 1 / 2⌋₊ = k at f1 f2
  have hk : k < N := by
    have : t * ((N : ℝ) - 1) ≤ (N : ℝ) - 1 := mul_le_of_le_one_left hM.le t1
    have : (k : ℝ) < N := by linarith
    exact_mod_cast this
  have hclose : ∀ a b : ℝ, |(a + ((0 + 1 : ℕ) : ℝ) / ((N : ℝ) - 1) * (b - a)) - (a + ((0 : ℕ) : ℝ) / ((N : ℝ) - 1) * (b - a))| < 0.08 →
      |(a + (k : ℝ) / ((N : ℝ) - 1) * (b - a)) - (a + t * (b - a))| < 0.04 := by
    intro a b hab
    have e2 : (a + ((0 + 1 : ℕ) : ℝ) / ((N : ℝ) - 1) * (b - a)) - (a + ((0 : ℕ) : ℝ) / ((N : ℝ) - 1) * (b - a)) = (b - a) / ((N : ℝ) - 1) := by
      push_cast
      ring
    have e3 : (a + (k : ℝ) / ((N : ℝ) - 1) * (b - a)) - (a + t * (b - a)) = (k - t * ((N : ℝ) - 1)) * ((b - a) / ((N : ℝ) - 1)) := by
      field_simp
      ring
    rw [e2] at hab
    rw [e3, abs_mul]
    have : |(k : ℝ) - t * ((N : ℝ) - 1)| ≤ 1 / 2 := abs_le.2 ⟨by linarith, by linarith⟩
    calc _ ≤ 1 / 2 * |(b - a) / ((N : ℝ) - 1)| := mul_le_mul_of_nonneg_right this (abs_nonneg _)
      _ < 0.04 := by norm_num at hab ⊢; linarith
  exact ⟨(k : ℝ) / ((N : ℝ) - 1), by positivity, (div_le_one hM).2 (hle k hk), hclose _ _ e1.1, hclose _ _ e1.2, hiff.1 h k hk⟩

/-- A small square robot. -/
noncomputable def smallRobot : List (ℝ × ℝ) := rect (-1/1000) (-1/1000) (1/1000) (1/1000)

/-- A thin obstacle around (0.02, 0). -/
noncomputable def thinObstacle : List (ℝ × ℝ) := rect (19/1000) (-1/1000) (21/1000) (1/1000)

theorem smallRobot_ok : ConvexPolygon smallRobot ∧ ProperEdges smallRobot :=
  ⟨rect_convex _ _ _ _ (by norm_num) (by norm_num), rect_proper _ _ _ _ (by norm_num) (by norm_num)⟩

theorem thinObstacle_ok : ∀ o ∈ [thinObstacle], o.length = smallRobot.length ∧ ConvexPolygon o ∧ ProperEdges o := by
  intro o ho
  rw [List.mem_singleton] at ho
  rw [ho]
  exact ⟨rfl, rect_convex _ _ _ _ (by norm_num) (by norm_num), rect_proper _ _ _ _ (by norm_num) (by norm_num)⟩

theorem C53_nonvacuous : (ConvexPolygon smallRobot ∧ ProperEdges smallRobot) ∧
    (∀ o ∈ [thinObstacle], o.length = smallRobot.length ∧ ConvexPolygon o ∧ ProperEdges o) ∧ [(((0, 0), (1/25, 0)) : (ℝ × ℝ) × (ℝ × ℝ))] ≠ [] :=
  ⟨smallRobot_ok, thinObstacle_ok, by simp⟩

theorem rowTest_iff (n : ℕ) (va vb : List (ℝ × ℝ)) (la : va.length = n) (lb : vb.length = n) (ca : ConvexPolygon va) (cb : ConvexPolygon vb)
    (pa : ProperEdges va) (pb : ProperEdges vb) : rowTest n va vb = true ↔ ∃ x, x ∈ polygonHull va ∧ x ∈ polygonHull vb := by
  have e1 := sat_eq_rowTest n va vb la lb pa pb
  have e2 := (C52_sat2d_exact va vb ca cb pa pb).2
  rw [e1] at e2
  rw [← e2]
  simp

theorem smallRobot_hit (x : ℝ) : rowTest smallRobot.length (placed smallRobot (x, 0)) thinObstacle = decide (|x - 1/50| ≤ 1/500) := by
  have hiff := rowTest_iff 4 (placed smallRobot (x, 0)) thinObstacle rfl rfl (placed_convex _ _ smallRobot_ok.1)
    (thinObstacle_ok _ (by simp)).2.1 (placed_proper _ _ smallRobot_ok.2) (thinObstacle_ok _ (by simp)).2.2
  have hpl : placed smallRobot (x, 0) = rect (-1/1000 + x) (-1/1000) (1/1000 + x) (1/1000) := by
    simp [placed, smallRobot, rect]
  rw [show smallRobot.length = 4 from rfl, Bool.eq_iff_iff, hiff, decide_eq_true_iff, abs_le, hpl]
  constructor
  · rintro ⟨y, h1, h2⟩
    have a1 := hull_le _ (1, 0) (1/1000 + x) (by intro v hv; simp only [rect, List.mem_cons, List.not_mem_nil, or_false] at hv; rcases hv with rfl | rfl | rfl | rfl <;> simp only [dot] <;> linarith) y h1
    have a2 := hull_ge _ (1, 0) (-1/1000 + x) (by intro v hv; simp only [rect, List.mem_cons, List.not_mem_nil, or_false] at hv; rcases hv with rfl | rfl | rfl | rfl <;> simp only [dot] <;> linarith) y h1
    have b1 := hull_le _ (1, 0) (21/1000) (by intro v hv; simp only [thinObstacle, rect, List.mem_cons, List.not_mem_nil, or_false] at hv; rcases hv with rfl | rfl | rfl | rfl <;> simp only [dot] <;> linarith) y h2
    have b2 := hull_ge _ (1, 0) (19/1000) (by intro v hv; simp only [thinObstacle, rect, List.mem_cons, List.not_mem_nil, or_false] at hv; rcases hv with rfl | rfl | rfl | rfl <;> simp only [dot] <;> linarith) y h2
    simp only [dot] at a1 a2 b1 b2
    constructor <;> linarith
  · rintro ⟨h1, h2⟩
    refine ⟨((x + 1/50) / 2, 0), rect_mem _ _ _ _ (by linarith) (by norm_num) _ ?_ ?_ (by norm_num) (by norm_num),
      rect_mem _ _ _ _ (by norm_num) (by norm_num) _ ?_ ?_ (by norm_num) (by norm_num)⟩ <;> simp only <;> linarith

/-- C53 is false as stated: the same motion is accepted when it is checked alone, although it passes through an obstacle, and rejected in
a batch with a longer motion. -/
theorem C53_batch_dependent_false :
    isMotionValid smallRobot [thinObstacle] [((0, 0), (1/25, 0))] = .ok [true] ∧
    (∃ r, isMotionValid smallRobot [thinObstacle] [((0, 0), (1/25, 0)), ((1, 0), (27/25, 0))] = .ok [false, r]) ∧
    ∃ x, x ∈ polygonHull (placed smallRobot (poseAt ((0, 0), (1/25, 0)) (1/2))) ∧ x ∈ polygonHull thinObstacle := by
  refine ⟨?_, ?_, ?_⟩
  · obtain ⟨D, h1, ⟨m, hm, hD⟩, h2⟩ := numSteps_ok smallRobot [((0, 0), (1/25, 0))] smallRobot_ok.2.1 (by simp)
    have hD' : D = 1/25 := by
      rw [List.mem_singleton] at hm
      have := (h2 _ (List.mem_singleton.2 rfl)).1
      subst hm
      norm_num [abs_of_neg] at hD this
      rcases hD with h | h <;> linarith
    rw [hD', show ⌊(1/25 : ℝ) / (8/100)⌋₊ = 0 by rw [Nat.floor_eq_zero]; norm_num] at h1
    rw [isMotionValid_ok _ _ _ _ h1 fun o ho => (thinObstacle_ok o ho).1]
    simp only [List.map_cons, List.map_nil, Except.ok.injEq, List.cons.injEq, and_true]
    rw [List.all_eq_true]
    rintro ⟨o, α⟩ hc
    obtain ⟨ho, hα⟩ := List.mem_product.1 hc
    rw [List.mem_singleton] at ho
    subst ho
    have : α = 0 ∨ α = 1 := by
      simp only [alphas, List.range_succ, List.range_zero, List.nil_append, List.map_append, List.map_cons, List.map_nil, List.mem_append, List.mem_cons,
        List.not_mem_nil, or_false] at hα
      norm_num at hα
      exact hα
    rcases this with rfl | rfl
    · simp only [poseAt, zero_mul, add_zero, smallRobot_hit]
      norm_num [abs_of_neg]
    · simp only [poseAt, one_mul, sub_self, add_zero, smallRobot_hit]
      norm_num [abs_of_pos]
  · obtain ⟨D, h1, ⟨m, hm, hD⟩, h2⟩ := numSteps_ok smallRobot [((0, 0), (1/25, 0)), ((1, 0), (27/25, 0))] smallRobot_ok.2.1 (by simp)
    have hD' : D = 2/25 := by
      have := (h2 ((1, 0), (27/25, 0)) (by simp)).1
      simp only [List.mem_cons, List.not_mem_nil, or_false] at hm
      rcases hm with rfl | rfl <;> norm_num [abs_of_neg] at hD this <;> rcases hD with h | h <;> linarith
    rw [hD', show ⌊(2/25 : ℝ) / (8/100)⌋₊ = 1 by norm_num] at h1
    have h := isMotionValid_ok _ _ _ _ h1 fun o ho => (thinObstacle_ok o ho).1
    rw [List.map_cons, List.map_singleton] at h
    generalize hx : (([thinObstacle] ×ˢ alphas (1 + 2)).all fun c =>
      !rowTest smallRobot.length (placed smallRobot (poseAt ((0, 0), (1/25, 0)) c.2)) c.1) = x at h
    suffices hf : x = false by rw [hf] at h; exact ⟨_, h⟩
    rw [← hx]
    rw [List.all_eq_false]
    refine ⟨(thinObstacle, 1/2), List.mem_product.2 ⟨by simp, ?_⟩, ?_⟩
    · refine List.mem_map.2 ⟨1, by simp, by norm_num⟩
    · have : poseAt ((0, 0), (1/25, 0)) (1/2) = (1/50, 0) := by norm_num [poseAt]
      simp only [this, smallRobot_hit]
      norm_num
  · have h := smallRobot_hit (1/50)
    have : poseAt ((0, 0), (1/25, 0)) (1/2) = (1/50, 0) := by norm_num [poseAt]
    rw [this]
    refine (rowTest_iff 4 (placed smallRobot (1/50, 0)) thinObstacle rfl rfl (placed_convex _ _ smallRobot_ok.1)
      (thinObstacle_ok _ (by simp)).2.1 (placed_proper _ _ smallRobot_ok.2) (thinObstacle_ok _ (by simp)).2.2).1 ?_
    rw [show smallRobot.length = 4 from rfl] at h
    rw [h]
    norm_num

/-- An empty batch raises. -/
theorem C53_empty_batch_raises (robot : List (ℝ × ℝ)) (hulls : List (List (ℝ × ℝ))) : isMotionValid robot hulls [] = .error .value := rfl

/-! ### C54 -/

variable {E : Type} [NormedAddCommGroup E] [NormedSpace ℝ E]

/-- The points of a piece with its start, as equally spaced points. -/
theorem innerPoints_eq (a b : E) (n : ℕ) (hn : 0 < n) :
    a :: (innerPoints a b n ++ [b]) = (List.range (n + 1)).map fun (k : ℕ) => a + ((k : ℝ) / n) • (b - a) := by
  have hn' : (n : ℝ) ≠ 0 := by positivity
  rw [List.range_succ, List.map_append, List.map_singleton, div_self hn', one_smul, add_sub_cancel]
  rw [← List.cons_append]
  congr 1
  unfold innerPoints
  obtain ⟨m, rfl⟩ : ∃ m, n = m + 1 := ⟨n - 1, by omega⟩
  rw [List.range_succ_eq_map]
  simp only [List.map_cons, List.drop_succ_cons, List.drop_zero, Nat.cast_zero, zero_div, zero_smul, add_zero, List.cons.injEq, true_and]
  apply List.map_congr_left
  intro k _
  rw [smul_smul, div_eq_mul_inv]

omit [NormedSpace ℝ E] in
theorem polyLength_append (l : List E) (a : E) (m : List E) : polyLength (l ++ a :: m) = polyLength (l ++ [a]) + polyLength (a :: m) := by
  induction l with
  | nil => simp [polyLength]
  | cons x l ih =>
    cases l with
    | nil => simp [polyLength]
    | cons y l =>
      simp only [List.cons_append, polyLength] at ih ⊢
      rw [ih, add_assoc]

omit [NormedSpace ℝ E] in
theorem polyLength_range (f : ℕ → E) (n : ℕ) (c : ℝ) (h : ∀ k < n, dist (f k) (f (k + 1)) = c) :
    polyLength ((List.range (n + 1)).map f) = n * c := by
  induction n with
  | zero => simp [polyLength]
  | succ n ih =>
    rw [List.range_succ, List.map_append, List.map_singleton]
    rw [List.range_succ, List.map_append, List.map_singleton, List.append_assoc, List.singleton_append, polyLength_append]
    have := ih fun k hk => h k (by omega)
    rw [List.range_succ, List.map_append, List.map_singleton] at this
    rw [this]
    simp only [polyLength, h n (by omega)]
    push_cast
    ring

/-- One piece of the path. -/
theorem piece_ok (thr : ℝ) (ht : 0 < thr) (a b : E) :
    (∃ l, piece thr a b = l ++ [b]) ∧ (a :: piece thr a b).IsChain (fun p q => dist p q ≤ thr) ∧
    (a :: piece thr a b).IsChain (fun p q => segment ℝ p q ⊆ segment ℝ a b) ∧ polyLength (a :: piece thr a b) = dist a b := by
  unfold piece
  split
  next h =>
    have hn : 0 < ⌈‖b - a‖ / thr⌉₊ - 1 + 2 := by omega
    have hle : ‖b - a‖ ≤ thr * ((⌈‖b - a‖ / thr⌉₊ - 1 + 2 : ℕ) : ℝ) := by
      have h1 := Nat.le_ceil (‖b - a‖ / thr)
      rw [div_le_iff₀ ht] at h1
      have h2 : (⌈‖b - a‖ / thr⌉₊ : ℝ) ≤ ((⌈‖b - a‖ / thr⌉₊ - 1 + 2 : ℕ) : ℝ) := by exact_mod_cast (by omega)
      have := mul_le_mul_of_nonneg_right h2 ht.le
      linarith
    generalize ⌈‖b - a‖ / thr⌉₊ - 1 + 2 = n at hn hle
    have hn' : (0 : ℝ) < n := by exact_mod_cast hn
    rw [innerPoints_eq a b n hn]
    have hdist : ∀ k : ℕ, dist (a + ((k : ℝ) / n) • (b - a)) (a + (((k + 1 : ℕ) : ℝ) / n) • (b - a)) = ‖b - a‖ / n := by
      intro k
      rw [dist_comm, dist_eq_norm, add_sub_add_left_eq_sub, ← sub_smul, norm_smul]
      have : (((k + 1 : ℕ) : ℝ) / n) - (k : ℝ) / n = 1 / n := by push_cast; field_simp; ring
      rw [this, Real.norm_of_nonneg (by positivity)]
      ring
    refine ⟨⟨_, rfl⟩, ?_, ?_, ?_⟩
    · rw [List.isChain_map, List.isChain_range_succ]
      intro k _
      show dist (a + ((k : ℝ) / n) • (b - a)) (a + (((k + 1 : ℕ) : ℝ) / n) • (b - a)) ≤ thr
      rw [hdist, div_le_iff₀ hn']
      exact hle
    · rw [List.isChain_map, List.isChain_range_succ]
      intro k hk
      apply (convex_segment a b).segment_subset
      · rw [segment_eq_image']
        exact ⟨(k : ℝ) / n, ⟨by positivity, by rw [div_le_one hn']; exact_mod_cast hk.le⟩, rfl⟩
      · rw [segment_eq_image']
        exact ⟨((k + 1 : ℕ) : ℝ) / n, ⟨by positivity, by rw [div_le_one hn']; exact_mod_cast hk⟩, rfl⟩
    · rw [polyLength_range _ n (‖b - a‖ / n) fun k _ => hdist k, mul_div_cancel₀ _ hn'.ne', dist_comm, dist_eq_norm]
  next h =>
    refine ⟨⟨[], rfl⟩, ?_, ?_, ?_⟩
    · rw [List.isChain_pair, dist_comm, dist_eq_norm]
      exact not_lt.1 h
    · rw [List.isChain_pair]
    · simp [polyLength]

/-- C54: for a positive threshold the interpolated path contains all waypoints in order, starts and ends like the path, has consecutive points at most the
threshold apart, runs along the pieces of the path and has the same length (so it never goes back). -/
theorem C54_interpolation (v : E) (l : List E) (thr : ℝ) (ht : 0 < thr) : ∃ res, interpolateVectors (v :: l) thr = .ok res ∧
    (v :: l).Sublist res ∧ res.head? = some v ∧ res.getLast? = (v :: l).getLast? ∧ res.IsChain (fun p q => dist p q ≤ thr) ∧
    res.IsChain (fun p q => ∃ (i : ℕ) (a b : E), (v :: l)[i]? = some a ∧ (v :: l)[i + 1]? = some b ∧ segment ℝ p q ⊆ segment ℝ a b) ∧
    polyLength res = polyLength (v :: l) := by
  refine ⟨_, rfl, ?_⟩
  induction l generalizing v with
  | nil => simp [pieces, polyLength]
  | cons b l ih =>
    obtain ⟨i1, -, i3, i4, i5, i6⟩ := ih b
    obtain ⟨⟨m, hm⟩, p1, p2, p3⟩ := piece_ok thr ht v b
    have heq : v :: pieces thr (v :: b :: l) = (v :: m) ++ (b :: pieces thr (b :: l)) := by
      show v :: (piece thr v b ++ pieces thr (b :: l)) = _
      rw [hm]
      simp
    rw [hm] at p1 p2 p3
    rw [heq]
    refine ⟨?_, rfl, ?_, ?_, ?_, ?_⟩
    · exact (List.Sublist.cons_cons v (List.nil_sublist m)).append i1
    · rw [List.getLast?_append_of_ne_nil _ (by simp), i3]
      simp
    · rw [List.isChain_split]
      exact ⟨p1, i4⟩
    · rw [List.isChain_split]
      refine ⟨p2.imp fun p q h => ⟨0, v, b, rfl, rfl, h⟩, i5.imp ?_⟩
      rintro p q ⟨i, a, c, h1, h2, h3⟩
      exact ⟨i + 1, a, c, h1, h2, h3⟩
    · rw [polyLength_append, i6]
      show polyLength (v :: (m ++ [b])) + _ = _
      rw [p3]
      rfl

theorem C54_empty_raises (thr : ℝ) : interpolateVectors ([] : List E) thr = .error .index := rfl

/-- A path of length 1 on the line with threshold 1/2 gets two more points. -/
theorem C54_nonvacuous : interpolateVectors ([0, 1] : List ℝ) (1 / 2) = .ok [0, 1/3, 2/3, 1] := by
  have hc : ⌈(1 : ℝ) / (1 / 2)⌉₊ = 2 := by
    rw [show (1 : ℝ) / (1 / 2) = (2 : ℕ) by norm_num, Nat.ceil_natCast]
  unfold interpolateVectors pieces piece innerPoints pieces
  norm_num [List.range_succ]

/-! ### C64 -/

/-- Distance of two points in the plane. -/
noncomputable def planeDist (p q : ℝ × ℝ) : ℝ := √((p.1 - q.1) ^ 2 + (p.2 - q.2) ^ 2)

/-- C64: when the corners of a box are flattened, either exactly four points are returned, which are corners of the box seen from above, pairwise at least 0.001 apart,
and every corner is closer than 0.001 to one of them (or is one of them), or AssertionError is raised. -/
theorem C64_flat_vertices (verts : List (ℝ × ℝ × ℝ)) :
    (∃ vs, oobbFlatVertices verts = .ok vs ∧ vs.length = 4 ∧ (∀ v ∈ vs, ∃ c ∈ verts, v = (c.1, c.2.1)) ∧
      vs.Pairwise (fun p q => 1 / 1000 ≤ planeDist q p) ∧ ∀ c ∈ verts, ∃ v ∈ vs, planeDist (c.1, c.2.1) v < 1 / 1000) ∨
    oobbFlatVertices verts = .error .assertion := by
  have hinv : ∀ (done rest : List (ℝ × ℝ × ℝ)) (kept : List V2), (∀ v ∈ kept, ∃ c ∈ done ++ rest, v = (c.1, c.2.1)) →
      kept.Pairwise (fun p q => 1 / 1000 ≤ planeDist q p) → (∀ c ∈ done, ∃ v ∈ kept, planeDist (c.1, c.2.1) v < 1 / 1000) →
      ∀ out, out = rest.foldl (fun kept v =>
        if kept.any (fun k => decide (√((v.1 - k.1) ^ 2 + (v.2.1 - k.2) ^ 2) < 1 / 1000)) then kept else kept ++ [(v.1, v.2.1)]) kept →
      (∀ v ∈ out, ∃ c ∈ done ++ rest, v = (c.1, c.2.1)) ∧ out.Pairwise (fun p q => 1 / 1000 ≤ planeDist q p) ∧
        ∀ c ∈ done ++ rest, ∃ v ∈ out, planeDist (c.1, c.2.1) v < 1 / 1000 := by
    intro done rest
    induction rest generalizing done with
    | nil => intro kept h1 h2 h3 out hout; subst hout; exact ⟨h1, h2, by simpa using h3⟩
    | cons c rest ih =>
      intro kept h1 h2 h3 out hout
      rw [List.foldl_cons] at hout
      have happ : done ++ c :: rest = (done ++ [c]) ++ rest := by simp
      rw [happ] at h1 ⊢
      split at hout
      next hany =>
        refine ih (done ++ [c]) kept h1 h2 ?_ out hout
        intro c' hc'
        rcases List.mem_append.1 hc' with hc' | hc'
        · exact h3 c' hc'
        · rw [List.mem_singleton] at hc'
          subst hc'
          rw [List.any_eq_true] at hany
          obtain ⟨k, hk, hd⟩ := hany
          exact ⟨k, hk, of_decide_eq_true hd⟩
      next hany =>
        rw [List.any_eq_true] at hany
        refine ih (done ++ [c]) (kept ++ [(c.1, c.2.1)]) ?_ ?_ ?_ out hout
        · intro v hv
          rcases List.mem_append.1 hv with hv | hv
          · exact h1 v hv
          · exact ⟨c, by simp, List.mem_singleton.1 hv⟩
        · rw [List.pairwise_append]
          refine ⟨h2, by simp, fun p hp q hq => ?_⟩
          rw [List.mem_singleton] at hq
          subst hq
          by_contra hlt
          exact hany ⟨p, hp, decide_eq_true (not_le.1 hlt)⟩
        · intro c' hc'
          rcases List.mem_append.1 hc' with hc' | hc'
          · obtain ⟨v, hv, h⟩ := h3 c' hc'
            exact ⟨v, by simp [hv], h⟩
          · rw [List.mem_singleton] at hc'
            subst hc'
            exact ⟨_, List.mem_append_right _ (List.mem_singleton.2 rfl), by simp [planeDist]⟩
  obtain ⟨h1, h2, h3⟩ := hinv [] verts [] (by simp) (by simp) (by simp) _ rfl
  unfold oobbFlatVertices
  split
  next h => exact .inl ⟨_, rfl, h, h1, h2, h3⟩
  next => exact .inr rfl

/-- The eight corners of a box of width 1: four points are kept. -/
theorem C64_nonvacuous : oobbFlatVertices [(0, 0, 0), (0, 0, 1), (0, 1, 0), (0, 1, 1), (1, 0, 0), (1, 0, 1), (1, 1, 0), (1, 1, 1)] =
    .ok [(0, 0), (0, 1), (1, 0), (1, 1)] := by
  have h2 : ¬ √(1 + 1 : ℝ) < 1000⁻¹ := by
    rw [not_lt]
    exact Real.le_sqrt_of_sq_le (by norm_num)
  have h3 : ¬ (1 : ℝ) < 1000⁻¹ := by norm_num
  unfold oobbFlatVertices flatten2d
  simp [h2, h3]

end Verif.Props
