import Verif.Props.HallwayExec
import Verif.Lemmas.KnnComplete
import Verif.Lemmas.HitRegion
import Verif.Lemmas.Stopping
import Verif.Spec.Ferry

/-! Solving the hallway task: C123. -/

namespace Verif.Props

open Verif.Sat2D Verif.Spec Verif.Turtlebot Verif.Hallway Verif.Prm Verif.Net Verif.Strips Verif.Commands Verif.RoverExec Verif.Bound Verif.Anytime MeasureTheory

theorem spot_free {h a b : ℝ} (h2 : h ≤ 3 / 2) (ha : 0 ≤ a) (hb : 0 ≤ b) {p : ℝ × ℝ} (hx1 : 31 / 20 + a < |p.1|) (hx2 : |p.1| < 3 - a)
    (hy : |p.2 - 3 / 4| < 7 / 10 - b) : FreeAt (rooms (3 / 2) h) (block a b) p := by
  rw [freeAt_block ha hb fun o ho => ⟨(rooms_sizes (by norm_num) h2 o ho).1.le, (rooms_sizes (by norm_num) h2 o ho).2.le⟩]
  rw [abs_lt] at hx2 hy
  unfold rooms
  simp only [List.mem_cons, List.not_mem_nil, or_false, forall_eq_or_imp, forall_eq, hallLength, thick]
  refine ⟨?_, ?_, ?_, ?_, ?_, ?_, ?_, ?_, ?_, ?_, ?_, ?_⟩
  · right; rw [lt_abs]; left; linarith
  · right; rw [lt_abs]; right; linarith
  · left; rw [lt_abs]; left; linarith
  · left; rw [lt_abs] at hx1 ⊢; rcases hx1 with h | h <;> [left; right] <;> linarith
  · left; rw [lt_abs] at hx1 ⊢; rcases hx1 with h | h <;> [left; right] <;> linarith
  · right; rw [lt_abs]; right; linarith
  · right; rw [lt_abs]; left; linarith
  · left; rw [lt_abs]; right; linarith
  · left; rw [lt_abs] at hx1 ⊢; rcases hx1 with h | h <;> [left; right] <;> linarith
  · left; rw [lt_abs] at hx1 ⊢; rcases hx1 with h | h <;> [left; right] <;> linarith
  · left; rw [lt_abs] at hx1 ⊢; rcases hx1 with h | h <;> [left; right] <;> linarith
  · left; rw [lt_abs] at hx1 ⊢; rcases hx1 with h | h <;> [left; right] <;> linarith

/-- Two positions in the same room are joined by a straight motion. `s` is the side. -/
theorem room_line {h a b δ s : ℝ} (h2 : h ≤ 3 / 2) (ha : 0 ≤ a) (hb : 0 ≤ b) (hs : s = 1 ∨ s = -1) {p q : ℝ × ℝ}
    (hp : 31 / 20 + a + δ ≤ s * p.1 ∧ s * p.1 ≤ 3 - a - δ ∧ |p.2 - 3 / 4| ≤ 7 / 10 - b - δ)
    (hq : 31 / 20 + a + δ ≤ s * q.1 ∧ s * q.1 ≤ 3 - a - δ ∧ |q.2 - 3 / 4| ≤ 7 / 10 - b - δ) :
    ∃ γ, ClearPath (freeSet (rooms (3 / 2) h) (block a b)) δ (plane p) (plane q) γ ∧ LengthAtMost γ (dist (plane p) (plane q)) := by
  refine ⟨_, straight_path ?_⟩
  rintro x ⟨u, v, hu, hv, huv, rfl⟩ y hy
  have c0 := coord_lt_of_ball hy 0
  have c1 := coord_lt_of_ball hy 1
  have e0 : (u • plane p + v • plane q) 0 = u * p.1 + v * q.1 := by simp [plane]
  have e1 : (u • plane p + v • plane q) 1 = u * p.2 + v * q.2 := by simp [plane]
  rw [e0] at c0
  rw [e1] at c1
  have hv' : v = 1 - u := by linarith
  subst hv'
  obtain ⟨p1, p2, p3⟩ := hp
  obtain ⟨q1, q2, q3⟩ := hq
  rw [abs_le] at p3 q3
  rw [abs_lt] at c0 c1
  have m1 : 31 / 20 + a + δ ≤ s * (u * p.1 + (1 - u) * q.1) := by nlinarith
  have m2 : s * (u * p.1 + (1 - u) * q.1) ≤ 3 - a - δ := by nlinarith
  have m3 : -(7 / 10 - b - δ) ≤ u * p.2 + (1 - u) * q.2 - 3 / 4 := by nlinarith
  have m4 : u * p.2 + (1 - u) * q.2 - 3 / 4 ≤ 7 / 10 - b - δ := by nlinarith
  apply spot_free h2 ha hb
  · rw [lt_abs]
    simp only
    rcases hs with rfl | rfl <;> [left; right] <;> linarith
  · rw [abs_lt]
    simp only
    rcases hs with rfl | rfl <;> constructor <;> linarith
  · rw [abs_lt]
    simp only
    constructor <;> linarith

theorem spot_side {a b δ : ℝ} {p : ℝ × ℝ} (h : Spot a b δ p) :
    ∃ s : ℝ, (s = 1 ∨ s = -1) ∧ 31 / 20 + a + δ ≤ s * p.1 ∧ s * p.1 ≤ 3 - a - δ ∧ |p.2 - 3 / 4| ≤ 7 / 10 - b - δ := by
  obtain ⟨h1, h2, h3⟩ := h
  rcases le_total 0 p.1 with hp | hp
  · rw [abs_of_nonneg hp] at h1 h2
    exact ⟨1, Or.inl rfl, by linarith, by linarith, h3⟩
  · rw [abs_of_nonpos hp] at h1 h2
    exact ⟨-1, Or.inr rfl, by linarith, by linarith, h3⟩

/-- C123, paths: a body that is lower than the gap (by `2 δ`) and fits into the rooms can be moved between any two places in the rooms at which it keeps distance `δ` from the walls, with this clearance all the way. -/
theorem C123_paths {scale dd : ℝ} {num : ℕ} {u : ℕ → ℝ} {P : Problem} (hP : hallwayManip scale dd num u = .ok P) (hg : P.gap ≤ 7 / 5)
    {a b δ : ℝ} (ha : 0 ≤ a) (hb : 0 ≤ b) (hδ : 0 ≤ δ) (hfit : a + δ ≤ 7 / 10) (hgap : δ ≤ P.gap / 2 - b) {p q : ℝ × ℝ} (hp : Spot a b δ p) (hq : Spot a b δ q) :
    ∃ γ, ClearPath (freeSet P.obstacles (block a b)) δ (plane p) (plane q) γ ∧ LengthAtMost γ (15 / 2) := by
  obtain ⟨-, -, -, ho, -⟩ := manip_eq hP
  rw [ho]
  have h2 : P.gap + 1 / 10 ≤ 3 / 2 := by linarith
  obtain ⟨s, hs, ps⟩ := spot_side hp
  obtain ⟨t, ht, qt⟩ := spot_side hq
  have hc : ∀ s : ℝ, (s = 1 ∨ s = -1) → 31 / 20 + a + δ ≤ s * (s * (9 / 4)) ∧ s * (s * (9 / 4)) ≤ 3 - a - δ ∧ |(3 / 4 : ℝ) - 3 / 4| ≤ 7 / 10 - b - δ := by
    rintro s (rfl | rfl) <;> refine ⟨by linarith, by linarith, ?_⟩ <;> rw [sub_self, abs_zero] <;> linarith
  have hdist : ∀ {s : ℝ} {p : ℝ × ℝ}, (s = 1 ∨ s = -1) → 31 / 20 + a + δ ≤ s * p.1 ∧ s * p.1 ≤ 3 - a - δ ∧ |p.2 - 3 / 4| ≤ 7 / 10 - b - δ →
      dist (plane p) (plane (s * (9 / 4), 3 / 4)) ≤ 3 / 2 := by
    intro s p hs ⟨h1, h2, h3⟩
    rw [EuclideanSpace.dist_eq, Fin.sum_univ_two]
    simp only [plane, if_true, Fin.isValue, one_ne_zero, if_false, Real.dist_eq, sq_abs]
    apply Real.sqrt_le_iff.2
    rw [abs_le] at h3
    have k1 : -(3 / 4) ≤ p.1 - s * (9 / 4) ∧ p.1 - s * (9 / 4) ≤ 3 / 4 := by rcases hs with rfl | rfl <;> constructor <;> linarith
    exact ⟨by norm_num, by nlinarith [k1.1, k1.2]⟩
  obtain ⟨γ1, c1, l1⟩ := room_line h2 ha hb hs ps (hc s hs) (q := (s * (9 / 4), 3 / 4))
  obtain ⟨γ3, c3, l3⟩ := room_line h2 ha hb ht (hc t ht) qt (p := (t * (9 / 4), 3 / 4))
  have habs : ∀ s : ℝ, (s = 1 ∨ s = -1) → |s * (9 / 4)| = 9 / 4 := by rintro s (rfl | rfl) <;> norm_num
  have hmid : ∀ x ∈ segment ℝ (plane (s * (9 / 4), 3 / 4)) (plane (t * (9 / 4), 3 / 4)), Metric.ball x δ ⊆ freeSet (rooms (3 / 2) (P.gap + 1 / 10)) (block a b) := by
    rintro x ⟨u, v, hu, hv, huv, rfl⟩ y hy
    have d0 := coord_lt_of_ball hy 0
    have d1 := coord_lt_of_ball hy 1
    have e0 : (u • plane (s * (9 / 4), 3 / 4) + v • plane (t * (9 / 4), 3 / 4)) 0 = u * (s * (9 / 4)) + v * (t * (9 / 4)) := by simp [plane]
    have e1 : (u • plane (s * (9 / 4), 3 / 4) + v • plane (t * (9 / 4), 3 / 4)) 1 = 3 / 4 := by
      simp [plane]; rw [← add_mul, huv, one_mul]
    rw [e0] at d0
    rw [e1] at d1
    apply rooms_free (by norm_num) h2 ha hb
    · simp only
      have k1 : |u * (s * (9 / 4)) + v * (t * (9 / 4))| ≤ 9 / 4 := by
        calc |u * (s * (9 / 4)) + v * (t * (9 / 4))| ≤ |u * (s * (9 / 4))| + |v * (t * (9 / 4))| := abs_add_le _ _
          _ = u * |s * (9 / 4)| + v * |t * (9 / 4)| := by rw [abs_mul u, abs_mul v, abs_of_nonneg hu, abs_of_nonneg hv]
          _ = 9 / 4 := by rw [habs s hs, habs t ht, ← add_mul, huv, one_mul]
      have k2 : |y 0| ≤ |y 0 - (u * (s * (9 / 4)) + v * (t * (9 / 4)))| + |u * (s * (9 / 4)) + v * (t * (9 / 4))| := by
        have := abs_add_le (y 0 - (u * (s * (9 / 4)) + v * (t * (9 / 4)))) (u * (s * (9 / 4)) + v * (t * (9 / 4)))
        rwa [sub_add_cancel] at this
      linarith
    · simp only
      rw [show (3 : ℝ) / 2 / 2 = 3 / 4 by norm_num]
      linarith
  obtain ⟨c2, l2⟩ := straight_path hmid
  obtain ⟨c12, l12⟩ := ClearPath.concat c1 c2 l1 l2 dist_nonneg dist_nonneg
  obtain ⟨c, l⟩ := ClearPath.concat c12 c3 l12 l3 (by positivity) dist_nonneg
  refine ⟨_, c, l.trans (ENNReal.ofReal_le_ofReal ?_)⟩
  have d1 := hdist hs ps
  have d3 := hdist ht qt
  have d2 : dist (plane (s * (9 / 4), 3 / 4)) (plane (t * (9 / 4), 3 / 4)) ≤ 9 / 2 := by
    rw [EuclideanSpace.dist_eq, Fin.sum_univ_two]
    simp only [plane, if_true, Fin.isValue, one_ne_zero, if_false, Real.dist_eq, sq_abs]
    apply Real.sqrt_le_iff.2
    refine ⟨by norm_num, ?_⟩
    rcases hs with rfl | rfl <;> rcases ht with rfl | rfl <;> norm_num
  rw [dist_comm] at d3
  linarith

section Plan

variable {α : Type}

/-- From a state in which the facts for the remaining rows hold, the plan is executable, and what it does not touch stays. -/
theorem ferry_executes (rover : α) (conf : α → α) (traj : ℕ → α) : ∀ (rows : List (α × α × α)) (q : α) (j : ℕ) (s : Set (RoverFact α)),
    (rows.map Prod.fst).Nodup → (∀ f ∈ ferryFacts rover conf traj q j rows, f ∈ s) → .rover rover ∈ s → .hfree ∈ s → .atConf rover q ∈ s →
    (∀ r ∈ rows, .target r.1 ∈ s ∧ .pose r.1 r.2.2 ∈ s ∧ .atPose r.1 r.2.1 ∈ s) →
    ∃ s', Executes RoverAction.op s (ferryPlan rover conf traj q j rows) s' ∧ (∀ r ∈ rows, .atPose r.1 r.2.2 ∈ s') ∧
      ∀ o x, o ∉ rows.map Prod.fst → .atPose o x ∈ s → .atPose o x ∈ s'
  | [], q, j, s, _, _, _, _, _, _ => ⟨s, rfl, by simp, fun _ _ _ h => h⟩
  | r :: rows, q, j, s, hn, hf, hr, hh, hq, hrows => by
    obtain ⟨t1, t2, t3⟩ := hrows r (by simp)
    simp only [ferryFacts, List.forall_mem_cons] at hf
    obtain ⟨f1, f2, f3, f4, f5⟩ := hf
    rw [List.map_cons, List.nodup_cons] at hn
    set a1 : RoverAction α := .pick rover q (traj j) (conf r.2.1) r.2.1 r.1 with ha1
    set a2 : RoverAction α := .place rover (conf r.2.1) (traj (j + 1)) (conf r.2.2) r.2.2 r.1 with ha2
    have app1 : a1.op.Applicable s := by
      intro f hm
      simp only [ha1, RoverAction.op, List.mem_cons, List.not_mem_nil, or_false] at hm
      rcases hm with rfl | rfl | rfl | rfl | rfl | rfl | rfl <;> assumption
    have keep : ∀ f : RoverFact α, f ∈ s → (∀ q, f ≠ .atConf rover q) → f ≠ .hfree → f ≠ .atPose r.1 r.2.1 → (∀ o, f ≠ .holding o) → f ∈ a2.op.apply (a1.op.apply s) := by
      intro f hs k1 k2 k3 k4
      simp only [mem_apply, ha1, ha2, RoverAction.op, List.mem_cons, List.not_mem_nil, or_false]
      exact Or.inl ⟨Or.inl ⟨hs, by simp [k1, k2, k3]⟩, by simp [k1, k4]⟩
    have app2 : a2.op.Applicable (a1.op.apply s) := by
      intro f hm
      simp only [ha2, RoverAction.op, List.mem_cons, List.not_mem_nil, or_false] at hm
      rcases hm with rfl | rfl | rfl | rfl | rfl | rfl | rfl <;> simp [mem_apply, ha1, RoverAction.op, hr, f3, t1, t2, f4]
    have hstatic : ∀ (rows' : List (α × α × α)) q' j', ∀ f ∈ ferryFacts rover conf traj q' j' rows', (∀ q, f ≠ .atConf rover q) ∧ f ≠ .hfree ∧ (∀ o x, f ≠ .atPose o x) ∧ ∀ o, f ≠ .holding o := by
      intro rows'
      induction rows' with
      | nil => simp [ferryFacts]
      | cons r' rows' ih =>
        intro q' j' f hm
        simp only [ferryFacts, List.mem_cons] at hm
        rcases hm with rfl | rfl | rfl | rfl | hm
        · simp
        · simp
        · simp
        · simp
        · exact ih _ _ f hm
    obtain ⟨s', e1, e2, e3⟩ := ferry_executes rover conf traj rows (conf r.2.2) (j + 2) (a2.op.apply (a1.op.apply s)) hn.2
      (fun f hm => by
        obtain ⟨k1, k2, k3, k4⟩ := hstatic _ _ _ f hm
        exact keep f (f5 f hm) k1 k2 (k3 _ _) k4)
      (keep _ hr (by simp) (by simp) (by simp) (by simp)) (by simp [mem_apply, ha2, RoverAction.op]) (by simp [mem_apply, ha2, RoverAction.op])
      (fun r' hm => by
        obtain ⟨u1, u2, u3⟩ := hrows r' (by simp [hm])
        have hne : r'.1 ≠ r.1 := fun e => hn.1 (e ▸ List.mem_map.2 ⟨r', hm, rfl⟩)
        exact ⟨keep _ u1 (by simp) (by simp) (by simp) (by simp), keep _ u2 (by simp) (by simp) (by simp) (by simp),
          keep _ u3 (by simp) (by simp) (by simp [hne]) (by simp)⟩)
    refine ⟨s', ⟨app1, app2, e1⟩, List.forall_mem_cons.2 ⟨?_, e2⟩, ?_⟩
    · exact e3 _ _ hn.1 (by simp [mem_apply, ha2, RoverAction.op])
    · intro o x ho hox
      rw [List.map_cons, List.mem_cons, not_or] at ho
      exact e3 _ _ ho.2 (keep _ hox (by simp) (by simp) (by simp [ho.1]) (by simp))

/-- C123, plan: once the streams have certified the facts for it, the plan that carries the targets over one by one is executable and reaches the goal. -/
theorem C123_plan (p : RoverProblem α) (hn : p.targets.Nodup) (hl : p.targets.length ≤ p.initPoses.length ∧ p.targets.length ≤ p.goalPoses.length) (conf : α → α) (traj : ℕ → α) :
    ∃ s, Executes RoverAction.op (p.start {f | f ∈ ferryFacts p.rover conf traj p.initConf 0 p.rows}) (ferryPlan p.rover conf traj p.initConf 0 p.rows) s ∧
      ∀ f ∈ p.goal, f ∈ s := by
  have hrow : (p.rows.map Prod.fst).Nodup := by
    unfold RoverProblem.rows
    rwa [List.map_fst_zip (by rw [List.length_zip]; exact le_min hl.1 hl.2)]
  obtain ⟨s, h1, h2, -⟩ := ferry_executes p.rover conf traj p.rows p.initConf 0 (p.start {f | f ∈ ferryFacts p.rover conf traj p.initConf 0 p.rows}) hrow
    (fun f hf => Or.inr hf) (Or.inl (by simp [RoverProblem.init])) (Or.inl (by simp [RoverProblem.init])) (Or.inl (by simp [RoverProblem.init]))
    (fun r hr => by
      refine ⟨Or.inl ?_, Or.inl ?_, Or.inl ?_⟩ <;> simp only [RoverProblem.init, List.mem_append, List.mem_flatMap] <;> right <;> right <;>
        exact ⟨r, hr, by simp⟩)
  refine ⟨s, h1, fun f hf => ?_⟩
  obtain ⟨r, hr, rfl⟩ := List.mem_map.1 hf
  exact h2 r hr

end Plan

theorem plane_eta (x : Space 2) : plane (x 0, x 1) = x := by
  ext i
  fin_cases i <;> simp [plane]

theorem spot_house {a b δ h : ℝ} (ha : 0 ≤ a) (hb : 0 ≤ b) (hδ : 0 ≤ δ) {p : ℝ × ℝ} (hs : Spot a b δ p) : p ∈ house (3 / 2) h := by
  obtain ⟨h1, h2, h3⟩ := hs
  rw [abs_le] at h2 h3
  rw [le_abs] at h1
  rcases h1 with h1 | h1
  · right; exact ⟨by linarith, by linarith, by linarith, by linarith⟩
  · left; left; exact ⟨by linarith, by linarith, by linarith, by linarith⟩

/-- The places of a body with half-widths `a`, `b` in the room on side `s` (1: right, −1: left) from which it could be moved straight through the hallway. -/
def lane (gap a b s : ℝ) : Set (Space 2) := {x | 31 / 20 + a < s * x 0 ∧ s * x 0 < 3 - a ∧ |x 1 - 3 / 4| < gap / 2 - b}

theorem lane_eq {gap a b s : ℝ} (hs : s = 1 ∨ s = -1) :
    lane gap a b s = if s = 1 then openBox (31 / 20 + a) (3 - a) (3 / 4 - (gap / 2 - b)) (3 / 4 + (gap / 2 - b))
      else openBox (-(3 - a)) (-(31 / 20 + a)) (3 / 4 - (gap / 2 - b)) (3 / 4 + (gap / 2 - b)) := by
  ext x
  rcases hs with rfl | rfl
  · simp only [lane, openBox, Set.mem_ofPred_eq, Set.mem_Ioo, abs_lt, if_true]
    constructor
    · rintro ⟨h1, h2, h3, h4⟩; exact ⟨⟨by linarith, by linarith⟩, by linarith, by linarith⟩
    · rintro ⟨⟨h1, h2⟩, h3, h4⟩; exact ⟨by linarith, by linarith, by linarith, by linarith⟩
  · rw [if_neg (by norm_num)]
    simp only [lane, openBox, Set.mem_ofPred_eq, Set.mem_Ioo, abs_lt]
    constructor
    · rintro ⟨h1, h2, h3, h4⟩; exact ⟨⟨by linarith, by linarith⟩, by linarith, by linarith⟩
    · rintro ⟨⟨h1, h2⟩, h3, h4⟩; exact ⟨by linarith, by linarith, by linarith, by linarith⟩

theorem mix_lt {c y z M : ℝ} (c0 : 0 ≤ c) (c1 : c ≤ 1) (hy : y < M) (hz : z < M) : c * y + (1 - c) * z < M := by
  rcases eq_or_lt_of_le c0 with rfl | c0
  · linarith
  · nlinarith

theorem lt_mix {c y z M : ℝ} (c0 : 0 ≤ c) (c1 : c ≤ 1) (hy : M < y) (hz : M < z) : M < c * y + (1 - c) * z := by
  rcases eq_or_lt_of_le c0 with rfl | c0
  · linarith
  · nlinarith

/-- A roadmap with a sample in both lanes answers queries between places in the rooms. -/
theorem lane_query {scale dd : ℝ} {num : ℕ} {u : ℕ → ℝ} {P : Problem} (hP : hallwayManip scale dd num u = .ok P) (hg : P.gap ≤ 7 / 5)
    {a b : ℝ} (ha : 0 < a) (hb : 0 < b) (hreach : (29 / 20 - 2 * a) ^ 2 + (7 / 5 - 2 * b) ^ 2 ≤ (31 / 20 + a) ^ 2) {x : ℕ → ℝ × ℝ} {w : World (Space 2) ℝ}
    (hT : TurtleWorld w (rect (-a) (-b) a b) (P.obstacles.map Box.corners) x) (hK : KnnWorld w) {δ : ℝ} (hδ : 0 < δ) {p q : ℝ × ℝ} (hp : Spot a b δ p) (hq : Spot a b δ q)
    {m k : ℕ} (hm : m ≤ k + 1) (d : ℕ) (hlane : ∀ s : ℝ, s = 1 ∨ s = -1 → ∃ l < m, plane (x (d + 1 + l)) ∈ lane P.gap a b s) :
    w.check (plane p) (plane p) = true ∧ w.check (plane q) (plane q) = true ∧ ∀ ops : List (Knn.Op (Space 2) ℝ), (∀ o ∈ ops, o ≠ .reset ∧ ∀ k', o ≠ .setNeighbors k') →
      (((Knn.init k false d).run w ops).grow w m).2 = .ok () → ∀ c, (((Knn.init k false d).run w (ops ++ [.grow m])).query w (plane p) (plane q)).2 ≠ .ok (c, []) := by
  obtain ⟨-, -, -, ho, -⟩ := manip_eq hP
  have h3 : P.gap + 1 / 10 ≤ 3 / 2 := by linarith
  have hcheck : ∀ y z : Space 2, (∀ c ∈ Set.Icc (0 : ℝ) 1, FreeAt P.obstacles (block a b) (c * y 0 + (1 - c) * z 0, c * y 1 + (1 - c) * z 1)) → w.check y z = true := by
    intro y z hyz
    apply hT.check
    intro motions n hn
    refine C90_free hP hg ha hb hn ?_
    rintro _ ⟨c, c', hc, hc', hcc, rfl⟩
    have := hyz c ⟨hc, by linarith⟩
    rw [show 1 - c = c' by linarith] at this
    simpa using this
  have hroom : ∀ (s : ℝ) (y z : Space 2), s = 1 ∨ s = -1 → 31 / 20 + a < s * y 0 ∧ s * y 0 < 3 - a ∧ |y 1 - 3 / 4| < 7 / 10 - b →
      31 / 20 + a < s * z 0 ∧ s * z 0 < 3 - a ∧ |z 1 - 3 / 4| < 7 / 10 - b → w.check y z = true := by
    rintro s y z hs ⟨y1, y2, y3⟩ ⟨z1, z2, z3⟩
    apply hcheck
    rintro c ⟨c0, c1⟩
    rw [ho]
    rw [abs_lt] at y3 z3
    have m1 := lt_mix c0 c1 y1 z1
    have m2 := mix_lt c0 c1 y2 z2
    have m3 := lt_mix c0 c1 (show 3 / 4 - (7 / 10 - b) < y 1 by linarith) (show 3 / 4 - (7 / 10 - b) < z 1 by linarith)
    have m4 := mix_lt c0 c1 (show y 1 < 3 / 4 + (7 / 10 - b) by linarith) (show z 1 < 3 / 4 + (7 / 10 - b) by linarith)
    apply spot_free h3 ha.le hb.le
    · rw [lt_abs]
      simp only
      rcases hs with rfl | rfl <;> [left; right] <;> linarith
    · rw [abs_lt]
      simp only
      rcases hs with rfl | rfl <;> constructor <;> linarith
    · rw [abs_lt]
      simp only
      constructor <;> linarith
  have hspot : ∀ r : ℝ × ℝ, Spot a b δ r → ∃ s : ℝ, (s = 1 ∨ s = -1) ∧ 31 / 20 + a < s * plane r 0 ∧ s * plane r 0 < 3 - a ∧ |plane r 1 - 3 / 4| < 7 / 10 - b := by
    intro r hr
    obtain ⟨s, hs, s1, s2, s3⟩ := spot_side hr
    refine ⟨s, hs, ?_, ?_, ?_⟩ <;> simp only [plane, if_true, Fin.isValue, one_ne_zero, if_false] <;> linarith
  have hlr : ∀ (s : ℝ) (y : Space 2), y ∈ lane P.gap a b s → 31 / 20 + a < s * y 0 ∧ s * y 0 < 3 - a ∧ |y 1 - 3 / 4| < 7 / 10 - b := by
    rintro s y ⟨y1, y2, y3⟩
    exact ⟨y1, y2, by linarith⟩
  have hcross : ∀ (s t : ℝ) (y z : Space 2), s = 1 ∨ s = -1 → t = 1 ∨ t = -1 → y ∈ lane P.gap a b s → z ∈ lane P.gap a b t → w.check y z = true := by
    rintro s t y z hs ht ⟨y1, y2, y3⟩ ⟨z1, z2, z3⟩
    apply hcheck
    rintro c ⟨c0, c1⟩
    rw [ho]
    have ya : -(3 - a) < y 0 ∧ y 0 < 3 - a := by rcases hs with rfl | rfl <;> constructor <;> linarith
    have za : -(3 - a) < z 0 ∧ z 0 < 3 - a := by rcases ht with rfl | rfl <;> constructor <;> linarith
    rw [abs_lt] at y3 z3
    have k1 : |c * y 0 + (1 - c) * z 0| < 3 - a := by
      rw [abs_lt]
      exact ⟨lt_mix c0 c1 ya.1 za.1, mix_lt c0 c1 ya.2 za.2⟩
    have k2 : |c * y 1 + (1 - c) * z 1 - 3 / 4| < P.gap / 2 - b := by
      rw [abs_lt]
      have m3 := lt_mix c0 c1 (show 3 / 4 - (P.gap / 2 - b) < y 1 by linarith) (show 3 / 4 - (P.gap / 2 - b) < z 1 by linarith)
      have m4 := mix_lt c0 c1 (show y 1 < 3 / 4 + (P.gap / 2 - b) by linarith) (show z 1 < 3 / 4 + (P.gap / 2 - b) by linarith)
      constructor <;> linarith
    apply rooms_free (by norm_num) h3 ha.le hb.le
    · simp only
      linarith
    · simp only
      rw [show (3 : ℝ) / 2 / 2 = 3 / 4 by norm_num]
      linarith
  have hdist : ∀ (s : ℝ) (y z : Space 2), s = 1 ∨ s = -1 → 31 / 20 + a < s * y 0 ∧ s * y 0 < 3 - a ∧ |y 1 - 3 / 4| < 7 / 10 - b →
      31 / 20 + a < s * z 0 ∧ s * z 0 < 3 - a ∧ |z 1 - 3 / 4| < 7 / 10 - b → dist y z ≤ 31 / 20 + a := by
    rintro s y z hs ⟨y1, y2, y3⟩ ⟨z1, z2, z3⟩
    rw [EuclideanSpace.dist_eq, Fin.sum_univ_two, Real.dist_eq, Real.dist_eq, sq_abs, sq_abs]
    apply Real.sqrt_le_iff.2
    refine ⟨by linarith, le_trans (add_le_add ?_ ?_) hreach⟩
    · apply sq_le_sq'
      · rcases hs with rfl | rfl <;> linarith
      · rcases hs with rfl | rfl <;> linarith
    · rw [abs_lt] at y3 z3
      apply sq_le_sq' <;> linarith
  obtain ⟨s, hs, ps⟩ := hspot p hp
  obtain ⟨t, ht, qt⟩ := hspot q hq
  refine ⟨hroom s _ _ hs ps ps, hroom t _ _ ht qt qt, ?_⟩
  intro ops hops hgrow
  obtain ⟨lr, hlr1, hlr2⟩ := hlane 1 (Or.inl rfl)
  obtain ⟨ll, hll1, hll2⟩ := hlane (-1) (Or.inr rfl)
  obtain ⟨ls, hls1, hls2⟩ := hlane s hs
  obtain ⟨lt, hlt1, hlt2⟩ := hlane t ht
  refine complete_query hT.sound hT.dist hK hops hgrow hm (r := 31 / 20 + a) hlr1 hll1 ?_ hls1 hlt1 ?_ ?_ ?_
  · rw [hT.draw, hT.draw]
    have h4 := hlr2.1
    have h5 := hll2.1
    have : |plane (x (d + 1 + lr)) 0 - plane (x (d + 1 + ll)) 0| ≤ dist (plane (x (d + 1 + lr))) (plane (x (d + 1 + ll))) := by
      rw [dist_eq_norm]
      exact PiLp.norm_apply_le (plane (x (d + 1 + lr)) - plane (x (d + 1 + ll))) 0
    rw [abs_of_pos (by linarith)] at this
    linarith
  · rw [hT.draw]
    exact ⟨hdist s _ _ hs (hlr _ _ hls2) ps, hroom s _ _ hs ps (hlr _ _ hls2)⟩
  · rw [hT.draw]
    exact ⟨hdist t _ _ ht (hlr _ _ hlt2) qt, hroom t _ _ ht qt (hlr _ _ hlt2)⟩
  · rw [hT.draw, hT.draw]
    exact Or.inr (Or.inl (hcross s t _ _ hs ht hls2 hlt2))

/-- At most `k + 1` samples, one in each lane: the planning call finds a path. -/
theorem lane_plan {scale dd : ℝ} {num : ℕ} {u : ℕ → ℝ} {P : Problem} (hP : hallwayManip scale dd num u = .ok P) (hg : P.gap ≤ 7 / 5)
    {a b : ℝ} (ha : 0 < a) (hb : 0 < b) (hreach : (29 / 20 - 2 * a) ^ 2 + (7 / 5 - 2 * b) ^ 2 ≤ (31 / 20 + a) ^ 2) {x : ℕ → ℝ × ℝ} {w : World (Space 2) ℝ}
    (hT : TurtleWorld w (rect (-a) (-b) a b) (P.obstacles.map Box.corners) x) (hK : KnnWorld w) {δ : ℝ} (hδ : 0 < δ) {p q : ℝ × ℝ} (hp : Spot a b δ p) (hq : Spot a b δ q)
    {minS maxS : ℕ} (h2 : 2 ≤ minS) {factor : ℝ} (hf : 1 ≤ minS * (factor - 1)) {i : ℕ} (hi : minS * factor ^ i < maxS + 1) {k : ℕ} (hk : 1 ≤ k)
    (hm : ⌊minS * factor ^ i⌋₊ ≤ k + 1) (d : ℕ) (hlane : ∀ s : ℝ, s = 1 ∨ s = -1 → ∃ l < ⌊minS * factor ^ i⌋₊, plane (x (d + 1 + l)) ∈ lane P.gap a b s) :
    ∃ fuel counts path, plan w (plane p) (plane q) minS maxS factor k false d fuel = some (counts, .ok (some path)) := by
  obtain ⟨c1, c2, hquery⟩ := lane_query hP hg ha hb hreach hT hK hδ hp hq hm d hlane
  obtain ⟨fuel, counts, answer, hpl, hnone⟩ := plan_no_path hT.sound hK.exact c1 c2 h2 hf hk false d hi
  cases answer with
  | some path => exact ⟨fuel, counts, path, hpl⟩
  | none =>
    obtain ⟨ops, hops, hgrow, c, hc⟩ := hnone rfl
    exact absurd hc (hquery ops hops hgrow c)

/-- A path of the planning call becomes a motion of the stream. -/
theorem stream_of_plan {w : World (Space 2) ℝ} {opt : Options ℝ} {a b : Space 2} {drawn fuel : ℕ} {counts : List ℕ}
    {path : List (Space 2)} (h : plan w a b opt.minS opt.maxS opt.factor 32 false drawn fuel = some (counts, .ok (some path))) :
    ∃ res, motionStream w opt a b drawn fuel = some (.ok (some res)) := by
  have hp : ∃ l, path = a :: l := by
    unfold plan planBy at h
    split at h
    · simp at h
    split at h
    · simp at h
    split at h
    · simp at h
    · simp at h
    · rename_i s _
      simp only [Option.some.injEq, Prod.mk.injEq] at h
      have h2 := h.2
      unfold finish at h2
      split at h2
      all_goals first
        | (simp at h2; done)
        | (simp only [Except.ok.injEq, Option.some.injEq] at h2; exact ⟨_, h2.symm⟩)
  obtain ⟨l, rfl⟩ := hp
  cases ht : opt.teleport with
  | true => exact ⟨_, by simp only [motionStream, h, ht, if_true]; rfl⟩
  | false =>
    obtain ⟨res, hres, -⟩ := C54_interpolation a l (25 / 1000) (by norm_num)
    refine ⟨res, ?_⟩
    simp only [motionStream, h, ht, hres, Except.map]
    rfl

section Solve

variable {α : Type} [DecidableEq α]

omit [DecidableEq α] in
theorem ferryCalls_length (conf : α → α) : ∀ (rows : List (α × α × α)) (q : α), (ferryCalls conf q rows).length = 2 * rows.length
  | [], _ => rfl
  | r :: rows, q => by simp [ferryCalls, ferryCalls_length conf rows]; ring

omit [DecidableEq α] in
/-- The ends of the calls. -/
theorem ferryCalls_ends (conf : α → α) {R : Option α → α → Prop} : ∀ (rows : List (α × α × α)) (q : α), R none q →
    (∀ r ∈ rows, ∀ o ∈ [none, some r.1], ∀ x ∈ [r.2.1, r.2.2], R o (conf x)) → ∀ c ∈ ferryCalls conf q rows, R c.1 c.2.1 ∧ R c.1 c.2.2
  | [], _, _, _ => by simp [ferryCalls]
  | r :: rows, q, hq, h => by
    have h0 := h r (by simp)
    simp only [List.forall_mem_cons, List.not_mem_nil, false_implies, implies_true, and_true] at h0
    obtain ⟨⟨h1, h2⟩, h3, h4⟩ := h0
    intro c hc
    simp only [ferryCalls, List.mem_cons] at hc
    rcases hc with rfl | rfl | hc
    · exact ⟨hq, h1⟩
    · exact ⟨h3, h4⟩
    · exact ferryCalls_ends conf rows (conf r.2.2) h2 (fun r' hr' => h r' (by simp [hr'])) c hc

variable {Ω : Type*} [MeasurableSpace Ω] {Pr : Measure Ω} [IsProbabilityMeasure Pr]

/-- The draws that the calls of the streams need. -/
theorem ferry_draws {scale dd : ℝ} {num : ℕ} {u : ℕ → ℝ} {P : Problem} (hP : hallwayManip scale dd num u = .ok P) (hg0 : 0 ≤ P.gap) (hg : P.gap ≤ 7 / 5)
    {bounds : (ℝ × ℝ) × (ℝ × ℝ)} (hbd : extents P.obstacles = .ok bounds) {U : ℕ → Ω → Fin 2 → ℝ} (hU : UnitDraws Pr U)
    (p : RoverProblem α) (hl : p.targets.length ≤ p.initPoses.length ∧ p.targets.length ≤ p.goalPoses.length)
    (val : Values α (Space 2)) (hstart : val.conf p.initConf = plane P.start) (conf : α → α)
    (hconf : ∀ r ∈ p.rows, val.conf (conf r.2.1) = ik (val.pose r.2.1) ∧ val.conf (conf r.2.2) = ik (val.pose r.2.2))
    {a b : Option α → ℝ} (ha : ∀ o, 0 < a o) (hb : ∀ o, 0 < b o) {δ : ℝ} (hfit : a none + δ ≤ 7 / 10 ∧ b none + δ ≤ 7 / 10)
    (hspot : ∀ r ∈ p.rows, ∀ o ∈ [none, some r.1], ∀ x ∈ [r.2.1, r.2.2], Spot (a o) (b o) δ (val.pose x 0, val.pose x 1))
    {β : ℝ} (hβ0 : 0 ≤ β) (hβ : ∀ o, a o ≤ 29 / 40 ∧ β ≤ (29 / 20 - 2 * a o) * (P.gap - 2 * b o)) (m : ℕ) {d : ℕ → Ω → ℕ} (hd : ∀ j, NoLookAhead U (d j)) :
    Pr {ω | ¬ ∀ j c, (ferryCalls conf p.initConf p.rows)[j]? = some c →
        Spot (a c.1) (b c.1) δ (val.conf c.2.1 0, val.conf c.2.1 1) ∧ Spot (a c.1) (b c.1) δ (val.conf c.2.2 0, val.conf c.2.2 1) ∧
        ∀ s : ℝ, s = 1 ∨ s = -1 → ∃ l < m, plane (sampleFromEnv bounds (U (d j ω + 1 + l) ω 0, U (d j ω + 1 + l) ω 1)) ∈ lane P.gap (a c.1) (b c.1) s} ≤
      (2 * p.targets.length : ℕ) * (2 * ENNReal.ofReal ((1 - β / 9.92) ^ m)) := by
  have hlen : (ferryCalls conf p.initConf p.rows).length = 2 * p.targets.length := by
    rw [ferryCalls_length]
    congr 1
    simp only [RoverProblem.rows, List.length_zip]
    omega
  obtain ⟨-, -, -, -, hst⟩ := manip_eq hP
  have hends := ferryCalls_ends conf (R := fun o q => Spot (a o) (b o) δ (val.conf q 0, val.conf q 1)) p.rows p.initConf
    (by
      rw [hstart, hst]
      simp only [plane, if_true, Fin.isValue, one_ne_zero, if_false, Spot]
      obtain ⟨k1, k2⟩ := hfit
      norm_num
      refine ⟨by linarith, by linarith, by linarith⟩)
    (by
      intro r hr o ho x hx
      have := hspot r hr o ho x hx
      obtain ⟨k1, k2⟩ := hconf r hr
      simp only [List.mem_cons, List.not_mem_nil, or_false] at hx
      rcases hx with rfl | rfl
      · rw [k1]; exact this
      · rw [k2]; exact this)
  obtain ⟨bounds', e1, hX, hvol, -⟩ := C92_uniform hP hg0 hg hU
  rw [hbd] at e1
  cases e1
  have hmeas : MeasurableSet worldBox := by
    rw [worldBox_eq]
    exact (PiLp.volume_preserving_ofLp (Fin 2)).measurable measurableSet_Icc
  let sh : ℕ → Option α := fun j => (ferryCalls conf p.initConf p.rows)[j]?.elim none Prod.fst
  let missAt : ℕ → ℝ → ℕ → Set Ω := fun j s n => {ω | ∀ l < m, plane (sampleFromEnv bounds (U (n + 1 + l) ω 0, U (n + 1 + l) ω 1)) ∉ lane P.gap (a (sh j)) (b (sh j)) s}
  let miss : ℕ → ℝ → Set Ω := fun j s => {ω | ω ∈ missAt j s (d j ω)}
  have hplane : Measurable fun v : Fin 2 → ℝ => plane (sampleFromEnv bounds (v 0, v 1)) := by
    have : (fun v : Fin 2 → ℝ => plane (sampleFromEnv bounds (v 0, v 1))) =
        WithLp.toLp 2 ∘ fun v : Fin 2 → ℝ => ![bounds.1.1 + (bounds.1.2 - bounds.1.1) * v 0, bounds.2.1 + (bounds.2.2 - bounds.2.1) * v 1] := by
      funext v
      ext i
      fin_cases i <;> simp [plane, sampleFromEnv]
    rw [this]
    refine toLp_measurable.comp (measurable_pi_iff.2 fun i => ?_)
    fin_cases i
    · simp only [Fin.zero_eta, Matrix.cons_val_zero]; fun_prop
    · simp only [Fin.mk_one, Matrix.cons_val_one, Matrix.cons_val_zero]; fun_prop
  have hmiss : ∀ j s, s = 1 ∨ s = -1 → Pr (miss j s) ≤ ENNReal.ofReal ((1 - β / 9.92) ^ m) := by
    intro j s hs
    obtain ⟨b1, b2⟩ := hβ (sh j)
    have hsub : lane P.gap (a (sh j)) (b (sh j)) s ⊆ worldBox := by
      rintro x ⟨x1, x2, x3⟩
      have a0 := ha (sh j)
      have b0 := hb (sh j)
      rw [abs_lt] at x3
      refine ⟨?_, ?_, by linarith, by linarith⟩ <;> rcases hs with rfl | rfl <;> simp only <;> linarith
    have harea : MeasurableSet (lane P.gap (a (sh j)) (b (sh j)) s) ∧ ENNReal.ofReal β ≤ volume (lane P.gap (a (sh j)) (b (sh j)) s) := by
      rw [lane_eq hs]
      split_ifs
      · refine ⟨openBox_measurable _ _ _ _, ?_⟩
        rw [openBox_volume (by linarith)]
        apply ENNReal.ofReal_le_ofReal
        nlinarith
      · refine ⟨openBox_measurable _ _ _ _, ?_⟩
        rw [openBox_volume (by linarith)]
        apply ENNReal.ofReal_le_ofReal
        nlinarith
    refine stopped hU.measurable hU.indep (hd j) (A := missAt j s) (fun n => ?_) fun n => iid_miss hX (by norm_num) hmeas hvol harea.1 hsub hβ0 harea.2 (n + 1) m
    have hset : missAt j s n = ⋂ l, ⋂ (_ : l < m), U (n + 1 + l) ⁻¹' {v | plane (sampleFromEnv bounds (v 0, v 1)) ∉ lane P.gap (a (sh j)) (b (sh j)) s} := by
      ext ω
      simp [missAt]
    rw [hset]
    refine MeasurableSet.iInter fun l => MeasurableSet.iInter fun _ => ?_
    refine le_iSup₂_of_le (f := fun i (_ : i ∈ {i : ℕ | n ≤ i}) => MeasurableSpace.comap (U i) inferInstance) (n + 1 + l) (by simp only [Set.mem_ofPred_eq]; omega) le_rfl _
      ⟨_, hplane harea.1.compl, rfl⟩
  refine (measure_mono (t := ⋃ j ∈ Finset.range (2 * p.targets.length), (miss j 1 ∪ miss j (-1))) ?_).trans ((measure_biUnion_finset_le _ _).trans
    ((Finset.sum_le_sum fun j _ => (measure_union_le _ _).trans ((add_le_add (hmiss j 1 (Or.inl rfl)) (hmiss j (-1) (Or.inr rfl))).trans (two_mul _).ge)).trans
      (by rw [Finset.sum_const, Finset.card_range, nsmul_eq_mul])))
  intro ω hω
  by_contra hgood
  simp only [Set.mem_iUnion, not_exists, Finset.mem_range, Set.mem_union, not_or] at hgood
  apply hω
  intro j c hc
  obtain ⟨hjl, hc⟩ := List.getElem?_eq_some_iff.1 hc
  have hg' := hgood j (hlen ▸ hjl)
  obtain ⟨s1, s2⟩ := hends _ (List.getElem_mem hjl)
  rw [hc] at s1 s2
  have hsh : sh j = c.1 := by simp only [sh, List.getElem?_eq_getElem hjl, hc, Option.elim]
  simp only [miss, missAt, Set.mem_ofPred_eq, not_forall, not_not, hsh] at hg'
  refine ⟨s1, s2, ?_⟩
  rintro s (rfl | rfl)
  · obtain ⟨l, h3, h4⟩ := hg'.1
    exact ⟨l, h3, h4⟩
  · obtain ⟨l, h3, h4⟩ := hg'.2
    exact ⟨l, h3, h4⟩

omit [DecidableEq α] in
/-- Calls that succeed back the facts. -/
theorem ferry_backed (rover : α) (conf : α → α) (traj : ℕ → α) (w : Option α → World (Space 2) ℝ) (val : Values α (Space 2)) :
    ∀ (rows : List (α × α × α)) (q : α) (j : ℕ), (∀ r ∈ rows, val.conf (conf r.2.1) = ik (val.pose r.2.1) ∧ val.conf (conf r.2.2) = ik (val.pose r.2.2)) →
    (∀ i c, (ferryCalls conf q rows)[i]? = some c → Moves (w c.1) (val.conf c.2.1) (val.traj (traj (j + i))) (val.conf c.2.2)) →
    ∀ f ∈ ferryFacts rover conf traj q j rows, Backed w val f
  | [], _, _, _, _ => by simp [ferryFacts]
  | r :: rows, q, j, hk, hc => by
    obtain ⟨k1, k2⟩ := hk r (by simp)
    have c1 := hc 0 _ rfl
    have c2 := hc 1 _ rfl
    intro f hf
    simp only [ferryFacts, List.mem_cons] at hf
    rcases hf with rfl | rfl | rfl | rfl | hf
    · exact c1
    · exact k1
    · exact c2
    · exact k2
    · refine ferry_backed rover conf traj w val rows (conf r.2.2) (j + 2) (fun r' hr' => hk r' (by simp [hr'])) (fun i c hi => ?_) f hf
      have := hc (i + 2) c (by simpa [ferryCalls] using hi)
      rwa [show j + (i + 2) = j + 2 + i by ring] at this

/-- When all calls succeed, executing the plan solves the task. -/
theorem ferry_done (p : RoverProblem α) (hn : p.targets.Nodup) (hl : p.targets.length ≤ p.initPoses.length ∧ p.targets.length ≤ p.goalPoses.length)
    (val : Values α (Space 2)) (conf : α → α)
    (hconf : ∀ r ∈ p.rows, val.conf (conf r.2.1) = ik (val.pose r.2.1) ∧ val.conf (conf r.2.2) = ik (val.pose r.2.2)) {traj : ℕ → α} (htraj : traj.Injective)
    (w : Option α → World (Space 2) ℝ) {R : ℕ → Option α × α × α → List (Space 2) → Prop} (hR : ∀ j c res, R j c res → Moves (w c.1) (val.conf c.2.1) res (val.conf c.2.2))
    (hcalls : ∀ j c, (ferryCalls conf p.initConf p.rows)[j]? = some c → ∃ res, R j c res) :
    ∃ val' : Values α (Space 2), val'.conf = val.conf ∧ val'.pose = val.pose ∧
      (∀ j c, (ferryCalls conf p.initConf p.rows)[j]? = some c → R j c (val'.traj (traj j))) ∧
      ∀ sim : Sim α (Space 2), sim.Initial p val' → ∃ commands, postProcess (some ((ferryPlan p.rover conf traj p.initConf 0 p.rows).map roverItem)) = .ok (some commands) ∧
        ∀ (n : ℕ) o x, p.targets[n]? = some o → p.goalPoses[n]? = some x → (execute val' sim commands).2.obj o = val.pose x := by
  have hcalls' : ∀ j, ∃ res, ∀ c, (ferryCalls conf p.initConf p.rows)[j]? = some c → R j c res := by
    intro j
    cases hc : (ferryCalls conf p.initConf p.rows)[j]? with
    | none => exact ⟨[], fun c hc' => by cases hc'⟩
    | some c =>
      obtain ⟨res, h⟩ := hcalls j c hc
      exact ⟨res, fun c' hc' => by cases hc'; exact h⟩
  choose res hres using hcalls'
  have htr : ∀ j, (Function.extend traj res val.traj) (traj j) = res j := fun j => htraj.extend_apply _ _ j
  let val' : Values α (Space 2) := { val with traj := Function.extend traj res val.traj }
  have hcert : ∀ j c, (ferryCalls conf p.initConf p.rows)[j]? = some c → R j c (val'.traj (traj j)) := fun j c hc => by
    simp only [val', htr]
    exact hres j c hc
  refine ⟨val', rfl, rfl, hcert, fun sim hsim => ?_⟩
  obtain ⟨s, hex, hgoal⟩ := C123_plan p hn hl conf traj
  obtain ⟨commands, e, hobj, -⟩ := executed_of_backed p hn hl val' w _
    (fun f hf => ferry_backed p.rover conf traj w val' p.rows p.initConf 0 hconf (fun i c hi => by
      rw [Nat.zero_add]
      exact hR i c _ (hcert i c hi)) f hf) _ s hex hgoal sim hsim
  exact ⟨commands, e, hobj⟩

/-- C123: the hallway task is solved with high probability. The rover and the targets are boxes lower than the gap (half-widths `a o`, `b o`) and the targets stand and are to be put in the rooms, not at the walls. If one of the counts `m` tried by the
motion streams is at most 33 (10, 11, 12, ..., 31 with the default arguments), then, except with probability `2 n * 2 (1 - β / 9.92) ^ m` for `n` targets, all the calls of the motion streams for carrying the targets over one after the other succeed
(the `j`-th call begins at the place `d j` in the sequence of random numbers, which may depend on the numbers drawn before), and executing the plan brings all targets to their goals. Here `β` is a lower bound for the area of the places in a room from which a box can be moved straight through the hallway. -/
theorem C123_solves {scale dd : ℝ} {num : ℕ} {u : ℕ → ℝ} {P : Problem} (hP : hallwayManip scale dd num u = .ok P) (hg0 : 0 ≤ P.gap) (hg : P.gap ≤ 7 / 5)
    {bounds : (ℝ × ℝ) × (ℝ × ℝ)} (hbd : extents P.obstacles = .ok bounds) {U : ℕ → Ω → Fin 2 → ℝ} (hU : UnitDraws Pr U)
    (p : RoverProblem α) (hn : p.targets.Nodup) (hl : p.targets.length ≤ p.initPoses.length ∧ p.targets.length ≤ p.goalPoses.length)
    (val : Values α (Space 2)) (hstart : val.conf p.initConf = plane P.start) (conf : α → α)
    (hconf : ∀ r ∈ p.rows, val.conf (conf r.2.1) = ik (val.pose r.2.1) ∧ val.conf (conf r.2.2) = ik (val.pose r.2.2)) {traj : ℕ → α} (htraj : traj.Injective)
    {a b : Option α → ℝ} (ha : ∀ o, 0 < a o) (hb : ∀ o, 0 < b o) (hreach : ∀ o, (29 / 20 - 2 * a o) ^ 2 + (7 / 5 - 2 * b o) ^ 2 ≤ (31 / 20 + a o) ^ 2)
    {δ : ℝ} (hδ : 0 < δ) (hfit : a none + δ ≤ 7 / 10 ∧ b none + δ ≤ 7 / 10)
    (hspot : ∀ r ∈ p.rows, ∀ o ∈ [none, some r.1], ∀ x ∈ [r.2.1, r.2.2], Spot (a o) (b o) δ (val.pose x 0, val.pose x 1))
    {β : ℝ} (hβ0 : 0 ≤ β) (hβ : ∀ o, a o ≤ 29 / 40 ∧ β ≤ (29 / 20 - 2 * a o) * (P.gap - 2 * b o))
    {opt : Options ℝ} (h2 : 2 ≤ opt.minS) (hf : 1 ≤ opt.minS * (opt.factor - 1)) {i : ℕ} (hi : opt.minS * opt.factor ^ i < opt.maxS + 1)
    (hm : ⌊opt.minS * opt.factor ^ i⌋₊ ≤ 33) {d : ℕ → Ω → ℕ} (hd : ∀ j, NoLookAhead U (d j)) :
    Pr {ω | ¬ ∀ w : Option α → World (Space 2) ℝ, (∀ o, TurtleWorld (w o) (rect (-(a o)) (-(b o)) (a o) (b o)) (P.obstacles.map Box.corners)
          (fun i => sampleFromEnv bounds (U i ω 0, U i ω 1)) ∧ KnnWorld (w o)) →
        ∃ val' : Values α (Space 2), val'.conf = val.conf ∧ val'.pose = val.pose ∧
          (∀ j c, (ferryCalls conf p.initConf p.rows)[j]? = some c →
            ∃ fuel, motionStream (w c.1) opt (val.conf c.2.1) (val.conf c.2.2) (d j ω) fuel = some (.ok (some (val'.traj (traj j))))) ∧
          ∀ sim : Sim α (Space 2), sim.Initial p val' → ∃ commands, postProcess (some ((ferryPlan p.rover conf traj p.initConf 0 p.rows).map roverItem)) = .ok (some commands) ∧
            ∀ (n : ℕ) o x, p.targets[n]? = some o → p.goalPoses[n]? = some x → (execute val' sim commands).2.obj o = val.pose x} ≤
      (2 * p.targets.length : ℕ) * (2 * ENNReal.ofReal ((1 - β / 9.92) ^ ⌊opt.minS * opt.factor ^ i⌋₊)) := by
  refine (measure_mono ?_).trans (ferry_draws hP hg0 hg hbd hU p hl val hstart conf hconf ha hb hfit hspot hβ0 hβ ⌊opt.minS * opt.factor ^ i⌋₊ hd)
  intro ω hω hgood
  apply hω
  intro w hw
  refine ferry_done p hn hl val conf hconf htraj w
    (R := fun j c res => ∃ fuel, motionStream (w c.1) opt (val.conf c.2.1) (val.conf c.2.2) (d j ω) fuel = some (.ok (some res)))
    (fun j c res ⟨fuel, h⟩ => stream_path (hw c.1).1.sound h) fun j c hc => ?_
  obtain ⟨s1, s2, hlane⟩ := hgood j c hc
  obtain ⟨f1, counts, path, hpl⟩ := lane_plan hP hg (ha c.1) (hb c.1) (hreach c.1) (hw c.1).1 (hw c.1).2 hδ s1 s2 h2 hf hi (k := 32) (by norm_num) hm (d j ω) hlane
  rw [plane_eta, plane_eta] at hpl
  obtain ⟨res, hres⟩ := stream_of_plan hpl
  exact ⟨res, f1, hres⟩

end Solve

/-- One target (10), from pose 20 to pose 30. -/
def oneTarget : RoverProblem ℕ := ⟨0, 1, [10], [20], [30]⟩

/-- Rover in the middle of the left room, target from the right room to the left room; configuration `x + 1` belongs to pose `x`. -/
noncomputable def oneValues : Values ℕ (Space 2) where
  conf q := if q = 1 then plane (-9 / 4, 3 / 4) else if q = 21 then plane (9 / 4, 1) else plane (-2, 1 / 2)
  pose x := if x = 20 then plane (9 / 4, 1) else plane (-2, 1 / 2)
  traj _ := []

/-- The hypotheses of C123 are met with the default arguments of the experiment (counts from 10 on with factor 1.1) in a hallway of gap 0.8 for boxes of half-width 0.16: the 13th count is 31 and the failure probability at most 3/4. -/
theorem C123_nonvacuous : ∃ P, hallwayManip (3 / 10) (4926 / 10000) 1 (fun _ => 1 / 2) = .ok P ∧ 0 ≤ P.gap ∧ P.gap ≤ 7 / 5 ∧ (∃ bounds, extents P.obstacles = .ok bounds) ∧
    (∃ Pr : Measure (ℕ → Fin 2 → ℝ), IsProbabilityMeasure Pr ∧ UnitDraws Pr fun i x => x i) ∧
    (∀ U : ℕ → (ℕ → Fin 2 → ℝ) → Fin 2 → ℝ, ∃ d : ℕ → (ℕ → Fin 2 → ℝ) → ℕ, (∀ j, NoLookAhead U (d j)) ∧ ∀ j x, (d j x = 5 + 7 * j ↔ U 0 x 0 ≤ 1 / 2)) ∧
    (∀ robot hulls x, ∃ w, TurtleWorld w robot hulls x ∧ KnnWorld w) ∧
    oneTarget.targets.Nodup ∧ (oneTarget.targets.length ≤ oneTarget.initPoses.length ∧ oneTarget.targets.length ≤ oneTarget.goalPoses.length) ∧
    oneValues.conf oneTarget.initConf = plane P.start ∧
    (∀ r ∈ oneTarget.rows, oneValues.conf (r.2.1 + 1) = ik (oneValues.pose r.2.1) ∧ oneValues.conf (r.2.2 + 1) = ik (oneValues.pose r.2.2)) ∧
    (29 / 20 - 2 * (4 / 25 : ℝ)) ^ 2 + (7 / 5 - 2 * (4 / 25)) ^ 2 ≤ (31 / 20 + 4 / 25) ^ 2 ∧ (4 / 25 + 1 / 10 : ℝ) ≤ 7 / 10 ∧ 1 / 10 ≤ P.gap / 2 - 4 / 25 ∧
    (∀ r ∈ oneTarget.rows, ∀ x ∈ [r.2.1, r.2.2], Spot (4 / 25) (4 / 25) (1 / 10) (oneValues.pose x 0, oneValues.pose x 1)) ∧
    678 / 1250 ≤ (29 / 20 - 2 * (4 / 25)) * (P.gap - 2 * (4 / 25)) ∧
    (1 : ℝ) ≤ (10 : ℕ) * (11 / 10 - 1) ∧ ((10 : ℕ) : ℝ) * (11 / 10) ^ 12 < (2000 : ℕ) + 1 ∧ ⌊((10 : ℕ) : ℝ) * (11 / 10) ^ 12⌋₊ = 31 ∧
    ((2 * oneTarget.targets.length : ℕ) : ENNReal) * (2 * ENNReal.ofReal ((1 - 678 / 1250 / 9.92) ^ 31)) ≤ ENNReal.ofReal (3 / 4) := by
  obtain ⟨P, hP⟩ := (C88_answers (3 / 10) (4926 / 10000) 1 fun _ => 1 / 2).2 (by norm_num)
  obtain ⟨-, -, -, hgap⟩ := C88_sizes (fun _ => by norm_num) hP
  have hg : P.gap = 4 / 5 := by rw [hgap]; norm_num
  obtain ⟨-, -, -, ho, hs⟩ := manip_eq hP
  refine ⟨P, hP, by rw [hg]; norm_num, by rw [hg]; norm_num, ?_, exists_unitDraws _, ?_, fun robot hulls x => ⟨_, turtleWorld_turtle robot hulls x, turtleWorld_knn robot hulls x⟩,
    by decide, by decide, ?_, ?_, by norm_num, by norm_num, by rw [hg]; norm_num, ?_, by rw [hg]; norm_num, by norm_num, by norm_num, ?_, ?_⟩
  · exact ⟨_, by rw [ho]; exact rooms_extents (by rw [hg]; norm_num) (by rw [hg]; norm_num)⟩
  · intro U
    classical
    refine ⟨fun j x => if U 0 x ∈ {v : Fin 2 → ℝ | v 0 ≤ 1 / 2} then 5 + 7 * j else 6 + 7 * j,
      fun j => noLookAhead_first (measurableSet_le (measurable_pi_apply 0) measurable_const) (by omega) (by omega), fun j x => ?_⟩
    simp only [Set.mem_ofPred_eq]
    split_ifs with h
    · exact ⟨fun _ => h, fun _ => rfl⟩
    · simp only [h, iff_false]
      omega
  · rw [hs]; rfl
  · simp [oneTarget, RoverProblem.rows, oneValues, ik]
  · simp only [oneTarget, RoverProblem.rows, List.zip_cons_cons, List.zip_nil_left, forall_eq, List.mem_cons, List.not_mem_nil, or_false, forall_eq_or_imp]
    norm_num [oneValues, Spot, plane, abs_le, le_abs]
  · rw [Nat.floor_eq_iff (by norm_num)]
    norm_num
  · have h1 : ((2 * oneTarget.targets.length : ℕ) : ENNReal) = ENNReal.ofReal 2 := by simp [oneTarget]
    rw [h1, show (2 : ENNReal) = ENNReal.ofReal 2 by simp, ← ENNReal.ofReal_mul (by norm_num), ← ENNReal.ofReal_mul (by norm_num)]
    apply ENNReal.ofReal_le_ofReal
    norm_num

end Verif.Props
