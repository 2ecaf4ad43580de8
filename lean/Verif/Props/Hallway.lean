import Verif.Lemmas.Hallway
import Verif.Lemmas.PathOps
import Verif.Model.Anytime
import Verif.Props.Turtlebot

/-! The turtlebot worlds: C88, C89, C90, C91. -/

namespace Verif.Props

open Verif.Sat2D Verif.Spec Verif.Turtlebot Verif.Hallway Verif.Net

/-! ### Boxes -/

theorem region_eq_hull (b : Box) (hw : 0 ≤ b.w) (hl : 0 ≤ b.l) : polygonHull b.corners = Box.region b := by
  have e : b.corners = rect (b.x - b.w / 2) (b.y - b.l / 2) (b.x + b.w / 2) (b.y + b.l / 2) := rfl
  ext p
  constructor
  · intro hp
    rw [e] at hp
    have a1 := hull_le _ (1, 0) (b.x + b.w / 2) (by intro v hv; simp [rect] at hv; rcases hv with rfl | rfl | rfl | rfl <;> simp [dot] <;> linarith) p hp
    have a2 := hull_ge _ (1, 0) (b.x - b.w / 2) (by intro v hv; simp [rect] at hv; rcases hv with rfl | rfl | rfl | rfl <;> simp [dot] <;> linarith) p hp
    have a3 := hull_le _ (0, 1) (b.y + b.l / 2) (by intro v hv; simp [rect] at hv; rcases hv with rfl | rfl | rfl | rfl <;> simp [dot] <;> linarith) p hp
    have a4 := hull_ge _ (0, 1) (b.y - b.l / 2) (by intro v hv; simp [rect] at hv; rcases hv with rfl | rfl | rfl | rfl <;> simp [dot] <;> linarith) p hp
    simp only [dot, mul_one, mul_zero, add_zero, zero_add] at a1 a2 a3 a4
    exact ⟨abs_le.2 ⟨by linarith, by linarith⟩, abs_le.2 ⟨by linarith, by linarith⟩⟩
  · rintro ⟨h1, h2⟩
    rw [abs_le] at h1 h2
    rw [e]
    exact rect_mem _ _ _ _ (by linarith) (by linarith) p (by linarith [h1.1]) (by linarith [h1.2]) (by linarith [h2.1]) (by linarith [h2.2])

theorem placed_hull_mem (robot : List (ℝ × ℝ)) (t v : ℝ × ℝ) (h : v ∈ polygonHull robot) :
    (v.1 + t.1, v.2 + t.2) ∈ polygonHull (placed robot t) := by
  unfold polygonHull at *
  have e : {p | p ∈ placed robot t} = (fun v : ℝ × ℝ => v + t) '' {p | p ∈ robot} := by
    ext p
    simp only [placed, List.mem_map, Set.mem_ofPred_eq, Set.mem_image]
    rfl
  rw [e]
  have : (fun v : ℝ × ℝ => v + t) = ⇑((AffineEquiv.vaddConst ℝ t).toAffineMap) := rfl
  rw [this, ← AffineMap.image_convexHull]
  exact ⟨v, h, rfl⟩

theorem freeAt_block {obs : List Box} {a b : ℝ} (ha : 0 ≤ a) (hb : 0 ≤ b) (hw : ∀ o ∈ obs, 0 ≤ o.w ∧ 0 ≤ o.l) {p : ℝ × ℝ} :
    FreeAt obs (block a b) p ↔ ∀ o ∈ obs, o.w / 2 + a < |p.1 - o.x| ∨ o.l / 2 + b < |p.2 - o.y| := by
  constructor
  · intro h o ho
    by_contra hc
    push Not at hc
    have key : ∀ (z c r s : ℝ), 0 ≤ r → 0 ≤ s → |z - c| ≤ r + s → ∃ v, |v| ≤ s ∧ |v + z - c| ≤ r := by
      intro z c r s hr hs hz
      rw [abs_le] at hz
      rcases le_total (z - c) (-r) with h1 | h1
      · exact ⟨-r - (z - c), by rw [abs_le]; constructor <;> linarith [hz.1, hz.2], by rw [abs_le]; constructor <;> linarith⟩
      · rcases le_total (z - c) r with h2 | h2
        · exact ⟨0, by simpa using hs, by rw [abs_le]; constructor <;> linarith⟩
        · exact ⟨r - (z - c), by rw [abs_le]; constructor <;> linarith [hz.1, hz.2], by rw [abs_le]; constructor <;> linarith⟩
    obtain ⟨w1, w2⟩ := hw o ho
    obtain ⟨v1, h1, h2⟩ := key p.1 o.x (o.w / 2) a (by linarith) ha hc.1
    obtain ⟨v2, h3, h4⟩ := key p.2 o.y (o.l / 2) b (by linarith) hb hc.2
    exact h o ho (v1, v2) ⟨h1, h3⟩ ⟨h2, h4⟩
  · rintro h o ho v ⟨v1, v2⟩ ⟨h1, h2⟩
    simp only at h1 h2
    rcases h o ho with hh | hh
    · have : |p.1 - o.x| ≤ |v.1 + p.1 - o.x| + |v.1| := by
        have := abs_sub (v.1 + p.1 - o.x) v.1
        rwa [show v.1 + p.1 - o.x - v.1 = p.1 - o.x by ring] at this
      linarith
    · have : |p.2 - o.y| ≤ |v.2 + p.2 - o.y| + |v.2| := by
        have := abs_sub (v.2 + p.2 - o.y) v.2
        rwa [show v.2 + p.2 - o.y - v.2 = p.2 - o.y by ring] at this
      linarith

theorem rooms_sizes {L h : ℝ} (h0 : 0 ≤ L) (h2 : h ≤ L) : ∀ o ∈ rooms L h, 0 < o.w ∧ 0 < o.l := by
  unfold rooms
  simp only [List.mem_cons, List.not_mem_nil, or_false, forall_eq_or_imp, forall_eq, hallLength, thick]
  refine ⟨?_, ?_, ?_, ?_, ?_, ?_, ?_, ?_, ?_, ?_, ?_, ?_⟩ <;> constructor <;> linarith

/-! ### C88 -/

theorem manip_eq {scale dd : ℝ} {num : ℕ} {u : ℕ → ℝ} {P : Problem} (h : hallwayManip scale dd num u = .ok P) :
    num ≠ 0 ∧ P.sizes = targetSizes scale num u ∧ (∃ m, pyMax (targetSizes scale num u) = .ok m ∧ P.gap = m * 2 + dd) ∧
      P.obstacles = rooms (3 / 2) (P.gap + 1 / 10) ∧ P.start = (-9 / 4, 3 / 4) := by
  unfold hallwayManip at h
  by_cases hn : num = 0
  · simp [hn] at h
    cases h
  · obtain ⟨m, hm, -, -⟩ := pyMax_ok (targetSizes scale num u) (by simp [targetSizes])
    simp only [if_neg hn, hm] at h
    injection h with h
    subst h
    refine ⟨hn, rfl, ⟨m, hm, rfl⟩, rfl, ?_⟩
    simp only [hallLength, Prod.mk.injEq]
    norm_num

theorem targetRadius_between {lo hi u : ℝ} (h : lo ≤ hi) (h0 : 0 ≤ u) (h1 : u < 1) : lo ≤ targetRadius lo hi u ∧ targetRadius lo hi u ≤ hi := by
  have a : 0 ≤ (1 - u) ^ (1 / 4 : ℝ) := Real.rpow_nonneg (by linarith) _
  have b : (1 - u) ^ (1 / 4 : ℝ) ≤ 1 := Real.rpow_le_one (by linarith) (by linarith) (by norm_num)
  unfold targetRadius
  constructor <;> nlinarith

/-- C88, sizes: the hallway world has the asked number of targets; their radii are between the radius of the robot (0.179 times its scale) and 0.1
more, the first one is the largest, and the hallway is `dd` wider than the largest one. -/
theorem C88_sizes {scale dd : ℝ} {num : ℕ} {u : ℕ → ℝ} (hu : ∀ i, 0 ≤ u i ∧ u i < 1) {P : Problem}
    (h : hallwayManip scale dd num u = .ok P) :
    P.sizes.length = num ∧ (∀ s ∈ P.sizes, scale * 0.179 ≤ s ∧ s ≤ scale * 0.179 + 0.1) ∧
      P.sizes.head? = some (scale * 0.179 + 0.1) ∧ P.gap = 2 * (scale * 0.179 + 0.1) + dd := by
  obtain ⟨hn, hs, ⟨m, hm, hg⟩, -, -⟩ := manip_eq h
  have e1 : scale * botRadius = scale * 0.179 := by unfold botRadius; norm_num
  have e2 : scale * botRadius + 1 / 10 = scale * 0.179 + 0.1 := by rw [e1]; norm_num
  have all : ∀ s ∈ P.sizes, scale * 0.179 ≤ s ∧ s ≤ scale * 0.179 + 0.1 := by
    rw [hs]
    unfold targetSizes
    simp only [List.mem_cons, List.mem_map, List.mem_range]
    rintro s (rfl | ⟨i, -, rfl⟩)
    · rw [e2]; norm_num
    · rw [e2, e1]
      exact targetRadius_between (by norm_num) (hu i).1 (hu i).2
  refine ⟨?_, all, ?_, ?_⟩
  · rw [hs]; simp [targetSizes]; omega
  · rw [hs]; simp only [targetSizes, List.head?_cons]; rw [e2]
  · obtain ⟨m', hm', hmem, hmax⟩ := pyMax_ok (targetSizes scale num u) (by simp [targetSizes])
    rw [hm] at hm'
    injection hm' with hm'
    subst hm'
    have a := (all m (hs ▸ hmem)).2
    have b := hmax (scale * botRadius + 1 / 10) (by simp [targetSizes])
    rw [e2] at b
    rw [hg]
    linarith

/-- C88: for at least one target the world is built, otherwise AssertionError is raised. -/
theorem C88_answers (scale dd : ℝ) (num : ℕ) (u : ℕ → ℝ) :
    (num = 0 → hallwayManip scale dd num u = .error .assertion) ∧ (num ≠ 0 → ∃ P, hallwayManip scale dd num u = .ok P) := by
  constructor
  · intro hn
    unfold hallwayManip
    rw [if_pos hn]
    rfl
  · intro hn
    obtain ⟨m, hm, -, -⟩ := pyMax_ok (targetSizes scale num u) (by simp [targetSizes])
    unfold hallwayManip
    simp only [if_neg hn, hm]
    exact ⟨_, rfl⟩

theorem clear_hall {L h : ℝ} (h2 : h ≤ L) {x y : ℝ} (hx : |x| ≤ 3 / 2) (hy : |y - L / 2| ≤ h / 2 + 1 / 20) :
    Clear L h (x, y) ↔ |y - L / 2| < h / 2 - 1 / 20 := by
  rw [abs_le] at hx hy
  constructor
  · intro hc
    obtain ⟨a, b⟩ := hall_inside (clear_facts hc) (by simp only; linarith [hx.1]) hx.2 (by simp only; linarith [hy.1]) (by simp only; linarith [hy.2])
    simp only at a b
    rw [abs_lt]
    constructor <;> linarith
  · intro hlt
    rw [abs_lt] at hlt
    unfold Clear rooms
    simp only [List.mem_cons, List.not_mem_nil, or_false, forall_eq_or_imp, forall_eq, hallLength, thick, Box.region]
    have key : ∀ (c d r s : ℝ), (r < |x - c| ∨ s < |y - d|) → (x, y) ∉ {p : ℝ × ℝ | |p.1 - c| ≤ r ∧ |p.2 - d| ≤ s} := by
      rintro c d r s h ⟨h1, h2⟩
      rcases h with h | h
      · exact absurd h1 (not_le.2 h)
      · exact absurd h2 (not_le.2 h)
    refine ⟨?_, ?_, ?_, ?_, ?_, ?_, ?_, ?_, ?_, ?_, ?_, ?_⟩ <;> apply key
    · right; rw [lt_abs]; left; linarith [hlt.1]
    · right; rw [lt_abs]; right; linarith [hlt.2]
    · left; rw [lt_abs]; left; linarith [hx.1]
    · right; rw [lt_abs]; right; linarith [hlt.2]
    · right; rw [lt_abs]; left; linarith [hlt.1]
    · right; rw [lt_abs]; right; linarith [hlt.2]
    · right; rw [lt_abs]; left; linarith [hlt.1]
    · left; rw [lt_abs]; right; linarith [hx.2]
    · right; rw [lt_abs]; left; linarith [hlt.1]
    · right; rw [lt_abs]; right; linarith [hlt.2]
    · right; rw [lt_abs]; right; linarith [hlt.2]
    · right; rw [lt_abs]; left; linarith [hlt.1]

/-- C88, width: in the hallway a point is outside all walls exactly when it is less than half the gap away from the middle line. -/
theorem C88_gap {scale dd : ℝ} {num : ℕ} {u : ℕ → ℝ} {P : Problem} (h : hallwayManip scale dd num u = .ok P) (hg : P.gap ≤ 7 / 5)
    {x y : ℝ} (hx : |x| ≤ 3 / 2) (hy : |y - 3 / 4| ≤ P.gap / 2 + 1 / 10) :
    (∀ o ∈ P.obstacles, (x, y) ∉ Box.region o) ↔ |y - 3 / 4| < P.gap / 2 := by
  obtain ⟨-, -, -, ho, -⟩ := manip_eq h
  rw [ho]
  have := clear_hall (L := 3 / 2) (h := P.gap + 1 / 10) (by linarith) hx (y := y)
    (by rw [show (3 / 2 : ℝ) / 2 = 3 / 4 by norm_num]; linarith)
  rw [show (3 / 2 : ℝ) / 2 = 3 / 4 by norm_num, show (P.gap + 1 / 10) / 2 - 1 / 20 = P.gap / 2 by ring] at this
  exact this

/-- The hypotheses of C88 are met by the world of the experiment, with the middle of the hallway and a point on its lower wall. -/
theorem C88_nonvacuous : ∃ P, hallwayManip (3 / 10) (5 / 100) 2 (fun _ => 1 / 2) = .ok P ∧ P.gap ≤ 7 / 5 ∧ P.sizes.length = 2 ∧ P.sizes.head? = some 0.1537 ∧
    (∀ o ∈ P.obstacles, ((0 : ℝ), (3 / 4 : ℝ)) ∉ Box.region o) ∧ ∃ o ∈ P.obstacles, ((0 : ℝ), 3 / 4 - P.gap / 2) ∈ Box.region o := by
  obtain ⟨P, hP⟩ := (C88_answers (3 / 10) (5 / 100) 2 fun _ => 1 / 2).2 (by norm_num)
  obtain ⟨hlen, -, hhead, hgap⟩ := C88_sizes (fun _ => by norm_num) hP
  have hg : P.gap = 3574 / 10000 := by rw [hgap]; norm_num
  refine ⟨P, hP, by rw [hg]; norm_num, hlen, by rw [hhead]; norm_num, ?_, ?_⟩
  · exact (C88_gap hP (by rw [hg]; norm_num) (by norm_num) (by rw [hg]; norm_num)).2 (by rw [hg]; norm_num)
  · by_contra hc
    push Not at hc
    have := (C88_gap hP (by rw [hg]; norm_num) (x := 0) (y := 3 / 4 - P.gap / 2) (by norm_num) (by rw [hg]; norm_num [abs_le])).1 hc
    rw [hg] at this
    norm_num [abs_lt] at this

/-! ### C89 -/

theorem rooms_free {L h a b : ℝ} (h0 : 0 ≤ L) (h2 : h ≤ L) (ha : 0 ≤ a) (hb : 0 ≤ b) {p : ℝ × ℝ} (hx : |p.1| + a < 3 / 2 + L)
    (hy : |p.2 - L / 2| + b < h / 2 - 1 / 20) : FreeAt (rooms L h) (block a b) p := by
  rw [freeAt_block ha hb fun o ho => ⟨(rooms_sizes h0 h2 o ho).1.le, (rooms_sizes h0 h2 o ho).2.le⟩]
  have x1 := le_abs_self p.1
  have x2 := neg_abs_le p.1
  have y1 := le_abs_self (p.2 - L / 2)
  have y2 := neg_abs_le (p.2 - L / 2)
  unfold rooms
  simp only [List.mem_cons, List.not_mem_nil, or_false, forall_eq_or_imp, forall_eq, hallLength, thick]
  refine ⟨?_, ?_, ?_, ?_, ?_, ?_, ?_, ?_, ?_, ?_, ?_, ?_⟩
  · right; rw [lt_abs]; left; linarith
  · right; rw [lt_abs]; right; linarith
  · left; rw [lt_abs]; left; linarith
  · right; rw [lt_abs]; right; linarith
  · right; rw [lt_abs]; left; linarith
  · right; rw [lt_abs]; right; linarith
  · right; rw [lt_abs]; left; linarith
  · left; rw [lt_abs]; right; linarith
  · right; rw [lt_abs]; left; linarith
  · right; rw [lt_abs]; right; linarith
  · right; rw [lt_abs]; right; linarith
  · right; rw [lt_abs]; left; linarith

theorem coord_lt_of_ball {x y : Space 2} {δ : ℝ} (h : y ∈ Metric.ball x δ) (i : Fin 2) : |y i - x i| < δ := by
  have h1 : ‖(y - x) i‖ ≤ ‖y - x‖ := PiLp.norm_apply_le (y - x) i
  rw [Metric.mem_ball, dist_eq_norm] at h
  calc |y i - x i| = ‖(y - x) i‖ := rfl
    _ ≤ _ := h1
    _ < δ := h

/-- The middle line of the hallway. -/
theorem rooms_path {L h a b : ℝ} (h0 : 0 ≤ L) (h2 : h ≤ L) (ha : 0 ≤ a) (hb : 0 ≤ b) (hfit : a + (h / 2 - 1 / 20 - b) ≤ L / 2) {x0 x1 : ℝ}
    (hx0 : |x0| ≤ 3 / 2 + L / 2) (hx1 : |x1| ≤ 3 / 2 + L / 2) :
    ∃ γ, ClearPath (freeSet (rooms L h) (block a b)) (h / 2 - 1 / 20 - b) (plane (x0, L / 2)) (plane (x1, L / 2)) γ ∧
      LengthAtMost γ |x0 - x1| := by
  have hd : dist (plane (x0, L / 2)) (plane (x1, L / 2)) = |x0 - x1| := by
    rw [EuclideanSpace.dist_eq, Fin.sum_univ_two]
    simp [plane, Real.dist_eq, Real.sqrt_sq_eq_abs]
  have := straight_path (F := freeSet (rooms L h) (block a b)) (δ := h / 2 - 1 / 20 - b) (a := plane (x0, L / 2)) (b := plane (x1, L / 2)) (by
    rintro x ⟨s, t, hs, ht, hst, rfl⟩ y hy
    have c0 := coord_lt_of_ball hy 0
    have c1 := coord_lt_of_ball hy 1
    have e0 : (s • plane (x0, L / 2) + t • plane (x1, L / 2)) 0 = s * x0 + t * x1 := by simp [plane]
    have e1 : (s • plane (x0, L / 2) + t • plane (x1, L / 2)) 1 = L / 2 := by
      simp [plane]; rw [← add_mul, hst, one_mul]
    rw [e0] at c0
    rw [e1] at c1
    apply rooms_free h0 h2 ha hb
    · simp only
      have k1 : |s * x0 + t * x1| ≤ 3 / 2 + L / 2 := by
        calc |s * x0 + t * x1| ≤ |s * x0| + |t * x1| := abs_add_le _ _
          _ = s * |x0| + t * |x1| := by rw [abs_mul, abs_mul, abs_of_nonneg hs, abs_of_nonneg ht]
          _ ≤ s * (3 / 2 + L / 2) + t * (3 / 2 + L / 2) := by gcongr
          _ = 3 / 2 + L / 2 := by rw [← add_mul, hst, one_mul]
      have k2 : |y 0| ≤ |y 0 - (s * x0 + t * x1)| + |s * x0 + t * x1| := by
        have := abs_add_le (y 0 - (s * x0 + t * x1)) (s * x0 + t * x1)
        rwa [sub_add_cancel] at this
      linarith
    · simp only
      linarith)
  exact ⟨_, this.1, hd ▸ this.2⟩

theorem house_of_path {L h : ℝ} (h2 : h ≤ L) {γ : ℝ → Space 2} (hγ : ContinuousOn γ (Set.Icc 0 1))
    (hc : ∀ t ∈ Set.Icc (0 : ℝ) 1, Clear L h (γ t 0, γ t 1)) (hs : (γ 0 0, γ 0 1) ∈ house L h) {t : ℝ} (ht : t ∈ Set.Icc (0 : ℝ) 1) :
    (γ t 0, γ t 1) ∈ house L h := by
  have hu := isCompact_Icc.uniformContinuousOn_of_continuous hγ
  rw [Metric.uniformContinuousOn_iff] at hu
  obtain ⟨η, hη, hu⟩ := hu (8 / 100) (by norm_num)
  obtain ⟨n, hn⟩ := exists_nat_one_div_lt hη
  have hn0 : (0 : ℝ) < n + 1 := by positivity
  have key : ∀ k : ℕ, k ≤ n + 1 → (γ (k * t / (n + 1)) 0, γ (k * t / (n + 1)) 1) ∈ house L h := by
    intro k
    induction k with
    | zero => intro _; simpa using hs
    | succ k ih =>
      intro hk
      have mem : ∀ j : ℕ, j ≤ n + 1 → (j : ℝ) * t / (n + 1) ∈ Set.Icc (0 : ℝ) 1 := by
        intro j hj
        have hj' : (j : ℝ) ≤ n + 1 := by exact_mod_cast hj
        constructor
        · have := ht.1
          positivity
        · rw [div_le_one hn0]
          nlinarith [ht.1, ht.2, (Nat.cast_nonneg j : (0 : ℝ) ≤ j)]
      have hd := hu _ (mem (k + 1) hk) _ (mem k (by omega)) (by
        rw [Real.dist_eq, ← sub_div, ← sub_mul]
        push_cast
        rw [add_sub_cancel_left, one_mul, abs_of_nonneg (div_nonneg ht.1 hn0.le)]
        exact lt_of_le_of_lt (by gcongr; exact ht.2) hn)
      have hb : γ ((k + 1 : ℕ) * t / (n + 1)) ∈ Metric.ball (γ (k * t / (n + 1))) (8 / 100) := hd
      exact step_house h2 (hc _ (mem k (by omega))) (hc _ (mem (k + 1) hk)) (ih (by omega)) (coord_lt_of_ball hb 0) (coord_lt_of_ball hb 1)
  have := key (n + 1) le_rfl
  push_cast at this
  rwa [mul_div_right_comm, div_self hn0.ne', one_mul] at this

theorem block_zero {a b : ℝ} (ha : 0 ≤ a) (hb : 0 ≤ b) : ((0, 0) : ℝ × ℝ) ∈ block a b := ⟨by simpa using ha, by simpa using hb⟩

theorem mid_of_house {L h : ℝ} {p : ℝ × ℝ} (hp : p ∈ house L h) (h1 : -3 / 2 < p.1) (h2 : p.1 < 3 / 2) :
    L / 2 - h / 2 ≤ p.2 ∧ p.2 ≤ L / 2 + h / 2 := by
  rcases hp with (⟨a1, a2, a3, a4⟩ | ⟨a1, a2, a3, a4⟩) | ⟨a1, a2, a3, a4⟩
  · linarith
  · exact ⟨a3, a4⟩
  · linarith

/-- In the middle of the hallway a free block is away from both hallway walls. -/
theorem mid_free {L h a b : ℝ} (h0 : 0 ≤ L) (h2 : h ≤ L) (ha : 0 ≤ a) (hb : 0 ≤ b) {p : ℝ × ℝ} (hf : FreeAt (rooms L h) (block a b) p)
    (hx : |p.1| ≤ 1) (hp : p ∈ house L h) : |p.2 - L / 2| + b < h / 2 - 1 / 20 := by
  rw [abs_le] at hx
  obtain ⟨m1, m2⟩ := mid_of_house hp (by linarith [hx.1]) (by linarith [hx.2])
  obtain ⟨i1, i2⟩ := hall_inside (clear_facts (clear_of_free (block_zero ha hb) hf)) (by linarith [hx.1]) (by linarith [hx.2]) (by linarith) (by linarith)
  rw [freeAt_block ha hb fun o ho => ⟨(rooms_sizes h0 h2 o ho).1.le, (rooms_sizes h0 h2 o ho).2.le⟩] at hf
  unfold rooms at hf
  simp only [List.mem_cons, List.not_mem_nil, or_false, forall_eq_or_imp, forall_eq, hallLength, thick] at hf
  obtain ⟨-, -, -, -, -, -, -, -, -, -, t1, t2⟩ := hf
  have x : |p.1 - 0| ≤ 3 / 2 := by rw [sub_zero, abs_le]; constructor <;> linarith [hx.1, hx.2]
  have s1 : |p.2 - (L / 2 + h / 2)| = L / 2 + h / 2 - p.2 := by rw [abs_of_nonpos (by linarith)]; ring
  have s2 : |p.2 - (L / 2 - h / 2)| = p.2 - (L / 2 - h / 2) := abs_of_nonneg (by linarith)
  rw [s1] at t1
  rw [s2] at t2
  have u1 : 1 / 10 / 2 + b < L / 2 + h / 2 - p.2 := by
    rcases t1 with t | t
    · linarith
    · exact t
  have u2 : 1 / 10 / 2 + b < p.2 - (L / 2 - h / 2) := by
    rcases t2 with t | t
    · linarith
    · exact t
  rcases abs_cases (p.2 - L / 2) with ⟨e, -⟩ | ⟨e, -⟩ <;> rw [e] <;> linarith

theorem plane_coord (x : Space 2) (y : ℝ) : ‖plane (x 0, y) - x‖ = |y - x 1| := by
  rw [EuclideanSpace.norm_eq, Fin.sum_univ_two]
  simp [plane, Real.sqrt_sq_eq_abs]

/-- No path through the hallway has more clearance than its middle line. -/
theorem rooms_tight {L h a b δ : ℝ} (h0 : 0 ≤ L) (h2 : h ≤ L) (ha : 0 ≤ a) (hb : 0 ≤ b) (hδ : 0 < δ) {p q : ℝ × ℝ} {γ : ℝ → Space 2}
    (hγ : ClearPath (freeSet (rooms L h) (block a b)) δ (plane p) (plane q) γ) (hp : p ∈ house L h) (hp0 : p.1 ≤ 0) (hq0 : 0 ≤ q.1) :
    δ ≤ h / 2 - 1 / 20 - b := by
  have hfree : ∀ t ∈ Set.Icc (0 : ℝ) 1, FreeAt (rooms L h) (block a b) (γ t 0, γ t 1) := fun t ht =>
    hγ.clear t ht (Metric.mem_ball_self hδ)
  have e0 : ∀ p : ℝ × ℝ, plane p 0 = p.1 := fun p => by simp [plane]
  have e1 : ∀ p : ℝ × ℝ, plane p 1 = p.2 := fun p => by simp [plane]
  have hs : (γ 0 0, γ 0 1) ∈ house L h := by rw [hγ.start, e0, e1]; exact hp
  have hcont : ContinuousOn (fun t => γ t 0) (Set.Icc 0 1) := by
    have : Continuous fun x : Space 2 => x 0 := by fun_prop
    exact this.comp_continuousOn hγ.continuous
  obtain ⟨t, ht, hx⟩ := intermediate_value_Icc (zero_le_one (α := ℝ)) hcont (show (0 : ℝ) ∈ Set.Icc (γ 0 0) (γ 1 0) by
    rw [hγ.start, hγ.goal, e0, e0]; exact ⟨hp0, hq0⟩)
  simp only at hx
  have hh := house_of_path h2 hγ.continuous (fun t ht => clear_of_free (block_zero ha hb) (hfree t ht)) hs ht
  by_contra hc
  push Not at hc
  have step : ∀ y, |y - γ t 1| < δ → FreeAt (rooms L h) (block a b) (0, y) := by
    intro y hy
    have : plane (γ t 0, y) ∈ Metric.ball (γ t) δ := by
      rw [Metric.mem_ball, dist_eq_norm, plane_coord]; exact hy
    have := hγ.clear t ht this
    unfold freeSet at this
    simp only [Set.mem_ofPred_eq, e0, e1] at this
    rwa [hx] at this
  have base := mid_free h0 h2 ha hb (hfree t ht) (by simp only; rw [hx]; norm_num) hh
  simp only at base
  have m := mid_of_house hh (by simp only; rw [hx]; norm_num) (by simp only; rw [hx]; norm_num)
  simp only at m
  rcases le_total (L / 2) (γ t 1) with hle | hle
  · rw [abs_of_nonneg (by linarith)] at base
    have ff := step (L / 2 + h / 2 - 1 / 20 - b) (by rw [abs_lt]; constructor <;> linarith)
    have := mid_free h0 h2 ha hb ff (by simp) (by
      left; right; exact ⟨by norm_num, by norm_num, by simp only; linarith, by simp only; linarith⟩)
    simp only at this
    rw [abs_of_nonneg (by linarith)] at this
    linarith
  · rw [abs_of_nonpos (by linarith)] at base
    have ff := step (L / 2 - h / 2 + 1 / 20 + b) (by rw [abs_lt]; constructor <;> linarith)
    have := mid_free h0 h2 ha hb ff (by simp) (by
      left; right; exact ⟨by norm_num, by norm_num, by simp only; linarith, by simp only; linarith⟩)
    simp only at this
    rw [abs_of_nonpos (by linarith)] at this
    linarith

/-- C89, clearance: a rectangular body with half-widths `a`, `b` that is lower than the gap can be carried along the middle line from the start to the middle
of the other room, with distance `gap / 2 - b` to all positions that touch a wall. -/
theorem C89_passes {scale dd : ℝ} {num : ℕ} {u : ℕ → ℝ} {P : Problem} (h : hallwayManip scale dd num u = .ok P) (hg : P.gap ≤ 7 / 5)
    {a b : ℝ} (ha : 0 ≤ a) (hb : 0 ≤ b) (hfit : a + (P.gap / 2 - b) ≤ 3 / 4) :
    ∃ γ, ClearPath (freeSet P.obstacles (block a b)) (P.gap / 2 - b) (plane P.start) (plane (9 / 4, 3 / 4)) γ ∧ LengthAtMost γ (9 / 2) := by
  obtain ⟨-, -, -, ho, hs⟩ := manip_eq h
  have := rooms_path (L := 3 / 2) (h := P.gap + 1 / 10) (a := a) (b := b) (by norm_num) (by linarith) ha hb (by linarith)
    (x0 := -9 / 4) (x1 := 9 / 4) (by norm_num [abs_le]) (by norm_num [abs_le])
  rw [show (3 / 2 : ℝ) / 2 = 3 / 4 by norm_num, show (P.gap + 1 / 10) / 2 - 1 / 20 - b = P.gap / 2 - b by ring,
    show |(-9 / 4 : ℝ) - 9 / 4| = 9 / 2 by norm_num [abs_of_neg]] at this
  rw [ho, hs]
  exact this

/-- C89, no better path: every path of the body from the part of the house left of the middle to the right half has at most this clearance; in
particular a body as high as the gap does not get through. -/
theorem C89_tight {scale dd : ℝ} {num : ℕ} {u : ℕ → ℝ} {P : Problem} (h : hallwayManip scale dd num u = .ok P) (hg : P.gap ≤ 7 / 5)
    {a b δ : ℝ} (ha : 0 ≤ a) (hb : 0 ≤ b) (hδ : 0 < δ) {p q : ℝ × ℝ} {γ : ℝ → Space 2}
    (hγ : ClearPath (freeSet P.obstacles (block a b)) δ (plane p) (plane q) γ) (hp : p ∈ house (3 / 2) (P.gap + 1 / 10)) (hp0 : p.1 ≤ 0)
    (hq0 : 0 ≤ q.1) : δ ≤ P.gap / 2 - b := by
  obtain ⟨-, -, -, ho, -⟩ := manip_eq h
  rw [ho] at hγ
  have := rooms_tight (by norm_num) (by linarith) ha hb hδ hγ hp hp0 hq0
  linarith

/-- C89 for the world without targets: for a robot of the radius that the world was made for, the clearance of the hallway is `dd / 2`, and
no path has more. -/
theorem C89_hallway {scale dd : ℝ} (hs : 0 ≤ scale) (hd : 0 < dd) (hfit : 2 * (scale * 0.179) + dd ≤ 0.9) :
    (∃ goal γ, (hallway scale dd).goal = some goal ∧ ClearPath (freeSet (hallway scale dd).obstacles (block (scale * 0.179) (scale * 0.179)))
      (dd / 2) (plane (hallway scale dd).start) (plane goal) γ ∧ LengthAtMost γ 4) ∧
    ∀ δ goal γ, 0 < δ → (hallway scale dd).goal = some goal → ClearPath (freeSet (hallway scale dd).obstacles
      (block (scale * 0.179) (scale * 0.179))) δ (plane (hallway scale dd).start) (plane goal) γ → δ ≤ dd / 2 := by
  have e : scale * botRadius = scale * 0.179 := by unfold botRadius; norm_num
  have e2 : (hallway scale dd).obstacles = rooms 1 (2 * (scale * 0.179) + 1 / 10 + dd) := by
    show rooms 1 (scale * botRadius * 2 + thick + dd) = _
    rw [e]
    unfold thick
    congr 1
    ring
  have e3 : (hallway scale dd).start = (-2, 1 / 2) := by
    show (-hallLength / 2 - 1 / 2, (1 : ℝ) / 2) = _
    unfold hallLength
    norm_num
  have e4 : (hallway scale dd).goal = some (2, 1 / 2) := by
    show some (hallLength / 2 + 1 / 2, (1 : ℝ) / 2) = _
    unfold hallLength
    norm_num
  have hn : 0 ≤ scale * 0.179 := by positivity
  have hfit' : 2 * (scale * 0.179) + dd ≤ 9 / 10 := by norm_num at hfit ⊢; exact hfit
  rw [e2, e3, e4]
  generalize scale * 0.179 = r at hn hfit' ⊢
  constructor
  · obtain ⟨γ, g1, g2⟩ := rooms_path (L := 1) (h := 2 * r + 1 / 10 + dd) (a := r) (b := r) (by norm_num)
      (by linarith) hn hn (by linarith) (x0 := -2) (x1 := 2) (by norm_num [abs_le]) (by norm_num [abs_le])
    rw [show (2 * r + 1 / 10 + dd) / 2 - 1 / 20 - r = dd / 2 by ring] at g1
    rw [show |(-2 : ℝ) - 2| = 4 by norm_num [abs_of_neg]] at g2
    exact ⟨_, γ, rfl, g1, g2⟩
  · intro δ goal γ hδ hg hγ
    injection hg with hg
    subst hg
    have := rooms_tight (by norm_num) (by linarith) hn hn hδ hγ (by
      left; left; exact ⟨by norm_num, by norm_num, by norm_num, by norm_num⟩) (by norm_num) (by norm_num)
    linarith

/-- The hypotheses of C88 and C89 are met by the world of the experiment (robot scale 0.3, gap parameter 0.05, two targets) with the larger target. -/
theorem C89_nonvacuous : ∃ P, hallwayManip (3 / 10) (5 / 100) 2 (fun _ => 1 / 2) = .ok P ∧ P.gap ≤ 7 / 5 ∧ 0.1537 ∈ P.sizes ∧
    0.1537 + (P.gap / 2 - 0.1537) ≤ 3 / 4 ∧ 0 < P.gap / 2 - 0.1537 ∧ P.start ∈ house (3 / 2) (P.gap + 1 / 10) := by
  obtain ⟨P, hP⟩ := (C88_answers (3 / 10) (5 / 100) 2 fun _ => 1 / 2).2 (by norm_num)
  obtain ⟨-, -, h1, h2⟩ := C88_sizes (fun _ => by norm_num) hP
  obtain ⟨-, -, -, -, hs⟩ := manip_eq hP
  refine ⟨P, hP, by rw [h2]; norm_num, ?_, by rw [h2]; norm_num, by rw [h2]; norm_num, ?_⟩
  · have := List.mem_of_head? h1
    norm_num at this ⊢
    exact this
  · rw [hs]
    left; left; exact ⟨by norm_num, by norm_num, by norm_num, by norm_num⟩

/-! ### C90 -/

/-- What the motion check guarantees about an accepted motion in a world with box-shaped obstacles: a chain of free poses with small steps. -/
theorem accepted_poses {robot : List (ℝ × ℝ)} (hrob : ConvexPolygon robot ∧ ProperEdges robot) (h4 : robot.length = 4) {obs : List Box}
    (hobs : ∀ o ∈ obs, 0 < o.w ∧ 0 < o.l) {p q : ℝ × ℝ} (h : Accepted robot (obs.map Box.corners) p q) :
    ∃ (n : ℕ) (x : ℕ → ℝ × ℝ), x 0 = p ∧ x n = q ∧ (∀ k ≤ n, FreeAt obs (polygonHull robot) (x k)) ∧
      ∀ k, |(x (k + 1)).1 - (x k).1| < 8 / 100 ∧ |(x (k + 1)).2 - (x k).2| < 8 / 100 := by
  obtain ⟨motions, rs, i, h1, h2, h3⟩ := h
  have hm : motions ≠ [] := by rintro rfl; simp at h2
  obtain ⟨N, rs', hN, e, -, hall⟩ := C53_motion_poses_partial robot (obs.map Box.corners) motions hrob (by
    intro o ho
    obtain ⟨b, hb, rfl⟩ := List.mem_map.1 ho
    obtain ⟨w, l⟩ := hobs b hb
    refine ⟨by rw [h4]; rfl, rect_convex _ _ _ _ (by linarith) (by linarith), rect_proper _ _ _ _ (by linarith) (by linarith)⟩) hm
  rw [h1] at e
  injection e with e
  subst e
  obtain ⟨a1, a2, a3, a4⟩ := hall i _ h2
  rw [a1] at h3
  refine ⟨N - 1, fun k => poseAt (p, q) ((k : ℝ) / ((N : ℝ) - 1)), a3, a4, ?_, ?_⟩
  · intro k hk o ho v hv hin
    refine h3 k (by omega) o.corners (List.mem_map.2 ⟨o, ho, rfl⟩) ⟨_, placed_hull_mem robot _ v hv, ?_⟩
    rw [region_eq_hull o (hobs o ho).1.le (hobs o ho).2.le]
    exact hin
  · intro k
    have := a2 k
    norm_num at this ⊢
    exact this

theorem house_of_accepted {L h : ℝ} (h0 : 0 ≤ L) (h2 : h ≤ L) {robot : List (ℝ × ℝ)} (hrob : ConvexPolygon robot ∧ ProperEdges robot)
    (h4 : robot.length = 4) (hz : (0, 0) ∈ polygonHull robot) {p q : ℝ × ℝ} (hacc : Accepted robot ((rooms L h).map Box.corners) p q)
    (hp : p ∈ house L h) : ∃ (n : ℕ) (x : ℕ → ℝ × ℝ), x 0 = p ∧ x n = q ∧
      (∀ k ≤ n, FreeAt (rooms L h) (polygonHull robot) (x k) ∧ x k ∈ house L h) ∧
      ∀ k, |(x (k + 1)).1 - (x k).1| < 8 / 100 ∧ |(x (k + 1)).2 - (x k).2| < 8 / 100 := by
  obtain ⟨n, x, x0, xn, hf, hs⟩ := accepted_poses hrob h4 (rooms_sizes h0 h2) hacc
  refine ⟨n, x, x0, xn, fun k hk => ⟨hf k hk, ?_⟩, hs⟩
  induction k with
  | zero => rw [x0]; exact hp
  | succ k ih => exact step_house h2 (clear_of_free hz (hf k (by omega))) (clear_of_free hz (hf (k + 1) hk)) (ih (by omega)) (hs k).1 (hs k).2

theorem house_of_chain {L h : ℝ} (h0 : 0 ≤ L) (h2 : h ≤ L) {robot : List (ℝ × ℝ)} (hrob : ConvexPolygon robot ∧ ProperEdges robot)
    (h4 : robot.length = 4) (hz : (0, 0) ∈ polygonHull robot) {p : ℝ × ℝ} {l : List (ℝ × ℝ)}
    (hl : (p :: l).IsChain (Accepted robot ((rooms L h).map Box.corners))) (hp : p ∈ house L h) : ∀ q ∈ l, q ∈ house L h := by
  induction l generalizing p with
  | nil => simp
  | cons q l ih =>
    rw [List.isChain_cons_cons] at hl
    obtain ⟨n, x, x0, xn, hf, -⟩ := house_of_accepted h0 h2 hrob h4 hz hl.1 hp
    have hq : q ∈ house L h := xn ▸ (hf n le_rfl).2
    intro r hr
    rcases List.mem_cons.1 hr with rfl | hr
    · exact hq
    · exact ih hl.2 hq r hr

/-- C90, no tunnelling: although the motion check only looks at single poses, a path of accepted motions never gets out of the two rooms and the hallway (whichever
the other motions in the batches). The robot polygon has four vertices and contains its reference point. -/
theorem C90_stays {scale dd : ℝ} {num : ℕ} {u : ℕ → ℝ} {P : Problem} (h : hallwayManip scale dd num u = .ok P) (hg : P.gap ≤ 7 / 5)
    {robot : List (ℝ × ℝ)} (hrob : ConvexPolygon robot ∧ ProperEdges robot) (h4 : robot.length = 4) (hz : (0, 0) ∈ polygonHull robot)
    {p : ℝ × ℝ} {l : List (ℝ × ℝ)} (hl : (p :: l).IsChain (Accepted robot (P.obstacles.map Box.corners)))
    (hp : p ∈ house (3 / 2) (P.gap + 1 / 10)) : ∀ q ∈ l, q ∈ house (3 / 2) (P.gap + 1 / 10) := by
  obtain ⟨-, -, -, ho, -⟩ := manip_eq h
  rw [ho] at hl
  exact house_of_chain (by norm_num) (by linarith) hrob h4 hz hl hp

/-- C90 for the world without targets. -/
theorem C90_stays_hallway {scale dd : ℝ} (hfit : 2 * (scale * 0.179) + dd ≤ 0.9)
    {robot : List (ℝ × ℝ)} (hrob : ConvexPolygon robot ∧ ProperEdges robot) (h4 : robot.length = 4) (hz : (0, 0) ∈ polygonHull robot)
    {p : ℝ × ℝ} {l : List (ℝ × ℝ)} (hl : (p :: l).IsChain (Accepted robot ((hallway scale dd).obstacles.map Box.corners)))
    (hp : p ∈ house 1 (2 * (scale * 0.179) + dd + 0.1)) : ∀ q ∈ l, q ∈ house 1 (2 * (scale * 0.179) + dd + 0.1) := by
  have e2 : (hallway scale dd).obstacles = rooms 1 (2 * (scale * 0.179) + dd + 0.1) := by
    show rooms 1 (scale * botRadius * 2 + thick + dd) = _
    unfold thick botRadius
    congr 1
    norm_num
    ring
  rw [e2] at hl
  exact house_of_chain (by norm_num) (by norm_num at hfit ⊢; linarith) hrob h4 hz hl hp

theorem too_high {L h a b : ℝ} (h0 : 0 ≤ L) (h2 : h ≤ L) (ha : 0 < a) (hb : 0 < b) {p q : ℝ × ℝ}
    (hacc : Accepted (rect (-a) (-b) a b) ((rooms L h).map Box.corners) p q) (hp : p ∈ house L h) (hp0 : p.1 ≤ 0) (hq0 : 0 ≤ q.1) :
    2 * b < h - 1 / 10 := by
  have hull : polygonHull (rect (-a) (-b) a b) = block a b := by
    have := region_eq_hull ⟨0, 0, 2 * a, 2 * b⟩ (by simp only; linarith) (by simp only; linarith)
    unfold Box.corners Box.region at this
    simp only [zero_sub, zero_add, sub_zero, mul_div_cancel_left₀ _ (two_ne_zero : (2 : ℝ) ≠ 0)] at this
    exact this
  obtain ⟨n, x, x0, xn, hf, hs⟩ := house_of_accepted h0 h2 ⟨rect_convex _ _ _ _ (by linarith) (by linarith), rect_proper _ _ _ _ (by linarith) (by linarith)⟩
    rfl (by rw [hull]; exact block_zero ha.le hb.le) hacc hp
  rw [hull] at hf
  have hex : ∃ k, k ≤ n ∧ 0 ≤ (x k).1 := ⟨n, le_rfl, by rw [xn]; exact hq0⟩
  classical
  obtain ⟨hk1, hk2⟩ := Nat.find_spec hex
  have hlt : (x (Nat.find hex)).1 ≤ 1 := by
    rcases hcase : Nat.find hex with _ | k
    · rw [x0]; linarith
    · have hmin := Nat.find_min hex (m := k) (by omega)
      have hneg : (x k).1 < 0 := by
        by_contra hc
        exact hmin ⟨by omega, not_lt.1 hc⟩
      have := (abs_lt.1 (hs k).1).2
      linarith
  have := mid_free h0 h2 ha.le hb.le (hf _ hk1).1 (by rw [abs_le]; constructor <;> linarith) (hf _ hk1).2
  linarith [abs_nonneg ((x (Nat.find hex)).2 - L / 2)]

/-- C90: a box-shaped body that is at least as high as the gap is never brought through the hallway by accepted motions. -/
theorem C90_blocked {scale dd : ℝ} {num : ℕ} {u : ℕ → ℝ} {P : Problem} (h : hallwayManip scale dd num u = .ok P) (hg : P.gap ≤ 7 / 5)
    {a b : ℝ} (ha : 0 < a) (hb : 0 < b) (hb2 : P.gap ≤ 2 * b) {p : ℝ × ℝ} {l : List (ℝ × ℝ)}
    (hl : (p :: l).IsChain (Accepted (rect (-a) (-b) a b) (P.obstacles.map Box.corners))) (hp : p ∈ house (3 / 2) (P.gap + 1 / 10))
    (hp0 : p.1 < 0) : ∀ q ∈ l, q.1 < 0 := by
  obtain ⟨-, -, -, ho, -⟩ := manip_eq h
  rw [ho] at hl
  have hull : ((0, 0) : ℝ × ℝ) ∈ polygonHull (rect (-a) (-b) a b) :=
    rect_mem _ _ _ _ (by linarith) (by linarith) _ (by simp only; linarith) (by simp only; linarith) (by simp only; linarith) (by simp only; linarith)
  induction l generalizing p with
  | nil => simp
  | cons q l ih =>
    rw [List.isChain_cons_cons] at hl
    have hq0 : q.1 < 0 := by
      by_contra hc
      have := too_high (by norm_num) (by linarith) ha hb hl.1 hp hp0.le (not_lt.1 hc)
      linarith
    have hq : q ∈ house (3 / 2) (P.gap + 1 / 10) :=
      house_of_chain (by norm_num) (by linarith) ⟨rect_convex _ _ _ _ (by linarith) (by linarith), rect_proper _ _ _ _ (by linarith) (by linarith)⟩ rfl hull
        (l := [q]) (List.isChain_pair.2 hl.1) hp q (by simp)
    intro r hr
    rcases List.mem_cons.1 hr with rfl | hr
    · exact hq0
    · exact ih hl.2 hq hq0 r hr

/-- C90, the other direction: a motion of a box-shaped body during which it touches no wall is accepted, in every batch. -/
theorem C90_free {scale dd : ℝ} {num : ℕ} {u : ℕ → ℝ} {P : Problem} (h : hallwayManip scale dd num u = .ok P) (hg : P.gap ≤ 7 / 5)
    {a b : ℝ} (ha : 0 < a) (hb : 0 < b) {motions : List ((ℝ × ℝ) × (ℝ × ℝ))} {i : ℕ} {p q : ℝ × ℝ} (hm : motions[i]? = some (p, q))
    (hfree : ∀ x ∈ segment ℝ p q, FreeAt P.obstacles (block a b) x) :
    ∃ rs, isMotionValid (rect (-a) (-b) a b) (P.obstacles.map Box.corners) motions = .ok rs ∧ rs[i]? = some true := by
  obtain ⟨-, -, -, ho, -⟩ := manip_eq h
  have hsz : ∀ o ∈ P.obstacles, 0 < o.w ∧ 0 < o.l := by rw [ho]; exact rooms_sizes (by norm_num) (by linarith)
  have hne : motions ≠ [] := by rintro rfl; simp at hm
  obtain ⟨N, rs, hN, e, -, hall⟩ := C53_motion_poses_partial (rect (-a) (-b) a b) (P.obstacles.map Box.corners) motions
    ⟨rect_convex _ _ _ _ (by linarith) (by linarith), rect_proper _ _ _ _ (by linarith) (by linarith)⟩ (by
    intro o ho
    obtain ⟨b, hb, rfl⟩ := List.mem_map.1 ho
    obtain ⟨w, l⟩ := hsz b hb
    refine ⟨rfl, rect_convex _ _ _ _ (by linarith) (by linarith), rect_proper _ _ _ _ (by linarith) (by linarith)⟩) hne
  refine ⟨rs, e, (hall i _ hm).1.2 ?_⟩
  intro k hk o' hob'
  obtain ⟨o, hob, rfl⟩ := List.mem_map.1 hob'
  have hN1 : (0 : ℝ) < (N : ℝ) - 1 := by
    have : (2 : ℝ) ≤ N := by exact_mod_cast hN
    linarith
  have t0 : 0 ≤ (k : ℝ) / ((N : ℝ) - 1) := by positivity
  have t1 : (k : ℝ) / ((N : ℝ) - 1) ≤ 1 := by
    rw [div_le_one hN1]
    have : (k : ℝ) + 1 ≤ N := by exact_mod_cast hk
    linarith
  generalize (k : ℝ) / ((N : ℝ) - 1) = t at t0 t1
  have pe : poseAt (p, q) t = (p.1 + t * (q.1 - p.1), p.2 + t * (q.2 - p.2)) := by simp [poseAt]
  have hf := hfree (p.1 + t * (q.1 - p.1), p.2 + t * (q.2 - p.2))
    ⟨1 - t, t, by linarith, t0, by ring, by ext <;> simp <;> ring⟩
  rintro ⟨v, hv1, hv2⟩
  rw [region_eq_hull o (hsz o hob).1.le (hsz o hob).2.le] at hv2
  rw [pe] at hv1
  generalize p.1 + t * (q.1 - p.1) = x at hf hv1
  generalize p.2 + t * (q.2 - p.2) = y at hf hv1
  have e2 : placed (rect (-a) (-b) a b) (x, y) = Box.corners ⟨x, y, 2 * a, 2 * b⟩ := by
    simp only [placed, rect, Box.corners, List.map_cons, List.map_nil]
    simp only [mul_div_cancel_left₀ _ (two_ne_zero : (2 : ℝ) ≠ 0)]
    ring_nf
  rw [e2, region_eq_hull _ (by simp only; linarith) (by simp only; linarith)] at hv1
  obtain ⟨r1, r2⟩ := hv1
  simp only [mul_div_cancel_left₀ _ (two_ne_zero : (2 : ℝ) ≠ 0)] at r1 r2
  refine hf o hob (v.1 - x, v.2 - y) ⟨r1, r2⟩ ?_
  simpa using hv2

/-- C90: a box-shaped body that is lower than the gap (and fits into the rooms) is let through; motions along the middle line are accepted in
every batch. -/
theorem C90_accepts {scale dd : ℝ} {num : ℕ} {u : ℕ → ℝ} {P : Problem} (h : hallwayManip scale dd num u = .ok P) (hg : P.gap ≤ 7 / 5)
    {a b : ℝ} (ha : 0 < a) (hb : 0 < b) (ha2 : a < 3 / 4) (hb2 : 2 * b < P.gap) {motions : List ((ℝ × ℝ) × (ℝ × ℝ))} {i : ℕ} {x0 x1 : ℝ}
    (hm : motions[i]? = some ((x0, 3 / 4), (x1, 3 / 4))) (hx0 : |x0| ≤ 9 / 4) (hx1 : |x1| ≤ 9 / 4) :
    ∃ rs, isMotionValid (rect (-a) (-b) a b) (P.obstacles.map Box.corners) motions = .ok rs ∧ rs[i]? = some true := by
  obtain ⟨-, -, -, ho, -⟩ := manip_eq h
  refine C90_free h hg ha hb hm ?_
  rintro x ⟨s, t, hs, ht, hst, rfl⟩
  rw [ho]
  apply rooms_free (by norm_num) (by linarith) ha.le hb.le
  · simp only [Prod.smul_mk, Prod.mk_add_mk, smul_eq_mul]
    have : |s * x0 + t * x1| ≤ 9 / 4 := by
      rw [abs_le] at hx0 hx1 ⊢
      constructor <;> nlinarith
    linarith
  · simp only [Prod.smul_mk, Prod.mk_add_mk, smul_eq_mul]
    rw [show s * (3 / 4) + t * (3 / 4) - 3 / 2 / 2 = (s + t - 1) * (3 / 4) by ring, hst]
    norm_num
    linarith

/-- The hypotheses of C90 are met in the world of the experiment, for a body of half-width 0.15 and for one of half-height 0.2. -/
theorem C90_nonvacuous : ∃ P, hallwayManip (3 / 10) (5 / 100) 2 (fun _ => 1 / 2) = .ok P ∧ P.gap ≤ 7 / 5 ∧ P.gap ≤ 2 * 0.2 ∧ 2 * 0.15 < P.gap ∧
    P.start ∈ house (3 / 2) (P.gap + 1 / 10) ∧ P.start.1 < 0 ∧
    [P.start, (9 / 4, 3 / 4)].IsChain (Accepted (rect (-(3 / 20)) (-(3 / 20)) (3 / 20) (3 / 20)) (P.obstacles.map Box.corners)) := by
  obtain ⟨P, hP⟩ := (C88_answers (3 / 10) (5 / 100) 2 fun _ => 1 / 2).2 (by norm_num)
  obtain ⟨-, -, h1, h2⟩ := C88_sizes (fun _ => by norm_num) hP
  obtain ⟨-, -, -, -, hs⟩ := manip_eq hP
  refine ⟨P, hP, by rw [h2]; norm_num, by rw [h2]; norm_num, by rw [h2]; norm_num, ?_, by rw [hs]; norm_num, ?_⟩
  · rw [hs]
    left; left; exact ⟨by norm_num, by norm_num, by norm_num, by norm_num⟩
  · rw [List.isChain_pair, hs]
    obtain ⟨rs, r1, r2⟩ := C90_accepts hP (by rw [h2]; norm_num) (a := 3 / 20) (b := 3 / 20) (by norm_num) (by norm_num) (by norm_num) (by rw [h2]; norm_num)
      (motions := [((-9 / 4, 3 / 4), (9 / 4, 3 / 4))]) (i := 0) (x0 := -9 / 4) (x1 := 9 / 4) rfl (by norm_num [abs_le]) (by norm_num [abs_le])
    exact ⟨_, rs, 0, r1, rfl, r2⟩

/-! ### C91 -/

/-- C91 fails: in adaptive mode the clearance that is given to the bound is more than twice the clearance of every path of the carried body through the
hallway. (`-a`, `a`: the lower and upper end of the body's bounding box.) -/
theorem C91_adaptive_clearance_false {scale dd : ℝ} {num : ℕ} {u : ℕ → ℝ} {P : Problem} (h : hallwayManip scale dd num u = .ok P)
    (hg : P.gap ≤ 7 / 5) {a δ : ℝ} (ha : 0 ≤ a) (hδ : 0 < δ) {q : ℝ × ℝ} (hq : 0 ≤ q.1) {γ : ℝ → Space 2}
    (hγ : ClearPath (freeSet P.obstacles (block a a)) δ (plane P.start) (plane q) γ) :
    2 * δ < Anytime.turtleDelta P.gap (-a) a := by
  obtain ⟨-, -, -, -, hs⟩ := manip_eq h
  have := C89_tight h hg ha ha hδ hγ (by rw [hs]; left; left; exact ⟨by norm_num, by norm_num, by norm_num, by norm_num⟩) (by rw [hs]; norm_num) hq
  unfold Anytime.turtleDelta
  linarith

/-- C91 (part): without the buffer of 0.05 and halved, the number is the clearance of the middle line, the best there is (`C89_tight`). Missing: the code
does not halve it and adds the buffer. -/
theorem C91_half_partial {scale dd : ℝ} {num : ℕ} {u : ℕ → ℝ} {P : Problem} (h : hallwayManip scale dd num u = .ok P)
    (hg : P.gap ≤ 7 / 5) {a : ℝ} (ha : 0 ≤ a) :
    ∃ γ, ClearPath (freeSet P.obstacles (block a a)) ((Anytime.turtleDelta P.gap (-a) a - 0.05) / 2) (plane P.start) (plane (9 / 4, 3 / 4)) γ := by
  obtain ⟨γ, hγ, -⟩ := C89_passes h hg ha ha (by linarith)
  refine ⟨γ, ?_⟩
  have e : (Anytime.turtleDelta P.gap (-a) a - 0.05) / 2 = P.gap / 2 - a := by unfold Anytime.turtleDelta; norm_num; ring
  rw [e]
  exact hγ

/-- The hypotheses of C91 are met by the largest target of the experiment. -/
theorem C91_nonvacuous : ∃ P, hallwayManip (3 / 10) (5 / 100) 2 (fun _ => 1 / 2) = .ok P ∧ P.gap ≤ 7 / 5 ∧
    ∃ δ γ, 0 < δ ∧ ClearPath (freeSet P.obstacles (block 0.1537 0.1537)) δ (plane P.start) (plane (9 / 4, 3 / 4)) γ := by
  obtain ⟨P, h, hg, -, h1, h2, -⟩ := C89_nonvacuous
  obtain ⟨γ, hγ, -⟩ := C89_passes h hg (a := 0.1537) (b := 0.1537) (by norm_num) (by norm_num) h1
  exact ⟨P, h, hg, _, γ, h2, hγ⟩

end Verif.Props
