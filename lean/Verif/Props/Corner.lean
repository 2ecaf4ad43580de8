import Verif.Props.Hallway

/-! The corner world: C96. -/

namespace Verif.Props

open Verif.Spec Verif.Hallway Verif.Sat2D Verif.Turtlebot Verif.Net

/-- The robot of the corner world, seen as a square of half-width `scale * 0.179`, is free at a position exactly if it is clear of the four walls and the box. -/
theorem corner_free {scale dd : ℝ} (hs : 0 ≤ scale) (hfit : 2 * (scale * (179 / 1000)) + dd / 2 ≤ 7 / 5) {p : ℝ × ℝ} :
    FreeAt (corner scale dd).obstacles (block (scale * (179 / 1000)) (scale * (179 / 1000))) p ↔
      (31 / 20 + scale * (179 / 1000) < |p.1| ∨ 1 / 20 + scale * (179 / 1000) < |p.2 - 3 / 2|) ∧
      (31 / 20 + scale * (179 / 1000) < |p.1| ∨ 1 / 20 + scale * (179 / 1000) < |p.2 + 3 / 2|) ∧
      (1 / 20 + scale * (179 / 1000) < |p.1 - 3 / 2| ∨ 31 / 20 + scale * (179 / 1000) < |p.2|) ∧
      (1 / 20 + scale * (179 / 1000) < |p.1 + 3 / 2| ∨ 31 / 20 + scale * (179 / 1000) < |p.2|) ∧
      (7 / 5 - scale * (179 / 1000) - dd / 2 < |p.1| ∨ 7 / 5 - scale * (179 / 1000) - dd / 2 < |p.2|) := by
  have hr : 0 ≤ scale * (179 / 1000) := by positivity
  rw [freeAt_block hr hr]
  · simp only [Hallway.corner, List.forall_mem_cons, thick, botRadius, sub_zero, mul_comm (179 / 1000 : ℝ) scale]
    generalize scale * (179 / 1000 : ℝ) = r
    rw [show (3 + 1 / 10 : ℝ) / 2 = 31 / 20 by norm_num, show (1 / 10 : ℝ) / 2 = 1 / 20 by norm_num, show ((3 / 2 - (1 / 10 + 2 * r)) * 2 - dd) / 2 + r = 7 / 5 - r - dd / 2 by ring,
      show p.2 - -3 / 2 = p.2 + 3 / 2 by ring, show p.1 - -3 / 2 = p.1 + 3 / 2 by ring]
    simp
  · simp only [Hallway.corner, List.forall_mem_cons, thick, botRadius, mul_comm (179 / 1000 : ℝ) scale]
    generalize scale * (179 / 1000 : ℝ) = r at *
    refine ⟨by norm_num, by norm_num, by norm_num, by norm_num, ⟨?_, ?_⟩, by simp⟩ <;> linarith

/-- A ball of free positions. -/
theorem corner_ball {scale dd δ : ℝ} (hs : 0 ≤ scale) (hd : 0 ≤ dd) (hfit : 2 * (scale * (179 / 1000)) + dd / 2 ≤ 7 / 5) {x : Space 2}
    (h0 : |x 0| + δ ≤ 29 / 20 - scale * (179 / 1000)) (h1 : |x 1| + δ ≤ 29 / 20 - scale * (179 / 1000))
    (h : 7 / 5 - scale * (179 / 1000) - dd / 2 + δ ≤ |x 0| ∨ 7 / 5 - scale * (179 / 1000) - dd / 2 + δ ≤ |x 1| ∨
      (7 / 5 - scale * (179 / 1000) ≤ |x 0| ∧ 7 / 5 - scale * (179 / 1000) ≤ |x 1| ∧ δ ^ 2 ≤ dd ^ 2 / 2)) :
    Metric.ball x δ ⊆ freeSet (corner scale dd).obstacles (block (scale * (179 / 1000)) (scale * (179 / 1000))) := by
  intro y hy
  have c0 := coord_lt_of_ball hy 0
  have c1 := coord_lt_of_ball hy 1
  have hδ : 0 < δ := lt_of_le_of_lt (abs_nonneg _) c0
  have hr : 0 ≤ scale * (179 / 1000) := by positivity
  have t0 : |y 0| < |x 0| + δ := by
    have := abs_add_le (y 0 - x 0) (x 0)
    rw [sub_add_cancel] at this
    linarith
  have t1 : |y 1| < |x 1| + δ := by
    have := abs_add_le (y 1 - x 1) (x 1)
    rw [sub_add_cancel] at this
    linarith
  have s0 : |x 0| - |y 0 - x 0| ≤ |y 0| := by
    have := abs_sub (y 0) (y 0 - x 0)
    rw [sub_sub_cancel] at this
    linarith
  have s1 : |x 1| - |y 1 - x 1| ≤ |y 1| := by
    have := abs_sub (y 1) (y 1 - x 1)
    rw [sub_sub_cancel] at this
    linarith
  have hsq : |y 0 - x 0| ^ 2 + |y 1 - x 1| ^ 2 < δ ^ 2 := by
    rw [Metric.mem_ball, EuclideanSpace.dist_eq, Fin.sum_univ_two, Real.sqrt_lt' hδ] at hy
    simpa [Real.dist_eq] using hy
  show FreeAt _ _ (y 0, y 1)
  rw [corner_free hs hfit]
  simp only
  generalize scale * (179 / 1000 : ℝ) = r at *
  have a0 := abs_lt.1 (lt_of_lt_of_le t0 h0)
  have a1 := abs_lt.1 (lt_of_lt_of_le t1 h1)
  refine ⟨Or.inr ?_, Or.inr ?_, Or.inl ?_, Or.inl ?_, ?_⟩
  · rw [lt_abs]; right; linarith [a1.2]
  · rw [lt_abs]; left; linarith [a1.1]
  · rw [lt_abs]; right; linarith [a0.2]
  · rw [lt_abs]; left; linarith [a0.1]
  · rcases h with h | h | ⟨k0, k1, k2⟩
    · left; linarith
    · right; linarith
    · by_contra hc
      push Not at hc
      have u0 : dd / 2 ≤ |y 0 - x 0| := by linarith [hc.1]
      have u1 : dd / 2 ≤ |y 1 - x 1| := by linarith [hc.2]
      nlinarith

theorem corner_segment {scale dd δ : ℝ} (hs : 0 ≤ scale) (hd : 0 ≤ dd) (hfit : 2 * (scale * (179 / 1000)) + dd / 2 ≤ 7 / 5) {p q : ℝ × ℝ}
    (h : ∀ t ∈ Set.Icc (0 : ℝ) 1, ∀ x y, x = p.1 + t * (q.1 - p.1) → y = p.2 + t * (q.2 - p.2) →
      |x| + δ ≤ 29 / 20 - scale * (179 / 1000) ∧ |y| + δ ≤ 29 / 20 - scale * (179 / 1000) ∧
      (7 / 5 - scale * (179 / 1000) - dd / 2 + δ ≤ |x| ∨ 7 / 5 - scale * (179 / 1000) - dd / 2 + δ ≤ |y| ∨
      (7 / 5 - scale * (179 / 1000) ≤ |x| ∧ 7 / 5 - scale * (179 / 1000) ≤ |y| ∧ δ ^ 2 ≤ dd ^ 2 / 2))) :
    ClearPath (freeSet (corner scale dd).obstacles (block (scale * (179 / 1000)) (scale * (179 / 1000)))) δ (plane p) (plane q) (AffineMap.lineMap (plane p) (plane q)) ∧
      LengthAtMost (AffineMap.lineMap (plane p) (plane q)) (dist (plane p) (plane q)) := by
  apply straight_path
  rintro x ⟨s, t, hs', ht, hst, rfl⟩
  obtain ⟨h0, h1, h2⟩ := h t ⟨ht, by linarith⟩ _ _ rfl rfl
  have hs1 : s = 1 - t := by linarith
  have e0 : (s • plane p + t • plane q) 0 = p.1 + t * (q.1 - p.1) := by simp [plane, hs1]; ring
  have e1 : (s • plane p + t • plane q) 1 = p.2 + t * (q.2 - p.2) := by simp [plane, hs1]; ring
  apply corner_ball hs hd hfit
  · rwa [e0]
  · rwa [e1]
  · rwa [e0, e1]

/-- C96. In the corner world, the robot that the world was made for can be brought from the start to the goal with the clearance given, and no path between them has more. -/
theorem C96_corner {scale dd : ℝ} (hs : 0 ≤ scale) (hd : 0 < dd) (hfit : 2 * (scale * 0.179) + dd / 2 < 7 / 5) :
    ∃ goal, (corner scale dd).goal = some goal ∧
    (∃ γ, ClearPath (freeSet (corner scale dd).obstacles (block (scale * 0.179) (scale * 0.179)))
      (min (1 / 20) (min (1 / 40 + dd / 4) (dd / Real.sqrt 2))) (plane (corner scale dd).start) (plane goal) γ ∧ LengthAtMost γ 6) ∧
    ∀ δ γ, 0 < δ → ClearPath (freeSet (corner scale dd).obstacles (block (scale * 0.179) (scale * 0.179))) δ (plane (corner scale dd).start) (plane goal) γ →
      δ ≤ min (1 / 20) (min (1 / 40 + dd / 4) (dd / Real.sqrt 2)) := by
  have hr : 0 ≤ scale * (179 / 1000) := by positivity
  rw [show (0.179 : ℝ) = 179 / 1000 by norm_num] at *
  have e : (corner scale dd).start = (7 / 5 - scale * (179 / 1000), -(7 / 5 - scale * (179 / 1000))) ∧
      (corner scale dd).goal = some (-(7 / 5 - scale * (179 / 1000)), 7 / 5 - scale * (179 / 1000)) := by
    simp only [Hallway.corner, botRadius, thick, Prod.mk.injEq, Option.some.injEq]
    refine ⟨⟨?_, ?_⟩, ?_, ?_⟩ <;> ring
  refine ⟨_, e.2, ?_, ?_⟩
  · rw [e.1]
    have hseg := @corner_segment scale dd (min (1 / 20) (min (1 / 40 + dd / 4) (dd / Real.sqrt 2))) hs hd.le hfit.le
    generalize freeSet (corner scale dd).obstacles (block (scale * (179 / 1000)) (scale * (179 / 1000))) = F at *
    generalize scale * (179 / 1000 : ℝ) = r at *
    have d1 : min (1 / 20) (min (1 / 40 + dd / 4) (dd / Real.sqrt 2)) ≤ 1 / 20 := min_le_left _ _
    have d2 : min (1 / 20) (min (1 / 40 + dd / 4) (dd / Real.sqrt 2)) ≤ 1 / 40 + dd / 4 := (min_le_right _ _).trans (min_le_left _ _)
    have d3 : min (1 / 20) (min (1 / 40 + dd / 4) (dd / Real.sqrt 2)) ≤ dd / Real.sqrt 2 := (min_le_right _ _).trans (min_le_right _ _)
    have d0 : 0 < min (1 / 20) (min (1 / 40 + dd / 4) (dd / Real.sqrt 2)) := by
      refine lt_min (by norm_num) (lt_min (by linarith) (by positivity))
    have d4 : min (1 / 20) (min (1 / 40 + dd / 4) (dd / Real.sqrt 2)) ^ 2 ≤ dd ^ 2 / 2 := by
      calc _ ≤ (dd / Real.sqrt 2) ^ 2 := by gcongr
        _ = dd ^ 2 / 2 := by rw [div_pow, Real.sq_sqrt (by norm_num)]
    generalize min (1 / 20) (min (1 / 40 + dd / 4) (dd / Real.sqrt 2)) = δ at *
    set a := 7 / 5 - r with ha
    set m := max a (a + 1 / 40 - dd / 4) with hm
    have m1 : a ≤ m := le_max_left _ _
    have m2 : a + 1 / 40 - dd / 4 ≤ m := le_max_right _ _
    have m3 : m + δ ≤ a + 1 / 20 := by
      rw [← le_sub_iff_add_le]
      exact max_le (by linarith) (by linarith)
    have a0 : 0 < a := by linarith
    clear_value m a
    have sub : ∀ t ∈ Set.Icc (0 : ℝ) 1, ∀ u v w : ℝ, u ≤ v → w = u + t * (v - u) → u ≤ w ∧ w ≤ v := by
      rintro t ⟨t0, t1⟩ u v w huv rfl
      constructor <;> nlinarith
    obtain ⟨p1, l1⟩ := @hseg (a, -a) (m, -a) (by
      intro t ht x y hx hy
      simp only [sub_self, mul_zero, add_zero] at hx hy
      obtain ⟨k1, k2⟩ := sub t ht a m x m1 hx
      subst hy
      rw [abs_neg, abs_of_pos a0, abs_of_nonneg (by linarith)]
      exact ⟨by linarith, by linarith, Or.inr (Or.inr ⟨by linarith, le_refl _, d4⟩)⟩)
    obtain ⟨p2, l2⟩ := @hseg (m, -a) (m, m) (by
      intro t ht x y hx hy
      simp only [sub_self, mul_zero, add_zero] at hx hy
      obtain ⟨k1, k2⟩ := sub t ht (-a) m y (by linarith) hy
      subst hx
      have : |y| ≤ x := abs_le.2 ⟨by linarith, k2⟩
      rw [abs_of_nonneg (a := x) (by linarith)]
      exact ⟨by linarith, by linarith, Or.inl (by linarith)⟩)
    obtain ⟨p3, l3⟩ := @hseg (m, m) (-a, m) (by
      intro t ht x y hx hy
      simp only [sub_self, mul_zero, add_zero] at hx hy
      obtain ⟨k1, k2⟩ := sub (1 - t) ⟨by linarith [ht.2], by linarith [ht.1]⟩ (-a) m x (by linarith) (by rw [hx]; ring)
      subst hy
      have : |x| ≤ y := abs_le.2 ⟨by linarith, k2⟩
      rw [abs_of_nonneg (a := y) (by linarith)]
      exact ⟨by linarith, by linarith, Or.inr (Or.inl (by linarith))⟩)
    obtain ⟨p4, l4⟩ := @hseg (-a, m) (-a, a) (by
      intro t ht x y hx hy
      simp only [sub_self, mul_zero, add_zero] at hx hy
      obtain ⟨k1, k2⟩ := sub (1 - t) ⟨by linarith [ht.2], by linarith [ht.1]⟩ a m y m1 (by rw [hy]; ring)
      subst hx
      rw [abs_neg, abs_of_pos a0, abs_of_nonneg (by linarith)]
      exact ⟨by linarith, by linarith, Or.inr (Or.inr ⟨le_refl _, by linarith, d4⟩)⟩)
    obtain ⟨q1, n1⟩ := ClearPath.concat p1 p2 l1 l2 dist_nonneg dist_nonneg
    obtain ⟨q2, n2⟩ := ClearPath.concat p3 p4 l3 l4 dist_nonneg dist_nonneg
    obtain ⟨q3, n3⟩ := ClearPath.concat q1 q2 n1 n2 (by positivity) (by positivity)
    refine ⟨_, q3, n3.trans (ENNReal.ofReal_le_ofReal ?_)⟩
    have hv : ∀ x y y' : ℝ, dist (plane (x, y)) (plane (x, y')) = |y - y'| := by
      intro x y y'
      rw [EuclideanSpace.dist_eq, Fin.sum_univ_two]
      simp [plane, Real.dist_eq, Real.sqrt_sq_eq_abs]
    have hh : ∀ x x' y : ℝ, dist (plane (x, y)) (plane (x', y)) = |x - x'| := by
      intro x x' y
      rw [EuclideanSpace.dist_eq, Fin.sum_univ_two]
      simp [plane, Real.dist_eq, Real.sqrt_sq_eq_abs]
    rw [hv, hv, hh, hh, abs_of_nonpos (by linarith), abs_of_nonpos (by linarith), abs_of_nonneg (by linarith), abs_of_nonneg (by linarith)]
    linarith
  · intro δ γ hδ hγ
    rw [e.1] at hγ
    have free : ∀ t ∈ Set.Icc (0 : ℝ) 1, ∀ x y : ℝ, (x - γ t 0) ^ 2 + (y - γ t 1) ^ 2 < δ ^ 2 →
        FreeAt (corner scale dd).obstacles (block (scale * (179 / 1000)) (scale * (179 / 1000))) (x, y) := by
      intro t ht x y h
      have : plane (x, y) ∈ Metric.ball (γ t) δ := by
        rw [Metric.mem_ball, EuclideanSpace.dist_eq, Fin.sum_univ_two, Real.sqrt_lt' hδ]
        simpa [plane, Real.dist_eq] using h
      have := hγ.clear t ht this
      simpa [freeSet, plane] using this
    have g0 : γ 0 0 = 7 / 5 - scale * (179 / 1000) ∧ γ 0 1 = -(7 / 5 - scale * (179 / 1000)) := by
      rw [hγ.start]; simp [plane]
    have g1 : γ 1 0 = -(7 / 5 - scale * (179 / 1000)) ∧ γ 1 1 = 7 / 5 - scale * (179 / 1000) := by
      rw [hγ.goal]; simp [plane]
    simp only [corner_free hs hfit.le] at free
    have hc0 : ContinuousOn (fun t => γ t 0) (Set.Icc 0 1) := by
      have : Continuous fun x : Space 2 => x 0 := by fun_prop
      exact this.comp_continuousOn hγ.continuous
    have hc1 : ContinuousOn (fun t => γ t 1) (Set.Icc 0 1) := by
      have : Continuous fun x : Space 2 => x 1 := by fun_prop
      exact this.comp_continuousOn hγ.continuous
    generalize scale * (179 / 1000 : ℝ) = r at *
    refine le_min ?_ (le_min ?_ ?_)
    · -- the wall beside the start
      by_contra hc
      push Not at hc
      obtain ⟨-, -, h, -⟩ := free 0 (by simp) (29 / 20 - r) (-(7 / 5 - r)) (by rw [g0.1, g0.2]; ring_nf; nlinarith)
      rw [lt_abs, lt_abs] at h
      rcases h with (h | h) | (h | h) <;> linarith
    · -- the crossing of the horizontal axis
      have inside : ∀ t ∈ Set.Icc (0 : ℝ) 1, max |γ t 0| |γ t 1| < 3 / 2 := by
        intro t ht
        by_contra hc
        push Not at hc
        have hcm : ContinuousOn (fun t => max |γ t 0| |γ t 1|) (Set.Icc 0 t) :=
          (ContinuousOn.sup hc0.abs hc1.abs).mono (Set.Icc_subset_Icc_right ht.2)
        obtain ⟨s, hs', hv⟩ := intermediate_value_Icc ht.1 hcm (show (3 / 2 : ℝ) ∈ Set.Icc (max |γ 0 0| |γ 0 1|) (max |γ t 0| |γ t 1|) by
          refine ⟨?_, hc⟩
          rw [g0.1, g0.2, abs_neg, max_self, abs_of_nonneg (by linarith)]
          linarith)
        simp only at hv
        obtain ⟨f1, f2, f3, f4, -⟩ := free s ⟨hs'.1, hs'.2.trans ht.2⟩ (γ s 0) (γ s 1) (by simp; positivity)
        have b0 : |γ s 0| ≤ 3 / 2 := hv ▸ le_max_left _ _
        have b1 : |γ s 1| ≤ 3 / 2 := hv ▸ le_max_right _ _
        rcases max_choice |γ s 0| |γ s 1| with hh | hh
        · rw [hh] at hv
          rcases abs_choice (γ s 0) with h3 | h3
          · rw [h3] at hv
            rw [hv] at f3
            norm_num at f3
            rcases f3 with f3 | f3 <;> linarith
          · rw [h3] at hv
            rw [show γ s 0 + 3 / 2 = 0 by linarith, abs_zero] at f4
            rcases f4 with f3 | f3 <;> linarith
        · rw [hh] at hv
          rcases abs_choice (γ s 1) with h3 | h3
          · rw [h3] at hv
            rw [hv] at f1
            norm_num at f1
            rcases f1 with f3 | f3 <;> linarith
          · rw [h3] at hv
            rw [show γ s 1 + 3 / 2 = 0 by linarith, abs_zero] at f2
            rcases f2 with f3 | f3 <;> linarith
      obtain ⟨t, ht, hv⟩ := intermediate_value_Icc (zero_le_one (α := ℝ)) hc1 (show (0 : ℝ) ∈ Set.Icc (γ 0 1) (γ 1 1) by
        rw [g0.2, g1.2]; constructor <;> linarith)
      simp only at hv
      have hin := lt_of_le_of_lt (le_max_left _ _) (inside t ht)
      have fr : ∀ x, |x - γ t 0| < δ → (1 / 20 + r < |x - 3 / 2|) ∧ (1 / 20 + r < |x + 3 / 2|) ∧ (7 / 5 - r - dd / 2 < |x|) := by
        intro x hx
        obtain ⟨-, -, f3, f4, f5⟩ := free t ht x 0 (by rw [hv, ← sq_abs (x - γ t 0)]; rw [sub_zero, zero_pow two_ne_zero, add_zero]; exact pow_lt_pow_left₀ hx (abs_nonneg _) two_ne_zero)
        simp only [abs_zero] at f3 f4 f5
        exact ⟨f3.resolve_right (by linarith), f4.resolve_right (by linarith), f5.resolve_right (by linarith)⟩
      obtain ⟨b1, b2, b3⟩ := fr (γ t 0) (by simpa using hδ)
      by_contra hc
      push Not at hc
      rcases le_total 0 (γ t 0) with h0 | h0
      · rw [abs_of_nonneg h0] at hin b3
        rw [abs_of_nonpos (by linarith)] at b1
        rcases le_total δ (γ t 0 - (7 / 5 - r - dd / 2)) with hle | hle
        · obtain ⟨c1, -, -⟩ := fr (29 / 20 - r) (by rw [abs_lt]; constructor <;> linarith)
          rw [abs_of_nonpos (by linarith)] at c1
          linarith
        · by_cases heq : δ = γ t 0 - (7 / 5 - r - dd / 2)
          · obtain ⟨c1, -, -⟩ := fr (29 / 20 - r) (by rw [abs_lt]; constructor <;> linarith)
            rw [abs_of_nonpos (by linarith)] at c1
            linarith
          · obtain ⟨-, -, c3⟩ := fr (7 / 5 - r - dd / 2) (by
              rw [abs_lt]
              have := lt_of_le_of_ne hle (Ne.symm heq)
              constructor <;> linarith)
            rw [abs_of_nonneg (by linarith)] at c3
            linarith
      · rw [abs_of_nonpos h0] at hin b3
        rw [abs_of_nonneg (by linarith)] at b2
        by_cases hle : γ t 0 + δ ≤ -(7 / 5 - r - dd / 2)
        · obtain ⟨-, c1, -⟩ := fr (-(29 / 20 - r)) (by rw [abs_lt]; constructor <;> linarith)
          rw [abs_of_nonneg (by linarith)] at c1
          linarith
        · obtain ⟨-, -, c3⟩ := fr (-(7 / 5 - r - dd / 2)) (by rw [abs_lt]; constructor <;> linarith)
          rw [abs_neg, abs_of_nonneg (by linarith)] at c3
          linarith
    · -- the corner of the box beside the start
      by_contra hc
      push Not at hc
      have hsq : dd ^ 2 / 2 < δ ^ 2 := by
        calc dd ^ 2 / 2 = (dd / Real.sqrt 2) ^ 2 := by rw [div_pow, Real.sq_sqrt (by norm_num)]
          _ < δ ^ 2 := by gcongr
      obtain ⟨-, -, -, -, h⟩ := free 0 (by simp) (7 / 5 - r - dd / 2) (-(7 / 5 - r - dd / 2)) (by rw [g0.1, g0.2]; ring_nf; ring_nf at hsq; linarith)
      rw [abs_neg, abs_of_nonneg (by linarith)] at h
      simp at h

theorem corner_step {scale dd : ℝ} {robot : Set (ℝ × ℝ)} (hz : (0, 0) ∈ robot) {p q : ℝ × ℝ} (hp : FreeAt (corner scale dd).obstacles robot p)
    (hq : FreeAt (corner scale dd).obstacles robot q) (h0 : |q.1 - p.1| < 8 / 100) (h1 : |q.2 - p.2| < 8 / 100) (hin : |p.1| < 3 / 2 ∧ |p.2| < 3 / 2) :
    |q.1| < 29 / 20 ∧ |q.2| < 29 / 20 := by
  simp only [FreeAt, Hallway.corner, List.forall_mem_cons, thick, Box.region, Set.mem_ofPred_eq, not_and, not_le] at hp hq
  obtain ⟨p1, p2, p3, p4, -⟩ := hp
  obtain ⟨q1, q2, q3, q4, -⟩ := hq
  have p1 := p1 _ hz
  have p2 := p2 _ hz
  have p3 := p3 _ hz
  have p4 := p4 _ hz
  have q1 := q1 _ hz
  have q2 := q2 _ hz
  have q3 := q3 _ hz
  have q4 := q4 _ hz
  simp only [zero_add, sub_zero] at p1 p2 p3 p4 q1 q2 q3 q4
  obtain ⟨i0, i0'⟩ := abs_lt.1 hin.1
  obtain ⟨i1, i1'⟩ := abs_lt.1 hin.2
  obtain ⟨s0, s0'⟩ := abs_lt.1 h0
  obtain ⟨s1, s1'⟩ := abs_lt.1 h1
  have p1 := p1 (by rw [abs_le]; constructor <;> linarith)
  have p2 := p2 (by rw [abs_le]; constructor <;> linarith)
  have k1 : p.2 < 29 / 20 := by
    rw [lt_abs] at p1
    rcases p1 with h | h <;> linarith
  have k2 : -(29 / 20) < p.2 := by
    rw [lt_abs] at p2
    rcases p2 with h | h <;> linarith
  have k3 : p.1 < 29 / 20 := by
    by_contra hc
    push Not at hc
    have := p3 (by rw [abs_le]; constructor <;> linarith)
    rw [lt_abs] at this
    rcases this with h | h <;> linarith
  have k4 : -(29 / 20) < p.1 := by
    by_contra hc
    push Not at hc
    have := p4 (by rw [abs_le]; constructor <;> linarith)
    rw [lt_abs] at this
    rcases this with h | h <;> linarith
  have q1 := q1 (by rw [abs_le]; constructor <;> linarith)
  have q2 := q2 (by rw [abs_le]; constructor <;> linarith)
  rw [lt_abs] at q1 q2
  refine ⟨abs_lt.2 ⟨?_, ?_⟩, abs_lt.2 ⟨?_, ?_⟩⟩
  · by_contra hc
    push Not at hc
    have := q4 (by rw [abs_le]; constructor <;> linarith)
    rw [lt_abs] at this
    rcases this with h | h <;> linarith
  · by_contra hc
    push Not at hc
    have := q3 (by rw [abs_le]; constructor <;> linarith)
    rw [lt_abs] at this
    rcases this with h | h <;> linarith
  · rcases q2 with h | h <;> linarith
  · rcases q1 with h | h <;> linarith

/-- C96, no tunnelling: a path of accepted motions that starts inside the four outer walls stays inside them. (The robot polygon has four vertices and contains its reference point.) -/
theorem C96_stays {scale dd : ℝ} (hfit : 2 * (scale * 0.179) + dd / 2 < 7 / 5) {robot : List (ℝ × ℝ)} (hrob : ConvexPolygon robot ∧ ProperEdges robot) (h4 : robot.length = 4)
    (hz : (0, 0) ∈ polygonHull robot) {p : ℝ × ℝ} {l : List (ℝ × ℝ)} (hl : (p :: l).IsChain (Accepted robot ((corner scale dd).obstacles.map Box.corners)))
    (hp : |p.1| < 3 / 2 ∧ |p.2| < 3 / 2) : ∀ q ∈ l, |q.1| < 29 / 20 ∧ |q.2| < 29 / 20 := by
  have hsz : ∀ o ∈ (corner scale dd).obstacles, 0 < o.w ∧ 0 < o.l := by
    norm_num at hfit
    simp only [Hallway.corner, List.forall_mem_cons, thick, botRadius]
    refine ⟨by norm_num, by norm_num, by norm_num, by norm_num, ⟨?_, ?_⟩, by simp⟩ <;> linarith
  induction l generalizing p with
  | nil => simp
  | cons q l ih =>
    rw [List.isChain_cons_cons] at hl
    obtain ⟨n, x, x0, xn, hf, hst⟩ := accepted_poses hrob h4 hsz hl.1
    have key : ∀ k ≤ n, |(x k).1| < 3 / 2 ∧ |(x k).2| < 3 / 2 := by
      intro k
      induction k with
      | zero => intro _; rw [x0]; exact hp
      | succ k ihk =>
        intro hk
        obtain ⟨a, b⟩ := corner_step hz (hf k (by omega)) (hf (k + 1) hk) (hst k).1 (hst k).2 (ihk (by omega))
        exact ⟨a.trans (by norm_num), b.trans (by norm_num)⟩
    have hq : |q.1| < 29 / 20 ∧ |q.2| < 29 / 20 := by
      rw [← xn]
      exact corner_step hz (hf n le_rfl) (hf n le_rfl) (by simp) (by simp) (key n le_rfl)
    intro r hr
    rcases List.mem_cons.1 hr with rfl | hr
    · exact hq
    · exact ih hl.2 ⟨hq.1.trans (by norm_num), hq.2.trans (by norm_num)⟩ r hr

/-- The hypotheses of C96 are met by the default sizes with a parameter of 0.1; the clearance is then 0.05. -/
theorem C96_nonvacuous : (0 : ℝ) ≤ 1 / 5 ∧ 2 * ((1 / 5 : ℝ) * 0.179) + (1 / 10) / 2 < 7 / 5 ∧ min (1 / 20) (min (1 / 40 + (1 / 10) / 4) ((1 / 10) / Real.sqrt 2)) = (1 / 20 : ℝ) ∧
    |(corner (1 / 5) (1 / 10)).start.1| < 3 / 2 ∧ |(corner (1 / 5) (1 / 10)).start.2| < 3 / 2 := by
  refine ⟨by norm_num, by norm_num, ?_, ?_, ?_⟩
  · apply min_eq_left
    apply le_min (by norm_num)
    rw [le_div_iff₀ (by positivity)]
    have : Real.sqrt 2 ≤ 2 := by
      rw [Real.sqrt_le_left (by norm_num)]
      norm_num
    linarith
  · simp only [Hallway.corner, thick, botRadius]
    rw [abs_lt]; constructor <;> norm_num
  · simp only [Hallway.corner, thick, botRadius]
    rw [abs_lt]; constructor <;> norm_num

end Verif.Props
