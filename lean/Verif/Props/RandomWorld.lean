import Verif.Model.RandomWorld
import Verif.Props.PlacementEnds

/-! The world of `random_obstacles`: C118. -/

namespace Verif.Props

open MeasureTheory Verif.Spec Verif.Placement Verif.RandomWorld

/-- `placeOf` for a box on the floor. -/
theorem placeOf_box (foot foot2 : Set (ℝ × ℝ)) (i : ℕ) (x : ℝ × ℝ) :
    placeOf (yard foot foot2) (.box i) .floor x = ![-49 / 20 + 49 / 10 * x.1, -49 / 20 + 49 / 10 * x.2, 201 / 1000] := by
  funext j
  fin_cases j <;> simp [placeOf, yard] <;> ring

theorem box_fits (foot foot2 : Set (ℝ × ℝ)) (i : ℕ) : Fits (yard foot foot2) (.box i) .floor := by
  intro j hj
  fin_cases j
  · simp [yard]; norm_num
  · simp [yard]; norm_num
  · exact absurd rfl hj

/-- C118 (part). If `random_obstacles` returns, then every box stands inside the floor, more than one centimetre away from the robot at its start, from the (larger) robot at its goal, and from the other boxes. Missing: the planner avoids them (`C118_planner_false`). -/
theorem C118_placed_partial {n : ℕ} {foot foot2 : Set (ℝ × ℝ)} {u : ℕ → ℝ × ℝ} (hu : Draws2 u) {fuel : ℕ} {ps : List P3} {P : Hallway.Problem} (h : randomObstacles n foot foot2 u fuel = some (ps, P)) :
    ps.length = n ∧ (∀ p ∈ ps, |p 0| ≤ 5 / 2 - 1 / 20 ∧ |p 1| ≤ 5 / 2 - 1 / 20 ∧ p 2 = 201 / 1000) ∧
    (∀ p ∈ ps, ¬ Close (square p) foot (1 / 100) ∧ ¬ Close (square p) foot2 (1 / 100)) ∧
    ps.Pairwise fun p q => ¬ Close (square q) (square p) (1 / 100) := by
  rw [randomObstacles] at h
  split at h
  · cases h
  · rename_i answer st heq
    cases h
    have hans : answer = true := by
      cases answer with
      | true => rfl
      | false =>
        obtain ⟨x, hx, hn, -⟩ := (C94_refused hu heq).1 rfl
        simp only [List.map_map, List.mem_map, List.mem_range, Function.comp_apply] at hx
        obtain ⟨i, hi, rfl⟩ := hx
        exact absurd (box_fits foot foot2 i) hn
    subst hans
    have hinj : Function.Injective Body.box := fun a b h => by cases h; rfl
    have hfst : ((((List.range n).map Body.box).map fun b => (b, Body.floor)).map Prod.fst) = (List.range n).map Body.box := by
      simp [List.map_map, Function.comp_def]
    obtain ⟨h1, h2, h3, h4⟩ := C94_placed hu (by rw [hfst]; exact List.nodup_range.map hinj) heq
    rw [hfst] at h2
    have hmem : ∀ i < n, (Body.box i, Body.floor) ∈ (((List.range n).map Body.box).map fun b => (b, Body.floor)) := by
      intro i hi
      simp [hi]
    have hps : ∀ p ∈ ((List.range n).map Body.box).map st.pos, ∃ i < n, p = st.pos (.box i) := by
      intro p hp
      simp only [List.map_map, List.mem_map, List.mem_range, Function.comp_apply] at hp
      obtain ⟨i, hi, rfl⟩ := hp
      exact ⟨i, hi, rfl⟩
    refine ⟨by simp, ?_, ?_, ?_⟩
    · intro p hp
      obtain ⟨i, hi, rfl⟩ := hps p hp
      obtain ⟨hon, hz⟩ := h1 _ (hmem i hi)
      have e0 := hon 0 (by decide)
      have e1 := hon 1 (by decide)
      simp only [yard] at e0 e1 hz
      simp at e0 e1 hz
      refine ⟨abs_le.2 ⟨by linarith, by linarith⟩, abs_le.2 ⟨by linarith, by linarith⟩, by linarith⟩
    · intro p hp
      obtain ⟨i, hi, rfl⟩ := hps p hp
      have e1 := h2 _ (hmem i hi) .rover (by simp) (by simp) (by simp)
      have e2 := h2 _ (hmem i hi) .rover2 (by simp) (by simp) (by simp)
      simpa [yard] using And.intro e1 e2
    · rw [List.pairwise_map] at h3 ⊢
      rw [List.pairwise_map] at h3 ⊢
      refine h3.imp fun {a b} hab => ?_
      simpa [yard] using hab (by simp)

theorem close_coords {A B : Set (ℝ × ℝ)} {d a b : ℝ} {p q : ℝ × ℝ} (h : Close A B d) (hA : ∀ x ∈ A, |x.1 - p.1| ≤ a ∧ |x.2 - p.2| ≤ a) (hB : ∀ x ∈ B, |x.1 - q.1| ≤ b ∧ |x.2 - q.2| ≤ b) :
    |p.1 - q.1| ≤ a + b + d ∧ |p.2 - q.2| ≤ a + b + d := by
  obtain ⟨x, hx, y, hy, hd⟩ := h
  have h1 : |x.1 - y.1| ≤ d := (Real.abs_le_sqrt (by nlinarith [sq_nonneg (x.2 - y.2)])).trans hd
  have h2 : |x.2 - y.2| ≤ d := (Real.abs_le_sqrt (by nlinarith [sq_nonneg (x.1 - y.1)])).trans hd
  obtain ⟨a1, a2⟩ := hA x hx
  obtain ⟨b1, b2⟩ := hB y hy
  rw [abs_le] at h1 h2 a1 a2 b1 b2
  exact ⟨abs_le.2 ⟨by linarith, by linarith⟩, abs_le.2 ⟨by linarith, by linarith⟩⟩

/-- There is always room for up to 444 boxes, if each robot stands in a square of side 1. -/
theorem boxes_room {n : ℕ} (hn : n ≤ 444) {foot foot2 : Set (ℝ × ℝ)} {a a2 : ℝ × ℝ} (hf : ∀ x ∈ foot, |x.1 - a.1| ≤ 1 / 2 ∧ |x.2 - a.2| ≤ 1 / 2)
    (hf2 : ∀ x ∈ foot2, |x.1 - a2.1| ≤ 1 / 2 ∧ |x.2 - a2.2| ≤ 1 / 2) (pos : Body → P3) :
    AlwaysRoom (yard foot foot2) (fun _ => 1 / 100) (((List.range n).map Body.box).map fun b => (b, .floor)) [.rover, .rover2] pos := by
  intro before b surface after hsplit pos' _ _
  have hlen : before.length < n := by
    have := congrArg List.length hsplit
    simp at this
    omega
  have hall : ∀ x ∈ (((List.range n).map Body.box).map fun b => (b, Body.floor)), x.2 = .floor ∧ ∃ i, x.1 = .box i := by
    intro x hx
    simp only [List.map_map, List.mem_map, Function.comp_apply] at hx
    obtain ⟨i, -, rfl⟩ := hx
    exact ⟨rfl, i, rfl⟩
  obtain ⟨hs, i, hb⟩ := hall (b, surface) (by rw [hsplit]; simp)
  simp only at hs hb
  subst hs hb
  -- in the square of the draws
  let mid : ℝ × ℝ → ℝ × ℝ := fun q => ((q.1 + 49 / 20) / (49 / 10), (q.2 + 49 / 20) / (49 / 10))
  let L : List ((ℝ × ℝ) × ℝ) := (mid a, 56 / 490) :: (mid a2, 56 / 490) :: before.map fun x => (mid (pos' x.1 0, pos' x.1 1), 11 / 490)
  obtain ⟨V, hV, hne, hfree⟩ := exists_free 0 0 one_pos L (by
      intro c hc
      simp only [L, List.mem_cons, List.mem_map] at hc
      rcases hc with rfl | rfl | ⟨x, -, rfl⟩ <;> norm_num) (by
      simp only [L, List.map_cons, List.map_map, List.sum_cons, Function.comp_def, List.map_const', List.sum_replicate, nsmul_eq_mul]
      have : (before.length : ℝ) ≤ 443 := by exact_mod_cast (by omega : before.length ≤ 443)
      nlinarith)
  rw [zero_add] at hne
  have hin : ∀ (q x : ℝ × ℝ) (r : ℝ), |(-49 / 20 + 49 / 10 * x.1) - q.1| ≤ 49 / 10 * r → |(-49 / 20 + 49 / 10 * x.2) - q.2| ≤ 49 / 10 * r → x ∈ blocked (mid q, r) := by
    intro q x r h1 h2
    rw [abs_le] at h1 h2
    simp only [blocked, mid, Set.mem_prod, Set.mem_Icc]
    refine ⟨⟨?_, ?_⟩, ⟨?_, ?_⟩⟩ <;> · norm_num [div_eq_mul_inv]; linarith
  refine ⟨V, hV, hne, fun x hx o ho _ _ => ?_⟩
  rw [placeOf_box]
  have hsq : ∀ p : P3, ∀ x ∈ square p, |x.1 - p 0| ≤ 1 / 20 ∧ |x.2 - p 1| ≤ 1 / 20 := fun p x hx => hx
  set p : P3 := ![-49 / 20 + 49 / 10 * x.1, -49 / 20 + 49 / 10 * x.2, 201 / 1000] with hp
  have hp0 : p 0 = -49 / 20 + 49 / 10 * x.1 := rfl
  have hp1 : p 1 = -49 / 20 + 49 / 10 * x.2 := rfl
  simp only [List.cons_append, List.nil_append, List.mem_cons, List.mem_map] at ho
  rcases ho with rfl | rfl | ⟨y, hy, rfl⟩
  · simp only [yard, decide_eq_false_iff_not]
    intro hc
    obtain ⟨h1, h2⟩ := close_coords (p := (p 0, p 1)) (q := a) hc (hsq p) hf
    refine hfree x hx (mid a, 56 / 490) (by simp [L]) (hin a x _ ?_ ?_)
    · rw [← hp0]; exact h1.trans (by norm_num)
    · rw [← hp1]; exact h2.trans (by norm_num)
  · simp only [yard, decide_eq_false_iff_not]
    intro hc
    obtain ⟨h1, h2⟩ := close_coords (p := (p 0, p 1)) (q := a2) hc (hsq p) hf2
    refine hfree x hx (mid a2, 56 / 490) (by simp [L]) (hin a2 x _ ?_ ?_)
    · rw [← hp0]; exact h1.trans (by norm_num)
    · rw [← hp1]; exact h2.trans (by norm_num)
  · obtain ⟨-, k, hk⟩ := hall y (by rw [hsplit]; simp [hy])
    have hc' : y.1 = .box k := hk
    have hmem : (mid (pos' y.1 0, pos' y.1 1), (11 / 490 : ℝ)) ∈ L := by
      simp only [L, List.mem_cons, List.mem_map]
      exact Or.inr (Or.inr ⟨y, hy, rfl⟩)
    rw [hc'] at hmem ⊢
    simp only [yard, decide_eq_false_iff_not]
    intro hc
    obtain ⟨h1, h2⟩ := close_coords (p := (p 0, p 1)) (q := (pos' (.box k) 0, pos' (.box k) 1)) hc (hsq p) (hsq _)
    refine hfree x hx _ hmem (hin _ x _ ?_ ?_)
    · rw [← hp0]; exact h1.trans (by norm_num)
    · rw [← hp1]; exact h2.trans (by norm_num)

/-- C118. With independent uniform draws `random_obstacles` returns with probability one, for up to 444 boxes (50 is the default) and robots that stand in squares of side 1. -/
theorem C118_returns {Ω : Type*} [MeasurableSpace Ω] {Pr : Measure Ω} [IsProbabilityMeasure Pr] {U : ℕ → Ω → ℝ × ℝ} (hU : PlaneDraws Pr U) {n : ℕ} (hn : n ≤ 444) {foot foot2 : Set (ℝ × ℝ)} {a a2 : ℝ × ℝ}
    (hf : ∀ x ∈ foot, |x.1 - a.1| ≤ 1 / 2 ∧ |x.2 - a.2| ≤ 1 / 2) (hf2 : ∀ x ∈ foot2, |x.1 - a2.1| ≤ 1 / 2 ∧ |x.2 - a2.2| ≤ 1 / 2) :
    ∀ᵐ ω ∂Pr, ∃ fuel r, randomObstacles n foot foot2 (fun i => U i ω) fuel = some r := by
  have hinj : Function.Injective Body.box := fun a b h => by cases h; rfl
  have hfst : ((((List.range n).map Body.box).map fun b => (b, Body.floor)).map Prod.fst) = (List.range n).map Body.box := by
    simp [List.map_map, Function.comp_def]
  have := C94_almost_surely (s := yard foot foot2) (minDistance := fun _ => 1 / 100) (items := ((List.range n).map Body.box).map fun b => (b, Body.floor)) (obstacles := [.rover, .rover2]) (st := ⟨fun _ => 0, 0⟩) hU
    (by rw [hfst]; exact List.nodup_range.map hinj) (by
      intro x hx
      simp only [List.map_map, List.mem_map, Function.comp_apply] at hx
      obtain ⟨i, -, rfl⟩ := hx
      exact box_fits foot foot2 i) (boxes_room hn hf hf2 _)
  filter_upwards [this] with ω ⟨fuel, st', h⟩
  exact ⟨fuel, _, by rw [randomObstacles, h]⟩

/-- C118 fails for the planner: it does not get the boxes. Its obstacle list is empty, so building its environment raises ValueError (there are no corners to take the extents of), for every world and
every motion. -/
theorem C118_planner_false {n : ℕ} {foot foot2 : Set (ℝ × ℝ)} {u : ℕ → ℝ × ℝ} {fuel : ℕ} {ps : List P3} {P : Hallway.Problem} (h : randomObstacles n foot foot2 u fuel = some (ps, P)) :
    P.obstacles = [] ∧ Hallway.extents P.obstacles = .error .value := by
  rw [randomObstacles] at h
  split at h
  · cases h
  · cases h
    exact ⟨rfl, rfl⟩

/-- The hypotheses of C118 (and of the last part of C94) are met: independent uniform draws exist, and there are draws between 0 and 1 with which the default world of 50 boxes, with square robots of the sizes of the
program, is returned. -/
theorem C118_nonvacuous : (∃ Pr : Measure (ℕ → ℝ × ℝ), IsProbabilityMeasure Pr ∧ PlaneDraws Pr fun i x => x i) ∧
    ∃ (u : ℕ → ℝ × ℝ) (fuel : ℕ) (ps : List P3) (P : Hallway.Problem), Draws2 u ∧
      randomObstacles 50 {x | |x.1 - 7 / 4| ≤ 179 / 1000 ∧ |x.2 + 7 / 4| ≤ 179 / 1000} {x | |x.1 + 7 / 4| ≤ 358 / 1000 ∧ |x.2 - 7 / 4| ≤ 358 / 1000} u fuel = some (ps, P) := by
  obtain ⟨Pr, hPr, hU⟩ := exists_planeDraws
  refine ⟨⟨Pr, hPr, hU⟩, ?_⟩
  have h := C118_returns hU (n := 50) (by norm_num) (foot := {x | |x.1 - 7 / 4| ≤ 179 / 1000 ∧ |x.2 + 7 / 4| ≤ 179 / 1000}) (foot2 := {x | |x.1 + 7 / 4| ≤ 358 / 1000 ∧ |x.2 - 7 / 4| ≤ 358 / 1000})
    (a := (7 / 4, -7 / 4)) (a2 := (-7 / 4, 7 / 4)) (fun x hx => ⟨hx.1.trans (by norm_num), by
      have := hx.2; rw [show x.2 - -7 / 4 = x.2 + 7 / 4 by ring]; exact this.trans (by norm_num)⟩) (fun x hx => ⟨by
      have := hx.1; rw [show x.1 - -7 / 4 = x.1 + 7 / 4 by ring]; exact this.trans (by norm_num), hx.2.trans (by norm_num)⟩)
  obtain ⟨ω, ⟨fuel, r, hr⟩, h2⟩ := (h.and (draws_between hU)).exists
  exact ⟨_, fuel, r.1, r.2, h2, hr⟩

end Verif.Props
