import Verif.Props.PlacementEnds
import Verif.Props.TargetPlacement

/-! The placement of the targets in the hallway world ends with probability one: C95. -/

namespace Verif.Props

open MeasureTheory Verif.Spec Verif.Placement Verif.Hallway

/-- Both rooms: `x0` is the left end of the room. -/
theorem targets_room {P : Problem} {hall R : ℝ} (hobs : P.obstacles = rooms (3 / 2) hall) (h0 : ∀ r ∈ P.sizes, 0 ≤ r) (hR : ∀ r ∈ P.sizes, r ≤ R) (hR1 : R < 69 / 100)
    (harea : ((P.sizes.length : ℝ) - 1) * (4 * (2 * R + 1 / 100) ^ 2) < (138 / 100 - 2 * R) ^ 2) {surface : Thing} {x0 : ℝ}
    (hs : surface = .floor1 ∧ x0 = -3 ∨ surface = .floor2 ∧ x0 = 3 / 2) (pos : Thing → P3) :
    AlwaysRoom (scene P) (fun _ => 1 / 100) (((List.range P.sizes.length).map Thing.target).map fun t => (t, surface)) ((List.range P.obstacles.length).map Thing.wall) pos := by
  intro before b surface' after hsplit pos' _ _
  have hlen : before.length < P.sizes.length := by
    have := congrArg List.length hsplit
    simp at this
    omega
  have hall : ∀ x ∈ (((List.range P.sizes.length).map Thing.target).map fun t => (t, surface)), x.2 = surface ∧ ∃ i r, x.1 = .target i ∧ P.sizes[i]? = some r := by
    intro x hx
    simp only [List.map_map, List.mem_map, List.mem_range, Function.comp_apply] at hx
    obtain ⟨i, hi, rfl⟩ := hx
    exact ⟨rfl, i, _, rfl, List.getElem?_eq_getElem hi⟩
  obtain ⟨hs', i, r, hb, hi⟩ := hall (b, surface') (by rw [hsplit]; simp)
  simp only at hs' hb
  subst hs' hb
  have hmr : r ∈ P.sizes := List.mem_of_getElem? hi
  have hr0 := h0 r hmr
  have hrR := hR r hmr
  let w : ℝ := 138 / 100 - 2 * r
  have hw : 0 < w := by simp only [w]; linarith
  let L : List ((ℝ × ℝ) × ℝ) := before.map fun x => ((pos' x.1 0, pos' x.1 1), 2 * R + 1 / 100)
  obtain ⟨V, hV, ⟨q, hqV, hq⟩, hfree⟩ := exists_free (x0 + 6 / 100 + r) (6 / 100 + r) hw L (by
      intro c hc
      obtain ⟨x, -, rfl⟩ := List.mem_map.1 hc
      simp only
      linarith) (by
      simp only [L, List.map_map, Function.comp_def, List.map_const', List.sum_replicate, nsmul_eq_mul]
      have h1 : (before.length : ℝ) ≤ (P.sizes.length : ℝ) - 1 := by
        have : (before.length : ℝ) + 1 ≤ P.sizes.length := by exact_mod_cast hlen
        linarith
      have h2 : (138 / 100 - 2 * R) ^ 2 ≤ w ^ 2 := pow_le_pow_left₀ (by linarith) (by simp only [w]; linarith) 2
      nlinarith [sq_nonneg (2 * R + 1 / 100)])
  have hplace : ∀ x : ℝ × ℝ, placeOf (scene P) (.target i) surface' x = ![x0 + r + (3 / 2 - 2 * r) * x.1, r + (3 / 2 - 2 * r) * x.2, 51 / 1000] := by
    intro x
    rcases hs with ⟨rfl, rfl⟩ | ⟨rfl, rfl⟩
    · exact (placeOf_floor hi x).1
    · exact (placeOf_floor hi x).2
  let f : ℝ × ℝ → ℝ × ℝ := fun x => (x0 + r + (3 / 2 - 2 * r) * x.1, r + (3 / 2 - 2 * r) * x.2)
  have hf : Continuous f := by fun_prop
  let F : Set (ℝ × ℝ) := Set.Ioo (x0 + 6 / 100 + r) (x0 + 6 / 100 + r + w) ×ˢ Set.Ioo (6 / 100 + r) (6 / 100 + r + w)
  have hden : 0 < 3 / 2 - 2 * r := by linarith
  refine ⟨f ⁻¹' (V ∩ F), (hV.inter (isOpen_Ioo.prod isOpen_Ioo)).preimage hf, ?_, ?_⟩
  · obtain ⟨⟨q1, q2⟩, q3, q4⟩ := hq
    simp only [w] at q2 q4
    refine ⟨((q.1 - x0 - r) / (3 / 2 - 2 * r), (q.2 - r) / (3 / 2 - 2 * r)), ?_, ⟨div_pos (by linarith) hden, (div_lt_one hden).2 (by linarith)⟩,
      ⟨div_pos (by linarith) hden, (div_lt_one hden).2 (by linarith)⟩⟩
    have : f ((q.1 - x0 - r) / (3 / 2 - 2 * r), (q.2 - r) / (3 / 2 - 2 * r)) = q := by
      ext
      · simp only [f]; rw [mul_div_cancel₀ _ hden.ne']; ring
      · simp only [f]; rw [mul_div_cancel₀ _ hden.ne']; ring
    rw [Set.mem_preimage, this]
    exact ⟨hqV, ⟨q1, by simp only [w]; exact q2⟩, q3, by simp only [w]; exact q4⟩
  · rintro x ⟨hxV, ⟨hx1, hx2⟩, hx3, hx4⟩ o ho _ _
    rw [hplace]
    have hp0 : f x = ((![x0 + r + (3 / 2 - 2 * r) * x.1, r + (3 / 2 - 2 * r) * x.2, 51 / 1000] : P3) 0, (![x0 + r + (3 / 2 - 2 * r) * x.1, r + (3 / 2 - 2 * r) * x.2, 51 / 1000] : P3) 1) := rfl
    generalize (![x0 + r + (3 / 2 - 2 * r) * x.1, r + (3 / 2 - 2 * r) * x.2, 51 / 1000] : P3) = p at hp0
    rw [hp0] at hxV hx1 hx2 hx3 hx4
    simp only [w] at hx1 hx2 hx3 hx4
    rcases List.mem_append.1 ho with ho | ho
    · refine walls_not_near (pos := pos') hi hr0 ?_ o ho
      rw [hobs]
      have hy0 : 1 / 20 + (r + 1 / 100) < |p 1| := lt_of_lt_of_le (by linarith) (le_abs_self _)
      have hy1 : 1 / 20 + (r + 1 / 100) < |p 1 - 3 / 2| := by rw [abs_sub_comm]; exact lt_of_lt_of_le (by linarith) (le_abs_self _)
      simp only [rooms, hallLength, thick, List.forall_mem_cons]
      rcases hs with ⟨-, rfl⟩ | ⟨-, rfl⟩
      · refine ⟨?_, ?_, ?_, ?_, ?_, ?_, ?_, ?_, ?_, ?_, ?_, ?_, by simp⟩
        · right; left; norm_num; linarith
        · right; left; norm_num; linarith
        · left; exact lt_of_lt_of_le (by linarith) (le_abs_self _)
        · left; exact lt_of_lt_of_le (by linarith) (neg_le_abs _)
        · left; exact lt_of_lt_of_le (by linarith) (neg_le_abs _)
        · right; left; norm_num; linarith
        · right; left; norm_num; linarith
        · left; exact lt_of_lt_of_le (by linarith) (neg_le_abs _)
        · left; exact lt_of_lt_of_le (by linarith) (neg_le_abs _)
        · left; exact lt_of_lt_of_le (by linarith) (neg_le_abs _)
        · left; exact lt_of_lt_of_le (by linarith) (neg_le_abs _)
        · left; exact lt_of_lt_of_le (by linarith) (neg_le_abs _)
      · refine ⟨?_, ?_, ?_, ?_, ?_, ?_, ?_, ?_, ?_, ?_, ?_, ?_, by simp⟩
        · right; left; norm_num; linarith
        · right; left; norm_num; linarith
        · left; exact lt_of_lt_of_le (by linarith) (le_abs_self _)
        · left; exact lt_of_lt_of_le (by linarith) (le_abs_self _)
        · left; exact lt_of_lt_of_le (by linarith) (le_abs_self _)
        · right; left; norm_num; linarith
        · right; left; norm_num; linarith
        · left; exact lt_of_lt_of_le (by linarith) (neg_le_abs _)
        · left; exact lt_of_lt_of_le (by linarith) (le_abs_self _)
        · left; exact lt_of_lt_of_le (by linarith) (le_abs_self _)
        · left; exact lt_of_lt_of_le (by linarith) (le_abs_self _)
        · left; exact lt_of_lt_of_le (by linarith) (le_abs_self _)
    · obtain ⟨y, hy, rfl⟩ := List.mem_map.1 ho
      obtain ⟨-, k, r', hk, hk'⟩ := hall y (by rw [hsplit]; simp [hy])
      have hmem : ((pos' y.1 0, pos' y.1 1), 2 * R + 1 / 100) ∈ L := List.mem_map.2 ⟨y, hy, rfl⟩
      have hno := hfree _ hxV _ hmem
      rw [hk] at hno ⊢
      have hr'R := hR r' (List.mem_of_getElem? hk')
      simp only [scene, scene_radius P hi, scene_radius P hk', decide_eq_false_iff_not, not_le]
      by_contra hc
      push Not at hc
      apply hno
      have h1 : |p 0 - pos' (.target k) 0| ≤ 2 * R + 1 / 100 :=
        ((Real.abs_le_sqrt (by nlinarith [sq_nonneg (p 1 - pos' (.target k) 1)])).trans hc).trans (by linarith)
      have h2 : |p 1 - pos' (.target k) 1| ≤ 2 * R + 1 / 100 :=
        ((Real.abs_le_sqrt (by nlinarith [sq_nonneg (p 0 - pos' (.target k) 0)])).trans hc).trans (by linarith)
      rw [abs_le] at h1 h2
      simp only [blocked, Set.mem_prod, Set.mem_Icc]
      exact ⟨⟨by linarith, by linarith⟩, by linarith, by linarith⟩

/-- C95. With independent uniform draws the placement of the targets ends with probability one, if the rooms are large enough for the targets: with `R` the radius of the largest one, `num - 1` squares of side
`2 (2 R + 0.01)` have less area than the part of a room in which a target of radius `R` is clear of the walls. -/
theorem C95_returns {Ω : Type*} [MeasurableSpace Ω] {Pr : Measure Ω} [IsProbabilityMeasure Pr] {U : ℕ → Ω → ℝ × ℝ} (hU : PlaneDraws Pr U)
    {scale dd : ℝ} (hscale : 0 ≤ scale) {num : ℕ} {u : ℕ → ℝ} (hu : ∀ i, 0 ≤ u i ∧ u i < 1) {P : Problem} (h : hallwayManip scale dd num u = .ok P)
    (hfit : scale * 0.179 + 0.1 < 0.69) (harea : ((num : ℝ) - 1) * (2 * (2 * (scale * 0.179 + 0.1) + 0.01)) ^ 2 < (1.38 - 2 * (scale * 0.179 + 0.1)) ^ 2) :
    ∀ᵐ ω ∂Pr, ∃ fuel goals inits, placeTargets P (fun i => U i ω) fuel = some (goals, inits) := by
  obtain ⟨hl, hsz, -, -⟩ := C88_sizes hu h
  have h0 : ∀ r ∈ P.sizes, 0 ≤ r := fun r hr => le_trans (by positivity) (hsz r hr).1
  have hR : ∀ r ∈ P.sizes, r ≤ scale * 0.179 + 0.1 := fun r hr => (hsz r hr).2
  have hobs := (manip_eq h).2.2.2.1
  have hroom := fun surface x0 (hs : surface = Thing.floor1 ∧ x0 = -3 ∨ surface = .floor2 ∧ x0 = 3 / 2) pos =>
    targets_room hobs h0 hR (by norm_num at hfit ⊢; linarith) (by rw [hl]; norm_num at harea ⊢; nlinarith) (x0 := x0) hs pos
  have hinj : Function.Injective Thing.target := fun a b h => by cases h; rfl
  have hfst : ∀ surface : Thing, ((((List.range P.sizes.length).map Thing.target).map fun t => (t, surface)).map Prod.fst).Nodup := by
    intro surface
    have : ((((List.range P.sizes.length).map Thing.target).map fun t => (t, surface)).map Prod.fst) = (List.range P.sizes.length).map Thing.target := by
      simp [List.map_map, Function.comp_def]
    rw [this]
    exact List.nodup_range.map hinj
  have hfits : ∀ i < P.sizes.length, Fits (scene P) (.target i) .floor1 ∧ Fits (scene P) (.target i) .floor2 := by
    intro i hi
    exact fits_floor (List.getElem?_eq_getElem hi) ((hR _ (List.getElem_mem hi)).trans (by norm_num at hfit ⊢; linarith))
  have hitems : ∀ surface : Thing, ∀ x ∈ (((List.range P.sizes.length).map Thing.target).map fun t => (t, surface)), ∃ i < P.sizes.length, x = (.target i, surface) := by
    intro surface x hx
    simp only [List.map_map, List.mem_map, List.mem_range, Function.comp_apply] at hx
    obtain ⟨i, hi, rfl⟩ := hx
    exact ⟨i, hi, rfl⟩
  filter_upwards [draws_everywhere hU, draws_between hU] with ω he hv
  obtain ⟨N1, st, h1⟩ := C94_ends (st := ⟨fun _ => 0, 0⟩) hv he (hfst .floor1) (fun x hx => by obtain ⟨i, hi, rfl⟩ := hitems _ x hx; exact (hfits i hi).1) (hroom .floor1 (-3) (Or.inl ⟨rfl, rfl⟩) _)
  obtain ⟨N2, st', h2⟩ := C94_ends (st := st) hv he (hfst .floor2) (fun x hx => by obtain ⟨i, hi, rfl⟩ := hitems _ x hx; exact (hfits i hi).2) (hroom .floor2 (3 / 2) (Or.inr ⟨rfl, rfl⟩) _)
  refine ⟨max N1 N2, ((List.range P.sizes.length).map Thing.target).map st.pos, ((List.range P.sizes.length).map Thing.target).map st'.pos, ?_⟩
  simp only [placeTargets]
  rw [h1 _ (le_max_left _ _)]
  dsimp only
  rw [h2 _ (le_max_right _ _)]

/-- The condition of `C95_returns` is met in the experiment (robot scale 0.3) for up to three targets. -/
theorem C95_returns_nonvacuous : ∀ num : ℕ, num ≤ 3 → ((num : ℝ) - 1) * (2 * (2 * ((3 / 10 : ℝ) * 0.179 + 0.1) + 0.01)) ^ 2 < (1.38 - 2 * ((3 / 10) * 0.179 + 0.1)) ^ 2 := by
  intro num h
  have : (num : ℝ) ≤ 3 := by exact_mod_cast h
  norm_num
  nlinarith

end Verif.Props
