import Mathlib.Tactic.NormNum
import Verif.Lemmas.Sat3D

/-! Properties of the separating-axis test in space and of the motion check built on it: C56, C66 - C69. -/

namespace Verif.Props

open Verif.Sat3D Verif.Spec

/-- **C56** (partial). Two boxes that share a point are reported as colliding, if both orientations mix only axes of equal half width.
Missing: other orientations, for which the claim is false. -/
theorem C56_never_misses_partial (a b : Box) (ha : MixesEqualAxes a.half a.rot) (hb : MixesEqualAxes b.half b.rot)
    (h : (solidBox a.center a.half a.rot ∩ solidBox b.center b.half b.rot).Nonempty) : sat a b = true := by
  obtain ⟨x, ⟨s, hs, hx⟩, ⟨t, ht, hy⟩⟩ := h
  rw [sat_iff]
  intro n _
  refine not_separates a b s t hs ht (fun r => ?_) n
  simp only [gen_eq ha, gen_eq hb, ← mul_assoc]
  rw [← hx r, ← hy r]

/-- **C56**, what holds in every orientation: whatever the orthonormal orientations, boxes are reported as colliding if the ellipsoids around their centers whose half axes, along the axes of space, are the
half widths share a point. In particular if the centers are not farther apart than the smallest half widths together. -/
theorem C56_ellipsoids (a b : Box) (oa : OrthonormalColumns a.rot) (ob : OrthonormalColumns b.rot)
    (h : (solidEllipsoid a.center a.half ∩ solidEllipsoid b.center b.half).Nonempty) : sat a b = true := by
  obtain ⟨x, ⟨y, hy, hx⟩, ⟨z, hz, hx'⟩⟩ := h
  have small : ∀ {c : Box} {v : V3}, OrthonormalColumns c.rot → ∑ k, v k ^ 2 ≤ 1 → ∀ k, |dot (c.column k) v| ≤ 1 := by
    intro c v hc hv k
    have e := dot_self_columns hc v
    have e' : dot v v = ∑ k, v k ^ 2 := by rw [Fin.sum_univ_three]; simp only [dot]; ring
    rw [e'] at e
    rw [← sq_le_one_iff_abs_le_one]
    rcases fin3 k with rfl | rfl | rfl <;> nlinarith [sq_nonneg (dot (c.column 0) v), sq_nonneg (dot (c.column 1) v), sq_nonneg (dot (c.column 2) v)]
  have built : ∀ {c : Box} (v : V3), OrthonormalColumns c.rot → ∀ r, ∑ k, dot (c.column k) v * gen c k r = c.half r * v r := by
    intro c v hc r
    have e := expand hc v r
    rw [Fin.sum_univ_three]
    simp only [gen, Box.column] at e ⊢
    linear_combination (-c.half r) * e
  rw [sat_iff]
  intro n _
  refine not_separates a b (fun k => dot (a.column k) y) (fun k => dot (b.column k) z) (small oa hy) (small ob hz) (fun r => ?_) n
  rw [built y oa, built z ob, ← hx r, ← hx' r]

/-- The identity matrix. -/
def eye : Fin 3 → V3 := fun r k => if r = k then 1 else 0

/-- A quarter turn about the vertical axis. -/
def quarterTurn : Fin 3 → V3 := ![![0, -1, 0], ![1, 0, 0], ![0, 0, 1]]

theorem mixes_eye (half : V3) : MixesEqualAxes half eye := by
  intro r k
  unfold eye
  split
  · rename_i h; right; rw [h]
  · left; rfl

theorem orthonormal_eye : OrthonormalColumns eye := by
  intro i j
  rcases fin3 i with rfl | rfl | rfl <;> rcases fin3 j with rfl | rfl | rfl <;> simp [eye]

theorem orthonormal_quarterTurn : OrthonormalColumns quarterTurn := by
  intro i j
  rcases fin3 i with rfl | rfl | rfl <;> rcases fin3 j with rfl | rfl | rfl <;> simp [quarterTurn, Fin.sum_univ_three]

/-- A long box, turned by 90 degrees. -/
noncomputable def longBox : Box := ⟨0, ![1, 1 / 10, 1 / 10], quarterTurn⟩

/-- A cube near the end of the turned box. -/
noncomputable def endCube : Box := ⟨![0, 9 / 10, 0], fun _ => 1 / 10, eye⟩

/-- A cube beside the turned box, near the end of the box before turning. -/
noncomputable def sideCube : Box := ⟨![9 / 10, 0, 0], fun _ => 1 / 10, eye⟩

/-- **C56**, negation: the two boxes share a point but no collision is reported. Both orientations are rotations. -/
theorem C56_false : ∃ a b : Box, OrthonormalColumns a.rot ∧ OrthonormalColumns b.rot ∧ (∀ k, 0 < a.half k) ∧ (∀ k, 0 < b.half k) ∧
    (solidBox a.center a.half a.rot ∩ solidBox b.center b.half b.rot).Nonempty ∧ sat a b = false := by
  refine ⟨longBox, endCube, orthonormal_quarterTurn, orthonormal_eye, ?_, fun k => by simp [endCube], ⟨![0, 9 / 10, 0], ?_, ?_⟩, ?_⟩
  · intro k; rcases fin3 k with rfl | rfl | rfl <;> simp [longBox]
  · refine ⟨![9 / 10, 0, 0], ?_, ?_⟩
    · intro k; rcases fin3 k with rfl | rfl | rfl <;> simp [abs_of_nonneg]; rw [abs_of_nonneg] <;> norm_num
    · intro r; rcases fin3 r with rfl | rfl | rfl <;> simp [longBox, quarterTurn, Fin.sum_univ_three]
  · exact ⟨0, by simp, by intro r; simp [endCube]⟩
  · rw [← Bool.not_eq_true, sat_iff]
    push Not
    refine ⟨_, (column_mem_axes longBox endCube 1).2, ?_⟩
    unfold Separates width
    simp [dot, gen, longBox, endCube, Box.column, eye, quarterTurn]
    rw [abs_of_nonneg] <;> norm_num

/-- **C56** applies to a cube in any orientation and a box along the coordinate axes: here they touch. -/
theorem C56_nonvacuous : MixesEqualAxes (fun _ : Fin 3 => (1 / 10 : ℝ)) quarterTurn ∧ MixesEqualAxes (![1, 2, 3] : V3) eye ∧
    (solidBox (fun _ => 1) (fun _ => 1 / 10) quarterTurn ∩ solidBox 0 (![1, 2, 3] : V3) eye).Nonempty := by
  refine ⟨fun _ _ => .inr rfl, mixes_eye _, fun _ => 1, ⟨0, by simp, by simp⟩, ![1, 1 / 2, 1 / 3], ?_, ?_⟩
  · intro k; rcases fin3 k with rfl | rfl | rfl <;> simp [abs_of_nonneg]
    · norm_num
    · norm_num
  · intro r; rcases fin3 r with rfl | rfl | rfl <;> simp [eye]

/-- **C66** (partial). The fifteen axes suffice: for orthonormal orientations that mix only axes of equal half width, a collision is
reported exactly if the boxes share a point. Missing: other orientations, for which it is false. -/
theorem C66_exact_partial (a b : Box) (ha : MixesEqualAxes a.half a.rot) (hb : MixesEqualAxes b.half b.rot)
    (oa : OrthonormalColumns a.rot) (ob : OrthonormalColumns b.rot) :
    sat a b = true ↔ (solidBox a.center a.half a.rot ∩ solidBox b.center b.half b.rot).Nonempty := by
  refine ⟨fun h => ?_, C56_never_misses_partial a b ha hb⟩
  by_contra hc
  rw [Set.not_nonempty_iff_eq_empty] at hc
  obtain ⟨n, hn⟩ := exists_gain ha hb hc
  obtain ⟨m, hm, hs⟩ := axis_of_gain ha hb oa ob hn
  exact (sat_iff a b).1 h m hm hs

/-- **C66**, what holds in every orientation: whatever the orthonormal orientations, no collision is reported if the centers are farther apart than three times the largest half widths together. -/
theorem C66_far (a b : Box) (oa : OrthonormalColumns a.rot) (ob : OrthonormalColumns b.rot) {H H' : ℝ} (ha : ∀ k, |a.half k| ≤ H) (hb : ∀ k, |b.half k| ≤ H')
    (hd : (3 * (H + H')) ^ 2 < ∑ r, (b.center r - a.center r) ^ 2) : sat a b = false := by
  by_contra hc
  rw [Bool.not_eq_false, sat_iff] at hc
  have h0 : 0 ≤ H := (abs_nonneg _).trans (ha 0)
  have h0' : 0 ≤ H' := (abs_nonneg _).trans (hb 0)
  have key : ∀ k, dot (a.column k) (fun r => b.center r - a.center r) ^ 2 ≤ 3 * (H + H') ^ 2 := by
    intro k
    have hn : dot (a.column k) (a.column k) = 1 := by rw [column_dot oa, if_pos rfl]
    have h := hc _ (column_mem_axes a b k).1
    unfold Separates at h
    rw [not_lt] at h
    have e : dot b.center (a.column k) - dot a.center (a.column k) = dot (a.column k) (fun r => b.center r - a.center r) := by
      simp only [dot]; ring
    rw [e] at h
    have wa := width_sq_le oa ha hn
    have wb := width_sq_le ob hb hn
    have pa : 0 ≤ width a (a.column k) := by unfold width; positivity
    have pb : 0 ≤ width b (a.column k) := by unfold width; positivity
    have r3 : Real.sqrt 3 ^ 2 = 3 := Real.sq_sqrt (by norm_num)
    have la : width a (a.column k) ≤ Real.sqrt 3 * H := by
      refine le_of_sq_le_sq ?_ (by positivity)
      rw [mul_pow, r3]; exact wa
    have lb : width b (a.column k) ≤ Real.sqrt 3 * H' := by
      refine le_of_sq_le_sq ?_ (by positivity)
      rw [mul_pow, r3]; exact wb
    have l : |dot (a.column k) (fun r => b.center r - a.center r)| ≤ Real.sqrt 3 * (H + H') := by linarith
    rw [← sq_abs]
    refine (pow_le_pow_left₀ (abs_nonneg _) l 2).trans (le_of_eq ?_)
    rw [mul_pow, r3]
  have e := dot_self_columns oa fun r => b.center r - a.center r
  have e' : dot (fun r => b.center r - a.center r) (fun r => b.center r - a.center r) = ∑ r, (b.center r - a.center r) ^ 2 := by
    rw [Fin.sum_univ_three]; simp only [dot]; ring
  rw [e'] at e
  have := key 0
  have := key 1
  have := key 2
  nlinarith

/-- **C66**, negation: a collision is reported for two boxes without a common point. -/
theorem C66_false : ∃ a b : Box, OrthonormalColumns a.rot ∧ OrthonormalColumns b.rot ∧ (∀ k, 0 < a.half k) ∧ (∀ k, 0 < b.half k) ∧
    solidBox a.center a.half a.rot ∩ solidBox b.center b.half b.rot = ∅ ∧ sat a b = true := by
  refine ⟨longBox, sideCube, orthonormal_quarterTurn, orthonormal_eye, ?_, fun k => by simp [sideCube], ?_, ?_⟩
  · intro k; rcases fin3 k with rfl | rfl | rfl <;> simp [longBox]
  · rw [Set.eq_empty_iff_forall_notMem]
    rintro x ⟨⟨s, hs, hx⟩, ⟨t, ht, hy⟩⟩
    have h1 := hx 0
    have h2 := hy 0
    have h3 := abs_le.1 (hs 1)
    have h4 := abs_le.1 (ht 0)
    simp [longBox, sideCube, eye, quarterTurn, Fin.sum_univ_three] at h1 h2
    linarith
  · rw [sat_iff]
    intro n _
    refine not_separates longBox sideCube ![0, -(9 / 10), 0] 0 ?_ (by simp) ?_ n
    · intro k; rcases fin3 k with rfl | rfl | rfl <;> simp [abs_of_nonneg]; rw [abs_of_nonneg] <;> norm_num
    · intro r; rcases fin3 r with rfl | rfl | rfl <;> simp [longBox, sideCube, quarterTurn, gen, Fin.sum_univ_three]

/-- **C66** applies on both sides: a turned cube meets the unit cube, and one further away does not. -/
theorem C66_nonvacuous : sat ⟨fun _ => 1, fun _ => 1 / 10, quarterTurn⟩ ⟨0, fun _ => 1, eye⟩ = true ∧
    sat ⟨fun _ => 2, fun _ => 1 / 10, quarterTurn⟩ ⟨0, fun _ => 1, eye⟩ = false := by
  constructor
  · rw [C66_exact_partial _ _ (fun _ _ => .inr rfl) (mixes_eye _) orthonormal_quarterTurn orthonormal_eye]
    exact ⟨fun _ => 1, ⟨0, by simp, by simp⟩, fun _ => 1, by simp, by
      intro r; rcases fin3 r with rfl | rfl | rfl <;> simp [eye]⟩
  · rw [← Bool.not_eq_true, C66_exact_partial _ _ (fun _ _ => .inr rfl) (mixes_eye _) orthonormal_quarterTurn orthonormal_eye]
    rintro ⟨x, ⟨s, hs, hx⟩, ⟨t, ht, hy⟩⟩
    have h1 := hx 0
    have h2 := hy 0
    have h3 := abs_le.1 (hs 1)
    have h4 := abs_le.1 (ht 0)
    simp [eye, quarterTurn, Fin.sum_univ_three] at h1 h2
    linarith

/-- The cases of `C56_ellipsoids` and `C66_far`, with a turned long box, which is none of `C66_exact_partial`: it is reported to collide with a cube beside it (the false report of `C66_false`), and not with one far away. -/
theorem C66_far_nonvacuous : ¬ MixesEqualAxes longBox.half longBox.rot ∧ OrthonormalColumns longBox.rot ∧
    (solidEllipsoid longBox.center longBox.half ∩ solidEllipsoid sideCube.center sideCube.half).Nonempty ∧
    (∀ k, |longBox.half k| ≤ 1) ∧ sat longBox ⟨![4, 0, 0], fun _ => 1 / 10, quarterTurn⟩ = false := by
  have hh : ∀ k, |longBox.half k| ≤ 1 := by
    intro k
    rcases fin3 k with rfl | rfl | rfl <;> simp [longBox, abs_of_nonneg] <;> norm_num
  refine ⟨fun h => ?_, orthonormal_quarterTurn, ⟨![9 / 10, 0, 0], ⟨![9 / 10, 0, 0], ?_, ?_⟩, 0, ?_, ?_⟩, hh, ?_⟩
  · rcases h 0 1 with h | h <;> simp [longBox, quarterTurn] at h
  · simp [Fin.sum_univ_three]
    norm_num
  · intro r
    rcases fin3 r with rfl | rfl | rfl <;> simp [longBox]
  · simp
  · intro r
    simp [sideCube]
  · refine C66_far _ _ orthonormal_quarterTurn orthonormal_quarterTurn hh (H' := 1 / 10) (fun k => ?_) ?_
    · simp [abs_of_nonneg]
    · simp [Fin.sum_univ_three, longBox]
      norm_num

/-- **C67** (partial). For a shape whose local box is symmetric about its own origin the tested box is the box at the pose. Missing: other
shapes, for which it is false. -/
theorem C67_same_box_partial (o : Oobb) (h : ∀ k, o.lower k = -o.upper k) (hp : ∀ k, 0 ≤ o.upper k) :
    solidBox o.box.center o.box.half o.box.rot = posedBox o.lower o.upper o.pose.position o.pose.rot := by
  have hhalf : ∀ k, (o.upper k - o.lower k) / 2 = o.upper k := fun k => by rw [h k]; ring
  ext x
  constructor
  · rintro ⟨t, ht, hx⟩
    refine ⟨fun k => t k * o.upper k, fun k => ?_, fun r => ?_⟩
    · have h1 := abs_le.1 (ht k)
      rw [h k]
      constructor <;> nlinarith [hp k]
    · rw [hx r]
      simp only [Oobb.box, fromOobb, hhalf]
      congr 1
      exact Finset.sum_congr rfl fun k _ => by ring
  · rintro ⟨y, hy, hx⟩
    refine ⟨fun k => y k / o.upper k, fun k => ?_, fun r => ?_⟩
    · rcases (hp k).lt_or_eq with hk | hk
      · rw [abs_le, le_div_iff₀ hk, div_le_iff₀ hk]
        have := hy k
        rw [h k] at this
        constructor <;> linarith [this.1, this.2]
      · show |y k / o.upper k| ≤ 1
        rw [← hk]; simp
    · rw [hx r]
      simp only [Oobb.box, fromOobb, hhalf]
      congr 1
      refine Finset.sum_congr rfl fun k _ => ?_
      rcases (hp k).lt_or_eq with hk | hk
      · rw [div_mul_cancel₀ _ hk.ne']; ring
      · have := hy k
        rw [h k, ← hk] at this
        have h0 : y k = 0 := le_antisymm this.2 (by simpa using this.1)
        rw [h0]; simp

/-- **C67**, negation: for a local box that is not symmetric about its origin the tested box misses part of the shape, also without any
rotation. -/
theorem C67_false : ∃ (o : Oobb) (x : V3), o.pose.rot = eye ∧ (∀ k, o.lower k < o.upper k) ∧
    x ∈ posedBox o.lower o.upper o.pose.position o.pose.rot ∧ x ∉ solidBox o.box.center o.box.half o.box.rot := by
  refine ⟨⟨0, fun _ => 2, ⟨0, eye⟩⟩, fun _ => 2, rfl, fun _ => by simp, ⟨fun _ => 2, by simp, ?_⟩, ?_⟩
  · intro r; rcases fin3 r with rfl | rfl | rfl <;> simp [eye]
  · rintro ⟨t, ht, hx⟩
    have h1 := hx 0
    have h2 := abs_le.1 (ht 0)
    simp [Oobb.box, fromOobb, eye] at h1
    linarith

/-- **C67** applies to a box of half widths 1, 2, 3 at a turned pose. -/
theorem C67_nonvacuous : ∃ o : Oobb, (∀ k, o.lower k = -o.upper k) ∧ (∀ k, 0 < o.upper k) ∧ o.pose.rot = quarterTurn :=
  ⟨⟨fun k => -(![1, 2, 3] : V3) k, ![1, 2, 3], ⟨0, quarterTurn⟩⟩, fun _ => rfl,
    fun k => by rcases fin3 k with rfl | rfl | rfl <;> simp, rfl⟩

/-- A shape for which the tested box is the right one. -/
structure Faithful (lower upper : V3) (rot : Fin 3 → V3) : Prop where
  symmetric : ∀ k, lower k = -upper k
  nonneg : ∀ k, 0 ≤ upper k
  mixes : MixesEqualAxes upper rot
  orthonormal : OrthonormalColumns rot

/-- **C68** (partial). For a nonempty batch: one step count `n` with `n + 1` steps of 0.03 longer than every motion of the batch is used for
all of them, and a motion is accepted exactly if the held shape meets no obstacle at any of the poses interpolated with that count.
Assumed: interpolation gives equally many poses for all motions; the shapes are symmetric and rotate only equal axes. Missing: other
shapes; independence of the other motions, which is false. -/
theorem C68_motion_partial (interp : Conf → Conf → ℕ → List Pose) (lower upper : V3) (obstacles : List Oobb) (rows : List (Conf × Conf))
    (hne : rows ≠ []) (hlen : ∀ r ∈ rows, ∀ r' ∈ rows, ∀ m, (interp r.1 r.2 m).length = (interp r'.1 r'.2 m).length)
    (hobs : ∀ o ∈ obstacles, Faithful o.lower o.upper o.pose.rot)
    (hobj : ∀ r ∈ rows, ∀ m, ∀ p ∈ interp r.1 r.2 m, Faithful lower upper p.rot) :
    ∃ n vs, isMotionValid interp lower upper obstacles rows = .ok vs ∧ vs.length = rows.length ∧
      (∀ r ∈ rows, √(∑ i, (r.1 i - r.2 i) ^ 2) < (n + 1 : ℕ) * (3 / 100)) ∧
      ∀ (i : ℕ) r v, rows[i]? = some r → vs[i]? = some v → (v = true ↔ ∀ o ∈ obstacles, ∀ p ∈ interp r.1 r.2 (n + 2),
        posedBox o.lower o.upper o.pose.position o.pose.rot ∩ posedBox lower upper p.position p.rot = ∅) := by
  obtain ⟨m, ⟨r0, hr0, _⟩, h2, h3⟩ := numSteps_ok rows hne
  refine ⟨⌊m / (3 / 100)⌋₊, _, isMotionValid_ok interp lower upper obstacles rows hne h3 (interp r0.1 r0.2 _).length
    (fun r hr => hlen r hr r0 hr0 _), by simp, ?_, ?_⟩
  · intro r hr
    have h4 : m / (3 / 100) < (⌊m / (3 / 100)⌋₊ : ℝ) + 1 := Nat.lt_floor_add_one _
    rw [div_lt_iff₀ (by norm_num)] at h4
    push_cast
    exact lt_of_le_of_lt (h2 r hr) h4
  · intro i r v hr hv
    generalize ⌊m / (3 / 100)⌋₊ = n at hv ⊢
    rw [List.getElem?_map, hr] at hv
    obtain rfl := Option.some.inj hv
    have hmem := List.mem_of_getElem? hr
    unfold rowValid
    simp only [List.all_eq_true, Bool.not_eq_true']
    refine forall₂_congr fun o ho => forall₂_congr fun p hp => ?_
    have fo := hobs o ho
    have fp := hobj r hmem _ p hp
    have hh : ∀ q : Oobb, (∀ k, q.lower k = -q.upper k) → q.box.half = q.upper := by
      intro q hq; funext k; show (q.upper k - q.lower k) / 2 = _; rw [hq k]; ring
    rw [← Bool.not_eq_true, C66_exact_partial o.box (Oobb.mk lower upper p).box
      (by rw [hh o fo.symmetric]; exact fo.mixes) (by rw [hh ⟨lower, upper, p⟩ fp.symmetric]; exact fp.mixes) fo.orthonormal fp.orthonormal,
      C67_same_box_partial o fo.symmetric fo.nonneg, C67_same_box_partial ⟨lower, upper, p⟩ fp.symmetric fp.nonneg,
      Set.not_nonempty_iff_eq_empty]

/-- **C68**, what holds in every orientation and for shapes that are not symmetric: at every interpolated pose of an accepted motion the ellipsoids of the held shape and of every obstacle (around the origins
of the shapes, half axes along the axes of space and half as long as the shapes' boxes) are apart; and a motion is only rejected if at some interpolated pose the origin of the held shape is not farther from
that of some obstacle than three times the largest half widths together. -/
theorem C68_any_orientation (interp : Conf → Conf → ℕ → List Pose) (lower upper : V3) (obstacles : List Oobb) (rows : List (Conf × Conf))
    (hne : rows ≠ []) (hlen : ∀ r ∈ rows, ∀ r' ∈ rows, ∀ m, (interp r.1 r.2 m).length = (interp r'.1 r'.2 m).length)
    (hobs : ∀ o ∈ obstacles, OrthonormalColumns o.pose.rot) (hobj : ∀ r ∈ rows, ∀ m, ∀ p ∈ interp r.1 r.2 m, OrthonormalColumns p.rot)
    {H H' : ℝ} (hH : ∀ o ∈ obstacles, ∀ k, |(o.upper k - o.lower k) / 2| ≤ H) (hH' : ∀ k, |(upper k - lower k) / 2| ≤ H') :
    ∃ n vs, isMotionValid interp lower upper obstacles rows = .ok vs ∧ vs.length = rows.length ∧
      (∀ r ∈ rows, √(∑ i, (r.1 i - r.2 i) ^ 2) < (n + 1 : ℕ) * (3 / 100)) ∧
      ∀ (i : ℕ) r v, rows[i]? = some r → vs[i]? = some v →
        (v = true → ∀ o ∈ obstacles, ∀ p ∈ interp r.1 r.2 (n + 2),
          solidEllipsoid o.pose.position (fun k => (o.upper k - o.lower k) / 2) ∩ solidEllipsoid p.position (fun k => (upper k - lower k) / 2) = ∅) ∧
        (v = false → ∃ o ∈ obstacles, ∃ p ∈ interp r.1 r.2 (n + 2), ∑ k, (p.position k - o.pose.position k) ^ 2 ≤ (3 * (H + H')) ^ 2) := by
  obtain ⟨m, ⟨r0, hr0, _⟩, h2, h3⟩ := numSteps_ok rows hne
  refine ⟨⌊m / (3 / 100)⌋₊, _, isMotionValid_ok interp lower upper obstacles rows hne h3 (interp r0.1 r0.2 _).length
    (fun r hr => hlen r hr r0 hr0 _), by simp, ?_, ?_⟩
  · intro r hr
    have h4 : m / (3 / 100) < (⌊m / (3 / 100)⌋₊ : ℝ) + 1 := Nat.lt_floor_add_one _
    rw [div_lt_iff₀ (by norm_num)] at h4
    push_cast
    exact lt_of_le_of_lt (h2 r hr) h4
  · intro i r v hr hv
    generalize ⌊m / (3 / 100)⌋₊ = n at hv ⊢
    rw [List.getElem?_map, hr] at hv
    obtain rfl := Option.some.inj hv
    have hmem := List.mem_of_getElem? hr
    unfold rowValid
    constructor
    · intro h o ho p hp
      simp only [List.all_eq_true, Bool.not_eq_true'] at h
      rw [← Set.not_nonempty_iff_eq_empty]
      intro hc
      have := C56_ellipsoids o.box (Oobb.mk lower upper p).box (hobs o ho) (hobj r hmem _ p hp) hc
      rw [h o ho p hp] at this
      cases this
    · intro h
      by_contra hc
      push Not at hc
      rw [← Bool.not_eq_true] at h
      apply h
      simp only [List.all_eq_true, Bool.not_eq_true']
      exact fun o ho p hp => C66_far o.box (Oobb.mk lower upper p).box (hobs o ho) (hobj r hmem _ p hp) (hH o ho) hH' (hc o ho p hp)

/-- **C68**: an empty batch raises `ValueError`. -/
theorem C68_empty_batch (interp : Conf → Conf → ℕ → List Pose) (lower upper : V3) (obstacles : List Oobb) :
    isMotionValid interp lower upper obstacles [] = .error .value := rfl

/-- Even interpolation without rotation. -/
noncomputable def evenPoses (s g : Conf) (m : ℕ) : List Pose :=
  (List.range m).map fun i : ℕ => ⟨fun r => s (r.castLE (by norm_num)) + (i : ℝ) / (m - 1 : ℕ) * (g (r.castLE (by norm_num)) - s (r.castLE (by norm_num))), eye⟩

/-- Motion along the first coordinate. -/
noncomputable def slide (d : ℝ) : Conf × Conf := (0, fun i => if i = 0 then d else 0)

/-- A cube of half width 0.001 in the middle of the motion. -/
noncomputable def pebble : Oobb := ⟨fun _ => -(1 / 1000), fun _ => 1 / 1000, ⟨![29 / 2000, 0, 0], eye⟩⟩

theorem confDist_slide (d : ℝ) (hd : 0 ≤ d) : confDist (slide d).1 (slide d).2 = d := by
  unfold confDist slide
  have : (∑ i : Fin 6, ((0 : Conf) i - (if i = 0 then d else 0)) ^ 2) = d ^ 2 := by
    simp
  rw [this]
  exact Real.sqrt_sq hd

theorem pebble_faithful : Faithful pebble.lower pebble.upper pebble.pose.rot :=
  ⟨fun _ => rfl, fun _ => by simp [pebble], mixes_eye _, orthonormal_eye⟩

theorem evenPoses_rot (s g : Conf) (m : ℕ) (p : Pose) (hp : p ∈ evenPoses s g m) : p.rot = eye := by
  unfold evenPoses at hp
  obtain ⟨i, _, rfl⟩ := List.mem_map.1 hp
  rfl

/-- **C68**, negation of independence: the same motion is accepted alone and rejected beside a longer one. -/
theorem C68_batch_false : ∃ (interp : Conf → Conf → ℕ → List Pose) (lower upper : V3) (obstacles : List Oobb) (r r' : Conf × Conf) (vs : List Bool),
    (∀ s g m, (interp s g m).length = m) ∧ (∀ o ∈ obstacles, Faithful o.lower o.upper o.pose.rot) ∧
    isMotionValid interp lower upper obstacles [r] = .ok [true] ∧ isMotionValid interp lower upper obstacles [r, r'] = .ok vs ∧ vs[0]? = some false := by
  have hlen : ∀ s g m, (evenPoses s g m).length = m := fun s g m => by simp [evenPoses]
  have hc : ∀ d : ℝ, 0 ≤ d → confDist (slide d).1 (slide d).2 = d := confDist_slide
  have n1 : numSteps [slide (29 / 1000)] = .ok 0 := by
    unfold numSteps
    simp only [List.map_cons, List.map_nil, Sat2D.pyMax, List.foldl_nil, Sat2D.ok_bind, hc (29 / 1000) (by norm_num)]
    rw [Nat.floor_eq_zero.2 (by norm_num)]
  have n2 : numSteps [slide (29 / 1000), slide 1] = .ok 33 := by
    unfold numSteps
    simp only [List.map_cons, List.map_nil, Sat2D.pyMax, List.foldl_nil, List.foldl_cons, Sat2D.ok_bind, hc (29 / 1000) (by norm_num),
      hc 1 (by norm_num)]
    rw [max_eq_right (by norm_num), (Nat.floor_eq_iff (by norm_num)).2]
    norm_num
  refine ⟨evenPoses, fun _ => -(1 / 1000), fun _ => 1 / 1000, [pebble], slide (29 / 1000), slide 1, _, hlen,
    by simpa using pebble_faithful, ?_, isMotionValid_ok _ _ _ _ _ (by simp) n2 35 (by simp [hlen]), ?_⟩
  · rw [isMotionValid_ok _ _ _ _ _ (by simp) n1 2 (by simp [hlen])]
    simp only [List.map_cons, List.map_nil]
    congr 2
    unfold rowValid
    simp only [List.all_eq_true, Bool.not_eq_true', List.mem_singleton, forall_eq]
    intro p hp
    rw [← Bool.not_eq_true, sat_iff]
    push Not
    refine ⟨_, (column_mem_axes _ _ 0).1, ?_⟩
    unfold evenPoses at hp
    simp only [List.range_succ, List.range_zero, List.nil_append, List.map_cons, List.map_nil, List.cons_append, List.mem_cons, List.not_mem_nil, or_false] at hp
    unfold Separates width
    rcases hp with rfl | rfl
    · simp [dot, gen, Oobb.box, fromOobb, pebble, Box.column, eye, slide]
      norm_num [abs_of_pos]
    · simp [dot, gen, Oobb.box, fromOobb, pebble, Box.column, eye, slide]
      norm_num [abs_of_pos]
  · simp only [List.map_cons, List.getElem?_cons_zero]
    congr 1
    rw [← Bool.not_eq_true]
    unfold rowValid
    simp only [List.all_eq_true, Bool.not_eq_true', List.mem_singleton, forall_eq]
    intro h
    have h17 := h ⟨fun r => (slide (29 / 1000)).1 (r.castLE (by norm_num)) + ((17 : ℕ) : ℝ) / (35 - 1 : ℕ) *
        ((slide (29 / 1000)).2 (r.castLE (by norm_num)) - (slide (29 / 1000)).1 (r.castLE (by norm_num))), eye⟩ (by
      unfold evenPoses
      exact List.mem_map.2 ⟨17, by simp, rfl⟩)
    rw [← Bool.not_eq_true] at h17
    apply h17
    rw [sat_iff]
    intro n _
    refine not_separates _ _ 0 0 (by simp) (by simp) ?_ n
    intro r
    rcases fin3 r with rfl | rfl | rfl <;> simp [Oobb.box, fromOobb, pebble, slide]
    norm_num

/-- **C68** applies to the batch of the negation above. -/
theorem C68_nonvacuous : ∃ (interp : Conf → Conf → ℕ → List Pose) (obstacles : List Oobb) (rows : List (Conf × Conf)), rows.length = 2 ∧ obstacles ≠ [] ∧
    (∀ r ∈ rows, ∀ r' ∈ rows, ∀ m, (interp r.1 r.2 m).length = (interp r'.1 r'.2 m).length) ∧
    (∀ o ∈ obstacles, Faithful o.lower o.upper o.pose.rot) ∧
    ∀ r ∈ rows, ∀ m, ∀ p ∈ interp r.1 r.2 m, Faithful (fun _ => -(1 / 1000)) (fun _ => 1 / 1000) p.rot :=
  ⟨evenPoses, [pebble], [slide (29 / 1000), slide 1], rfl, by simp, by simp [evenPoses], by simpa using pebble_faithful,
    fun r _ m p hp => by rw [evenPoses_rot _ _ m p hp]; exact pebble_faithful⟩

/-- **C69** (partial). The sampling region contains all obstacle corners and the start position, and all samples are in it. Missing: the
goal, which is not considered. -/
theorem C69_region_partial (verts : List V3) (start : V3) (r : Fin 3) : ∃ lo hi, extents verts start r = .ok (lo, hi) ∧
    lo ≤ start r ∧ start r ≤ hi ∧ (∀ v ∈ verts, lo ≤ v r ∧ v r ≤ hi) ∧
    ∀ u, 0 ≤ u → u < 1 → lo ≤ sampleCoord (lo, hi) u ∧ sampleCoord (lo, hi) u ≤ hi := by
  have hne : ((verts ++ [start]).map fun v => v r) ≠ [] := by simp
  obtain ⟨lo, h1, _, h2⟩ := Sat2D.pyMin_ok _ hne
  obtain ⟨hi, h3, _, h4⟩ := Sat2D.pyMax_ok _ hne
  have hs : start r ∈ (verts ++ [start]).map fun v => v r := List.mem_map.2 ⟨start, by simp, rfl⟩
  have hlh : lo ≤ hi := (h2 _ hs).trans (h4 _ hs)
  refine ⟨lo, hi, ?_, h2 _ hs, h4 _ hs, fun v hv => ?_, fun u hu hu1 => ?_⟩
  · unfold extents; rw [h1, Sat2D.ok_bind, h3]; rfl
  · have hm : v r ∈ (verts ++ [start]).map fun v => v r := List.mem_map.2 ⟨v, by simp [hv], rfl⟩
    exact ⟨h2 _ hm, h4 _ hm⟩
  · unfold sampleCoord
    constructor <;> nlinarith

/-- **C69** is false: a goal beyond the obstacle corners and the start in some direction is outside the sampling region, and all samples are on one side of it. -/
theorem C69_goal_false (verts : List V3) (start goal : V3) (r : Fin 3) (lo hi : ℝ) (h : extents verts start r = .ok (lo, hi)) (hg : ∀ v ∈ verts ++ [start], v r < goal r) :
    ¬ goal r ≤ hi ∧ ∀ u, 0 ≤ u → u < 1 → sampleCoord (lo, hi) u < goal r := by
  have hne : ((verts ++ [start]).map fun v => v r) ≠ [] := by simp
  obtain ⟨lo', h1, _, h2⟩ := Sat2D.pyMin_ok _ hne
  obtain ⟨hi', h3, h4, h5⟩ := Sat2D.pyMax_ok _ hne
  unfold extents at h
  rw [h1, Sat2D.ok_bind, h3] at h
  obtain ⟨rfl, rfl⟩ : lo' = lo ∧ hi' = hi := by simpa [Sat2D.ok_bind] using h
  obtain ⟨v, hv, rfl⟩ := List.mem_map.1 h4
  refine ⟨not_le.2 (hg v hv), fun u hu hu1 => lt_of_le_of_lt ?_ (hg v hv)⟩
  have := h2 _ (List.mem_map.2 ⟨v, hv, rfl⟩)
  unfold sampleCoord
  nlinarith

/-- **C69** applies to two corners: the region is the interval they span with the start. -/
theorem C69_nonvacuous : extents [fun _ => 1, fun _ => 3] 0 0 = .ok (0, 3) := by
  unfold extents
  simp [Sat2D.pyMin, Sat2D.pyMax, Sat2D.ok_bind]

end Verif.Props
