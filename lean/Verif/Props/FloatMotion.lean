import Verif.Lemmas.FloatMotion
import Verif.Props.FloatSat
import Verif.Props.Turtlebot

/-! C137: the turtlebot's motion check in floats. -/

namespace Verif.Props

open Verif.Spec Verif.Sat2D Verif.FloatSat Verif.Float64 Verif.Turtlebot

/-- Without rounding this is the model with real numbers. -/
theorem C137_exact (robot : List (ℝ × ℝ)) (hulls : List (List (ℝ × ℝ))) (motions : List ((ℝ × ℝ) × (ℝ × ℝ))) :
    isMotionValidR id (fun v w => v.1 * w.1 + v.2 * w.2) robot hulls motions = isMotionValid robot hulls motions := by
  have h1 : vertexMoveR id robot = vertexMove robot := by
    funext m
    unfold vertexMoveR vertexMove vertsAt
    rw [zipWith_map_map, zipWith_map_map]
    rfl
  have h2 : numStepsR id robot motions = numSteps robot motions := by
    unfold numStepsR numSteps
    rw [h1]
    rfl
  have h3 : ∀ n, 2 ≤ n → alphasR id n = alphas n := by
    intro n hn
    unfold alphasR alphas
    apply List.map_congr_left
    intro k hk
    have h2n : (2 : ℝ) ≤ n := by exact_mod_cast hn
    split_ifs with h
    · rw [← h]
      push_cast
      rw [add_sub_cancel_right, div_self]
      have : (n : ℝ) = k + 1 := by rw [← h]; push_cast; ring
      intro h0
      rw [h0] at this
      linarith
    · simp only [id]
      rw [mul_one_div]
  have h4 : intermVertsR id robot = intermVerts robot := by
    funext m α
    rw [intermVertsR_map]
    rfl
  unfold isMotionValidR isMotionValid
  rw [h2, C136_exact, h4]
  cases hn : numSteps robot motions with
  | error e => rfl
  | ok n =>
    have hge : 2 ≤ n := by
      unfold numSteps at hn
      cases hmm : motions.mapM (vertexMove robot) with
      | error e => rw [hmm] at hn; exact absurd hn (by intro h; cases h)
      | ok mins =>
        rw [hmm] at hn
        simp only [ok_bind] at hn
        cases hp : pyMax mins.flatten with
        | error e => rw [hp] at hn; exact absurd hn (by intro h; cases h)
        | ok d =>
          rw [hp] at hn
          have : (Except.ok (⌊d / (8 / 100)⌋₊ + 2) : Except PyErr ℕ) = .ok n := hn
          injection this with this
          omega
    simp only [ok_bind, h3 n hge]

theorem binary64_mscale {R : ℝ} (h1 : 1 ≤ R) (h2 : R ≤ 2 ^ (1000 : ℤ)) : MScale (2 ^ (-53 : ℤ)) (2 ^ (-1075 : ℤ)) R := by
  refine ⟨by positivity, by norm_num, by positivity, h1, ?_⟩
  have z : ∀ a b : ℤ, (2 : ℝ) ^ a * 2 ^ b = 2 ^ (a + b) := fun a b => (zpow_add₀ two_ne_zero a b).symm
  have mono : ∀ a b : ℤ, a ≤ b → (2 : ℝ) ^ a ≤ 2 ^ b := fun a b h => zpow_le_zpow_right₀ one_le_two h
  have h3 : R * (2 : ℝ) ^ (-1075 : ℤ) ≤ 2 ^ (-75 : ℤ) := by
    calc R * (2 : ℝ) ^ (-1075 : ℤ) ≤ 2 ^ (1000 : ℤ) * 2 ^ (-1075 : ℤ) := mul_le_mul_of_nonneg_right h2 (by positivity)
      _ = _ := by rw [z]; norm_num
  calc 1000 * (R * (2 : ℝ) ^ (-1075 : ℤ)) ≤ 1000 * 2 ^ (-75 : ℤ) := mul_le_mul_of_nonneg_left h3 (by norm_num)
    _ ≤ 2 ^ (-53 : ℤ) := by norm_num

theorem isEdge_map {f : ℝ × ℝ → ℝ × ℝ} {vs : List (ℝ × ℝ)} {p q : ℝ × ℝ} (h : IsEdge (vs.map f) p q) : ∃ p' q', IsEdge vs p' q' ∧ p = f p' ∧ q = f q' := by
  obtain ⟨i, h1, h2⟩ := h
  rw [List.length_map] at h2
  rw [List.getElem?_map, Option.map_eq_some_iff] at h1 h2
  obtain ⟨p', a1, rfl⟩ := h1
  obtain ⟨q', a2, rfl⟩ := h2
  exact ⟨p', q', ⟨i, a1, a2⟩, rfl, rfl⟩

section
variable {rd : ℝ → ℝ} {dotR : V2 → V2 → ℝ} {u τ R : ℝ}

/-- The computed vertices of the robot at a pose are near the exact ones. -/
theorem interm_near (hrd : Rounds rd u τ) (sc : MScale u τ R) (robot : List V2) (hb : InBox R robot) (m : V2 × V2) (hm : MotionIn R m) (α a : ℝ) (ha : 0 ≤ a)
    (ha' : a ≤ 1) (hα : |α - a| ≤ 4 * u) : ∃ f : V2 → V2, intermVertsR rd robot m α = robot.map f ∧
      ∀ v ∈ robot, |(f v).1 - (v.1 + (poseAt m a).1)| ≤ 32 * (u * R) ∧ |(f v).2 - (v.2 + (poseAt m a).2)| ≤ 32 * (u * R) :=
  ⟨_, intermVertsR_map rd robot m α, fun v hv =>
    ⟨coord_err hrd sc (hb v hv).1 hm.1.1 hm.2.1 ha ha' hα, coord_err hrd sc (hb v hv).2 hm.1.2 hm.2.2 ha ha' hα⟩⟩

theorem pose_in {m : V2 × V2} (hm : MotionIn R m) {a : ℝ} (ha : 0 ≤ a) (ha' : a ≤ 1) : |(poseAt m a).1| ≤ R ∧ |(poseAt m a).2| ≤ R := by
  have key : ∀ s g : ℝ, |s| ≤ R → |g| ≤ R → |s + a * (g - s)| ≤ R := by
    intro s g hs hg
    rw [abs_le] at *
    constructor <;> nlinarith
  exact ⟨key _ _ hm.1.1 hm.2.1, key _ _ hm.1.2 hm.2.2⟩

/-- The computed polygon has coordinates up to `3R` and no tiny edges. -/
theorem interm_shape (sc : MScale u τ R) {ℓ lam : ℝ} (hℓ : 2 * ℓ + 128 * (u * R) ≤ lam) (robot : List V2) (hl : LongEdges lam robot)
    (hb : InBox R robot) (m : V2 × V2) (hm : MotionIn R m) (a : ℝ) (ha : 0 ≤ a) (ha' : a ≤ 1) (f : V2 → V2)
    (hf : ∀ v ∈ robot, |(f v).1 - (v.1 + (poseAt m a).1)| ≤ 32 * (u * R) ∧ |(f v).2 - (v.2 + (poseAt m a).2)| ≤ 32 * (u * R)) :
    LongEdges ℓ (robot.map f) ∧ InBox (3 * R) (robot.map f) := by
  obtain ⟨p1, p2⟩ := pose_in hm ha ha'
  have hR := sc.R1
  have huR := sc.uR'
  constructor
  · refine ⟨by simpa using hl.1, fun p q he => ?_⟩
    obtain ⟨p', q', he', rfl, rfl⟩ := isEdge_map he
    obtain ⟨mp, mq⟩ := mem_of_edge he'
    obtain ⟨a1, a2⟩ := hf p' mp
    obtain ⟨b1, b2⟩ := hf q' mq
    have hlen := hl.2 p' q' he'
    have e1 : |q'.1 - p'.1| ≤ |(f q').1 - (f p').1| + 64 * (u * R) := by
      have k1 := tri (z := q'.1 - p'.1) ((f q').1 - (f p').1) (-((f q').1 - (q'.1 + (poseAt m a).1)) + ((f p').1 - (p'.1 + (poseAt m a).1)))
      have k2 := abs_add_le (-((f q').1 - (q'.1 + (poseAt m a).1))) ((f p').1 - (p'.1 + (poseAt m a).1))
      rw [abs_neg] at k2
      linarith
    have e2 : |q'.2 - p'.2| ≤ |(f q').2 - (f p').2| + 64 * (u * R) := by
      have k1 := tri (z := q'.2 - p'.2) ((f q').2 - (f p').2) (-((f q').2 - (q'.2 + (poseAt m a).2)) + ((f p').2 - (p'.2 + (poseAt m a).2)))
      have k2 := abs_add_le (-((f q').2 - (q'.2 + (poseAt m a).2))) ((f p').2 - (p'.2 + (poseAt m a).2))
      rw [abs_neg] at k2
      linarith
    have h1 : √((q'.1 - p'.1) ^ 2 + (q'.2 - p'.2) ^ 2) ≤ |q'.1 - p'.1| + |q'.2 - p'.2| := by
      rw [Real.sqrt_le_left (by positivity)]
      nlinarith [sq_abs (q'.1 - p'.1), sq_abs (q'.2 - p'.2), mul_nonneg (abs_nonneg (q'.1 - p'.1)) (abs_nonneg (q'.2 - p'.2))]
    have h2 : |(f q').1 - (f p').1| ≤ √(((f q').1 - (f p').1) ^ 2 + ((f q').2 - (f p').2) ^ 2) :=
      Real.abs_le_sqrt (by nlinarith [sq_nonneg ((f q').2 - (f p').2)])
    have h3 : |(f q').2 - (f p').2| ≤ √(((f q').1 - (f p').1) ^ 2 + ((f q').2 - (f p').2) ^ 2) :=
      Real.abs_le_sqrt (by nlinarith [sq_nonneg ((f q').1 - (f p').1)])
    linarith
  · intro w hw
    obtain ⟨v, hv, rfl⟩ := List.mem_map.1 hw
    obtain ⟨a1, a2⟩ := hf v hv
    obtain ⟨v1, v2⟩ := hb v hv
    constructor
    · have k1 := tri (z := (f v).1) ((f v).1 - (v.1 + (poseAt m a).1)) (v.1 + (poseAt m a).1)
      have k2 := abs_add_le v.1 (poseAt m a).1
      linarith
    · have k1 := tri (z := (f v).2) ((f v).2 - (v.2 + (poseAt m a).2)) (v.2 + (poseAt m a).2)
      have k2 := abs_add_le v.2 (poseAt m a).2
      linarith

/-- A gap along an edge of the obstacle survives small changes of the other polygon. -/
theorem gap_perturb {p q : V2} {g e : ℝ} {va va' vb : List V2} (h : GapAlong p q g va vb)
    (ha : ∀ v ∈ va', ∃ w ∈ va, |v.1 - w.1| ≤ e ∧ |v.2 - w.2| ≤ e) : GapAlong p q (g - 2 * e) va' vb := by
  set D := √((q.1 - p.1) ^ 2 + (q.2 - p.2) ^ 2) with hD
  have h1 : |q.1 - p.1| ≤ D := Real.abs_le_sqrt (by nlinarith [sq_nonneg (q.2 - p.2)])
  have h2 : |q.2 - p.2| ≤ D := Real.abs_le_sqrt (by nlinarith [sq_nonneg (q.1 - p.1)])
  have key : ∀ v w : V2, |v.1 - w.1| ≤ e → |v.2 - w.2| ≤ e →
      |((q.2 - p.2) * v.1 - (q.1 - p.1) * v.2) - ((q.2 - p.2) * w.1 - (q.1 - p.1) * w.2)| ≤ 2 * e * D := by
    intro v w k1 k2
    have := tri (z := ((q.2 - p.2) * v.1 - (q.1 - p.1) * v.2) - ((q.2 - p.2) * w.1 - (q.1 - p.1) * w.2))
      ((q.2 - p.2) * (v.1 - w.1)) (-((q.1 - p.1) * (v.2 - w.2)))
    rw [abs_neg, abs_mul, abs_mul] at this
    have hD0 : 0 ≤ D := Real.sqrt_nonneg _
    have := mul_le_mul h2 k1 (abs_nonneg _) hD0
    have := mul_le_mul h1 k2 (abs_nonneg _) hD0
    linarith
  unfold GapAlong at h ⊢
  rw [← hD] at h ⊢
  refine h.imp (fun h a ma b mb => ?_) (fun h a ma b mb => ?_) <;> obtain ⟨w, mw, w1, w2⟩ := ha a ma <;>
    have k := abs_le.1 (key a w w1 w2) <;> linarith [h w mw b mb, k.1, k.2]

/-- What the check guarantees, in terms of near separation. -/
theorem motion_core (hrd : Rounds rd u τ) (hd : DotAccurate dotR u τ) (sc : MScale u τ R) {ℓ lam : ℝ} (sc' : Scale u τ ℓ (3 * R))
    (hℓ : 2 * ℓ + 128 * (u * R) ≤ lam) (robot : List V2) (hulls : List (List V2)) (motions : List (V2 × V2)) (hl : LongEdges lam robot) (hb : InBox R robot)
    (hobs : ∀ o ∈ hulls, o.length = robot.length ∧ LongEdges ℓ o ∧ InBox R o) (hm : motions ≠ []) (hin : ∀ m ∈ motions, MotionIn R m) :
    ∃ (N : ℕ) (rs : List Bool), 2 ≤ N ∧ isMotionValidR rd dotR robot hulls motions = .ok rs ∧ rs.length = motions.length ∧
      ∀ (i : ℕ) (m : V2 × V2), motions[i]? = some m →
        (rs[i]? = some true → ∀ k < N, ∀ o ∈ hulls, NearSep (97 * (u * R)) (placed robot (poseAt m ((k : ℝ) / ((N : ℝ) - 1)))) o) ∧
        ((∀ k < N, ∀ o ∈ hulls, ∃ p q, IsEdge o p q ∧ GapAlong p q (301 * (u * R)) (placed robot (poseAt m ((k : ℝ) / ((N : ℝ) - 1)))) o) → rs[i]? = some true) ∧
        ∀ k : ℕ, |(poseAt m ((k + 1 : ℕ) / ((N : ℝ) - 1))).1 - (poseAt m ((k : ℝ) / ((N : ℝ) - 1))).1| < 8 / 100 + 16 * (u * R) ∧
          |(poseAt m ((k + 1 : ℕ) / ((N : ℝ) - 1))).2 - (poseAt m ((k : ℝ) / ((N : ℝ) - 1))).2| < 8 / 100 + 16 * (u * R) := by
  obtain ⟨N, e1, hN, hNτ, hstep⟩ := numStepsR_ok hrd sc robot hl.1 hb motions hm hin
  obtain ⟨α, hα, hαerr⟩ := alphasR_near hrd sc hN hNτ
  have hN2 : (2 : ℝ) ≤ N := by exact_mod_cast hN
  have hM : 0 < (N : ℝ) - 1 := by linarith
  have hR := sc.R1
  have hu := sc.u0
  have huR0 : 0 < u * R := by positivity
  have hfrac : ∀ k < N, 0 ≤ (k : ℝ) / ((N : ℝ) - 1) ∧ (k : ℝ) / ((N : ℝ) - 1) ≤ 1 := by
    intro k hk
    have : ((k + 1 : ℕ) : ℝ) ≤ N := by exact_mod_cast hk
    push_cast at this
    exact ⟨by positivity, by rw [div_le_one hM]; linarith⟩
  have box3 : ∀ o ∈ hulls, InBox (3 * R) o := fun o ho v hv => ⟨((hobs o ho).2.2 v hv).1.trans (by linarith), ((hobs o ho).2.2 v hv).2.trans (by linarith)⟩
  refine ⟨N, _, hN, isMotionValidR_ok robot hulls motions N e1 fun o ho => (hobs o ho).1, by simp, fun i m him => ?_⟩
  have hmi := hin m (List.mem_of_getElem? him)
  rw [List.getElem?_map, him]
  simp only [Option.map_some, Option.some.injEq, List.all_eq_true, Bool.not_eq_true']
  refine ⟨fun h k hk o ho => ?_, fun h => ?_, fun k => ?_⟩
  · obtain ⟨a0, a1⟩ := hfrac k hk
    obtain ⟨f, hf, hfe⟩ := interm_near hrd sc robot hb m hmi (α k) _ a0 a1 (hαerr k hk)
    obtain ⟨g1, g2⟩ := interm_shape sc hℓ robot hl hb m hmi _ a0 a1 f hfe
    have ht := h (o, α k) (List.mem_product.2 ⟨ho, by rw [hα]; exact List.mem_map.2 ⟨k, List.mem_range.2 hk, rfl⟩⟩)
    simp only [hf] at ht
    have hsep := rowTestR_nearSep hrd hd sc' robot.length (robot.map f) o (by simp) (hobs o ho).1 g1 (hobs o ho).2.1 g2 (box3 o ho) ht
    have := hsep.perturb (va' := placed robot (poseAt m ((k : ℝ) / ((N : ℝ) - 1)))) (vb' := o) (e := 32 * (u * R)) (e' := 0)
      (by
        intro v hv
        obtain ⟨v', hv', rfl⟩ := List.mem_map.1 hv
        obtain ⟨k1, k2⟩ := hfe v' hv'
        exact ⟨f v', List.mem_map.2 ⟨v', hv', rfl⟩, by rw [abs_sub_comm]; exact k1, by rw [abs_sub_comm]; exact k2⟩)
      (fun v hv => ⟨v, hv, by simp, by simp⟩)
    convert this using 1
    ring
  · rintro ⟨o, β⟩ hc
    obtain ⟨ho, hβ⟩ := List.mem_product.1 hc
    rw [hα] at hβ
    obtain ⟨k, hk, rfl⟩ := List.mem_map.1 hβ
    rw [List.mem_range] at hk
    obtain ⟨a0, a1⟩ := hfrac k hk
    obtain ⟨f, hf, hfe⟩ := interm_near hrd sc robot hb m hmi (α k) _ a0 a1 (hαerr k hk)
    obtain ⟨g1, g2⟩ := interm_shape sc hℓ robot hl hb m hmi _ a0 a1 f hfe
    obtain ⟨p, q, hpq, hgap⟩ := h k hk o ho
    simp only [hf]
    refine rowTestR_gap hrd hd sc' robot.length (robot.map f) o (by simp) (hobs o ho).1 g1 (hobs o ho).2.1 g2 (box3 o ho) (301 * (u * R) - 2 * (32 * (u * R))) (by linarith)
      ⟨p, q, .inr hpq, gap_perturb hgap ?_⟩
    intro v hv
    obtain ⟨v', hv', rfl⟩ := List.mem_map.1 hv
    obtain ⟨k1, k2⟩ := hfe v' hv'
    exact ⟨_, List.mem_map.2 ⟨v', hv', rfl⟩, k1, k2⟩
  · obtain ⟨s1, s2⟩ := hstep m (List.mem_of_getElem? him)
    have key : ∀ s g : ℝ, |s - g| < (8 / 100 + 16 * (u * R)) * ((N : ℝ) - 1) →
        |(s + ((k + 1 : ℕ) : ℝ) / ((N : ℝ) - 1) * (g - s)) - (s + (k : ℝ) / ((N : ℝ) - 1) * (g - s))| < 8 / 100 + 16 * (u * R) := by
      intro s g h
      have e : (s + ((k + 1 : ℕ) : ℝ) / ((N : ℝ) - 1) * (g - s)) - (s + (k : ℝ) / ((N : ℝ) - 1) * (g - s)) = (g - s) / ((N : ℝ) - 1) := by
        push_cast
        field_simp
        ring
      rw [e, abs_div, abs_of_pos hM, div_lt_iff₀ hM, abs_sub_comm]
      exact h
    exact ⟨key _ _ s1, key _ _ s2⟩

end

theorem floatBodies_core {R : ℝ} {robot : List (ℝ × ℝ)} {hulls : List (List (ℝ × ℝ))} (h : FloatBodies R robot hulls) :
    MScale (2 ^ (-53 : ℤ)) (2 ^ (-1075 : ℤ)) R ∧ Scale (2 ^ (-53 : ℤ)) (2 ^ (-1075 : ℤ)) (2 ^ (-400 : ℤ)) (3 * R) ∧
      2 * (2 : ℝ) ^ (-400 : ℤ) + 128 * (2 ^ (-53 : ℤ) * R) ≤ 2 ^ (-40 : ℤ) * R := by
  have hR := h.one
  have h400 : (2 : ℝ) ^ (-400 : ℤ) ≤ 2 ^ (-50 : ℤ) := zpow_le_zpow_right₀ one_le_two (by norm_num)
  have hstep : 2 * (2 : ℝ) ^ (-400 : ℤ) + 128 * (2 ^ (-53 : ℤ) * R) ≤ 2 ^ (-40 : ℤ) * R := by
    have e1 : (2 : ℝ) ^ (-50 : ℤ) * 1 ≤ 2 ^ (-50 : ℤ) * R := mul_le_mul_of_nonneg_left hR (by positivity)
    have e2 : 2 * (2 : ℝ) ^ (-50 : ℤ) + 128 * 2 ^ (-53 : ℤ) ≤ 2 ^ (-40 : ℤ) := by norm_num
    have e3 := mul_le_mul_of_nonneg_right e2 (by linarith : 0 ≤ R)
    linarith
  refine ⟨binary64_mscale hR h.top, binary64_scale (vs := robot) ⟨h.edges.1, fun p q he => le_trans ?_ (h.edges.2 p q he)⟩
    (fun v hv => ⟨(h.box v hv).1.trans (by linarith), (h.box v hv).2.trans (by linarith)⟩), hstep⟩
  have : (0 : ℝ) < 2 ^ (-400 : ℤ) := by positivity
  have : (0 : ℝ) ≤ 2 ^ (-53 : ℤ) * R := by positivity
  linarith

/-- C137: in floats there is, for every non-empty batch, a number of poses `N` such that for every motion: when it is accepted, then at each of the poses
`start + k/(N-1) (goal - start)`, from the start to the goal, moving the obstacle by at most 2^-46 R in each coordinate makes it disjoint from the robot; when
at each of these poses every obstacle has an edge whose line is at distance at least 2^-44 R from the robot, the motion is accepted; and consecutive poses are less than
0.08 + 2^-49 R apart in each coordinate. -/
theorem C137_motion_poses (dotR : ℝ × ℝ → ℝ × ℝ → ℝ) (hd : DotAccurate dotR (2 ^ (-53 : ℤ)) (2 ^ (-1075 : ℤ))) (R : ℝ) (robot : List (ℝ × ℝ))
    (hulls : List (List (ℝ × ℝ))) (motions : List ((ℝ × ℝ) × (ℝ × ℝ))) (hB : FloatBodies R robot hulls) (hm : motions ≠ [])
    (hin : ∀ m ∈ motions, (|m.1.1| ≤ R ∧ |m.1.2| ≤ R) ∧ |m.2.1| ≤ R ∧ |m.2.2| ≤ R) :
    ∃ (N : ℕ) (rs : List Bool), 2 ≤ N ∧ isMotionValidR fl dotR robot hulls motions = .ok rs ∧ rs.length = motions.length ∧
      ∀ (i : ℕ) (m : (ℝ × ℝ) × (ℝ × ℝ)), motions[i]? = some m →
        (rs[i]? = some true → ∀ k < N, ∀ o ∈ hulls, ∃ t : ℝ × ℝ, |t.1| ≤ 2 ^ (-46 : ℤ) * R ∧ |t.2| ≤ 2 ^ (-46 : ℤ) * R ∧
          ∀ x ∈ polygonHull (placed robot (poseAt m ((k : ℝ) / ((N : ℝ) - 1)))), ∀ y ∈ polygonHull o, x ≠ y + t) ∧
        ((∀ k < N, ∀ o ∈ hulls, ∃ p q, IsEdge o p q ∧ GapAlong p q (2 ^ (-44 : ℤ) * R) (placed robot (poseAt m ((k : ℝ) / ((N : ℝ) - 1)))) o) →
          rs[i]? = some true) ∧
        (∀ k : ℕ, |(poseAt m ((k + 1 : ℕ) / ((N : ℝ) - 1))).1 - (poseAt m ((k : ℝ) / ((N : ℝ) - 1))).1| < 0.08 + 2 ^ (-49 : ℤ) * R ∧
          |(poseAt m ((k + 1 : ℕ) / ((N : ℝ) - 1))).2 - (poseAt m ((k : ℝ) / ((N : ℝ) - 1))).2| < 0.08 + 2 ^ (-49 : ℤ) * R) ∧
        poseAt m (((0 : ℕ) : ℝ) / ((N : ℝ) - 1)) = m.1 ∧ poseAt m (((N - 1 : ℕ) : ℝ) / ((N : ℝ) - 1)) = m.2 := by
  obtain ⟨sc, sc', hℓ⟩ := floatBodies_core hB
  obtain ⟨N, rs, hN, h1, h2, h3⟩ := motion_core fl_rounds hd sc sc' hℓ robot hulls motions hB.edges hB.box hB.obstacles hm hin
  have hR : 0 < R := by linarith [hB.one]
  have hN2 : (2 : ℝ) ≤ N := by exact_mod_cast hN
  refine ⟨N, rs, hN, h1, h2, fun i m him => ?_⟩
  obtain ⟨a, b, c⟩ := h3 i m him
  refine ⟨fun h k hk o ho => ?_, fun h => b fun k hk o ho => ?_, fun k => ?_, ?_, ?_⟩
  · have hne : placed robot (poseAt m ((k : ℝ) / ((N : ℝ) - 1))) ≠ [] := by simpa [placed] using hB.edges.1
    obtain ⟨t, t1, t2, ht⟩ := (a h k hk o ho).shift (by positivity) hne (hB.obstacles o ho).2.1.1
    have hle : 97 * ((2 : ℝ) ^ (-53 : ℤ) * R) ≤ 2 ^ (-46 : ℤ) * R := by
      have := mul_le_mul_of_nonneg_right (by norm_num : 97 * (2 : ℝ) ^ (-53 : ℤ) ≤ 2 ^ (-46 : ℤ)) hR.le
      linarith
    exact ⟨t, t1.trans hle, t2.trans hle, ht⟩
  · obtain ⟨p, q, hpq, hgap⟩ := h k hk o ho
    refine ⟨p, q, hpq, ?_⟩
    have hle : 301 * ((2 : ℝ) ^ (-53 : ℤ) * R) ≤ 2 ^ (-44 : ℤ) * R := by
      have := mul_le_mul_of_nonneg_right (by norm_num : 301 * (2 : ℝ) ^ (-53 : ℤ) ≤ 2 ^ (-44 : ℤ)) hR.le
      linarith
    unfold GapAlong at hgap ⊢
    have hmul := mul_le_mul_of_nonneg_right hle (Real.sqrt_nonneg ((q.1 - p.1) ^ 2 + (q.2 - p.2) ^ 2))
    exact hgap.imp (fun h a ma b mb => by linarith [h a ma b mb]) (fun h a ma b mb => by linarith [h a ma b mb])
  · have hle : 8 / 100 + 16 * ((2 : ℝ) ^ (-53 : ℤ) * R) = 0.08 + 2 ^ (-49 : ℤ) * R := by norm_num; ring
    rw [← hle]
    exact c k
  · simp [poseAt]
  · have : ((N - 1 : ℕ) : ℝ) = (N : ℝ) - 1 := by rw [Nat.cast_sub (by omega)]; simp
    rw [this, div_self (by linarith)]
    simp [poseAt]

theorem rect_placed (a b : ℝ) (t : ℝ × ℝ) : placed (rect (-a) (-b) a b) t = rect (t.1 - a) (t.2 - b) (t.1 + a) (t.2 + b) := by
  simp only [placed, rect, List.map_cons, List.map_nil, List.cons.injEq, Prod.mk.injEq, and_true]
  refine ⟨⟨?_, ?_⟩, ⟨?_, ?_⟩, ⟨?_, ?_⟩, ?_, ?_⟩ <;> ring

/-- Gaps along the sides of a rectangle. -/
theorem gap_rect {x0 y0 x1 y1 g : ℝ} (hx : x0 < x1) (hy : y0 < y1) {va : List (ℝ × ℝ)}
    (h : (∀ v ∈ va, v.1 + g ≤ x0) ∨ (∀ v ∈ va, x1 + g ≤ v.1) ∨ (∀ v ∈ va, v.2 + g ≤ y0) ∨ ∀ v ∈ va, y1 + g ≤ v.2) :
    ∃ p q, IsEdge (rect x0 y0 x1 y1) p q ∧ GapAlong p q g va (rect x0 y0 x1 y1) := by
  have hb : ∀ b ∈ rect x0 y0 x1 y1, x0 ≤ b.1 ∧ b.1 ≤ x1 ∧ y0 ≤ b.2 ∧ b.2 ≤ y1 := by
    intro b mb
    simp only [rect, List.mem_cons, List.not_mem_nil, or_false] at mb
    rcases mb with rfl | rfl | rfl | rfl <;> simp [hx.le, hy.le]
  have e1 : √((0 : ℝ) ^ 2 + (y0 - y1) ^ 2) = y1 - y0 := by
    rw [show (0 : ℝ) ^ 2 + (y0 - y1) ^ 2 = (y1 - y0) ^ 2 by ring, Real.sqrt_sq (by linarith)]
  have e3 : √((x1 - x0) ^ 2 + (0 : ℝ) ^ 2) = x1 - x0 := by
    rw [show (x1 - x0) ^ 2 + (0 : ℝ) ^ 2 = (x1 - x0) ^ 2 by ring, Real.sqrt_sq (by linarith)]
  have left : IsEdge (rect x0 y0 x1 y1) (x0, y1) (x0, y0) := (isEdge_four _ _ _ _ _ _).2 (by simp)
  have low : IsEdge (rect x0 y0 x1 y1) (x0, y0) (x1, y0) := (isEdge_four _ _ _ _ _ _).2 (by simp)
  rcases h with h | h | h | h
  · refine ⟨_, _, left, .inr fun a ma b mb => ?_⟩
    simp only [sub_self, e1]
    nlinarith [h a ma, hb b mb]
  · refine ⟨_, _, left, .inl fun a ma b mb => ?_⟩
    simp only [sub_self, e1]
    nlinarith [h a ma, hb b mb]
  · refine ⟨_, _, low, .inr fun a ma b mb => ?_⟩
    simp only [sub_self, e3]
    nlinarith [h a ma, hb b mb]
  · refine ⟨_, _, low, .inl fun a ma b mb => ?_⟩
    simp only [sub_self, e3]
    nlinarith [h a ma, hb b mb]

/-- The hypotheses of C137 are met by a square robot beside a square obstacle; of two motions, one along the obstacle and one into it, exactly the first is accepted. -/
theorem C137_nonvacuous : FloatBodies 2 (rect (-(1 / 4)) (-(1 / 4)) (1 / 4) (1 / 4)) [rect 1 0 2 1] ∧
    isMotionValidR fl (dotPlain fl) (rect (-(1 / 4)) (-(1 / 4)) (1 / 4) (1 / 4)) [rect 1 0 2 1] [((0, 0), (0, 1)), ((0, 0), (3 / 2, 1 / 2))] = .ok [true, false] := by
  have hp : (2 : ℝ) ^ (-400 : ℤ) ≤ 1 := zpow_le_one_of_nonpos₀ one_le_two (by norm_num)
  have hB : FloatBodies 2 (rect (-(1 / 4)) (-(1 / 4)) (1 / 4) (1 / 4)) [rect 1 0 2 1] := by
    refine ⟨by norm_num, ?_, ⟨by simp [rect], fun p q h => ?_⟩, fun v hv => ?_, ?_⟩
    · calc (2 : ℝ) = 2 ^ (1 : ℤ) := by norm_num
        _ ≤ 2 ^ (1000 : ℤ) := zpow_le_zpow_right₀ one_le_two (by norm_num)
    · rcases (isEdge_four _ _ _ _ p q).1 h with ⟨rfl, rfl⟩ | ⟨rfl, rfl⟩ | ⟨rfl, rfl⟩ | ⟨rfl, rfl⟩ <;> simp only <;> apply Real.le_sqrt_of_sq_le <;> norm_num
    · simp only [rect, List.mem_cons, List.not_mem_nil, or_false] at hv
      rcases hv with rfl | rfl | rfl | rfl <;> norm_num [abs_le]
    · intro o ho
      rw [List.mem_singleton] at ho
      subst ho
      exact rect_floatRow (by linarith) (by linarith) (by norm_num) (by norm_num) (by norm_num) (by norm_num)
  refine ⟨hB, ?_⟩
  obtain ⟨N, rs, hN, e, hlen, h⟩ := C137_motion_poses (dotPlain fl) C136_dots.1 2 _ _ [((0, 0), (0, 1)), ((0, 0), (3 / 2, 1 / 2))] hB (by simp) (by
    intro m hm
    simp only [List.mem_cons, List.not_mem_nil, or_false] at hm
    rcases hm with rfl | rfl <;> norm_num [abs_le])
  rw [e]
  have h0 : rs[0]? = some true := by
    refine (h 0 ((0, 0), (0, 1)) rfl).2.1 fun k hk o ho => ?_
    rw [List.mem_singleton] at ho
    subst ho
    apply gap_rect (by norm_num) (by norm_num)
    left
    intro v hv
    rw [rect_placed] at hv
    simp only [rect, List.mem_cons, List.not_mem_nil, or_false, poseAt] at hv
    rcases hv with rfl | rfl | rfl | rfl <;> norm_num
  have h1 : rs[1]? ≠ some true := by
    intro ht
    obtain ⟨a, -, -, -, a5⟩ := h 1 ((0, 0), (3 / 2, 1 / 2)) rfl
    obtain ⟨t, t1, t2, ht⟩ := a ht (N - 1) (by omega) _ (List.mem_singleton.2 rfl)
    rw [a5, rect_placed] at ht
    have hq : (2 : ℝ) ^ (-46 : ℤ) * 2 ≤ 1 / 4 := by norm_num
    replace t1 := abs_le.1 (t1.trans hq)
    replace t2 := abs_le.1 (t2.trans hq)
    refine ht (3 / 2, 1 / 2) (rect_mem _ _ _ _ (by norm_num) (by norm_num) _ (by norm_num) (by norm_num) (by norm_num) (by norm_num)) (3 / 2 - t.1, 1 / 2 - t.2)
      (rect_mem _ _ _ _ (by norm_num) (by norm_num) _ ?_ ?_ ?_ ?_) ?_
    · simp only; linarith
    · simp only; linarith
    · simp only; linarith
    · simp only; linarith
    · ext <;> simp
  match rs, hlen, h0, h1 with
  | [r, s], _, h0, h1 =>
    simp only [List.getElem?_cons_zero, Option.some.injEq] at h0
    simp only [List.getElem?_cons_succ, List.getElem?_cons_zero, ne_eq, Option.some.injEq, Bool.not_eq_true] at h1
    rw [h0, h1]

end Verif.Props
