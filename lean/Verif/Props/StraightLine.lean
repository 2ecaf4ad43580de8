import Mathlib.Tactic.Linarith
import Verif.Model.Envs
import Verif.Spec.Envs

/-!
Properties C14, C15 and C24: the `StraightLine` environment.
-/

set_option linter.unusedSectionVars false

namespace Verif.Props

open Verif.Envs Verif.Spec

variable {K : Type*} [Field K] [LinearOrder K] [IsStrictOrderedRing K] {n : ℕ}

theorem straight_init {delta length : K} {e : StraightLine K n} (h : StraightLine.init n delta length = .ok e) :
    1 ≤ n ∧ 0 ≤ delta ∧ e.boundsLower = headRest (-delta) (-delta) ∧ e.boundsUpper = headRest (length + delta) delta ∧
    e.lineDir = headRest 1 0 ∧ e.length = length := by
  unfold StraightLine.init at h
  split at h
  · cases h
  · split at h
    · cases h
    · next h1 h2 =>
      cases h
      exact ⟨by omega, not_not.mp h2, rfl, rfl, rfl, rfl⟩

/-- The constructor's assertions are exactly `dim ≥ 2` and `delta ≥ 0`. -/
theorem C15_init (delta length : K) :
    (2 ≤ n + 1 ∧ 0 ≤ delta ↔ ∃ e, StraightLine.init n delta length = .ok e) ∧
    (¬ (2 ≤ n + 1 ∧ 0 ≤ delta) ↔ StraightLine.init n delta length = .error .assertion) := by
  unfold StraightLine.init
  by_cases h1 : 2 ≤ n + 1 <;> by_cases h2 : 0 ≤ delta <;> simp [h1, h2]

theorem inBox_iff {lo hi : Fin (n + 1) → K} {x : Fin (n + 1) → K} {a b c d : K} (hlo : lo = headRest a b)
    (hhi : hi = headRest c d) :
    (∀ i, lo i ≤ x i) ∧ (∀ i, x i ≤ hi i) ↔ a ≤ x 0 ∧ x 0 ≤ c ∧ ∀ i : Fin n, b ≤ x i.succ ∧ x i.succ ≤ d := by
  subst hlo hhi
  simp only [headRest, Fin.forall_fin_succ, Fin.cons_zero, Fin.cons_succ]
  constructor
  · rintro ⟨⟨h1, h2⟩, h3, h4⟩; exact ⟨h1, h3, fun i => ⟨h2 i, h4 i⟩⟩
  · rintro ⟨h1, h3, h⟩; exact ⟨⟨h1, fun i => (h i).1⟩, h3, fun i => (h i).2⟩

theorem straight_valid_iff {delta length : K} {e : StraightLine K n} (h : StraightLine.init n delta length = .ok e)
    (a b : Fin (n + 1) → K) :
    e.isMotionValid a b = true ↔ InCorridor delta length a ∧ InCorridor delta length b := by
  obtain ⟨-, -, h1, h2, -, -⟩ := straight_init h
  unfold StraightLine.isMotionValid InCorridor
  simp only [Bool.and_eq_true, decide_eq_true_eq]
  rw [inBox_iff h1 h2, inBox_iff h1 h2]

theorem inCorridor_convex {delta length : K} {a b : Fin (n + 1) → K} (ha : InCorridor delta length a)
    (hb : InCorridor delta length b) : ∀ x ∈ segment K a b, InCorridor delta length x := by
  rintro x ⟨s, t, hs, ht, hst, rfl⟩
  obtain ⟨a1, a2, a3⟩ := ha
  obtain ⟨b1, b2, b3⟩ := hb
  have key : ∀ {l u v w : K}, l ≤ v → v ≤ u → l ≤ w → w ≤ u → l ≤ s * v + t * w ∧ s * v + t * w ≤ u := by
    intro l u v w h1 h2 h3 h4
    have ht' : t = 1 - s := by linarith
    subst ht'
    constructor <;> nlinarith
  refine ⟨(key a1 a2 b1 b2).1, (key a1 a2 b1 b2).2, fun i => key (a3 i).1 (a3 i).2 (b3 i).1 (b3 i).2⟩

/-- C14. A motion is accepted exactly if every point of the straight motion is in the corridor. -/
theorem C14_corridor_exact {delta length : K} {e : StraightLine K n} (h : StraightLine.init n delta length = .ok e)
    (a b : Fin (n + 1) → K) :
    e.isMotionValid a b = true ↔ ∀ x ∈ segment K a b, InCorridor delta length x := by
  rw [straight_valid_iff h]
  exact ⟨fun ⟨ha, hb⟩ => inCorridor_convex ha hb,
    fun hx => ⟨hx a (left_mem_segment K a b), hx b (right_mem_segment K a b)⟩⟩

/-- C14 is not vacuous: a three-dimensional corridor with an accepted and a rejected motion. -/
example : ∃ e : StraightLine ℚ 2, StraightLine.init 2 (1 / 10) 1 = .ok e ∧
    e.isMotionValid ![0, 0, 0] ![1, 1 / 20, 0] = true ∧ e.isMotionValid ![0, 0, 0] ![1, 1 / 5, 0] = false := by
  obtain ⟨e, he⟩ := (C15_init (n := 2) (1 / 10 : ℚ) 1).1.1 (by norm_num)
  refine ⟨e, he, ?_, ?_⟩
  · rw [straight_valid_iff he]
    norm_num [InCorridor, Fin.forall_fin_succ]
  · rw [← Bool.not_eq_true, straight_valid_iff he]
    norm_num [InCorridor, Fin.forall_fin_succ]

/-- C14. Direction of travel does not matter. -/
theorem C14_symmetric (e : StraightLine K n) (a b : Fin (n + 1) → K) : e.isMotionValid a b = e.isMotionValid b a := by
  unfold StraightLine.isMotionValid
  exact Bool.and_comm _ _

theorem clip_mem {x lo hi : K} (h : lo ≤ hi) : lo ≤ clip x lo hi ∧ clip x lo hi ≤ hi := by
  unfold clip
  exact ⟨le_min (le_max_right _ _) h, min_le_right _ _⟩

/-- `clip` is the nearest point of the interval. -/
theorem clip_nearest {x lo hi : K} (h : lo ≤ hi) {s : K} (h1 : lo ≤ s) (h2 : s ≤ hi) : |x - clip x lo hi| ≤ |x - s| := by
  unfold clip
  rcases le_total x lo with hx | hx
  · rw [max_eq_right hx, min_eq_left h, abs_of_nonpos (by linarith), abs_of_nonpos (by linarith)]; linarith
  · rw [max_eq_left hx]
    rcases le_total x hi with hy | hy
    · rw [min_eq_left hy]; simp
    · rw [min_eq_right hy, abs_of_nonneg (by linarith), abs_of_nonneg (by linarith)]; linarith

theorem mem_path_iff {length : ℝ} (hl : 0 ≤ length) (z : EuclideanSpace ℝ (Fin (n + 1))) :
    z ∈ segment ℝ 0 (pathEnd n length) ↔ (0 ≤ z 0 ∧ z 0 ≤ length) ∧ ∀ i : Fin n, z i.succ = 0 := by
  rw [segment_eq_image']
  simp only [Set.mem_image, Set.mem_Icc, zero_add, sub_zero]
  constructor
  · rintro ⟨t, ⟨h0, h1⟩, rfl⟩
    refine ⟨?_, fun i => ?_⟩
    · simp only [pathEnd, PiLp.smul_apply, PiLp.single_apply, if_true, smul_eq_mul]
      exact ⟨by positivity, by nlinarith⟩
    · simp [pathEnd]
  · rintro ⟨⟨h0, h1⟩, h2⟩
    rcases eq_or_lt_of_le hl with h | h
    · refine ⟨0, ⟨le_rfl, zero_le_one⟩, ?_⟩
      ext i
      refine Fin.cases ?_ (fun j => ?_) i
      · simp; linarith
      · simp [h2]
    · refine ⟨z 0 / length, ⟨by positivity, (div_le_one h).2 h1⟩, ?_⟩
      ext i
      refine Fin.cases ?_ (fun j => ?_) i
      · simp [pathEnd, div_mul_cancel₀ _ h.ne']
      · simp [pathEnd, h2]

/-- C15. The reported distance is the Euclidean distance to the reference path. -/
theorem C15_distance {delta length : ℝ} (hl : 0 ≤ length) {e : StraightLine ℝ n}
    (h : StraightLine.init n delta length = .ok e) (p : Fin (n + 1) → ℝ) :
    e.distanceToPath p = Metric.infDist (WithLp.toLp 2 p) (segment ℝ 0 (pathEnd n length)) := by
  obtain ⟨-, -, -, -, hdir, hlen⟩ := straight_init h
  set q : EuclideanSpace ℝ (Fin (n + 1)) := WithLp.toLp 2 (headRest (clip (p 0) 0 length) 0) with hq
  have hd : e.distanceToPath p = dist (WithLp.toLp 2 p) q := by
    unfold StraightLine.distanceToPath
    rw [dist_eq_norm, hdir, hlen]
    refine congrArg norm ?_
    ext i
    refine Fin.cases ?_ (fun j => ?_) i <;> simp [hq, headRest]
  have hqmem : q ∈ segment ℝ 0 (pathEnd n length) := by
    rw [mem_path_iff hl]
    refine ⟨?_, fun i => ?_⟩
    · simpa [hq, headRest] using clip_mem (x := p 0) hl
    · simp [hq, headRest]
  rw [hd]
  apply le_antisymm
  · rw [Metric.le_infDist ⟨q, hqmem⟩]
    intro z hz
    rw [mem_path_iff hl] at hz
    rw [EuclideanSpace.dist_eq, EuclideanSpace.dist_eq]
    apply Real.sqrt_le_sqrt
    apply Finset.sum_le_sum
    intro i _
    apply pow_le_pow_left₀ dist_nonneg
    refine Fin.cases ?_ (fun j => ?_) i
    · simp only [Real.dist_eq, hq, headRest, Fin.cons_zero]
      exact clip_nearest hl hz.1.1 hz.1.2
    · simp only [hq, headRest, Fin.cons_succ, hz.2 j, le_refl]
  · exact Metric.infDist_le_dist_of_mem hqmem

/-- C15. Every curve point lies on the reference path, and the path's ends are the parameters 0 and 1. -/
theorem C15_curve {delta length : ℝ} (hl : 0 ≤ length) {e : StraightLine ℝ n}
    (h : StraightLine.init n delta length = .ok e) (t : ℝ) :
    WithLp.toLp 2 (e.curvePoint t) ∈ segment ℝ 0 (pathEnd n length) ∧
    InCorridor delta length (e.curvePoint t) ∧
    WithLp.toLp 2 (e.curvePoint 0) = 0 ∧ WithLp.toLp 2 (e.curvePoint 1) = pathEnd n length := by
  obtain ⟨-, hd0, -, -, -, hlen⟩ := straight_init h
  have hc := clip_mem (x := t) (zero_le_one (α := ℝ))
  have h0 : e.curvePoint t 0 = clip t 0 1 * length := by simp [StraightLine.curvePoint, headRest, hlen]
  have hi : ∀ i : Fin n, e.curvePoint t i.succ = 0 := by simp [StraightLine.curvePoint, headRest]
  have b0 : 0 ≤ clip t 0 1 * length := mul_nonneg hc.1 hl
  have b1 : clip t 0 1 * length ≤ length := by nlinarith [hc.2]
  refine ⟨?_, ?_, ?_, ?_⟩
  · rw [mem_path_iff hl]; simpa [h0, hi] using ⟨b0, b1⟩
  · refine ⟨by rw [h0]; linarith, by rw [h0]; linarith, fun i => ?_⟩
    rw [hi]; constructor <;> linarith
  · ext i
    refine Fin.cases ?_ (fun j => ?_) i <;> simp [StraightLine.curvePoint, headRest, clip]
  · ext i
    refine Fin.cases ?_ (fun j => ?_) i <;> simp [StraightLine.curvePoint, headRest, clip, pathEnd, hlen]

theorem uniform_mem {lo hi u : Fin (n + 1) → K} (hle : ∀ i, lo i ≤ hi i) (hu : ∀ i, 0 ≤ u i ∧ u i < 1) :
    (∀ i, lo i ≤ uniform lo hi u i) ∧ ∀ i, uniform lo hi u i ≤ hi i := by
  constructor <;> intro i <;> have h1 := hle i <;> have h2 := hu i <;> unfold uniform
  · have := mul_nonneg (sub_nonneg.2 h1) h2.1; linarith
  · have := mul_le_mul_of_nonneg_left h2.2.le (sub_nonneg.2 h1); linarith

/-- C15. Every sample is in the corridor, whatever is drawn. -/
theorem C15_sample {delta length : K} (hl : 0 ≤ length) {e : StraightLine K n}
    (h : StraightLine.init n delta length = .ok e) {u : Fin (n + 1) → K} (hu : ∀ i, 0 ≤ u i ∧ u i < 1) :
    InCorridor delta length (e.sample u) := by
  obtain ⟨-, hd0, h1, h2, -, -⟩ := straight_init h
  have := uniform_mem (lo := e.boundsLower) (hi := e.boundsUpper) (u := u) (by
    rw [h1, h2]; intro i; refine Fin.cases ?_ (fun j => ?_) i <;> simp [headRest] <;> linarith) hu
  rw [inBox_iff h1 h2] at this
  exact this

/-- C15. The reported volume is the Lebesgue measure of the corridor, and has the closed form `(length + 2δ)(2δ)^(d-1)`. -/
theorem C15_volume {delta length : ℝ} (hl : 0 ≤ length) {e : StraightLine ℝ n}
    (h : StraightLine.init n delta length = .ok e) :
    MeasureTheory.volume {x : Fin (n + 1) → ℝ | InCorridor delta length x} = ENNReal.ofReal e.volume ∧
    e.volume = (length + 2 * delta) * (2 * delta) ^ n := by
  obtain ⟨-, hd0, h1, h2, -, -⟩ := straight_init h
  have hset : {x : Fin (n + 1) → ℝ | InCorridor delta length x} = Set.Icc e.boundsLower e.boundsUpper := by
    ext x
    rw [Set.mem_ofPred_eq, Set.mem_Icc, Pi.le_def, Pi.le_def, inBox_iff h1 h2]
    rfl
  have hvol : e.volume = (length + 2 * delta) * (2 * delta) ^ n := by
    unfold StraightLine.volume
    rw [Fin.prod_univ_succ, h1, h2]
    simp only [headRest, Fin.cons_zero, Fin.cons_succ, Finset.prod_const, Finset.card_univ, Fintype.card_fin]
    rw [abs_of_nonneg (by linarith), abs_of_nonneg (by linarith)]
    ring
  refine ⟨?_, hvol⟩
  rw [hset, Real.volume_Icc_pi, hvol, Fin.prod_univ_succ, h1, h2]
  simp only [headRest, Fin.cons_zero, Fin.cons_succ, Finset.prod_const, Finset.card_univ, Fintype.card_fin]
  rw [ENNReal.ofReal_mul (by linarith), ENNReal.ofReal_pow (by linarith)]
  congr 2 <;> ring_nf

/-- C15 is not vacuous. -/
example : ∃ e : StraightLine ℝ 2, StraightLine.init 2 (1 / 10 : ℝ) 1 = .ok e :=
  (C15_init (n := 2) (1 / 10 : ℝ) 1).1.1 (by norm_num)

/-- C24. No PRM and no tolerance makes the straight corridor (or the narrow passage) report completeness: both raise. -/
theorem C24_never_complete {Prm Args : Type*} (e : StraightLine K n) (e' : NarrowPassage K n) (prm : Prm) (tol : K)
    (args : Args) :
    (∀ b, e.isPrmEpsilonDeltaComplete prm tol args ≠ .ok b) ∧
    e.isPrmEpsilonDeltaComplete prm tol args = .error .notImplemented ∧
    (∀ b, e'.isPrmEpsilonDeltaComplete prm tol ≠ .ok b) ∧
    e'.isPrmEpsilonDeltaComplete prm tol = .error .notImplemented := by
  refine ⟨?_, rfl, ?_, rfl⟩ <;> intro b h <;> cases h

end Verif.Props
