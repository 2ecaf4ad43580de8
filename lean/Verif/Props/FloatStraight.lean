import Verif.Lemmas.FloatChain
import Verif.Lemmas.FloatGeneral
import Verif.Lemmas.FloatUniform
import Verif.Props.EnvGuarantee
import Verif.Spec.FloatWorld

/-! The straight-line environment with rounded arithmetic: C129. -/

namespace Verif.Props

open MeasureTheory ProbabilityTheory Verif.Envs Verif.Bound Verif.Spec Verif.Prm Verif.Net Verif.Float64

variable {Ω : Type*} [MeasurableSpace Ω] {Pr : Measure Ω} [IsProbabilityMeasure Pr] {n : ℕ}

/-- With exact arithmetic this is the environment of C15. -/
theorem C129_exact (delta length : ℝ) : StraightLine.initR id n delta length = StraightLine.init n delta length ∧
    ∀ e : StraightLine ℝ n, (∀ u, e.sampleR id u = e.sample u) ∧ ∀ t, e.curvePointR id t = e.curvePoint t :=
  ⟨rfl, fun _ => ⟨fun _ => rfl, fun _ => rfl⟩⟩

theorem straightR_init {rd : ℝ → ℝ} {delta length : ℝ} {e : StraightLine ℝ n} (h : StraightLine.initR rd n delta length = .ok e) :
    1 ≤ n ∧ 0 ≤ delta ∧ e.boundsLower = headRest (-delta) (-delta) ∧ e.boundsUpper = headRest (rd (length + delta)) delta ∧ e.length = length := by
  unfold StraightLine.initR at h
  split_ifs at h with h1 h2
  cases h
  exact ⟨by omega, h2, rfl, rfl, rfl⟩

/-- The box of the environment is the box of C15 for another length. -/
theorem straightR_box {rd : ℝ → ℝ} {delta length : ℝ} {e : StraightLine ℝ n} (h : StraightLine.initR rd n delta length = .ok e) :
    ∃ e0, StraightLine.init n delta (rd (length + delta) - delta) = .ok e0 ∧ e0.boundsLower = e.boundsLower ∧ e0.boundsUpper = e.boundsUpper := by
  obtain ⟨h1, h2, h3, h4, -⟩ := straightR_init h
  refine ⟨⟨headRest (-delta) (-delta), headRest (rd (length + delta) - delta + delta) delta, headRest 1 0, rd (length + delta) - delta⟩, ?_, h3.symm, ?_⟩
  · unfold StraightLine.init
    rw [if_neg (by omega), if_neg (by simpa using h2)]
  · rw [h4, sub_add_cancel]

theorem straightR_valid {rd : ℝ → ℝ} {delta length : ℝ} {e : StraightLine ℝ n} (h : StraightLine.initR rd n delta length = .ok e)
    (a b : Fin (n + 1) → ℝ) : e.isMotionValid a b = true ↔
      InCorridor delta (rd (length + delta) - delta) a ∧ InCorridor delta (rd (length + delta) - delta) b := by
  obtain ⟨e0, h0, h1, h2⟩ := straightR_box h
  rw [← straight_valid_iff h0]
  unfold StraightLine.isMotionValid
  rw [h1, h2]

theorem straightR_sample {rd : ℝ → ℝ} {delta length : ℝ} {e : StraightLine ℝ n} (h : StraightLine.initR rd n delta length = .ok e)
    (u : Fin (n + 1) → ℝ) (i : Fin (n + 1)) :
    ∃ hi, e.sampleR fl (fun j => random53 (u j)) i = coordR (-delta) hi (u i) ∧ (hi = rd (length + delta) ∧ i = 0 ∨ hi = delta ∧ i ≠ 0) ∧
      ∀ e0 : StraightLine ℝ n, e0.boundsLower = e.boundsLower → e0.boundsUpper = e.boundsUpper → e0.sample u i = -delta + (hi - -delta) * u i := by
  obtain ⟨-, -, h3, h4, -⟩ := straightR_init h
  unfold StraightLine.sampleR StraightLine.sample
  rw [h3, h4]
  refine Fin.cases ?_ (fun j => ?_) i
  · exact ⟨rd (length + delta), rfl, .inl ⟨rfl, rfl⟩, fun e0 k1 k2 => by rw [k1, k2]; rfl⟩
  · exact ⟨delta, rfl, .inr ⟨rfl, Fin.succ_ne_zero j⟩, fun e0 k1 k2 => by rw [k1, k2]; rfl⟩

theorem straight_end_ge {delta length : ℝ} (fd : IsFloat delta) (fL : IsFloat length) (hd : 0 ≤ delta) (hl : 0 ≤ length) :
    delta ≤ fl (length + delta) ∧ length ≤ fl (length + delta) :=
  ⟨float_le_fl fd (by linarith), float_le_fl fL (by linarith)⟩

/-- Samples in floats are in the box. -/
theorem straightR_sample_mem {delta length : ℝ} (fd : IsFloat delta) (fL : IsFloat length) (hl : 0 ≤ length) {e : StraightLine ℝ n}
    (h : StraightLine.initR fl n delta length = .ok e) {u : Fin (n + 1) → ℝ} (hu : ∀ i, 0 ≤ u i ∧ u i < 1) :
    InCorridor delta (fl (length + delta) - delta) (e.sampleR fl fun j => random53 (u j)) := by
  obtain ⟨-, hd, -, -, -⟩ := straightR_init h
  obtain ⟨g1, g2⟩ := straight_end_ge fd fL hd hl
  have key : ∀ i, ∃ hi, (hi = fl (length + delta) ∧ i = 0 ∨ hi = delta ∧ i ≠ 0) ∧ -delta ≤ e.sampleR fl (fun j => random53 (u j)) i ∧
      e.sampleR fl (fun j => random53 (u j)) i ≤ hi := by
    intro i
    obtain ⟨hi, k1, k2, -⟩ := straightR_sample h u i
    refine ⟨hi, k2, ?_⟩
    rw [k1]
    refine Float64.uniform_mem fd.neg ?_ ?_ (random53_nonneg (hu i).1) (random53_lt (hu i).2)
    · rcases k2 with ⟨rfl, -⟩ | ⟨rfl, -⟩
      exacts [isFloat_fl _, fd]
    · rcases k2 with ⟨rfl, -⟩ | ⟨rfl, -⟩ <;> linarith
  obtain ⟨h0, k1, k2, k3⟩ := key 0
  rcases k1 with ⟨rfl, -⟩ | ⟨-, k⟩
  swap
  · exact absurd rfl k
  refine ⟨k2, by linarith, fun i => ?_⟩
  obtain ⟨h0, k1, k2, k3⟩ := key i.succ
  rcases k1 with ⟨-, k⟩ | ⟨hh, -⟩
  · exact absurd k (Fin.succ_ne_zero i)
  · exact ⟨k2, k3.trans hh.le⟩

theorem curveR_coord {rd : ℝ → ℝ} {delta length : ℝ} {e : StraightLine ℝ n} (h : StraightLine.initR rd n delta length = .ok e) (t : ℝ) :
    e.curvePointR rd t 0 = rd (0 + rd (clip t 0 1 * length)) ∧ ∀ i : Fin n, e.curvePointR rd t i.succ = 0 := by
  obtain ⟨-, -, -, -, h5⟩ := straightR_init h
  unfold StraightLine.curvePointR
  rw [h5]
  exact ⟨rfl, fun _ => rfl⟩

theorem curveR_range {delta length : ℝ} (fL : IsFloat length) (hl : 0 ≤ length) {e : StraightLine ℝ n}
    (h : StraightLine.initR fl n delta length = .ok e) (t : ℝ) : 0 ≤ e.curvePointR fl t 0 ∧ e.curvePointR fl t 0 ≤ length := by
  have h01 := clip_mem (x := t) (zero_le_one (α := ℝ))
  rw [(curveR_coord h t).1, zero_add, fl_float (isFloat_fl _)]
  exact ⟨fl_nonneg (mul_nonneg h01.1 hl), fl_le_float fL (mul_le_of_le_one_left hl h01.2)⟩

theorem curveR_mem {delta length : ℝ} (fd : IsFloat delta) (fL : IsFloat length) (hl : 0 ≤ length) {e : StraightLine ℝ n}
    (h : StraightLine.initR fl n delta length = .ok e) (t : ℝ) : InCorridor delta (fl (length + delta) - delta) (e.curvePointR fl t) := by
  obtain ⟨-, hd, -, -, -⟩ := straightR_init h
  obtain ⟨-, g2⟩ := straight_end_ge fd fL hd hl
  obtain ⟨k1, k2⟩ := curveR_range fL hl h t
  refine ⟨by linarith, by linarith, fun i => ?_⟩
  rw [(curveR_coord h t).2]
  exact ⟨by linarith, hd⟩

/-- C129. In floats, the motions between any two samples or points of the line are accepted, whatever the draws: rounding never moves a
sample out of the box. -/
theorem C129_accepted {delta length : ℝ} (fd : IsFloat delta) (fL : IsFloat length) (hl : 0 ≤ length) {e : StraightLine ℝ n}
    (h : StraightLine.initR fl n delta length = .ok e) {p q : Fin (n + 1) → ℝ}
    (hp : (∃ t, p = e.curvePointR fl t) ∨ ∃ u : Fin (n + 1) → ℝ, (∀ i, 0 ≤ u i ∧ u i < 1) ∧ p = e.sampleR fl fun j => random53 (u j))
    (hq : (∃ t, q = e.curvePointR fl t) ∨ ∃ u : Fin (n + 1) → ℝ, (∀ i, 0 ≤ u i ∧ u i < 1) ∧ q = e.sampleR fl fun j => random53 (u j)) :
    e.isMotionValid p q = true := by
  rw [straightR_valid h]
  constructor
  · rcases hp with ⟨t, rfl⟩ | ⟨u, hu, rfl⟩
    exacts [curveR_mem fd fL hl h t, straightR_sample_mem fd fL hl h hu]
  · rcases hq with ⟨t, rfl⟩ | ⟨u, hu, rfl⟩
    exacts [curveR_mem fd fL hl h t, straightR_sample_mem fd fL hl h hu]

/-- The distance of a sample in floats to the exact sample. -/
theorem straightR_sample_err {delta length : ℝ} (fd : IsFloat delta) (fL : IsFloat length) (hl : 0 ≤ length) (hd0 : 2 ^ (-100 : ℤ) ≤ delta)
    {e e0 : StraightLine ℝ n} (h : StraightLine.initR fl n delta length = .ok e) (h1 : e0.boundsLower = e.boundsLower)
    (h2 : e0.boundsUpper = e.boundsUpper) {u : Fin (n + 1) → ℝ} (hu : ∀ i, 0 ≤ u i ∧ u i < 1) :
    dist (WithLp.toLp 2 (e0.sample u) : Space (n + 1)) (WithLp.toLp 2 (e.sampleR fl fun j => random53 (u j))) ≤
      Real.sqrt (n + 1) * (8 * eps * (fl (length + delta) + delta)) := by
  have d0 : 0 < delta := lt_of_lt_of_le (by positivity) hd0
  obtain ⟨g1, g2⟩ := straight_end_ge fd fL d0.le hl
  have e0' := eps_pos
  have h4 : 0 ≤ 8 * eps * (fl (length + delta) + delta) := mul_nonneg (by linarith) (by linarith)
  rw [EuclideanSpace.dist_eq]
  have hsum : ∑ i, dist ((WithLp.toLp 2 (e0.sample u) : Space (n + 1)) i) ((WithLp.toLp 2 (e.sampleR fl fun j => random53 (u j)) : Space (n + 1)) i) ^ 2 ≤
      (n + 1) * (8 * eps * (fl (length + delta) + delta)) ^ 2 := by
    refine (Finset.sum_le_sum (g := fun _ => (8 * eps * (fl (length + delta) + delta)) ^ 2) fun i _ => ?_).trans (by simp)
    refine pow_le_pow_left₀ dist_nonneg ?_ 2
    show dist (e0.sample u i) (e.sampleR fl (fun j => random53 (u j)) i) ≤ _
    obtain ⟨hi, k1, k2, k3⟩ := straightR_sample h u i
    rw [k1, k3 e0 h1 h2, Real.dist_eq, abs_sub_comm]
    have fhi : IsFloat hi := by
      rcases k2 with ⟨rfl, -⟩ | ⟨rfl, -⟩
      exacts [isFloat_fl _, fd]
    have hge : delta ≤ hi := by
      rcases k2 with ⟨rfl, -⟩ | ⟨rfl, -⟩
      exacts [g1, le_rfl]
    have hle : hi ≤ fl (length + delta) := by
      rcases k2 with ⟨rfl, -⟩ | ⟨rfl, -⟩
      exacts [le_rfl, g1]
    refine (coordR_err_zero fd.neg fhi (by linarith) (by linarith) (by linarith) (hu i).1 (hu i).2).trans ?_
    exact mul_le_mul_of_nonneg_left (by linarith) (by linarith)
  refine (Real.sqrt_le_sqrt hsum).trans ?_
  rw [Real.sqrt_mul (by positivity), Real.sqrt_sq h4]

/-- The line keeps each clearance for which the box is large enough. -/
theorem lineR_clear {delta δ length : ℝ} (hδ : δ ≤ delta) (hδ' : length + δ ≤ fl (length + delta)) (fL : IsFloat length) (hl : 0 ≤ length)
    {e : StraightLine ℝ n} (h : StraightLine.initR fl n delta length = .ok e) (s t : ℝ) :
    ∃ γ, ClearPath (corridorSet n delta (fl (length + delta) - delta)) δ (WithLp.toLp 2 (e.curvePointR fl s)) (WithLp.toLp 2 (e.curvePointR fl t)) γ ∧
      LengthAtMost γ |e.curvePointR fl s 0 - e.curvePointR fl t 0| := by
  have hdist : dist (WithLp.toLp 2 (e.curvePointR fl s) : Space (n + 1)) (WithLp.toLp 2 (e.curvePointR fl t)) =
      |e.curvePointR fl s 0 - e.curvePointR fl t 0| := by
    rw [EuclideanSpace.dist_eq, Fin.sum_univ_succ]
    simp only [(curveR_coord h s).2, (curveR_coord h t).2, dist_self]
    simp [Real.dist_eq, Real.sqrt_sq_eq_abs]
  rw [← hdist]
  refine ⟨_, straight_path fun x hx y hy => ?_⟩
  obtain ⟨u, v, hu, hv, huv, rfl⟩ := hx
  have hb := coord_lt (Metric.mem_ball.1 hy)
  have r0 := between hu hv huv (curveR_range fL hl h s) (curveR_range fL hl h t)
  have e0 : (u • (WithLp.toLp 2 (e.curvePointR fl s) : Space (n + 1)) + v • WithLp.toLp 2 (e.curvePointR fl t)) 0 =
      u * e.curvePointR fl s 0 + v * e.curvePointR fl t 0 := rfl
  have ei : ∀ i : Fin n, (u • (WithLp.toLp 2 (e.curvePointR fl s) : Space (n + 1)) + v • WithLp.toLp 2 (e.curvePointR fl t)) i.succ = 0 := by
    intro i
    have : (u • (WithLp.toLp 2 (e.curvePointR fl s) : Space (n + 1)) + v • WithLp.toLp 2 (e.curvePointR fl t)) i.succ =
      u * e.curvePointR fl s i.succ + v * e.curvePointR fl t i.succ := rfl
    rw [this, (curveR_coord h s).2, (curveR_coord h t).2]
    ring
  have hb0 := hb 0
  rw [e0, abs_lt] at hb0
  refine ⟨by linarith [hb0.1, r0.1], by linarith [hb0.2, r0.2], fun i => ?_⟩
  have := hb i.succ
  rw [ei, sub_zero, abs_lt] at this
  exact ⟨by linarith [this.1], by linarith [this.2]⟩

/-- The argument of C129 for any count whose failure bound is known and any way to find hops between ideal samples that form a net. -/
theorem straight_core {delta length δ κ q vol : ℝ} (fd : IsFloat delta) (fL : IsFloat length) (hd0 : 2 ^ (-100 : ℤ) ≤ delta)
    (hl : 0 ≤ length) {e : StraightLine ℝ n} (he : StraightLine.initR fl n delta length = .ok e) {U : ℕ → Ω → Fin (n + 1) → ℝ}
    (hU : UnitDraws Pr U) (hδ0 : 0 < δ) (hδ : δ ≤ delta) (hδ' : length + δ ≤ fl (length + delta)) (hvol : e.volume ≤ vol) {tol : Option ℝ}
    {N : ℕ} {r r' : ℝ} (ht : TolNonneg tol) (h2N : 2 ≤ N) (hb : failureBound N (netMeasure δ tol (n + 1) vol) (n + 1 + 1) ≤ q)
    (hκ : 0 ≤ κ)
    (hr : (1 + κ) * (r + Real.sqrt (n + 1) * 2 ^ (-49 : ℤ) * (fl (length + delta) + delta)) ≤ r') (d : ℕ) {Q : ℝ → ℝ → List (Space (n + 1)) → Prop}
    (hhops : ∀ S : List (Space (n + 1)),
      (∀ x, Metric.ball x δ ⊆ corridorSet n delta (fl (length + delta) - delta) → ∃ q ∈ S, dist q x < netRadius δ tol) → ∀ s t,
      ∃ pts : List (Space (n + 1)), pts ≠ [] ∧ (∀ p ∈ pts, p ∈ S) ∧
        ((WithLp.toLp 2 (e.curvePointR fl s) : Space (n + 1)) :: pts ++ [WithLp.toLp 2 (e.curvePointR fl t)]).IsChain
          (fun p q => dist p q < r ∧ segment ℝ p q ⊆ corridorSet n delta (fl (length + delta) - delta)) ∧ Q s t pts) :
    Pr.real {ω | ¬ ∀ w : World (Space (n + 1)) ℝ, FloatWorld w κ e.isMotionValid (fun i => e.sampleR fl fun j => random53 (U i ω j)) →
      ∀ m, N ≤ m → ∀ s t : ℝ,
      ∃ pts pts', Q s t pts ∧ w.SampleChain (w.fresh (d + 1) m) r' (WithLp.toLp 2 (e.curvePointR fl s)) (WithLp.toLp 2 (e.curvePointR fl t)) pts' ∧
        pathLength w.dist (WithLp.toLp 2 (e.curvePointR fl s) :: pts' ++ [WithLp.toLp 2 (e.curvePointR fl t)]) ≤
        (1 + κ) * (pathLength dist ((WithLp.toLp 2 (e.curvePointR fl s) : Space (n + 1)) :: pts ++ [WithLp.toLp 2 (e.curvePointR fl t)]) +
          Real.sqrt (n + 1) * 2 ^ (-49 : ℤ) * (fl (length + delta) + delta) * pts.length) ∧ pts'.length ≤ pts.length} ≤ q := by
  have d0 : 0 < delta := lt_of_lt_of_le (by positivity) hd0
  obtain ⟨g1, g2⟩ := straight_end_ge fd fL d0.le hl
  have eps0 := eps_pos
  have e49 : (2 : ℝ) ^ (-49 : ℤ) = 16 * eps := by
    unfold eps
    rw [show (-49 : ℤ) = 4 + -53 by norm_num, zpow_add₀ (by norm_num)]; norm_num
  rw [e49] at hr ⊢
  obtain ⟨e0, he0, b1, b2⟩ := straightR_box he
  have hl' : 0 ≤ fl (length + delta) - delta := by linarith
  set H := fl (length + delta) with hH
  set err : ℝ := Real.sqrt (n + 1) * (8 * eps * (H + delta)) with herr
  have err0 : 0 ≤ err := mul_nonneg (Real.sqrt_nonneg _) (mul_nonneg (by linarith) (by linarith))
  let X : ℕ → Ω → Space (n + 1) := fun i ω => WithLp.toLp 2 (e0.sample (U i ω))
  have hX : IidUniform Pr X (corridorSet n delta (H - delta)) := C84_straight d0 hl' he0 hU
  have hvol' : volume (corridorSet n delta (H - delta)) ≤ ENNReal.ofReal vol := by
    rw [corridor_volume hl' he0]
    have : e0.volume = e.volume := by
      unfold StraightLine.volume
      rw [b1, b2]
    rw [this]
    exact ENNReal.ofReal_le_ofReal hvol
  let E1 : Set Ω := {ω | ∃ x, Metric.ball x (netRadius δ tol) ⊆ corridorSet n delta (H - delta) ∧ ∀ i < N, netRadius δ tol ≤ dist (X (d + 1 + i) ω) x}
  let E2 : Set Ω := ⋃ k, {ω | U k ω ∉ Set.Icc (0 : Fin (n + 1) → ℝ) 1}
  let E3 : Set Ω := ⋃ x : ℕ × Fin (n + 1), {ω | U x.1 ω ∈ Set.Icc (0 : Fin (n + 1) → ℝ) 1 ∧ U x.1 ω x.2 = 1}
  have P1 : Pr.real E1 ≤ q := (iid_net hX (corridor_measurable _ _) (by omega) (netRadius_nonneg hδ0.le ht) hvol' h2N (d + 1)).trans hb
  have hlaw : ∀ k, Pr.map (U k) = cond volume (Set.Icc 0 1) := fun k => hU.uniform k
  have P2 : Pr.real E2 = 0 := by
    have : Pr E2 = 0 := by
      rw [measure_iUnion_null_iff]
      intro i
      have h1 : {ω | U i ω ∉ Set.Icc (0 : Fin (n + 1) → ℝ) 1} = U i ⁻¹' (Set.Icc 0 1)ᶜ := rfl
      rw [h1, ← Measure.map_apply (hU.measurable i) measurableSet_Icc.compl, hlaw, cond_apply measurableSet_Icc]
      simp
    rw [Measure.real, this]
    rfl
  have P3 : Pr.real E3 = 0 := by
    have : Pr E3 = 0 := by
      rw [measure_iUnion_null_iff]
      rintro ⟨k, i⟩
      have h1 : {ω | U k ω ∈ Set.Icc (0 : Fin (n + 1) → ℝ) 1 ∧ U k ω i = 1} = U k ⁻¹' (Set.Icc 0 1 ∩ {u | u i ∈ ({1} : Set ℝ)}) := rfl
      have hm : MeasurableSet {u : Fin (n + 1) → ℝ | u i ∈ ({1} : Set ℝ)} := measurable_pi_apply i (measurableSet_singleton 1)
      rw [h1, ← Measure.map_apply (hU.measurable k) (measurableSet_Icc.inter hm), hlaw, cond_apply measurableSet_Icc, cube_volume, inv_one, one_mul,
        ← Set.inter_assoc, Set.inter_self]
      have := slab_volume (m := n + 1) i (lo := 1) (hi := 1) {1} fun u hu _ _ => by
        rw [Set.mem_singleton_iff] at hu
        exact ⟨hu.ge, hu.le⟩
      simpa using this
    rw [Measure.real, this]
    rfl
  refine (measureReal_mono (s₂ := E1 ∪ E2 ∪ E3) (fun ω hω => ?_) (measure_ne_top _ _)).trans ?_
  · by_contra hnot
    simp only [Set.mem_union, not_or] at hnot
    obtain ⟨⟨n1, n2⟩, n3⟩ := hnot
    apply hω
    intro w hw m hm s t
    have hin : ∀ k i, 0 ≤ U k ω i ∧ U k ω i < 1 := by
      intro k i
      have hk : U k ω ∈ Set.Icc (0 : Fin (n + 1) → ℝ) 1 := by
        by_contra hi
        exact n2 (Set.mem_iUnion.2 ⟨k, hi⟩)
      refine ⟨hk.1 i, lt_of_le_of_ne (hk.2 i) fun he => n3 (Set.mem_iUnion.2 ⟨(k, i), hk, he⟩)⟩
    let S : List (Space (n + 1)) := (List.range N).map fun i => X (d + 1 + i) ω
    have hnet : ∀ x, Metric.ball x δ ⊆ corridorSet n delta (H - delta) → ∃ q ∈ S, dist q x < netRadius δ tol := by
      intro x hx
      by_contra hcon
      apply n1
      refine ⟨x, fun y hy => hx (Metric.ball_subset_ball (netRadius_le hδ0.le tol) hy), fun i hi => ?_⟩
      by_contra hlt
      exact hcon ⟨_, List.mem_map.2 ⟨i, List.mem_range.2 hi, rfl⟩, not_le.1 hlt⟩
    obtain ⟨pts, h1, h2, h3, hQ⟩ := hhops S hnet s t
    have hgood : ∀ q ∈ w.fresh (d + 1) N, q ∈ corridorSet n delta (H - delta) := by
      intro q hq
      obtain ⟨k, -, rfl⟩ := List.mem_map.1 hq
      rw [hw.draw]
      exact straightR_sample_mem fd fL hl he (hin _)
    have hmove : ∀ q ∈ S, ∃ q' ∈ w.fresh (d + 1) N, dist q q' ≤ err := by
      intro q hq
      obtain ⟨k, hk, rfl⟩ := List.mem_map.1 hq
      refine ⟨_, List.mem_map.2 ⟨k, hk, rfl⟩, ?_⟩
      rw [hw.draw]
      exact straightR_sample_err fd fL hl hd0 he b1 b2 (hin _)
    obtain ⟨pts', h4, h5, hlen⟩ := sampleChain_moved_rel (w := w) (F := corridorSet n delta (H - delta)) (F' := Set.univ)
      (Good := fun q => q ∈ corridorSet n delta (H - delta)) (Ok := fun _ _ => True) (r' := r') err0 hκ (floatWorld_dist hw).1 (floatWorld_dist hw).2
      (fun x y hxy => by
        have k1 := abs_le.1 (hw.dist x y)
        have k2 : (1 + κ) * dist x y ≤ (1 + κ) * (r + 2 * err) := mul_le_mul_of_nonneg_left hxy.le (by linarith)
        have k3 : r + Real.sqrt (n + 1) * (16 * eps) * (H + delta) = r + 2 * err := by rw [herr]; ring
        rw [k3] at hr
        have k4 : (1 + κ) * dist x y = dist x y + κ * dist x y := by ring
        linarith [k1.2])
      (fun _ _ _ _ => Set.mem_univ _)
      (fun x y gx gy _ _ => by
        rw [hw.check, straightR_valid he]
        exact ⟨gx, gy⟩)
      (fun _ _ => ⟨trivial, trivial⟩) (fun _ _ _ _ _ => trivial) (curveR_mem fd fL hl he s) (curveR_mem fd fL hl he t) hgood hmove h1 h2 h3
    have h4' : w.SampleChain (w.fresh (d + 1) m) r' (WithLp.toLp 2 (e.curvePointR fl s)) (WithLp.toLp 2 (e.curvePointR fl t)) pts' := by
      refine ⟨h4.nonempty, fun q hq => ?_, h4.first, h4.last, h4.hops⟩
      obtain ⟨k, hk, rfl⟩ := List.mem_map.1 (h4.samples q hq)
      exact List.mem_map.2 ⟨k, List.mem_range.2 (lt_of_lt_of_le (List.mem_range.1 hk) hm), rfl⟩
    refine ⟨pts, pts', hQ, h4', h5.trans_eq ?_, hlen⟩
    rw [herr]
    ring
  · have u1 := measureReal_union_le (μ := Pr) (E1 ∪ E2) E3
    have u2 := measureReal_union_le (μ := Pr) E1 E2
    linarith

/-- The argument of C129 for any count whose failure bound is known and any radius of at least twice the net's. -/
theorem straight_complete_of_bound {delta length δ κ q vol : ℝ} (fd : IsFloat delta) (fL : IsFloat length) (hd0 : 2 ^ (-100 : ℤ) ≤ delta)
    (hl : 0 ≤ length) {e : StraightLine ℝ n} (he : StraightLine.initR fl n delta length = .ok e) {U : ℕ → Ω → Fin (n + 1) → ℝ}
    (hU : UnitDraws Pr U) (hδ0 : 0 < δ) (hδ : δ ≤ delta) (hδ' : length + δ ≤ fl (length + delta)) (hvol : e.volume ≤ vol) {tol : Option ℝ}
    {N : ℕ} {r r' : ℝ} (ht : TolNonneg tol) (h2N : 2 ≤ N) (hb : failureBound N (netMeasure δ tol (n + 1) vol) (n + 1 + 1) ≤ q)
    (hr0 : 2 * netRadius δ tol ≤ r) (hκ : 0 ≤ κ)
    (hr : (1 + κ) * (r + Real.sqrt (n + 1) * 2 ^ (-49 : ℤ) * (fl (length + delta) + delta)) ≤ r') (d : ℕ) :
    Pr.real {ω | ¬ ∀ w : World (Space (n + 1)) ℝ, FloatWorld w κ e.isMotionValid (fun i => e.sampleR fl fun j => random53 (U i ω j)) →
      ∀ m, N ≤ m → ∀ s t : ℝ,
      ∃ len pts, (((Full.init r' d).run w [.grow m]).query w (WithLp.toLp 2 (e.curvePointR fl s)) (WithLp.toLp 2 (e.curvePointR fl t))).2 =
        .ok (len, pts) ∧ pts ≠ []} ≤ q := by
  refine le_trans (measureReal_mono (fun ω hω => ?_) (measure_ne_top _ _))
    (straight_core (Q := fun _ _ _ => True) fd fL hd0 hl he hU hδ0 hδ hδ' hvol ht h2N hb hκ hr d fun S hS s t => by
      obtain ⟨γ, hγ, -⟩ := lineR_clear hδ hδ' fL hl he s t
      obtain ⟨pts, h1, h2, h3⟩ := clearPath_hops hγ (netRadius_le hδ0.le tol) hr0 hS
      exact ⟨pts, h1, h2, h3, trivial⟩)
  intro hall
  apply hω
  intro w hw m hm s t
  obtain ⟨pts, pts', -, h4, -⟩ := hall w hw m hm s t
  have hT : ((Full.init r' d).run w [.grow m]).samples = some (w.fresh (d + 1) m) := rfl
  obtain ⟨len, pts'', h5, h6, -, -⟩ := C29_full hw.sound r' d [.grow m] hT (WithLp.toLp 2 (e.curvePointR fl s)) (WithLp.toLp 2 (e.curvePointR fl t))
  exact ⟨len, pts'', h5, fun hz => h6.1 hz ⟨pts', h4⟩⟩

/-- The length: a radius of at least the exact one, up to rounding errors. -/
theorem straight_length_of_bound {delta length δ κ q vol ε : ℝ} (fd : IsFloat delta) (fL : IsFloat length) (hd0 : 2 ^ (-100 : ℤ) ≤ delta)
    (hl : 0 ≤ length) {e : StraightLine ℝ n} (he : StraightLine.initR fl n delta length = .ok e) {U : ℕ → Ω → Fin (n + 1) → ℝ}
    (hU : UnitDraws Pr U) (hδ0 : 0 < δ) (hδ : δ ≤ delta) (hδ' : length + δ ≤ fl (length + delta)) (hvol : e.volume ≤ vol)
    {N : ℕ} {r' : ℝ} (ht : 0 ≤ ε) (h2N : 2 ≤ N) (hb : failureBound N (netMeasure δ (some ε) (n + 1) vol) (n + 1 + 1) ≤ q)
    (hκ : 0 ≤ κ)
    (hr : (1 + κ) * (connectionRadius δ ε + Real.sqrt (n + 1) * 2 ^ (-49 : ℤ) * (fl (length + delta) + delta)) ≤ r') (d : ℕ) :
    Pr.real {ω | ¬ ∀ w : World (Space (n + 1)) ℝ, FloatWorld w κ e.isMotionValid (fun i => e.sampleR fl fun j => random53 (U i ω j)) →
      ∀ m, N ≤ m → ∀ s t : ℝ,
      ∃ (len : ℝ) (pts : List (Space (n + 1))),
        (((Full.init r' d).run w [.grow m]).query w (WithLp.toLp 2 (e.curvePointR fl s)) (WithLp.toLp 2 (e.curvePointR fl t))).2 =
        .ok ((len : WithTop ℝ), pts) ∧ pts ≠ [] ∧ len ≤ (1 + κ) * (|e.curvePointR fl s 0 - e.curvePointR fl t 0| +
          (ε + Real.sqrt (n + 1) * 2 ^ (-49 : ℤ) * (fl (length + delta) + delta) / spacing δ ε) *
            max |e.curvePointR fl s 0 - e.curvePointR fl t 0| (spacing δ ε))} ≤ q := by
  obtain ⟨f1, f2, f3, f4⟩ := spacing_facts (t := ε) hδ0
  have d0 : 0 < delta := lt_of_lt_of_le (by positivity) hd0
  obtain ⟨g1, -⟩ := straight_end_ge fd fL d0.le hl
  refine le_trans (measureReal_mono (fun ω hω => ?_) (measure_ne_top _ _))
    (straight_core (tol := some ε) (Q := fun s t pts =>
      pathLength dist ((WithLp.toLp 2 (e.curvePointR fl s) : Space (n + 1)) :: pts ++ [WithLp.toLp 2 (e.curvePointR fl t)]) ≤
        |e.curvePointR fl s 0 - e.curvePointR fl t 0| + ε * max |e.curvePointR fl s 0 - e.curvePointR fl t 0| (spacing δ ε) ∧
      pts.length * spacing δ ε ≤ max |e.curvePointR fl s 0 - e.curvePointR fl t 0| (spacing δ ε))
      fd fL hd0 hl he hU hδ0 hδ hδ' hvol ht h2N hb hκ hr d fun S hS s t => by
      obtain ⟨γ, hγ, hL⟩ := lineR_clear hδ hδ' fL hl he s t
      obtain ⟨pts, h1, h2, h3, h4, h5⟩ := clearPath_short_hops_count hγ hL (abs_nonneg _) hδ0 f1 f2.le f3.le hS
      rw [f4] at h4
      exact ⟨pts, h1, h2, h3, h4, h5⟩)
  intro hall
  apply hω
  intro w hw m hm s t
  obtain ⟨pts, pts', ⟨q1, q2⟩, h4, h4', -⟩ := hall w hw m hm s t
  have hT : ((Full.init r' d).run w [.grow m]).samples = some (w.fresh (d + 1) m) := rfl
  obtain ⟨len, pts'', h5, h6, h7, h8⟩ := C29_full hw.sound r' d [.grow m] hT (WithLp.toLp 2 (e.curvePointR fl s)) (WithLp.toLp 2 (e.curvePointR fl t))
  have hne : pts'' ≠ [] := fun hz => h6.1 hz ⟨pts', h4⟩
  have hle := h8 pts' h4
  cases len with
  | top => exact absurd (h7.2 rfl) hne
  | coe len =>
    refine ⟨len, pts'', h5, hne, (WithTop.coe_le_coe.1 hle).trans (h4'.trans (mul_le_mul_of_nonneg_left ?_ (by linarith)))⟩
    exact moved_length_le f1 (mul_nonneg (by positivity) (by linarith)) q1 q2

/-- C129. The guarantee for the straight-line environment in floats: rounded bounds, rounded samples, rounded points of the line and distances
of relative error at most `κ`. For a clearance `δ` that the rounded box leaves around the line, a volume not below that of the box and a
radius that exceeds the returned one by some rounding errors: with probability at least `p`, the planner with the returned count answers
every query between two points of the line with a nonempty path. -/
theorem C129_complete {delta length δ κ vol : ℝ} (fd : IsFloat delta) (fL : IsFloat length) (hd0 : 2 ^ (-100 : ℤ) ≤ delta) (hl : 0 ≤ length)
    {e : StraightLine ℝ n} (he : StraightLine.initR fl n delta length = .ok e) {U : ℕ → Ω → Fin (n + 1) → ℝ} (hU : UnitDraws Pr U)
    (hδ0 : 0 < δ) (hδ : δ ≤ delta) (hδ' : length + δ ≤ fl (length + delta)) (hvol : e.volume ≤ vol) {p : ℝ} {tol : Option ℝ} {fuel N : ℕ}
    {r r' : ℝ} (ht : TolNonneg tol) (h : numericalBound δ p vol (n + 1) tol fuel = some (.ok (N, r))) (hκ : 0 ≤ κ)
    (hr : (1 + κ) * (r + Real.sqrt (n + 1) * 2 ^ (-49 : ℤ) * (fl (length + delta) + delta)) ≤ r') (d : ℕ) :
    Pr.real {ω | ¬ ∀ w : World (Space (n + 1)) ℝ, FloatWorld w κ e.isMotionValid (fun i => e.sampleR fl fun j => random53 (U i ω j)) →
      ∀ m, N ≤ m → ∀ s t : ℝ,
      ∃ len pts, (((Full.init r' d).run w [.grow m]).query w (WithLp.toLp 2 (e.curvePointR fl s)) (WithLp.toLp 2 (e.curvePointR fl t))).2 =
        .ok (len, pts) ∧ pts ≠ []} ≤ 1 - p := by
  have h2 := (C02_least (by omega) hδ0.le ht h).1
  exact straight_complete_of_bound fd fL hd0 hl he hU hδ0 hδ hδ' hvol ht h2 (C01_sufficient (by omega) hδ0.le ht h N le_rfl) (radius_ge hδ0.le h) hκ
    hr d

/-- The hypotheses of C129 are met by the planar corridor of clearance 1 and length 2, success probability 1/2, and by a planner with exact
distances. -/
theorem C129_nonvacuous : ∃ e : StraightLine ℝ 1, StraightLine.initR fl 1 1 2 = .ok e ∧ IsFloat (1 : ℝ) ∧ IsFloat (2 : ℝ) ∧
    (2 : ℝ) + 1 ≤ fl (2 + 1) ∧ (∃ fuel N r, numericalBound 1 (1 / 2) e.volume 2 none fuel = some (.ok (N, r))) ∧
    (∃ Pr : Measure (ℕ → Fin 2 → ℝ), IsProbabilityMeasure Pr ∧ UnitDraws Pr (fun i x => x i)) ∧
    ∀ x : ℕ → Fin 2 → ℝ, FloatWorld (envWorld e.isMotionValid x) 0 e.isMotionValid x := by
  have f3 : fl ((2 : ℝ) + 1) = 2 + 1 := fl_float ⟨3, 0, by norm_num, by norm_num, by norm_num⟩
  obtain ⟨e, he, he'⟩ : ∃ e : StraightLine ℝ 1, StraightLine.init 1 1 2 = .ok e ∧ StraightLine.initR fl 1 1 2 = .ok e := by
    obtain ⟨e, he⟩ := (C15_init (n := 1) (1 : ℝ) 2).1.1 (by norm_num)
    refine ⟨e, he, ?_⟩
    unfold StraightLine.initR
    rw [f3]
    exact he
  have hvol : e.volume = 8 := by
    rw [(C15_volume (by norm_num) he).2]
    norm_num
  have hpi := Real.pi_gt_three
  refine ⟨e, he', one_isFloat, ⟨1, 1, by norm_num, by norm_num, by norm_num⟩, f3.ge, answers_planar (by norm_num) trivial ?_, exists_unitDraws 2, fun x => ?_⟩
  · rw [netMeasure_planar (by norm_num) none trivial, hvol]
    simp only [netRadius]
    linarith
  · obtain ⟨h1, h2, h3, h4⟩ := envWorld_ok e.isMotionValid x
    exact ⟨h1, fun p q => by rw [h2]; simp, h3, h4⟩

end Verif.Props
