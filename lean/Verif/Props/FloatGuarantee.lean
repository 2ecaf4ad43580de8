import Verif.Lemmas.FloatChain
import Verif.Lemmas.FloatGeneral
import Verif.Lemmas.FloatSample
import Verif.Props.EnvGuarantee
import Verif.Props.FloatClear
import Verif.Spec.FloatWorld

/-! The guarantee for the narrow-passage environment with rounded samples, motion checks and distances: C128. -/

namespace Verif.Props

open MeasureTheory ProbabilityTheory Verif.Envs Verif.Bound Verif.Spec Verif.Prm Verif.Net Verif.Float64

variable {Ω : Type*} [MeasurableSpace Ω] {Pr : Measure Ω} [IsProbabilityMeasure Pr] {n : ℕ}

/-- The `i`-th coordinate of a sample in floats. -/
noncomputable def narrowCoord (c : ℝ) (i : Fin (n + 1)) (r : Region) (u : ℝ) : ℝ :=
  match r with
  | .left => coordR ((NarrowPassage.init n c).leftLb i) ((NarrowPassage.init n c).leftUb i) u
  | .right => coordR ((NarrowPassage.init n c).rightLb i) ((NarrowPassage.init n c).rightUb i) u
  | .hall => coordR ((NarrowPassage.init n c).hallLb i) ((NarrowPassage.init n c).hallUb i) u

/-- The sides of the three boxes: floats, not too short and not too far from the origin. -/
structure SideOk (l r : ℝ) : Prop where
  left : IsFloat l
  right : IsFloat r
  width : IsFloat (r - l)
  long : 2 ^ (-100 : ℤ) ≤ r - l
  short : r - l ≤ 1
  nearLeft : |l| ≤ 3 / 2 * (r - l)
  nearRight : |r| ≤ 3 / 2 * (r - l)
  grid : Grid l

theorem sideOk_room {l r : ℝ} (hl : IsFloat l) (hr : IsFloat r) (hd : r - l = 1) (h1 : |l| ≤ 3 / 2) (h2 : |r| ≤ 3 / 2) (h3 : 1 / 2 ≤ |l|) :
    SideOk l r := by
  have h100 : (2 : ℝ) ^ (-100 : ℤ) ≤ 1 := zpow_le_one_of_nonpos₀ (by norm_num) (by norm_num)
  have h800 : (2 : ℝ) ^ (-800 : ℤ) ≤ 1 / 2 := by
    rw [show (1 / 2 : ℝ) = 2 ^ (-1 : ℤ) by norm_num]
    exact zpow_le_zpow_right₀ (by norm_num) (by norm_num)
  exact ⟨hl, hr, by rw [hd]; exact one_isFloat, by rw [hd]; exact h100, hd.le, by rw [hd]; linarith, by rw [hd]; linarith,
    grid_float hl (.inr (h800.trans h3))⟩

theorem sideOk_hall {c : ℝ} (fc : IsFloat c) (hc0 : 2 ^ (-100 : ℤ) ≤ c) (hc : c < 1 / 2) : SideOk (-c) c := by
  have h0 : (0 : ℝ) < 2 ^ (-100 : ℤ) := by positivity
  have h800 : (2 : ℝ) ^ (-800 : ℤ) ≤ 2 ^ (-100 : ℤ) := zpow_le_zpow_right₀ (by norm_num) (by norm_num)
  have c0 : 0 < c := lt_of_lt_of_le h0 hc0
  refine ⟨fc.neg, fc, by rw [show c - -c = 2 * c by ring]; exact fc.double, hc0.trans (by linarith), by linarith, ?_, ?_, ?_⟩
  · rw [abs_neg, abs_of_pos c0]; linarith
  · rw [abs_of_pos c0]; linarith
  · exact grid_float fc.neg (.inr (by rw [abs_neg, abs_of_pos c0]; exact h800.trans hc0))

theorem narrow_sides {c : ℝ} (fc : IsFloat c) (hc0 : 2 ^ (-100 : ℤ) ≤ c) (hc : c < 1 / 2) (i : Fin (n + 1)) (r : Region) :
    ∃ lo hi, SideOk lo hi ∧ (∀ u, narrowCoord c i r u = coordR lo hi u) ∧
      ∀ u : Fin (n + 1) → ℝ, (NarrowPassage.init n c).sample r u i = lo + (hi - lo) * u i := by
  have f12 : IsFloat (1 / 2 : ℝ) := ⟨1, -1, by norm_num, by norm_num, by norm_num⟩
  have f12' : IsFloat (-1 / 2 : ℝ) := ⟨-1, -1, by norm_num, by norm_num, by norm_num⟩
  have f32 : IsFloat (3 / 2 : ℝ) := ⟨3, -1, by norm_num, by norm_num, by norm_num⟩
  have f32' : IsFloat (-3 / 2 : ℝ) := ⟨-3, -1, by norm_num, by norm_num, by norm_num⟩
  have mid : SideOk (-1 / 2) (1 / 2) := sideOk_room f12' f12 (by norm_num) (by norm_num [abs_of_neg]) (by norm_num) (by norm_num [abs_of_neg])
  have lft : SideOk (-3 / 2) (-1 / 2) := sideOk_room f32' f12' (by norm_num) (by norm_num [abs_of_neg]) (by norm_num [abs_of_neg]) (by norm_num [abs_of_neg])
  have rgt : SideOk (1 / 2) (3 / 2) := sideOk_room f12 f32 (by norm_num) (by norm_num) (by norm_num [abs_of_pos]) (by norm_num)
  cases r
  · exact ⟨_, _, by refine Fin.cases ?_ (fun j => ?_) i; exacts [lft, mid], fun u => rfl, fun u => rfl⟩
  · exact ⟨_, _, by refine Fin.cases ?_ (fun j => ?_) i; exacts [rgt, mid], fun u => rfl, fun u => rfl⟩
  · exact ⟨_, _, by refine Fin.cases ?_ (fun j => ?_) i; exacts [mid, sideOk_hall fc hc0 hc], fun u => rfl, fun u => rfl⟩

theorem sampleR_coord (c : ℝ) (r : Region) (u : Fin (n + 1) → ℝ) (i : Fin (n + 1)) :
    (NarrowPassage.init n c).sampleR fl r (fun j => random53 (u j)) i = narrowCoord c i r (u i) := by
  cases r <;> rfl

theorem narrowCoord_measurable {c : ℝ} (fc : IsFloat c) (hc0 : 2 ^ (-100 : ℤ) ≤ c) (hc : c < 1 / 2) (i : Fin (n + 1)) (r : Region) :
    Measurable (narrowCoord c i r) := by
  obtain ⟨lo, hi, ok, h, -⟩ := narrow_sides fc hc0 hc i r
  rw [funext h]
  have h0 : (0 : ℝ) ≤ 2 ^ (-100 : ℤ) := by positivity
  exact (coordR_mono (sub_nonneg.1 (h0.trans ok.long))).measurable

/-- For each value of a coordinate, the draws that lead to it are in an interval of length `2 ^ -50`. -/
theorem narrowCoord_hits {c : ℝ} (fc : IsFloat c) (hc0 : 2 ^ (-100 : ℤ) ≤ c) (hc : c < 1 / 2) (i : Fin (n + 1)) (r : Region) (v : ℝ) :
    ∃ lo hi, hi - lo ≤ 8 * eps ∧ ∀ u, 0 ≤ u → u ≤ 1 → narrowCoord c i r u = v → lo ≤ u ∧ u ≤ hi := by
  obtain ⟨l, h, ok, hco, -⟩ := narrow_sides fc hc0 hc i r
  refine ⟨(v - l) / (h - l) - 4 * eps, (v - l) / (h - l) + 4 * eps, by linarith, fun u h0 h1 hu => ?_⟩
  rw [hco] at hu
  exact coordR_hits ok.width ok.long ok.nearLeft ok.nearRight h0 h1 hu

/-- Points of the kind that the planner works with. -/
structure GoodPoint (n : ℕ) (c : ℝ) (p : Space (n + 1)) : Prop where
  float : ∀ i, IsFloat (p i)
  grid : ∀ i, Grid (p i)
  free : p ∈ narrowSet n c

theorem narrow_range {c : ℝ} (hc : c ≤ 1 / 2) {x : Fin (n + 1) → ℝ} (h : NarrowFree c x) : |x 0| ≤ 3 / 2 ∧ ∀ i : Fin n, |x i.succ| ≤ 1 / 2 := by
  rcases h with ⟨h1, h2, h3⟩ | ⟨h1, h2, h3⟩ | ⟨h1, h2, h3⟩ <;>
    exact ⟨abs_le.2 ⟨by linarith, by linarith⟩, fun i => abs_le.2 ⟨by linarith [(h3 i).1], by linarith [(h3 i).2]⟩⟩

theorem sample_good {c : ℝ} (fc : IsFloat c) (hc0 : 2 ^ (-100 : ℤ) ≤ c) (hc : c < 1 / 2) (r : Region) {u : Fin (n + 1) → ℝ}
    (hu : u ∈ Set.Icc (0 : Fin (n + 1) → ℝ) 1) :
    GoodPoint n c (WithLp.toLp 2 ((NarrowPassage.init n c).sampleR fl r fun j => random53 (u j))) := by
  have c0 : 0 ≤ c := le_trans (by positivity) hc0
  have hin : ∀ i lo hi, SideOk lo hi → lo ≤ coordR lo hi (u i) ∧ coordR lo hi (u i) ≤ hi := by
    intro i lo hi ok
    have h0 : (0 : ℝ) ≤ 2 ^ (-100 : ℤ) := by positivity
    exact coordR_mem ok.left ok.right ok.width (sub_nonneg.1 (h0.trans ok.long)) (hu.1 i) (hu.2 i)
  refine ⟨fun i => ?_, fun i => ?_, ?_⟩
  · show IsFloat ((NarrowPassage.init n c).sampleR fl r (fun j => random53 (u j)) i)
    cases r <;> exact isFloat_fl _
  · show Grid ((NarrowPassage.init n c).sampleR fl r (fun j => random53 (u j)) i)
    obtain ⟨lo, hi, ok, h, -⟩ := narrow_sides fc hc0 hc i r
    rw [sampleR_coord, h]
    exact grid_coordR ok.grid ok.width ok.long
  · have hf : NarrowFree c ((NarrowPassage.init n c).sampleR fl r fun j => random53 (u j)) := by
      have h01 : ∀ i, random53 (u i) ≤ 1 := fun i => random53_le.trans (hu.2 i)
      exact sampleR_free fc c0 r fun i => ⟨random53_nonneg (hu.1 i), h01 i⟩
    exact hf

theorem sample_err {c : ℝ} (fc : IsFloat c) (hc0 : 2 ^ (-100 : ℤ) ≤ c) (hc : c < 1 / 2) (r : Region) {u : Fin (n + 1) → ℝ}
    (hu : u ∈ Set.Icc (0 : Fin (n + 1) → ℝ) 1) :
    dist (WithLp.toLp 2 ((NarrowPassage.init n c).sample r u) : Space (n + 1))
      (WithLp.toLp 2 ((NarrowPassage.init n c).sampleR fl r fun j => random53 (u j))) ≤ Real.sqrt (n + 1) * (4 * eps) := by
  have h4 : 0 ≤ 4 * eps := by linarith [eps_pos]
  rw [EuclideanSpace.dist_eq]
  have hsum : ∑ i, dist ((WithLp.toLp 2 ((NarrowPassage.init n c).sample r u) : Space (n + 1)) i)
      ((WithLp.toLp 2 ((NarrowPassage.init n c).sampleR fl r fun j => random53 (u j)) : Space (n + 1)) i) ^ 2 ≤ (n + 1) * (4 * eps) ^ 2 := by
    refine (Finset.sum_le_sum (g := fun _ => (4 * eps) ^ 2) fun i _ => ?_).trans (by simp)
    refine pow_le_pow_left₀ dist_nonneg ?_ 2
    show dist ((NarrowPassage.init n c).sample r u i) ((NarrowPassage.init n c).sampleR fl r (fun j => random53 (u j)) i) ≤ _
    obtain ⟨lo, hi, ok, h, h'⟩ := narrow_sides fc hc0 hc i r
    rw [sampleR_coord, h, h', Real.dist_eq, abs_sub_comm]
    refine (coordR_err ok.width ok.long ok.nearLeft ok.nearRight (hu.1 i) (hu.2 i)).trans ?_
    exact mul_le_of_le_one_right h4 ok.short
  refine (Real.sqrt_le_sqrt hsum).trans ?_
  rw [Real.sqrt_mul (by positivity), Real.sqrt_sq h4]

/-- Points with a free ball of radius `2 ^ -45` are not near an obstacle. -/
theorem not_near {c : ℝ} (hc : c < 1 / 2) {y : Space (n + 1)} (h : Metric.ball y (256 * eps) ⊆ narrowSet n c) :
    ¬ NarrowNear (128 * eps) c fun i => y i := by
  rintro ⟨h1, h2, i, hi⟩
  have e0 := eps_pos
  have e1 := eps_le
  -- the nearest point of the block
  obtain ⟨σ, hσ, s1, s2⟩ : ∃ σ : ℝ, |σ| ≤ 128 * eps ∧ -1 / 2 ≤ y 0 + σ ∧ y 0 + σ ≤ 1 / 2 := by
    rcases le_total (y 0) (-1 / 2) with k | k
    · exact ⟨-1 / 2 - y 0, by rw [abs_le]; constructor <;> linarith, by linarith, by linarith⟩
    · rcases le_total (y 0) (1 / 2) with k' | k'
      · exact ⟨0, by rw [abs_zero]; linarith, by linarith, by linarith⟩
      · exact ⟨1 / 2 - y 0, by rw [abs_le]; constructor <;> linarith, by linarith, by linarith⟩
  obtain ⟨τ, hτ, t1⟩ : ∃ τ : ℝ, |τ| ≤ 128 * eps ∧
      ((c ≤ y i.succ + τ ∧ y i.succ + τ ≤ 1 / 2) ∨ (-1 / 2 ≤ y i.succ + τ ∧ y i.succ + τ ≤ -c)) := by
    rcases hi with ⟨k1, k2⟩ | ⟨k1, k2⟩
    · rcases le_total (y i.succ) c with k | k
      · exact ⟨c - y i.succ, by rw [abs_le]; constructor <;> linarith, .inl ⟨by linarith, by linarith⟩⟩
      · rcases le_total (y i.succ) (1 / 2) with k' | k'
        · exact ⟨0, by rw [abs_zero]; linarith, .inl ⟨by linarith, by linarith⟩⟩
        · exact ⟨1 / 2 - y i.succ, by rw [abs_le]; constructor <;> linarith, .inl ⟨by linarith, by linarith⟩⟩
    · rcases le_total (y i.succ) (-1 / 2) with k | k
      · exact ⟨-1 / 2 - y i.succ, by rw [abs_le]; constructor <;> linarith, .inr ⟨by linarith, by linarith⟩⟩
      · rcases le_total (y i.succ) (-c) with k' | k'
        · exact ⟨0, by rw [abs_zero]; linarith, .inr ⟨by linarith, by linarith⟩⟩
        · exact ⟨-c - y i.succ, by rw [abs_le]; constructor <;> linarith, .inr ⟨by linarith, by linarith⟩⟩
  let z : Space (n + 1) := y + (EuclideanSpace.single 0 σ + EuclideanSpace.single i.succ τ)
  have hz : z ∈ Metric.ball y (256 * eps) := by
    rw [Metric.mem_ball, dist_eq_norm]
    have hzy : z - y = EuclideanSpace.single 0 σ + EuclideanSpace.single i.succ τ := by
      simp only [z]
      abel
    have hnorm : ‖(EuclideanSpace.single 0 σ + EuclideanSpace.single i.succ τ : Space (n + 1))‖ ^ 2 = σ ^ 2 + τ ^ 2 := by
      rw [@norm_add_sq_real, EuclideanSpace.inner_single_left]
      simp [PiLp.norm_single, Real.norm_eq_abs, sq_abs, (Fin.succ_ne_zero i).symm]
    rw [hzy]
    refine lt_of_pow_lt_pow_left₀ 2 (by positivity) ?_
    rw [hnorm]
    have q1 : σ ^ 2 ≤ (128 * eps) ^ 2 := sq_le_sq' (abs_le.1 hσ).1 (abs_le.1 hσ).2
    have q2 : τ ^ 2 ≤ (128 * eps) ^ 2 := sq_le_sq' (abs_le.1 hτ).1 (abs_le.1 hτ).2
    have q3 : 0 < eps ^ 2 := by positivity
    linarith [show (128 * eps) ^ 2 = 16384 * eps ^ 2 by ring, show (256 * eps) ^ 2 = 65536 * eps ^ 2 by ring]
  have z0 : z 0 = y 0 + σ := by
    simp [z, (Fin.succ_ne_zero i).symm]
  have zi : z i.succ = y i.succ + τ := by
    simp [z]
  refine (ball_narrowOpen h hz).2 ⟨?_, ?_, i, ?_⟩
  · dsimp only; rw [z0]; exact s1
  · dsimp only; rw [z0]; exact s2
  · dsimp only; rw [zi]; exact t1

/-- The check accepts clear motions between good points without a common coordinate. -/
theorem good_check {c : ℝ} (fc : IsFloat c) (hc0 : 2 ^ (-100 : ℤ) ≤ c) (hc : c < 1 / 2) {p q : Space (n + 1)} (hp : GoodPoint n c p)
    (hq : GoodPoint n c q) (hpq : ∀ i, p i ≠ q i) (h : segment ℝ p q ⊆ {y | Metric.ball y (256 * eps) ⊆ narrowSet n c}) :
    (NarrowPassage.init n c).isMotionValidR fl (fun i => p i) (fun i => q i) = true := by
  have hp' := narrow_range hc.le hp.free
  have hq' := narrow_range hc.le hq.free
  refine C127_clear_accepted_partial fc hc0 hc _ _ hp.float hp'.1 hq'.1 hp'.2 hq'.2 (fun i => (hp.grid i).gap (hq.grid i))
    (fun i => ⟨Or.inl (hpq 0), fun h0 => hpq 0 h0.1, fun h0 => hpq _ h0.1⟩) fun y hy => ?_
  have e46 : (2 : ℝ) ^ (-46 : ℤ) = 128 * eps := by
    unfold eps
    rw [show (-46 : ℤ) = 7 + -53 by norm_num, zpow_add₀ (by norm_num)]; norm_num
  rw [e46]
  obtain ⟨u, v, hu, hv, huv, rfl⟩ := hy
  have := not_near hc (h ⟨u, v, hu, hv, huv, rfl⟩)
  exact this

theorem clear_shrink {F : Set (Space (n + 1))} {δ η : ℝ} {a b : Space (n + 1)} {γ : ℝ → Space (n + 1)} (h : ClearPath F (δ + η) a b γ) :
    ClearPath {x | Metric.ball x η ⊆ F} δ a b γ :=
  ⟨h.continuous, h.start, h.goal, fun t ht x hx y hy => h.clear t ht (by
    rw [Metric.mem_ball] at hx hy ⊢
    have := dist_triangle y x (γ t)
    linarith)⟩

/-- The argument of C128 for any count whose failure bound is known and any way to find hops between ideal samples that form a net: apart from
the exceptional events, the planner's samples contain a chain, which is about as long. -/
theorem narrow_core {c δ η κ q vol : ℝ} (fc : IsFloat c) (hc0 : 2 ^ (-100 : ℤ) ≤ c) (hc : c < 1 / 2) {R : ℕ → Ω → Region}
    {U : ℕ → Ω → Fin (n + 1) → ℝ} (hU : ChoiceDraws Pr (narrowWeight n c) R U) (hδ : 0 < δ) {tol : Option ℝ} {N : ℕ} {r r' : ℝ}
    (ht : TolNonneg tol) (hvol : (NarrowPassage.init n c).volume ≤ vol) (h2N : 2 ≤ N)
    (hb : failureBound N (netMeasure δ tol (n + 1) vol) (n + 1 + 1) ≤ q)
    (hη : Real.sqrt (n + 1) * 2 ^ (-44 : ℤ) ≤ η) (hκ : 0 ≤ κ) (hr : (1 + κ) * (r + Real.sqrt (n + 1) * 2 ^ (-50 : ℤ)) ≤ r') (d : ℕ)
    {a b : Space (n + 1)} (fa : ∀ i, IsFloat (a i) ∧ (a i = 0 ∨ 2 ^ (-800 : ℤ) ≤ |a i|))
    (fb : ∀ i, IsFloat (b i) ∧ (b i = 0 ∨ 2 ^ (-800 : ℤ) ≤ |b i|)) {γ : ℝ → Space (n + 1)} (hγ : ClearPath (narrowSet n c) (δ + η) a b γ)
    {Q : List (Space (n + 1)) → Prop}
    (H : ∀ S : List (Space (n + 1)), (∀ x, Metric.ball x δ ⊆ {x | Metric.ball x η ⊆ narrowSet n c} → ∃ q ∈ S, dist q x < netRadius δ tol) →
      ∃ pts : List (Space (n + 1)), pts ≠ [] ∧ (∀ p ∈ pts, p ∈ S) ∧
        (a :: pts ++ [b]).IsChain (fun p q => dist p q < r ∧ segment ℝ p q ⊆ {x | Metric.ball x η ⊆ narrowSet n c}) ∧ Q pts) :
    Pr.real {ω | ¬ ∀ w : World (Space (n + 1)) ℝ,
      FloatWorld w κ ((NarrowPassage.init n c).isMotionValidR fl)
        (fun i => (NarrowPassage.init n c).sampleR fl (R i ω) fun j => random53 (U i ω j)) → ∀ m, N ≤ m →
      ∃ pts pts', Q pts ∧ w.SampleChain (w.fresh (d + 1) m) r' a b pts' ∧ pathLength w.dist (a :: pts' ++ [b]) ≤
        (1 + κ) * (pathLength dist (a :: pts ++ [b]) + Real.sqrt (n + 1) * 2 ^ (-50 : ℤ) * pts.length) ∧ pts'.length ≤ pts.length} ≤
      q + (n + 1) * (N + 1) ^ 2 * 2 ^ (-50 : ℤ) := by
  have c0 : 0 ≤ c := le_trans (by positivity) hc0
  have e0 := eps_pos
  have e44 : (2 : ℝ) ^ (-44 : ℤ) = 512 * eps := by
    unfold eps
    rw [show (-44 : ℤ) = 9 + -53 by norm_num, zpow_add₀ (by norm_num)]; norm_num
  have e50 : (2 : ℝ) ^ (-50 : ℤ) = 8 * eps := by
    unfold eps
    rw [show (-50 : ℤ) = 3 + -53 by norm_num, zpow_add₀ (by norm_num)]; norm_num
  rw [e44] at hη
  rw [e50] at hr ⊢
  have s1 : 1 ≤ Real.sqrt (n + 1) := by
    rw [Real.one_le_sqrt]
    have : (0 : ℝ) ≤ n := Nat.cast_nonneg n
    linarith
  set e : ℝ := Real.sqrt (n + 1) * (4 * eps) with he
  have epos : 0 ≤ e := by positivity
  have hηe : 256 * eps + e ≤ η := by
    have := mul_le_mul_of_nonneg_right s1 (by linarith : 0 ≤ 508 * eps)
    have e1 : Real.sqrt (n + 1) * (512 * eps) = Real.sqrt (n + 1) * (508 * eps) + e := by rw [he]; ring
    linarith
  have hη0 : 0 < η := by linarith
  -- the three exceptional events
  let X : ℕ → Ω → Space (n + 1) := fun i ω => WithLp.toLp 2 ((NarrowPassage.init n c).sample (R i ω) (U i ω))
  have hX : IidUniform Pr X (narrowSet n c) := C84_narrow c0 hU
  let E1 : Set Ω := {ω | ∃ x, Metric.ball x (netRadius δ tol) ⊆ narrowSet n c ∧ ∀ i < N, netRadius δ tol ≤ dist (X (d + 1 + i) ω) x}
  let E2 : Set Ω := {ω | ¬ ((∀ k < N, ∀ i, narrowCoord c i (R (d + 1 + k) ω) (U (d + 1 + k) ω i) ≠ a i ∧
      narrowCoord c i (R (d + 1 + k) ω) (U (d + 1 + k) ω i) ≠ b i) ∧
      ∀ k < N, ∀ l < N, k ≠ l → ∀ i, narrowCoord c i (R (d + 1 + k) ω) (U (d + 1 + k) ω i) ≠
        narrowCoord c i (R (d + 1 + l) ω) (U (d + 1 + l) ω i))}
  let E3 : Set Ω := ⋃ i, {ω | U i ω ∉ Set.Icc (0 : Fin (n + 1) → ℝ) 1}
  have P1 : Pr.real E1 ≤ q := (iid_net hX (narrow_measurable c) (by omega) (netRadius_nonneg hδ.le ht)
    ((narrow_volume c0).le.trans (ENNReal.ofReal_le_ofReal hvol)) h2N (d + 1)).trans hb
  have P2 : Pr.real E2 ≤ (n + 1) * (N + 1) ^ 2 * (8 * eps) := by
    have := collision_le (g := narrowCoord (n := n) c) hU (narrowCoord_measurable fc hc0 hc) (by linarith : (0 : ℝ) ≤ 8 * eps)
      (narrowCoord_hits fc hc0 hc) (fun i => a i) (fun i => b i) (d + 1) N
    push_cast at this
    exact this
  have P3 : Pr.real E3 = 0 := by
    have : Pr E3 = 0 := by
      rw [measure_iUnion_null_iff]
      intro i
      have h1 : {ω | U i ω ∉ Set.Icc (0 : Fin (n + 1) → ℝ) 1} = U i ⁻¹' (Set.Icc 0 1)ᶜ := rfl
      have h2 : Pr.map (U i) = cond volume (Set.Icc 0 1) := hU.uniform i
      rw [h1, ← Measure.map_apply (hU.measurable' i) measurableSet_Icc.compl, h2, cond_apply measurableSet_Icc]
      simp
    rw [Measure.real, this]
    rfl
  refine (measureReal_mono (s₂ := E1 ∪ E2 ∪ E3) (fun ω hω => ?_) (measure_ne_top _ _)).trans ?_
  · by_contra hnot
    simp only [Set.mem_union, not_or] at hnot
    obtain ⟨⟨n1, n2⟩, n3⟩ := hnot
    apply hω
    intro w hw m hm
    have hin : ∀ i, U i ω ∈ Set.Icc (0 : Fin (n + 1) → ℝ) 1 := by
      intro i
      by_contra hi
      exact n3 (Set.mem_iUnion.2 ⟨i, hi⟩)
    -- the ideal samples
    let S : List (Space (n + 1)) := (List.range N).map fun i => X (d + 1 + i) ω
    have hnet : ∀ x, Metric.ball x δ ⊆ {x | Metric.ball x η ⊆ narrowSet n c} → ∃ q ∈ S, dist q x < netRadius δ tol := by
      intro x hx
      by_contra hcon
      apply n1
      refine ⟨x, fun y hy => hx (Metric.ball_subset_ball (netRadius_le hδ.le tol) hy) (Metric.mem_ball_self hη0), fun i hi => ?_⟩
      by_contra hlt
      exact hcon ⟨_, List.mem_map.2 ⟨i, List.mem_range.2 hi, rfl⟩, not_le.1 hlt⟩
    obtain ⟨pts, h1, h2, h3, hQ⟩ := H S hnet
    -- the samples of the planner
    have hfree : w.fresh (d + 1) N = (List.range N).map fun i => w.draw (d + 1 + i) := rfl
    have hco : ∀ k i, w.draw k i = narrowCoord c i (R k ω) (U k ω i) := by
      intro k i
      rw [hw.draw]
      exact sampleR_coord c _ _ i
    have hgen : General (w.fresh (d + 1) N) a b := by
      have n2' := not_not.1 n2
      refine ⟨fun q hq i => ?_, fun q hq q' hq' hqq i => ?_⟩
      · obtain ⟨k, hk, rfl⟩ := List.mem_map.1 hq
        rw [hco]
        exact n2'.1 k (List.mem_range.1 hk) i
      · obtain ⟨k, hk, rfl⟩ := List.mem_map.1 hq
        obtain ⟨l, hl, rfl⟩ := List.mem_map.1 hq'
        rw [hco, hco]
        exact n2'.2 k (List.mem_range.1 hk) l (List.mem_range.1 hl) (fun e => hqq (by rw [e])) i
    have hgood : ∀ q ∈ w.fresh (d + 1) N, GoodPoint n c q := by
      intro q hq
      obtain ⟨k, -, rfl⟩ := List.mem_map.1 hq
      rw [hw.draw]
      exact sample_good fc hc0 hc _ (hin _)
    have hmove : ∀ q ∈ S, ∃ q' ∈ w.fresh (d + 1) N, dist q q' ≤ e := by
      intro q hq
      obtain ⟨k, hk, rfl⟩ := List.mem_map.1 hq
      refine ⟨_, List.mem_map.2 ⟨k, hk, rfl⟩, ?_⟩
      rw [hw.draw]
      exact sample_err fc hc0 hc _ (hin _)
    have hfr : ∀ t ∈ Set.Icc (0 : ℝ) 1, γ t ∈ narrowSet n c := fun t ht => hγ.clear t ht (Metric.mem_ball_self (by linarith))
    have ga : GoodPoint n c a := ⟨fun i => (fa i).1, fun i => grid_float (fa i).1 (fa i).2, by
      have := hfr 0 ⟨le_refl _, zero_le_one⟩
      rwa [hγ.start] at this⟩
    have gb : GoodPoint n c b := ⟨fun i => (fb i).1, fun i => grid_float (fb i).1 (fb i).2, by
      have := hfr 1 ⟨zero_le_one, le_refl _⟩
      rwa [hγ.goal] at this⟩
    obtain ⟨pts', h4, h5, hlen⟩ := sampleChain_moved (w := w) (F := {x | Metric.ball x η ⊆ narrowSet n c}) (F' := {y | Metric.ball y (256 * eps) ⊆ narrowSet n c}) (Good := GoodPoint n c) (r' := r') epos hκ (floatWorld_dist hw).1 (floatWorld_dist hw).2
      (fun x y hxy => by
        have k1 := abs_le.1 (hw.dist x y)
        have k2 : (1 + κ) * dist x y ≤ (1 + κ) * (r + 2 * e) := mul_le_mul_of_nonneg_left hxy.le (by linarith)
        have k3 : r + Real.sqrt (n + 1) * (8 * eps) = r + 2 * e := by rw [he]; ring
        rw [k3] at hr
        have k4 : (1 + κ) * dist x y = dist x y + κ * dist x y := by ring
        linarith [k1.2])
      (fun x hx y hxy z hz => hx (by
        rw [Metric.mem_ball] at hz ⊢
        have := dist_triangle z y x
        rw [dist_comm y x] at this
        linarith))
      (fun x y gx gy hxy hseg => by
        rw [hw.check]
        exact good_check fc hc0 hc gx gy hxy hseg)
      hgen ga gb hgood hmove h1 h2 h3
    have h4' : w.SampleChain (w.fresh (d + 1) m) r' a b pts' := by
      refine ⟨h4.nonempty, fun q hq => ?_, h4.first, h4.last, h4.hops⟩
      obtain ⟨k, hk, rfl⟩ := List.mem_map.1 (h4.samples q hq)
      exact List.mem_map.2 ⟨k, List.mem_range.2 (lt_of_lt_of_le (List.mem_range.1 hk) hm), rfl⟩
    refine ⟨pts, pts', hQ, h4', h5.trans_eq ?_, hlen⟩
    rw [he]
    ring
  · have u1 := measureReal_union_le (μ := Pr) (E1 ∪ E2) E3
    have u2 := measureReal_union_le (μ := Pr) E1 E2
    linarith

/-- The argument of C128 for any count whose failure bound is known and any radius of at least twice the net's. -/
theorem narrow_complete_of_bound {c δ η κ q vol : ℝ} (fc : IsFloat c) (hc0 : 2 ^ (-100 : ℤ) ≤ c) (hc : c < 1 / 2) {R : ℕ → Ω → Region}
    {U : ℕ → Ω → Fin (n + 1) → ℝ} (hU : ChoiceDraws Pr (narrowWeight n c) R U) (hδ : 0 < δ) {tol : Option ℝ} {N : ℕ} {r r' : ℝ}
    (ht : TolNonneg tol) (hvol : (NarrowPassage.init n c).volume ≤ vol) (h2N : 2 ≤ N)
    (hb : failureBound N (netMeasure δ tol (n + 1) vol) (n + 1 + 1) ≤ q) (hr0 : 2 * netRadius δ tol ≤ r)
    (hη : Real.sqrt (n + 1) * 2 ^ (-44 : ℤ) ≤ η) (hκ : 0 ≤ κ) (hr : (1 + κ) * (r + Real.sqrt (n + 1) * 2 ^ (-50 : ℤ)) ≤ r') (d : ℕ)
    {a b : Space (n + 1)} (fa : ∀ i, IsFloat (a i) ∧ (a i = 0 ∨ 2 ^ (-800 : ℤ) ≤ |a i|))
    (fb : ∀ i, IsFloat (b i) ∧ (b i = 0 ∨ 2 ^ (-800 : ℤ) ≤ |b i|)) {γ : ℝ → Space (n + 1)} (hγ : ClearPath (narrowSet n c) (δ + η) a b γ) :
    Pr.real {ω | ¬ ∀ w : World (Space (n + 1)) ℝ,
      FloatWorld w κ ((NarrowPassage.init n c).isMotionValidR fl)
        (fun i => (NarrowPassage.init n c).sampleR fl (R i ω) fun j => random53 (U i ω j)) → ∀ m, N ≤ m →
      ∃ len pts, (((Full.init r' d).run w [.grow m]).query w a b).2 = .ok (len, pts) ∧ pts ≠ []} ≤
      q + (n + 1) * (N + 1) ^ 2 * 2 ^ (-50 : ℤ) := by
  refine le_trans (measureReal_mono (fun ω hω => ?_) (measure_ne_top _ _))
    (narrow_core (Q := fun _ => True) fc hc0 hc hU hδ ht hvol h2N hb hη hκ hr d fa fb hγ fun S hS => by
      obtain ⟨pts, h1, h2, h3⟩ := clearPath_hops (clear_shrink hγ) (netRadius_le hδ.le tol) hr0 hS
      exact ⟨pts, h1, h2, h3, trivial⟩)
  intro hall
  apply hω
  intro w hw m hm
  obtain ⟨pts, pts', -, h4, -⟩ := hall w hw m hm
  have hT : ((Full.init r' d).run w [.grow m]).samples = some (w.fresh (d + 1) m) := rfl
  obtain ⟨len, pts'', h5, h6, -, -⟩ := C29_full hw.sound r' d [.grow m] hT a b
  exact ⟨len, pts'', h5, fun hz => h6.1 hz ⟨pts', h4⟩⟩

/-- The length: a radius of at least the exact one, up to rounding errors. -/
theorem narrow_length_of_bound {c δ η κ q vol t L : ℝ} (fc : IsFloat c) (hc0 : 2 ^ (-100 : ℤ) ≤ c) (hc : c < 1 / 2) {R : ℕ → Ω → Region}
    {U : ℕ → Ω → Fin (n + 1) → ℝ} (hU : ChoiceDraws Pr (narrowWeight n c) R U) (hδ : 0 < δ) {N : ℕ} {r' : ℝ}
    (ht : 0 ≤ t) (hvol : (NarrowPassage.init n c).volume ≤ vol) (h2N : 2 ≤ N)
    (hb : failureBound N (netMeasure δ (some t) (n + 1) vol) (n + 1 + 1) ≤ q)
    (hη : Real.sqrt (n + 1) * 2 ^ (-44 : ℤ) ≤ η) (hκ : 0 ≤ κ)
    (hr : (1 + κ) * (connectionRadius δ t + Real.sqrt (n + 1) * 2 ^ (-50 : ℤ)) ≤ r') (d : ℕ)
    {a b : Space (n + 1)} (fa : ∀ i, IsFloat (a i) ∧ (a i = 0 ∨ 2 ^ (-800 : ℤ) ≤ |a i|))
    (fb : ∀ i, IsFloat (b i) ∧ (b i = 0 ∨ 2 ^ (-800 : ℤ) ≤ |b i|)) {γ : ℝ → Space (n + 1)} (hγ : ClearPath (narrowSet n c) (δ + η) a b γ)
    (hL : LengthAtMost γ L) (hL0 : 0 ≤ L) :
    Pr.real {ω | ¬ ∀ w : World (Space (n + 1)) ℝ,
      FloatWorld w κ ((NarrowPassage.init n c).isMotionValidR fl)
        (fun i => (NarrowPassage.init n c).sampleR fl (R i ω) fun j => random53 (U i ω j)) → ∀ m, N ≤ m →
      ∃ (len : ℝ) (pts : List (Space (n + 1))), (((Full.init r' d).run w [.grow m]).query w a b).2 = .ok ((len : WithTop ℝ), pts) ∧
        pts ≠ [] ∧ len ≤ (1 + κ) * (L + (t + Real.sqrt (n + 1) * 2 ^ (-50 : ℤ) / spacing δ t) * max L (spacing δ t))} ≤
      q + (n + 1) * (N + 1) ^ 2 * 2 ^ (-50 : ℤ) := by
  obtain ⟨f1, f2, f3, f4⟩ := spacing_facts (t := t) hδ
  refine le_trans (measureReal_mono (fun ω hω => ?_) (measure_ne_top _ _))
    (narrow_core (Q := fun pts => pathLength dist (a :: pts ++ [b]) ≤ L + t * max L (spacing δ t) ∧ pts.length * spacing δ t ≤ max L (spacing δ t))
      (tol := some t) fc hc0 hc hU hδ ht hvol h2N hb hη hκ hr d fa fb hγ fun S hS => by
      obtain ⟨pts, h1, h2, h3, h4, h5⟩ := clearPath_short_hops_count (clear_shrink hγ) hL hL0 hδ f1 f2.le f3.le hS
      rw [f4] at h4
      exact ⟨pts, h1, h2, h3, h4, h5⟩)
  intro hall
  apply hω
  intro w hw m hm
  obtain ⟨pts, pts', ⟨q1, q2⟩, h4, h4', -⟩ := hall w hw m hm
  have hT : ((Full.init r' d).run w [.grow m]).samples = some (w.fresh (d + 1) m) := rfl
  obtain ⟨len, pts'', h5, h6, h7, h8⟩ := C29_full hw.sound r' d [.grow m] hT a b
  have hne : pts'' ≠ [] := fun hz => h6.1 hz ⟨pts', h4⟩
  have hle := h8 pts' h4
  cases len with
  | top => exact absurd (h7.2 rfl) hne
  | coe len =>
    refine ⟨len, pts'', h5, hne, (WithTop.coe_le_coe.1 hle).trans (h4'.trans (mul_le_mul_of_nonneg_left ?_ (by linarith)))⟩
    exact moved_length_le f1 (by positivity) q1 q2

/-- C128. The narrow passage in floats: rounded samples, rounded motion checks and distances with relative error `κ`. For each query between
two float points (coordinates zero or not tiny) joined by a path whose clearance exceeds `δ` by some rounding errors, and for a radius that
exceeds the returned one by some rounding errors: up to the failure probability asked for and the probability that two of the samples agree
in a coordinate, the planner with the returned count answers with a nonempty path. -/
theorem C128_complete {c δ η κ : ℝ} (fc : IsFloat c) (hc0 : 2 ^ (-100 : ℤ) ≤ c) (hc : c < 1 / 2) {R : ℕ → Ω → Region}
    {U : ℕ → Ω → Fin (n + 1) → ℝ} (hU : ChoiceDraws Pr (narrowWeight n c) R U) (hδ : 0 < δ) {p : ℝ} {tol : Option ℝ} {fuel N : ℕ} {r r' : ℝ}
    (ht : TolNonneg tol) (h : numericalBound δ p (NarrowPassage.init n c).volume (n + 1) tol fuel = some (.ok (N, r)))
    (hη : Real.sqrt (n + 1) * 2 ^ (-44 : ℤ) ≤ η) (hκ : 0 ≤ κ) (hr : (1 + κ) * (r + Real.sqrt (n + 1) * 2 ^ (-50 : ℤ)) ≤ r') (d : ℕ)
    {a b : Space (n + 1)} (fa : ∀ i, IsFloat (a i) ∧ (a i = 0 ∨ 2 ^ (-800 : ℤ) ≤ |a i|))
    (fb : ∀ i, IsFloat (b i) ∧ (b i = 0 ∨ 2 ^ (-800 : ℤ) ≤ |b i|)) {γ : ℝ → Space (n + 1)} (hγ : ClearPath (narrowSet n c) (δ + η) a b γ) :
    Pr.real {ω | ¬ ∀ w : World (Space (n + 1)) ℝ,
      FloatWorld w κ ((NarrowPassage.init n c).isMotionValidR fl)
        (fun i => (NarrowPassage.init n c).sampleR fl (R i ω) fun j => random53 (U i ω j)) → ∀ m, N ≤ m →
      ∃ len pts, (((Full.init r' d).run w [.grow m]).query w a b).2 = .ok (len, pts) ∧ pts ≠ []} ≤
      1 - p + (n + 1) * (N + 1) ^ 2 * 2 ^ (-50 : ℤ) := by
  have h2 := (C02_least (by omega) hδ.le ht h).1
  exact narrow_complete_of_bound fc hc0 hc hU hδ ht le_rfl h2 (C01_sufficient (by omega) hδ.le ht h N le_rfl) (radius_ge hδ.le h) hη hκ hr d fa fb hγ

theorem left_clear_rim {c δ : ℝ} {x : Space (n + 1)} (h0 : -3 / 2 + δ ≤ x 0 ∧ x 0 ≤ -1 / 2 - δ)
    (hi : ∀ i : Fin n, -(1 / 2 - δ) ≤ x i.succ ∧ x i.succ ≤ 1 / 2 - δ) : Metric.ball x δ ⊆ narrowSet n c := by
  intro y hy
  have hb := coord_lt (Metric.mem_ball.1 hy)
  have b0 := abs_lt.1 (hb 0)
  refine Or.inl ⟨by linarith [h0.1, b0.1], by linarith [h0.2, b0.2], fun i => ?_⟩
  have bi := abs_lt.1 (hb i.succ)
  exact ⟨by linarith [(hi i).1, bi.1], by linarith [(hi i).2, bi.2]⟩

theorem right_clear_rim {c δ : ℝ} {x : Space (n + 1)} (h0 : 1 / 2 + δ ≤ x 0 ∧ x 0 ≤ 3 / 2 - δ)
    (hi : ∀ i : Fin n, -(1 / 2 - δ) ≤ x i.succ ∧ x i.succ ≤ 1 / 2 - δ) : Metric.ball x δ ⊆ narrowSet n c := by
  intro y hy
  have hb := coord_lt (Metric.mem_ball.1 hy)
  have b0 := abs_lt.1 (hb 0)
  refine Or.inr (Or.inr ⟨by linarith [h0.1, b0.1], by linarith [h0.2, b0.2], fun i => ?_⟩)
  have bi := abs_lt.1 (hb i.succ)
  exact ⟨by linarith [(hi i).1, bi.1], by linarith [(hi i).2, bi.2]⟩

/-- From any point of the left room to any point of the right room, both away from the walls, there is a clear path. -/
theorem narrow_path_rim {c δ : ℝ} (hδ : 0 < δ) (hδc : δ ≤ c) (hc2 : c < 1 / 2) {A D : Space (n + 1)} (A0 : -3 / 2 + δ ≤ A 0 ∧ A 0 ≤ -1 / 2 - δ)
    (Ai : ∀ i : Fin n, -(1 / 2 - δ) ≤ A i.succ ∧ A i.succ ≤ 1 / 2 - δ) (D0 : 1 / 2 + δ ≤ D 0 ∧ D 0 ≤ 3 / 2 - δ)
    (Di : ∀ i : Fin n, -(1 / 2 - δ) ≤ D i.succ ∧ D i.succ ≤ 1 / 2 - δ) : ∃ γ, ClearPath (narrowSet n c) δ A D γ ∧
      LengthAtMost γ (dist A (WithLp.toLp 2 (headRest (-1 / 2 - c) 0)) + (1 + 2 * c) + dist (WithLp.toLp 2 (headRest (1 / 2 + c) 0)) D) := by
  let B : Space (n + 1) := WithLp.toLp 2 (headRest (-1 / 2 - c) 0)
  let C : Space (n + 1) := WithLp.toLp 2 (headRest (1 / 2 + c) 0)
  have B0 : B 0 = -1 / 2 - c := rfl
  have Bi : ∀ i : Fin n, B i.succ = 0 := fun i => rfl
  have C0 : C 0 = 1 / 2 + c := rfl
  have Ci : ∀ i : Fin n, C i.succ = 0 := fun i => rfl
  have pAB := straight_path (F := narrowSet n c) (δ := δ) (a := A) (b := B) (by
    rintro x ⟨u, v, hu, hv, huv, rfl⟩
    have e0 : (u • A + v • B) 0 = u * A 0 + v * B 0 := rfl
    have ei : ∀ i : Fin n, (u • A + v • B) i.succ = u * A i.succ + v * B i.succ := fun _ => rfl
    apply left_clear_rim
    · rw [e0]
      refine between hu hv huv A0 ?_
      rw [B0]; exact ⟨by linarith, by linarith⟩
    · intro i
      rw [ei]
      refine between hu hv huv (Ai i) ?_
      rw [Bi]; exact ⟨by linarith, by linarith⟩)
  have pCD := straight_path (F := narrowSet n c) (δ := δ) (a := C) (b := D) (by
    rintro x ⟨u, v, hu, hv, huv, rfl⟩
    have e0 : (u • C + v • D) 0 = u * C 0 + v * D 0 := rfl
    have ei : ∀ i : Fin n, (u • C + v • D) i.succ = u * C i.succ + v * D i.succ := fun _ => rfl
    apply right_clear_rim
    · rw [e0]
      refine between hu hv huv ?_ D0
      rw [C0]; exact ⟨by linarith, by linarith⟩
    · intro i
      rw [ei]
      refine between hu hv huv ?_ (Di i)
      rw [Ci]; exact ⟨by linarith, by linarith⟩)
  have pBC := straight_path (F := narrowSet n c) (δ := δ) (a := B) (b := C) (by
    rintro x ⟨u, v, hu, hv, huv, rfl⟩
    have e0 : (u • B + v • C) 0 = u * B 0 + v * C 0 := rfl
    have ei : ∀ i : Fin n, (u • B + v • C) i.succ = u * B i.succ + v * C i.succ := fun _ => rfl
    refine (Metric.ball_subset_ball hδc).trans (hall_clear hc2 ?_ ?_)
    · rw [e0]
      refine between hu hv huv ?_ ?_
      · rw [B0]; exact ⟨by linarith, by linarith⟩
      · rw [C0]; exact ⟨by linarith, le_refl _⟩
    · intro i
      rw [ei, Bi, Ci]
      ring)
  obtain ⟨q1, q2⟩ := Net.ClearPath.concat pAB.1 pBC.1 pAB.2 pBC.2 dist_nonneg dist_nonneg
  obtain ⟨q3, q4⟩ := Net.ClearPath.concat q1 pCD.1 q2 pCD.2 (add_nonneg dist_nonneg dist_nonneg) dist_nonneg
  have hBC : dist B C = 1 + 2 * c := by
    rw [EuclideanSpace.dist_eq, Fin.sum_univ_succ, B0, C0]
    simp only [Ci, Bi, Real.dist_eq, sq_abs, sub_self, ne_eq, OfNat.ofNat_ne_zero, not_false_eq_true, zero_pow, Finset.sum_const_zero,
      add_zero]
    have : (-1 / 2 - c - (1 / 2 + c)) ^ 2 = (1 + 2 * c) ^ 2 := by ring
    rw [this, Real.sqrt_sq (by linarith)]
  rw [hBC] at q4
  exact ⟨_, q3, q4⟩

/-- The corrector of the experiment in floats. -/
theorem corrector_float {c : ℝ} (fc : IsFloat c) (c0 : 0 ≤ c) (hc : c < 1 / 2) :
    IsFloat (fl (1 / 2 - c)) ∧ 2 ^ (-800 : ℤ) ≤ fl (1 / 2 - c) ∧ |fl (1 / 2 - c) - (1 / 2 - c)| ≤ eps := by
  have hw : (2 : ℝ) ^ (-54 : ℤ) ≤ 1 / 2 - c := Util.half_gap fc ⟨1, -1, by norm_num, by norm_num, by norm_num⟩ hc hc.le le_rfl
  have hp : 0 < 1 / 2 - c := by linarith
  refine ⟨isFloat_fl _, ?_, ?_⟩
  · have h1 : (2 : ℝ) ^ (-54 : ℤ) ≤ fl (1 / 2 - c) := le_fl (zpow_isFloat (by norm_num)) hp.le hw
    exact le_trans (zpow_le_zpow_right₀ (by norm_num) (by norm_num)) h1
  · have h2 : (2 : ℝ) ^ (-1000 : ℤ) ≤ 1 / 2 - c := le_trans (zpow_le_zpow_right₀ (by norm_num) (by norm_num)) hw
    refine (fl_rel (.inr (by rwa [abs_of_pos hp]))).trans ?_
    rw [abs_of_pos hp]
    exact mul_le_of_le_one_right eps_pos.le (by linarith)

theorem fl_near_two {x : ℝ} (h1 : 1 ≤ |x|) (h2 : |x| ≤ 2) : |fl x - x| ≤ 2 * eps ∧ 2 ^ (-800 : ℤ) ≤ |fl x| := by
  have h3 : (2 : ℝ) ^ (-800 : ℤ) ≤ |x| := (zpow_le_one_of_nonpos₀ (by norm_num) (by norm_num)).trans h1
  refine ⟨(fl_rel (.inr ((zpow_le_one_of_nonpos₀ (by norm_num) (by norm_num)).trans h1))).trans ?_, Util.fl_abs_ge (by norm_num) h3⟩
  rw [mul_comm]
  exact mul_le_mul_of_nonneg_right h2 eps_pos.le

/-- Points whose coordinates differ by at most `e` are close. -/
theorem dist_le_of_coords {e : ℝ} (he : 0 ≤ e) {x y : Fin (n + 1) → ℝ} (h : ∀ i, |x i - y i| ≤ e) :
    dist (WithLp.toLp 2 x : Space (n + 1)) (WithLp.toLp 2 y) ≤ Real.sqrt (n + 1) * e := by
  rw [EuclideanSpace.dist_eq]
  refine Real.sqrt_le_iff.2 ⟨by positivity, ?_⟩
  have : ∀ i ∈ Finset.univ, dist ((WithLp.toLp 2 x : Space (n + 1)) i) ((WithLp.toLp 2 y : Space (n + 1)) i) ^ 2 ≤ e ^ 2 := fun i _ => by
    rw [Real.dist_eq]
    exact pow_le_pow_left₀ (abs_nonneg _) (h i) 2
  refine (Finset.sum_le_card_nsmul _ _ _ this).trans ?_
  rw [Finset.card_univ, Fintype.card_fin, nsmul_eq_mul, mul_pow, Real.sq_sqrt (by positivity)]
  push_cast
  exact le_rfl

/-- The outer two of the three segments of the experiment's path. -/
theorem narrow_legs {c : ℝ} (hc2 : c < 1 / 2) :
    dist (WithLp.toLp 2 (narrowStart n c) : Space (n + 1)) (WithLp.toLp 2 (headRest (-1 / 2 - c) 0)) = (1 - 2 * c) * Real.sqrt (1 + n / 4) ∧
    dist (WithLp.toLp 2 (headRest (1 / 2 + c) 0) : Space (n + 1)) (WithLp.toLp 2 (narrowGoal n c)) = (1 - 2 * c) * Real.sqrt (1 + n / 4) := by
  have A0 : (WithLp.toLp 2 (narrowStart n c) : Space (n + 1)) 0 = -3 / 2 + c := by
    show -1 - (1 * (1 / 2) - c) = _
    ring
  have Ai : ∀ i : Fin n, narrowStart n c i.succ = -(1 / 2 - c) := fun i => by
    show 0 - (1 * (1 / 2) - c) = _
    ring
  have B0 : (WithLp.toLp 2 (headRest (-1 / 2 - c) 0) : Space (n + 1)) 0 = -1 / 2 - c := rfl
  have Bi : ∀ i : Fin n, headRest (-1 / 2 - c) 0 i.succ = 0 := fun i => rfl
  have C0 : (WithLp.toLp 2 (headRest (1 / 2 + c) 0) : Space (n + 1)) 0 = 1 / 2 + c := rfl
  have Ci : ∀ i : Fin n, headRest (1 / 2 + c) 0 i.succ = 0 := fun i => rfl
  have D0 : (WithLp.toLp 2 (narrowGoal n c) : Space (n + 1)) 0 = 3 / 2 - c := by
    show 1 + (1 * (1 / 2) - c) = _
    ring
  have Di : ∀ i : Fin n, narrowGoal n c i.succ = 1 / 2 - c := fun i => by
    show 0 + (1 * (1 / 2) - c) = _
    ring
  constructor
  · rw [EuclideanSpace.dist_eq, Fin.sum_univ_succ, A0, B0]
    simp only [Ai, Bi, Real.dist_eq, sq_abs, Finset.sum_const, Finset.card_univ, Fintype.card_fin, nsmul_eq_mul]
    have : (-3 / 2 + c - (-1 / 2 - c)) ^ 2 + (n : ℝ) * (-(1 / 2 - c) - 0) ^ 2 = (1 - 2 * c) ^ 2 * (1 + n / 4) := by ring
    rw [this, Real.sqrt_mul (sq_nonneg _), Real.sqrt_sq (by linarith)]
  · rw [EuclideanSpace.dist_eq, Fin.sum_univ_succ, C0, D0]
    simp only [Ci, Di, Real.dist_eq, sq_abs, Finset.sum_const, Finset.card_univ, Fintype.card_fin, nsmul_eq_mul]
    have : (1 / 2 + c - (3 / 2 - c)) ^ 2 + (n : ℝ) * (0 - (1 / 2 - c)) ^ 2 = (1 - 2 * c) ^ 2 * (1 + n / 4) := by ring
    rw [this, Real.sqrt_mul (sq_nonneg _), Real.sqrt_sq (by linarith)]

/-- The query of the experiment in floats: its points are floats whose coordinates are not tiny, and they are joined by a clear path that is hardly
longer than the one of the exact query. -/
theorem experiment_float {c δ : ℝ} (fc : IsFloat c) (hc0 : 2 ^ (-100 : ℤ) ≤ c) (hc : c < 1 / 2) (hδ : 0 < δ)
    (hδc : δ + Real.sqrt (n + 1) * 2 ^ (-43 : ℤ) ≤ c) :
    (∀ i, IsFloat (narrowStartR fl n c i) ∧ 2 ^ (-800 : ℤ) ≤ |narrowStartR fl n c i|) ∧
    (∀ i, IsFloat (narrowGoalR fl n c i) ∧ 2 ^ (-800 : ℤ) ≤ |narrowGoalR fl n c i|) ∧
    ∃ γ, ClearPath (narrowSet n c) (δ + Real.sqrt (n + 1) * 2 ^ (-44 : ℤ)) (WithLp.toLp 2 (narrowStartR fl n c))
        (WithLp.toLp 2 (narrowGoalR fl n c)) γ ∧ LengthAtMost γ (narrowLength n c + Real.sqrt (n + 1) * 2 ^ (-50 : ℤ)) := by
  have c0 : 0 ≤ c := le_trans (by positivity) hc0
  have e0 := eps_pos
  have e1 := eps_le
  obtain ⟨f1, f2, f3⟩ := corrector_float fc c0 hc
  have e43 : (2 : ℝ) ^ (-43 : ℤ) = 1024 * eps := by
    unfold eps
    rw [show (-43 : ℤ) = 10 + -53 by norm_num, zpow_add₀ (by norm_num)]; norm_num
  have e44 : (2 : ℝ) ^ (-44 : ℤ) = 512 * eps := by
    unfold eps
    rw [show (-44 : ℤ) = 9 + -53 by norm_num, zpow_add₀ (by norm_num)]; norm_num
  have s1 : 1 ≤ Real.sqrt (n + 1) := by
    rw [Real.one_le_sqrt]
    have : (0 : ℝ) ≤ n := Nat.cast_nonneg n
    linarith
  have hrim : δ + Real.sqrt (n + 1) * 2 ^ (-44 : ℤ) + 512 * eps ≤ c := by
    rw [e43] at hδc
    rw [e44]
    have := mul_le_mul_of_nonneg_right s1 (by linarith : 0 ≤ 512 * eps)
    have e2 : Real.sqrt (n + 1) * (1024 * eps) = Real.sqrt (n + 1) * (512 * eps) + Real.sqrt (n + 1) * (512 * eps) := by ring
    linarith
  have hη : 0 ≤ Real.sqrt (n + 1) * (2 : ℝ) ^ (-44 : ℤ) := by positivity
  generalize hk : fl (1 / 2 - c) = k at f1 f2 f3
  have k3 := abs_le.1 f3
  have p800 : (0 : ℝ) < 2 ^ (-800 : ℤ) := by positivity
  have kpos : 0 < k := lt_of_lt_of_le p800 f2
  have klt : k ≤ 1 / 2 := by rw [← hk]; exact fl_le ⟨1, -1, by norm_num, by norm_num, by norm_num⟩ (by linarith) (by linarith)
  have a1 : 1 ≤ |(-1 : ℝ) - k| := by rw [abs_of_neg (by linarith)]; linarith
  have a2 : |(-1 : ℝ) - k| ≤ 2 := by rw [abs_of_neg (by linarith)]; linarith
  have b1 : 1 ≤ |(1 : ℝ) + k| := by rw [abs_of_pos (by linarith)]; linarith
  have b2 : |(1 : ℝ) + k| ≤ 2 := by rw [abs_of_pos (by linarith)]; linarith
  obtain ⟨q1, q2⟩ := fl_near_two a1 a2
  obtain ⟨q3, q4⟩ := fl_near_two b1 b2
  have q1 := abs_le.1 q1
  have q3 := abs_le.1 q3
  have kmem : fl k = k := fl_eq f1 kpos.le
  have kneg : fl (-k) = -k := by rw [fl_neg, kmem]
  have hA0 : narrowStartR fl n c 0 = fl (-1 - k) := by rw [← hk]; rfl
  have hAi : ∀ i : Fin n, narrowStartR fl n c i.succ = -k := fun i => by
    rw [← kneg, ← zero_sub, ← hk]; rfl
  have hD0 : narrowGoalR fl n c 0 = fl (1 + k) := by rw [← hk]; rfl
  have hDi : ∀ i : Fin n, narrowGoalR fl n c i.succ = k := fun i => by
    conv_rhs => rw [← kmem, ← zero_add k, ← hk]
    rfl
  generalize hη' : Real.sqrt (n + 1) * (2 : ℝ) ^ (-44 : ℤ) = η at hη hrim
  obtain ⟨γ, hγ, hL⟩ := narrow_path_rim (n := n) (c := c) (δ := δ + η) (by linarith) (by linarith) hc
    (A := WithLp.toLp 2 (narrowStartR fl n c)) (D := WithLp.toLp 2 (narrowGoalR fl n c))
    (by show -3 / 2 + (δ + η) ≤ narrowStartR fl n c 0 ∧ narrowStartR fl n c 0 ≤ -1 / 2 - (δ + η)
        rw [hA0]; exact ⟨by linarith, by linarith⟩)
    (fun i => by
        show -(1 / 2 - (δ + η)) ≤ narrowStartR fl n c i.succ ∧ narrowStartR fl n c i.succ ≤ 1 / 2 - (δ + η)
        rw [hAi]; exact ⟨by linarith, by linarith⟩)
    (by show 1 / 2 + (δ + η) ≤ narrowGoalR fl n c 0 ∧ narrowGoalR fl n c 0 ≤ 3 / 2 - (δ + η)
        rw [hD0]; exact ⟨by linarith, by linarith⟩)
    (fun i => by
        show -(1 / 2 - (δ + η)) ≤ narrowGoalR fl n c i.succ ∧ narrowGoalR fl n c i.succ ≤ 1 / 2 - (δ + η)
        rw [hDi]; exact ⟨by linarith, by linarith⟩)
  refine ⟨fun i => ⟨isFloat_fl _, ?_⟩, fun i => ⟨isFloat_fl _, ?_⟩, γ, hγ, hL.trans (ENNReal.ofReal_le_ofReal ?_)⟩
  · refine Fin.cases ?_ (fun j => ?_) i
    · rw [hA0]; exact q2
    · rw [hAi, abs_neg, abs_of_pos kpos]; exact f2
  · refine Fin.cases ?_ (fun j => ?_) i
    · rw [hD0]; exact q4
    · rw [hDi, abs_of_pos kpos]; exact f2
  · obtain ⟨t1, t2⟩ := narrow_legs (n := n) hc
    have t3 : dist (WithLp.toLp 2 (narrowStartR fl n c) : Space (n + 1)) (WithLp.toLp 2 (narrowStart n c)) ≤ Real.sqrt (n + 1) * (3 * eps) := by
      refine dist_le_of_coords (by linarith) fun i => ?_
      refine Fin.cases ?_ (fun j => ?_) i
      · show |narrowStartR fl n c 0 - (-1 - (1 * (1 / 2) - c))| ≤ _
        rw [hA0]
        exact abs_le.2 ⟨by linarith, by linarith⟩
      · show |narrowStartR fl n c j.succ - (0 - (1 * (1 / 2) - c))| ≤ _
        rw [hAi]
        exact abs_le.2 ⟨by linarith, by linarith⟩
    have t4 : dist (WithLp.toLp 2 (narrowGoal n c) : Space (n + 1)) (WithLp.toLp 2 (narrowGoalR fl n c)) ≤ Real.sqrt (n + 1) * (3 * eps) := by
      rw [dist_comm]
      refine dist_le_of_coords (by linarith) fun i => ?_
      refine Fin.cases ?_ (fun j => ?_) i
      · show |narrowGoalR fl n c 0 - (1 + (1 * (1 / 2) - c))| ≤ _
        rw [hD0]
        exact abs_le.2 ⟨by linarith, by linarith⟩
      · show |narrowGoalR fl n c j.succ - (0 + (1 * (1 / 2) - c))| ≤ _
        rw [hDi]
        exact abs_le.2 ⟨by linarith, by linarith⟩
    have u1 := dist_triangle (WithLp.toLp 2 (narrowStartR fl n c) : Space (n + 1)) (WithLp.toLp 2 (narrowStart n c)) (WithLp.toLp 2 (headRest (-1 / 2 - c) 0))
    have u2 := dist_triangle (WithLp.toLp 2 (headRest (1 / 2 + c) 0) : Space (n + 1)) (WithLp.toLp 2 (narrowGoal n c)) (WithLp.toLp 2 (narrowGoalR fl n c))
    have e50 : (2 : ℝ) ^ (-50 : ℤ) = 8 * eps := by
      unfold eps
      rw [show (-50 : ℤ) = 3 + -53 by norm_num, zpow_add₀ (by norm_num)]; norm_num
    rw [t1] at u1
    rw [t2] at u2
    have u3 : Real.sqrt (n + 1) * (8 * eps) = Real.sqrt (n + 1) * (3 * eps) + Real.sqrt (n + 1) * (3 * eps) + 2 * (Real.sqrt (n + 1) * eps) := by ring
    have u4 : 0 ≤ Real.sqrt (n + 1) * eps := mul_nonneg (by linarith) e0.le
    rw [e50, u3]
    unfold narrowLength
    linarith

/-- C128, the experiment: its query, computed in floats, for a clearance parameter a little below the clearance of the environment. -/
theorem C128_experiment {c δ κ : ℝ} (fc : IsFloat c) (hc0 : 2 ^ (-100 : ℤ) ≤ c) (hc : c < 1 / 2) {R : ℕ → Ω → Region}
    {U : ℕ → Ω → Fin (n + 1) → ℝ} (hU : ChoiceDraws Pr (narrowWeight n c) R U) (hδ : 0 < δ)
    (hδc : δ + Real.sqrt (n + 1) * 2 ^ (-43 : ℤ) ≤ c) {p : ℝ} {tol : Option ℝ} {fuel N : ℕ} {r r' : ℝ}
    (ht : TolNonneg tol) (h : numericalBound δ p (NarrowPassage.init n c).volume (n + 1) tol fuel = some (.ok (N, r)))
    (hκ : 0 ≤ κ) (hr : (1 + κ) * (r + Real.sqrt (n + 1) * 2 ^ (-50 : ℤ)) ≤ r') (d : ℕ) :
    Pr.real {ω | ¬ ∀ w : World (Space (n + 1)) ℝ,
      FloatWorld w κ ((NarrowPassage.init n c).isMotionValidR fl)
        (fun i => (NarrowPassage.init n c).sampleR fl (R i ω) fun j => random53 (U i ω j)) → ∀ m, N ≤ m →
      ∃ len pts, (((Full.init r' d).run w [.grow m]).query w (WithLp.toLp 2 (narrowStartR fl n c)) (WithLp.toLp 2 (narrowGoalR fl n c))).2 =
        .ok (len, pts) ∧ pts ≠ []} ≤ 1 - p + (n + 1) * (N + 1) ^ 2 * 2 ^ (-50 : ℤ) := by
  obtain ⟨fa, fb, γ, hγ, -⟩ := experiment_float fc hc0 hc hδ hδc
  exact C128_complete fc hc0 hc hU hδ ht h le_rfl hκ hr d (fun i => ⟨(fa i).1, .inr (fa i).2⟩) (fun i => ⟨(fb i).1, .inr (fb i).2⟩) hγ

/-- A sample is within `2 ^ -48` of the outer border only if its draw is close to 0 or 1. -/
theorem border_draw {c : ℝ} (fc : IsFloat c) (hc0 : 2 ^ (-100 : ℤ) ≤ c) (hc : c < 1 / 2) (i : Fin n) (r : Region) {u : ℝ} (h0 : 0 ≤ u) (h1 : u ≤ 1)
    (hb : 1 / 2 - 32 * eps < |narrowCoord (n := n) c i.succ r u|) : u ≤ 36 * eps ∨ 1 - 36 * eps ≤ u := by
  have e0 := eps_pos
  have e1 := eps_le
  have key : ∀ s : ℝ, 0 < s → s ≤ 1 / 2 → SideOk (-s) s → 1 / 2 - 32 * eps < |coordR (-s) s u| → u ≤ 36 * eps ∨ 1 - 36 * eps ≤ u := by
    intro s s0 s1 ok hs
    by_contra hn
    push Not at hn
    have herr := coordR_err ok.width ok.long ok.nearLeft ok.nearRight h0 h1
    rw [show s - -s = 2 * s by ring] at herr
    have h4 : 4 * eps * (2 * s) ≤ 4 * eps := mul_le_of_le_one_right (by linarith) (by linarith)
    have h5 := abs_le.1 (herr.trans h4)
    have h6 : 1 / 2 - 36 * eps < |-s + 2 * s * u| := by
      rcases lt_abs.1 hs with k | k
      · refine lt_abs.2 (.inl ?_); linarith [h5.2]
      · refine lt_abs.2 (.inr ?_); linarith [h5.1]
    have h7 : |-s + 2 * s * u| ≤ 1 / 2 - 36 * eps := by
      have hA := mul_nonneg s0.le (by linarith [hn.1] : 0 ≤ u - 36 * eps)
      have hB := mul_nonneg s0.le (by linarith [hn.2] : 0 ≤ 1 - 36 * eps - u)
      have hC := mul_nonneg (sub_nonneg.2 s1) (by linarith : 0 ≤ 1 - 72 * eps)
      rw [abs_le]
      constructor <;> nlinarith
    linarith
  have f12 : IsFloat (1 / 2 : ℝ) := ⟨1, -1, by norm_num, by norm_num, by norm_num⟩
  have mid : SideOk (-(1 / 2)) (1 / 2) := sideOk_room f12.neg f12 (by norm_num) (by norm_num [abs_of_neg]) (by norm_num) (by norm_num [abs_of_neg])
  have hneg : (-1 / 2 : ℝ) = -(1 / 2) := by norm_num
  have cpos : 0 < c := lt_of_lt_of_le (by positivity) hc0
  cases r
  · have hb' : 1 / 2 - 32 * eps < |coordR (-1 / 2) (1 / 2) u| := hb
    rw [hneg] at hb'
    exact key _ (by norm_num) le_rfl mid hb'
  · have hb' : 1 / 2 - 32 * eps < |coordR (-1 / 2) (1 / 2) u| := hb
    rw [hneg] at hb'
    exact key _ (by norm_num) le_rfl mid hb'
  · exact key c cpos hc.le (sideOk_hall fc hc0 hc) hb

theorem slab_prob {ι : Type*} [MeasurableSpace ι] {q : ι → ℝ} {R : ℕ → Ω → ι} {m : ℕ} {U : ℕ → Ω → Fin m → ℝ} (hU : ChoiceDraws Pr q R U) (k : ℕ)
    (i : Fin m) {T : Set ℝ} (hm : MeasurableSet T) {lo hi : ℝ} (hlh : lo ≤ hi) (hT : ∀ u ∈ T, 0 ≤ u → u ≤ 1 → lo ≤ u ∧ u ≤ hi) :
    Pr.real {ω | U k ω i ∈ T} ≤ hi - lo := by
  refine ENNReal.toReal_le_of_le_ofReal (by linarith) ?_
  have h1 : {ω | U k ω i ∈ T} = U k ⁻¹' {u | u i ∈ T} := rfl
  have h2 : Pr.map (U k) = cond volume (Set.Icc 0 1) := hU.uniform k
  have hm' : MeasurableSet {u : Fin m → ℝ | u i ∈ T} := measurable_pi_apply i hm
  rw [h1, ← Measure.map_apply (hU.measurable' k) hm', h2, cond_apply measurableSet_Icc, cube_volume, inv_one, one_mul]
  exact slab_volume i T hT

/-- Free float points that are not within `2 ^ -48` of the outer border. -/
structure GoodEnd (n : ℕ) (c : ℝ) (p : Space (n + 1)) : Prop where
  float : ∀ i, IsFloat (p i)
  free : p ∈ narrowSet n c
  inner : ∀ i : Fin n, |p i.succ| ≤ 1 / 2 - 2 ^ (-48 : ℤ)

theorem near_segment {c : ℝ} (c0 : 0 ≤ c) {p q : Space (n + 1)} (hp : GoodEnd n c p) (hq : GoodEnd n c q)
    (h : (NarrowPassage.init n c).isMotionValidR fl (fun i => p i) (fun i => q i) = true) : segment ℝ p q ⊆ narrowSet n (c + 2 ^ (-48 : ℤ)) := by
  rintro x ⟨u, v, hu, hv, huv, rfl⟩
  exact C126_accepted_near_free_partial c0 (fun i => p i) (fun i => q i) hp.float hq.float hp.free hq.free hp.inner hq.inner h _
    ⟨u, v, hu, hv, huv, rfl⟩

/-- C128, the other direction: up to the probability that a sample lies within `2 ^ -48` of the outer border, no answer of the planner, for any
free query away from that border, leaves the free space of the environment with a passage `2 ^ -48` wider. -/
theorem C128_near_free {c κ : ℝ} (fc : IsFloat c) (hc0 : 2 ^ (-100 : ℤ) ≤ c) (hc : c < 1 / 2) {R : ℕ → Ω → Region}
    {U : ℕ → Ω → Fin (n + 1) → ℝ} (hU : ChoiceDraws Pr (narrowWeight n c) R U) (r : ℝ) (d M : ℕ) :
    Pr.real {ω | ¬ ∀ w : World (Space (n + 1)) ℝ,
      FloatWorld w κ ((NarrowPassage.init n c).isMotionValidR fl)
        (fun i => (NarrowPassage.init n c).sampleR fl (R i ω) fun j => random53 (U i ω j)) → ∀ m, m ≤ M → ∀ a b : Space (n + 1),
      (∀ i, IsFloat (a i)) → (∀ i, IsFloat (b i)) → a ∈ narrowSet n c → b ∈ narrowSet n c →
      (∀ i : Fin n, |a i.succ| ≤ 1 / 2 - 2 ^ (-48 : ℤ)) → (∀ i : Fin n, |b i.succ| ≤ 1 / 2 - 2 ^ (-48 : ℤ)) →
      ∃ len pts, (((Full.init r d).run w [.grow m]).query w a b).2 = .ok (len, pts) ∧
        (pts ≠ [] → (a :: pts ++ [b]).IsChain fun p q => segment ℝ p q ⊆ narrowSet n (c + 2 ^ (-48 : ℤ)))} ≤
      n * M * 2 ^ (-46 : ℤ) := by
  have c0 : 0 ≤ c := le_trans (by positivity) hc0
  have e0 := eps_pos
  have e48 : (2 : ℝ) ^ (-48 : ℤ) = 32 * eps := by
    unfold eps
    rw [show (-48 : ℤ) = 5 + -53 by norm_num, zpow_add₀ (by norm_num)]; norm_num
  have e46 : (2 : ℝ) ^ (-46 : ℤ) = 128 * eps := by
    unfold eps
    rw [show (-46 : ℤ) = 7 + -53 by norm_num, zpow_add₀ (by norm_num)]; norm_num
  let E1 : Set Ω := ⋃ x : Fin M × Fin n, {ω | U (d + 1 + x.1) ω x.2.succ ∈ Set.Iic (36 * eps)} ∪
    {ω | U (d + 1 + x.1) ω x.2.succ ∈ Set.Ici (1 - 36 * eps)}
  let E3 : Set Ω := ⋃ i, {ω | U i ω ∉ Set.Icc (0 : Fin (n + 1) → ℝ) 1}
  have P1 : Pr.real E1 ≤ n * M * (128 * eps) := by
    refine (measureReal_iUnion_fintype_le _).trans ((Finset.sum_le_sum (g := fun _ => 128 * eps) fun x _ => ?_).trans ?_)
    · refine (measureReal_union_le _ _).trans ?_
      have h1 := slab_prob hU (d + 1 + x.1) x.2.succ (T := Set.Iic (36 * eps)) measurableSet_Iic (lo := 0) (hi := 36 * eps) (by linarith)
        fun u hu h0 _ => ⟨h0, hu⟩
      have h2 := slab_prob hU (d + 1 + x.1) x.2.succ (T := Set.Ici (1 - 36 * eps)) measurableSet_Ici (lo := 1 - 36 * eps) (hi := 1) (by linarith)
        fun u hu _ h1 => ⟨hu, h1⟩
      linarith
    · simp only [Finset.sum_const, Finset.card_univ, Fintype.card_prod, Fintype.card_fin, nsmul_eq_mul]
      push_cast
      rw [mul_comm (M : ℝ)]
  have P3 : Pr.real E3 = 0 := by
    have : Pr E3 = 0 := by
      rw [measure_iUnion_null_iff]
      intro i
      have h1 : {ω | U i ω ∉ Set.Icc (0 : Fin (n + 1) → ℝ) 1} = U i ⁻¹' (Set.Icc 0 1)ᶜ := rfl
      have h2 : Pr.map (U i) = cond volume (Set.Icc 0 1) := hU.uniform i
      rw [h1, ← Measure.map_apply (hU.measurable' i) measurableSet_Icc.compl, h2, cond_apply measurableSet_Icc]
      simp
    rw [Measure.real, this]
    rfl
  refine (measureReal_mono (s₂ := E1 ∪ E3) (fun ω hω => ?_) (measure_ne_top _ _)).trans ?_
  · by_contra hnot
    simp only [Set.mem_union, not_or] at hnot
    obtain ⟨n1, n3⟩ := hnot
    apply hω
    intro w hw m hm a b fa fb ha hb ta tb
    have hin : ∀ i, U i ω ∈ Set.Icc (0 : Fin (n + 1) → ℝ) 1 := by
      intro i
      by_contra hi
      exact n3 (Set.mem_iUnion.2 ⟨i, hi⟩)
    have hT : ((Full.init r d).run w [.grow m]).samples = some (w.fresh (d + 1) m) := rfl
    obtain ⟨len, pts, h1, h2⟩ := C28_full hw.sound r d [.grow m] hT a b
    refine ⟨len, pts, h1, fun hne => ?_⟩
    obtain ⟨h3, h4, -⟩ := h2 hne
    have hok : ∀ p ∈ a :: pts ++ [b], GoodEnd n c p := by
      intro p hp
      simp only [List.cons_append, List.mem_cons, List.mem_append, List.not_mem_nil, or_false] at hp
      rcases hp with rfl | hp | rfl
      · exact ⟨fa, ha, ta⟩
      · obtain ⟨k, hk, rfl⟩ := List.mem_map.1 (h3 p hp)
        have hk := List.mem_range.1 hk
        have g := sample_good fc hc0 hc (R (d + 1 + k) ω) (hin (d + 1 + k))
        rw [hw.draw]
        refine ⟨g.float, g.free, fun i => ?_⟩
        show |(NarrowPassage.init n c).sampleR fl (R (d + 1 + k) ω) (fun j => random53 (U (d + 1 + k) ω j)) i.succ| ≤ _
        rw [sampleR_coord, e48]
        by_contra hlt
        have := border_draw fc hc0 hc i (R (d + 1 + k) ω) ((hin (d + 1 + k)).1 i.succ) ((hin (d + 1 + k)).2 i.succ) (not_le.1 hlt)
        apply n1
        exact Set.mem_iUnion.2 ⟨(⟨k, lt_of_lt_of_le hk hm⟩, i), this⟩
      · exact ⟨fb, hb, tb⟩
    refine List.IsChain.imp_of_mem_imp ?_ h4
    intro p q hp hq hpq
    have gp := hok p hp
    have gq := hok q hq
    rcases hpq.2 with hc1 | hc1
    · rw [hw.check] at hc1
      exact near_segment c0 gp gq hc1
    · rw [hw.check] at hc1
      rw [segment_symm]
      exact near_segment c0 gq gp hc1
  · have u1 := measureReal_union_le (μ := Pr) E1 E3
    rw [e46]
    linarith

/-- The hypotheses of C128 are met by the planar narrow passage of clearance 1/4 with clearance parameter 3/16 and success probability 1/2,
and by a planner with exact distances. -/
theorem C128_nonvacuous :
    (IsFloat (1 / 4 : ℝ) ∧ (2 : ℝ) ^ (-100 : ℤ) ≤ 1 / 4 ∧ (3 / 16 : ℝ) + Real.sqrt ((1 : ℕ) + 1) * 2 ^ (-43 : ℤ) ≤ 1 / 4) ∧
    (∃ fuel N r, numericalBound (3 / 16) (1 / 2) (NarrowPassage.init 1 (1 / 4 : ℝ)).volume 2 none fuel = some (.ok (N, r))) ∧
    (∃ Pr : Measure (ℕ → Region × (Fin 2 → ℝ)), IsProbabilityMeasure Pr ∧
      ChoiceDraws Pr (narrowWeight 1 (1 / 4)) (fun i x => (x i).1) (fun i x => (x i).2)) ∧
    ∀ x, FloatWorld (envWorld ((NarrowPassage.init 1 (1 / 4 : ℝ)).isMotionValidR fl) x) 0 ((NarrowPassage.init 1 (1 / 4 : ℝ)).isMotionValidR fl) x := by
  have hvol : (NarrowPassage.init 1 (1 / 4 : ℝ)).volume = 5 / 2 := by
    obtain ⟨b1, b2, b3⟩ := narrow_boxVol (n := 1) (1 / 4 : ℝ)
    have : (NarrowPassage.init 1 (1 / 4 : ℝ)).volume = 1 + 1 + |2 * (1 / 4 : ℝ)| ^ 1 := congrArg₂ (· + ·) (congrArg₂ (· + ·) b1 b2) b3
    rw [this, abs_of_nonneg (by norm_num)]
    norm_num
  have hpi := Real.pi_gt_three
  refine ⟨⟨⟨1, -2, by norm_num, by norm_num, by norm_num⟩, by norm_num, ?_⟩, answers_planar (by norm_num) trivial ?_,
    (C84_nonvacuous (n := 1)).2.2.1 (1 / 4), fun x => ?_⟩
  · have hs : Real.sqrt ((1 : ℕ) + 1) ≤ 2 := by
      rw [Real.sqrt_le_left (by norm_num)]
      norm_num
    have := mul_le_mul_of_nonneg_right hs (by positivity : (0 : ℝ) ≤ 2 ^ (-43 : ℤ))
    refine (add_le_add_right this _).trans ?_
    norm_num
  · rw [netMeasure_planar (by norm_num) none trivial, hvol]
    simp only [netRadius]
    linarith
  · obtain ⟨h1, h2, h3, h4⟩ := envWorld_ok ((NarrowPassage.init 1 (1 / 4 : ℝ)).isMotionValidR fl) x
    exact ⟨h1, fun p q => by rw [h2]; simp, h3, h4⟩

end Verif.Props
