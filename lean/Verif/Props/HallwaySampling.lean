import Mathlib.Analysis.Real.Pi.Bounds
import Verif.Props.Hallway
import Verif.Props.AnytimeGuarantee
import Verif.Props.UniformEnvs

/-! Sampling and planning in the turtlebot's hallway world: C92, C93. -/

namespace Verif.Props

open MeasureTheory ProbabilityTheory Verif.Sat2D Verif.Spec Verif.Turtlebot Verif.Hallway Verif.Prm Verif.Bound Verif.Net

variable {Ω : Type*} [MeasurableSpace Ω] {Pr : Measure Ω}

/-! ### C92 -/

/-- The bounding box of the hallway world. -/
def worldBox : Set (Space 2) := {x | (x 0, x 1) ∈ rectangle (-3.1) 3.1 (-0.05) 1.55}

theorem pyMin_eq (l : List ℝ) (m : ℝ) (h1 : m ∈ l) (h2 : ∀ x ∈ l, m ≤ x) : pyMin l = .ok m := by
  obtain ⟨m', e, h3, h4⟩ := pyMin_ok l (List.ne_nil_of_mem h1)
  rw [e, le_antisymm (h4 m h1) (h2 m' h3)]

theorem pyMax_eq (l : List ℝ) (m : ℝ) (h1 : m ∈ l) (h2 : ∀ x ∈ l, x ≤ m) : pyMax l = .ok m := by
  obtain ⟨m', e, h3, h4⟩ := pyMax_ok l (List.ne_nil_of_mem h1)
  rw [e, le_antisymm (h2 m' h3) (h4 m h1)]

theorem rooms_extents {h : ℝ} (h1 : 0 ≤ h) (h2 : h ≤ 3 / 2) :
    extents (rooms (3 / 2) h) = .ok ((-31 / 10, 31 / 10), (-1 / 20, 31 / 20)) := by
  have e1 : pyMin (((rooms (3 / 2) h).flatMap Box.corners).map (·.1)) = .ok (-31 / 10) := by
    apply pyMin_eq
    · simp [rooms, Box.corners, hallLength, thick]; norm_num
    · simp only [rooms, Box.corners, hallLength, thick, List.flatMap_cons, List.flatMap_nil, List.map_cons, List.map_nil,
        List.cons_append, List.nil_append, List.append_nil, List.forall_mem_cons]
      repeat' apply And.intro
      all_goals first | linarith | simp
  have e2 : pyMax (((rooms (3 / 2) h).flatMap Box.corners).map (·.1)) = .ok (31 / 10) := by
    apply pyMax_eq
    · simp [rooms, Box.corners, hallLength, thick]; norm_num
    · simp only [rooms, Box.corners, hallLength, thick, List.flatMap_cons, List.flatMap_nil, List.map_cons, List.map_nil,
        List.cons_append, List.nil_append, List.append_nil, List.forall_mem_cons]
      repeat' apply And.intro
      all_goals first | linarith | simp
  have e3 : pyMin (((rooms (3 / 2) h).flatMap Box.corners).map (·.2)) = .ok (-1 / 20) := by
    apply pyMin_eq
    · simp [rooms, Box.corners, hallLength, thick]; norm_num
    · simp only [rooms, Box.corners, hallLength, thick, List.flatMap_cons, List.flatMap_nil, List.map_cons, List.map_nil,
        List.cons_append, List.nil_append, List.append_nil, List.forall_mem_cons]
      repeat' apply And.intro
      all_goals first | linarith | simp
  have e4 : pyMax (((rooms (3 / 2) h).flatMap Box.corners).map (·.2)) = .ok (31 / 20) := by
    apply pyMax_eq
    · simp [rooms, Box.corners, hallLength, thick]; norm_num
    · simp only [rooms, Box.corners, hallLength, thick, List.flatMap_cons, List.flatMap_nil, List.map_cons, List.map_nil,
        List.cons_append, List.nil_append, List.append_nil, List.forall_mem_cons]
      repeat' apply And.intro
      all_goals first | linarith | simp
  simp only [extents, e1, e2, e3, e4]
  rfl

/-- C92, region: the sampler's bounds are the bounding box of the walls, which contains both rooms and the hallway. -/
theorem C92_bounds {scale dd : ℝ} {num : ℕ} {u : ℕ → ℝ} {P : Problem} (h : hallwayManip scale dd num u = .ok P) (hg0 : 0 ≤ P.gap)
    (hg : P.gap ≤ 7 / 5) :
    extents P.obstacles = .ok ((-3.1, 3.1), (-0.05, 1.55)) ∧ house (3 / 2) (P.gap + 1 / 10) ⊆ rectangle (-3.1) 3.1 (-0.05) 1.55 := by
  obtain ⟨-, -, -, ho, -⟩ := manip_eq h
  constructor
  · rw [ho, rooms_extents (by linarith) (by linarith)]
    norm_num
  · rintro p ((⟨a1, a2, a3, a4⟩ | ⟨a1, a2, a3, a4⟩) | ⟨a1, a2, a3, a4⟩) <;> refine ⟨?_, ?_, ?_, ?_⟩ <;> norm_num at * <;> linarith

theorem worldBox_eq : worldBox = {x : Space 2 | (fun i => x i) ∈ Set.Icc ![(-31 / 10 : ℝ), -1 / 20] ![(31 / 10 : ℝ), 31 / 20]} := by
  ext x
  simp only [worldBox, rectangle, Set.mem_ofPred_eq, Set.mem_Icc, Pi.le_def, Fin.forall_fin_two]
  norm_num
  tauto

/-- C92: successive samples are independent and uniform in this box, and its area is at most 16, the volume that is given to the bound. -/
theorem C92_uniform {scale dd : ℝ} {num : ℕ} {u : ℕ → ℝ} {P : Problem} (h : hallwayManip scale dd num u = .ok P) (hg0 : 0 ≤ P.gap)
    (hg : P.gap ≤ 7 / 5) {U : ℕ → Ω → Fin 2 → ℝ} (hU : UnitDraws Pr U) :
    ∃ bounds, extents P.obstacles = .ok bounds ∧ IidUniform Pr (fun i ω => plane (sampleFromEnv bounds (U i ω 0, U i ω 1))) worldBox ∧
      volume worldBox = ENNReal.ofReal 9.92 ∧ ENNReal.ofReal 9.92 ≤ ENNReal.ofReal 16 := by
  obtain ⟨-, -, -, ho, -⟩ := manip_eq h
  refine ⟨_, by rw [ho]; exact rooms_extents (by linarith) (by linarith), ?_, ?_, ENNReal.ofReal_le_ofReal (by norm_num)⟩
  · let lo : Fin 2 → ℝ := ![-31 / 10, -1 / 20]
    let hi : Fin 2 → ℝ := ![31 / 10, 31 / 20]
    have hlt : ∀ i, lo i < hi i := by
      intro i
      fin_cases i <;> norm_num [lo, hi]
    have hm1 : Measurable fun (v : Fin 2 → ℝ) i => lo i + (hi i - lo i) * v i := by fun_prop
    have hfun : (fun v : Fin 2 → ℝ => plane (sampleFromEnv ((-31 / 10, 31 / 10), (-1 / 20, 31 / 20)) (v 0, v 1))) =
        fun v => WithLp.toLp 2 (fun i => lo i + (hi i - lo i) * v i) := by
      funext v
      unfold plane sampleFromEnv
      congr 1
      funext i
      fin_cases i <;> simp [lo, hi]
    have hm : Measurable fun v : Fin 2 → ℝ => plane (sampleFromEnv ((-31 / 10, 31 / 10), (-1 / 20, 31 / 20)) (v 0, v 1)) := by
      rw [hfun]
      exact toLp_measurable.comp hm1
    refine ⟨fun i => hm.comp (hU.measurable i), hU.indep.comp _ fun _ => hm, fun i => ?_⟩
    have h1 : Pr.map (U i) = cond volume (Set.Icc 0 1) := hU.uniform i
    have h2 := Uniform.map_box lo hi hlt
    have h3 := Uniform.map_toLp (T := Set.Icc lo hi) measurableSet_Icc
    show Pr.map ((fun v : Fin 2 → ℝ => plane (sampleFromEnv ((-31 / 10, 31 / 10), (-1 / 20, 31 / 20)) (v 0, v 1))) ∘ U i) = cond volume _
    rw [← Measure.map_map hm (hU.measurable i), h1, hfun]
    have h4 : (fun v : Fin 2 → ℝ => (WithLp.toLp 2 (fun i => lo i + (hi i - lo i) * v i) : Space 2)) =
        WithLp.toLp 2 ∘ fun (v : Fin 2 → ℝ) i => lo i + (hi i - lo i) * v i := rfl
    rw [h4, ← Measure.map_map toLp_measurable hm1, h2, h3, worldBox_eq]
  · have hT : MeasurableSet (Set.Icc ![(-31 / 10 : ℝ), -1 / 20] ![(31 / 10 : ℝ), 31 / 20]) := measurableSet_Icc
    have hp := (PiLp.volume_preserving_ofLp (Fin 2)).measure_preimage hT.nullMeasurableSet
    have : worldBox = WithLp.ofLp ⁻¹' (Set.Icc ![(-31 / 10 : ℝ), -1 / 20] ![(31 / 10 : ℝ), 31 / 20]) := worldBox_eq
    rw [this, hp, Real.volume_Icc_pi, Fin.prod_univ_two]
    simp only [Matrix.cons_val_zero, Matrix.cons_val_one]
    rw [← ENNReal.ofReal_mul (by norm_num)]
    norm_num

/-! ### C93 -/

/-- Inside the house, a ball of positions at which the body is free stays inside the house. -/
theorem house_of_ball {L h a b δ : ℝ} (h2 : h ≤ L) (ha : 0 ≤ a) (hb : 0 ≤ b) {x y : Space 2}
    (hx : Metric.ball x δ ⊆ freeSet (rooms L h) (block a b)) (hs : (x 0, x 1) ∈ house L h) (hy : y ∈ Metric.ball x δ) : (y 0, y 1) ∈ house L h := by
  have hδ : 0 < δ := (dist_nonneg).trans_lt hy
  have := house_of_path h2 (γ := fun t => AffineMap.lineMap x y t) (by
    have : Continuous fun t : ℝ => (AffineMap.lineMap x y t : Space 2) := AffineMap.lineMap_continuous
    exact this.continuousOn) (fun t ht => clear_of_free (block_zero ha hb) (hx ?_)) (by simpa using hs) (t := 1) ⟨zero_le_one, le_rfl⟩
  · simpa using this
  · exact (convex_ball x δ).lineMap_mem (Metric.mem_ball_self hδ) hy ht

/-- C93 in the hallway world, with the turtlebot's own sampler and motion check: if the clearance given to the bound is a clearance of the world (and the volume is 16,
as in the code), the call finds a path between all positions in the house that are joined by a path of this clearance (the middle line for example,
`C89_passes`), up to the failure probabilities of the two bounds. -/
theorem C93_hallway {scale dd : ℝ} {num : ℕ} {u : ℕ → ℝ} {P : Problem} (hP : hallwayManip scale dd num u = .ok P) (hg0 : 0 ≤ P.gap)
    (hg : P.gap ≤ 7 / 5) {bounds : (ℝ × ℝ) × (ℝ × ℝ)} (hbd : extents P.obstacles = .ok bounds) [IsProbabilityMeasure Pr]
    {U : ℕ → Ω → Fin 2 → ℝ} (hU : UnitDraws Pr U) {a b δ p : ℝ} (ha : 0 < a) (hb : 0 < b) (hδ : 0 < δ) {tol : Option ℝ} (ht : TolNonneg tol)
    {fuel N : ℕ} {r : ℝ} (h : numericalBound δ p 16 2 tol fuel = some (.ok (N, r)))
    {minS maxS : ℕ} (h2 : 2 ≤ minS) {factor : ℝ} (hf : 1 ≤ minS * (factor - 1)) {i : ℕ} (hi : minS * factor ^ i < maxS + 1)
    (hN : N ≤ ⌊minS * factor ^ i⌋₊) {k : ℕ} (hk : 1 ≤ k) (hk2 : k + 1 ≤ ⌊minS * factor ^ i⌋₊) (tr : Bool) (d : ℕ) :
    Pr {ω | ¬ ∀ (w : World (Space 2) ℝ) (start goal : ℝ × ℝ) (γ : ℝ → Space 2),
        TurtleWorld w (rect (-a) (-b) a b) (P.obstacles.map Box.corners) (fun i => sampleFromEnv bounds (U i ω 0, U i ω 1)) → KnnWorld w →
        start ∈ house (3 / 2) (P.gap + 1 / 10) → ClearPath (freeSet P.obstacles (block a b)) δ (plane start) (plane goal) γ →
        ∃ fuel counts path, Anytime.plan w (plane start) (plane goal) minS maxS factor k tr d fuel = some (counts, .ok (some path))} ≤
      ENNReal.ofReal (1 - p) + EReal.exp (tailKL ⌊minS * factor ^ i⌋₊ k r 2 9.92) := by
  obtain ⟨bounds', e1, hX, hvol, hle⟩ := C92_uniform hP hg0 hg hU
  rw [hbd] at e1
  cases e1
  obtain ⟨-, hsub⟩ := C92_bounds hP hg0 hg
  obtain ⟨-, -, -, ho, -⟩ := manip_eq hP
  have hmeas : MeasurableSet worldBox := by
    rw [worldBox_eq]
    exact (PiLp.volume_preserving_ofLp (Fin 2)).measurable measurableSet_Icc
  have key := C93_anytime hX hmeas (by norm_num) (by rw [hvol]; exact hle) (by norm_num) hvol.ge hδ ht h
    (F := freeSet P.obstacles (block a b) ∩ {x | (x 0, x 1) ∈ house (3 / 2) (P.gap + 1 / 10)}) (fun x hx => hsub hx.2) h2 hf hi hN hk hk2 tr d
  refine (measure_mono ?_).trans key
  intro ω hω hgood
  apply hω
  intro w start goal γ hT hK hst hγ
  refine hgood w (plane start) (plane goal) γ ⟨hT.sound, hT.dist, hT.draw, ?_⟩ hK ⟨hγ.continuous, hγ.start, hγ.goal, ?_⟩
  · intro x y hxy
    apply hT.check
    intro motions i hm
    refine C90_free hP hg ha hb hm ?_
    rintro _ ⟨s, t, hs, ht, hst, rfl⟩
    have := (hxy ⟨s, t, hs, ht, hst, rfl⟩).1
    simpa [freeSet] using this
  · intro t ht y hy
    refine ⟨hγ.clear t ht hy, ?_⟩
    have hb0 := hγ.clear t ht
    rw [ho] at hb0
    have hfree : ∀ t ∈ Set.Icc (0 : ℝ) 1, FreeAt (rooms (3 / 2) (P.gap + 1 / 10)) (block a b) (γ t 0, γ t 1) := fun t ht => by
      have := hγ.clear t ht (Metric.mem_ball_self hδ)
      rw [ho] at this
      exact this
    have h2' : P.gap + 1 / 10 ≤ 3 / 2 := by linarith
    refine house_of_ball h2' ha.le hb.le hb0 ?_ hy
    refine house_of_path h2' hγ.continuous (fun t ht => clear_of_free (block_zero ha.le hb.le) (hfree t ht)) ?_ ht
    rw [hγ.start]
    simpa [plane] using hst

/-- With `k = m - 1` the Chernoff-KL bound is small. -/
theorem tail_small {m : ℕ} (hm : 4 ≤ m) {r vol : ℝ} (hq0 : 0 < ballFraction r 2 vol) (hq : ballFraction r 2 vol ≤ 1 / 16) :
    EReal.exp (tailKL m (m - 1 : ℕ) r 2 vol) ≤ ENNReal.ofReal (1 / 4) := by
  have hm0 : (4 : ℝ) ≤ m := by exact_mod_cast hm
  have hcast : ((m - 1 : ℕ) : ℝ) = (m : ℝ) - 1 := by
    push_cast [Nat.cast_sub (show 1 ≤ m by omega)]
    ring
  unfold tailKL
  generalize ballFraction r 2 vol = q at hq0 hq
  simp only [if_true, hcast]
  rw [min_eq_left (by linarith)]
  set x : ℝ := ((m : ℝ) - 1) / m with hx
  have hx34 : 3 / 4 ≤ x := by
    rw [hx, le_div_iff₀ (by linarith)]
    linarith
  have hx1 : x < 1 := by
    rw [hx, div_lt_one (by linarith)]
    linarith
  rw [max_eq_left (by linarith), show q + (x - q) = x by ring]
  unfold entropy2 relEntr
  rw [if_pos ⟨by linarith, by linarith⟩, if_pos ⟨by linarith, by linarith⟩, ← EReal.coe_add, ← EReal.coe_mul, ← EReal.coe_sub, EReal.exp_coe]
  apply ENNReal.ofReal_le_ofReal
  clear_value x
  have hent : Real.log 4 ≤ x * Real.log (x / q) + (1 - x) * Real.log ((1 - x) / (1 - q)) := by
    have h1 := Real.binEntropy_le_log_two (p := x)
    rw [Real.binEntropy_eq_negMulLog_add_negMulLog_one_sub] at h1
    unfold Real.negMulLog at h1
    rw [Real.log_div (x := x) (by linarith) (by linarith), Real.log_div (x := 1 - x) (by linarith) (by linarith)]
    have h2 : Real.log q ≤ -(4 * Real.log 2) := by
      have : Real.log (1 / 16) = -(4 * Real.log 2) := by
        rw [show (1 / 16 : ℝ) = (2 ^ 4)⁻¹ by norm_num, Real.log_inv, Real.log_pow]
        norm_num
      rw [← this]
      exact Real.log_le_log hq0 hq
    have h3 : Real.log (1 - q) ≤ 0 := Real.log_nonpos (by linarith) (by linarith)
    have h4 : Real.log 4 = 2 * Real.log 2 := by
      rw [show (4 : ℝ) = 2 ^ 2 by norm_num, Real.log_pow]
      norm_num
    have h5 : 0 < Real.log 2 := Real.log_pos (by norm_num)
    rw [h4]
    have h10 := mul_nonneg (by linarith : (0 : ℝ) ≤ x) (sub_nonneg.2 h2)
    have h8 := mul_nonneg (sub_nonneg.2 hx34) h5.le
    have h9 := mul_nonneg (sub_nonneg.2 hx1.le) (neg_nonneg.2 h3)
    nlinarith
  have h6 : Real.log m - (x * Real.log (x / q) + (1 - x) * Real.log ((1 - x) / (1 - q))) * ((m : ℝ) - 1) ≤
      Real.log m - Real.log 4 * ((m : ℝ) - 1) := by
    have : Real.log 4 * ((m : ℝ) - 1) ≤
        (x * Real.log (x / q) + (1 - x) * Real.log ((1 - x) / (1 - q))) * ((m : ℝ) - 1) :=
      mul_le_mul_of_nonneg_right hent (by linarith)
    linarith
  refine (Real.exp_le_exp.2 h6).trans ?_
  rw [Real.exp_sub, Real.exp_log (by linarith), ← hcast, mul_comm, Real.exp_nat_mul, Real.exp_log (by norm_num),
    div_le_iff₀ (by positivity)]
  obtain ⟨n, rfl⟩ : ∃ n, m = n + 4 := ⟨m - 4, by omega⟩
  have h7 : ∀ n : ℕ, ((n + 4 : ℕ) : ℝ) ≤ 1 / 4 * 4 ^ (n + 4 - 1) := by
    intro n
    induction n with
    | zero => norm_num
    | succ n ih =>
      have : n + 1 + 4 - 1 = (n + 4 - 1) + 1 := by omega
      rw [this, pow_succ]
      push_cast at ih ⊢
      linarith
  exact h7 n

/-- A planner for the turtlebot with exact neighbours and a reference shortest-path search. -/
noncomputable def turtleWorld (robot : List (ℝ × ℝ)) (hulls : List (List (ℝ × ℝ))) (x : ℕ → ℝ × ℝ) : World (Space 2) ℝ := by
  classical exact
  { check := fun p q => decide (∀ (motions : List ((ℝ × ℝ) × (ℝ × ℝ))) (i : ℕ), motions[i]? = some ((p 0, p 1), (q 0, q 1)) →
      ∃ rs, isMotionValid robot hulls motions = .ok rs ∧ rs[i]? = some true)
    draw := fun i => plane (x i)
    dist := dist
    knn := exactKnn dist
    knnUpdate := fun S new k => exactKnn dist (S ++ new) k
    shortest := refShortest
    visits := fun E _ => E }

theorem turtleWorld_turtle (robot : List (ℝ × ℝ)) (hulls : List (List (ℝ × ℝ))) (x : ℕ → ℝ × ℝ) :
    TurtleWorld (turtleWorld robot hulls x) robot hulls x where
  sound :=
    { dist_symm := dist_comm
      dist_nonneg := fun _ _ => dist_nonneg
      dijkstra := refShortest_correct
      knn_true := fun S k => exactKnn_true (turtleWorld robot hulls x) S k
      knnUpdate_true := fun S new k => exactKnn_true (turtleWorld robot hulls x) (S ++ new) k }
  dist := fun _ _ => rfl
  draw := fun _ => rfl
  check := fun p q h => by
    unfold turtleWorld
    simp only [decide_eq_true_eq]
    exact h

theorem turtleWorld_knn (robot : List (ℝ × ℝ)) (hulls : List (List (ℝ × ℝ))) (x : ℕ → ℝ × ℝ) : KnnWorld (turtleWorld robot hulls x) where
  exact := fun S k => exactKnn_table (turtleWorld robot hulls x) S k
  sorted := by
    intro S k row hrow
    obtain ⟨a, -, rfl⟩ := List.mem_map.1 hrow
    exact (List.pairwise_insertionSort (fun x y : ℕ × ℝ => x.2 ≤ y.2) _).sublist (List.take_sublist _ _)
  visits := fun _ _ e he => ⟨e, he, by simp [Edge.joins], rfl⟩

/-- The hypotheses of C92 are met by the world of the experiment. -/
theorem C92_nonvacuous : (∃ P, hallwayManip (3 / 10) (5 / 100) 2 (fun _ => 1 / 2) = .ok P ∧ 0 ≤ P.gap ∧ P.gap ≤ 7 / 5) ∧
    ∃ Pr : Measure (ℕ → Fin 2 → ℝ), IsProbabilityMeasure Pr ∧ UnitDraws Pr fun i x => x i := by
  refine ⟨?_, exists_unitDraws _⟩
  obtain ⟨P, hP⟩ := (C88_answers (3 / 10) (5 / 100) 2 fun _ => 1 / 2).2 (by norm_num)
  obtain ⟨-, -, -, hgap⟩ := C88_sizes (fun _ => by norm_num) hP
  exact ⟨P, hP, by rw [hgap]; norm_num, by rw [hgap]; norm_num⟩

/-- 20000 samples meet the failure bound for clearance 1/5, success probability 1/2 and volume 16. -/
theorem hallway_count : failureBound 20000 (netMeasure (1 / 5) none 2 16) (2 + 1) ≤ 1 - 1 / 2 := by
  have hpi := Real.pi_gt_three
  have hnet : netMeasure (1 / 5) none 2 16 = Real.pi / 400 := by
    unfold netMeasure netRadius
    have := volume_disc (1 / 5) (by norm_num)
    unfold Space at this
    rw [this, ENNReal.toReal_ofReal (by positivity)]
    field_simp
    norm_num
  rw [hnet]
  unfold failureBound
  have h1 : (2 : ℝ) ^ (-(Real.pi / 400 * ((20000 : ℕ) : ℝ)) / 2) ≤ 2 ^ (-((75 : ℕ) : ℝ)) := by
    apply Real.rpow_le_rpow_of_exponent_le (by norm_num)
    push_cast
    linarith
  rw [Real.rpow_neg (by norm_num), Real.rpow_natCast] at h1
  have h2 : Nat.choose 40000 2 = 799980000 := by
    rw [Nat.choose_eq_descFactorial_div_factorial]
    norm_num [Nat.descFactorial, Nat.factorial]
  have h3 : Nat.choose 40000 3 = 10665866680000 := by
    rw [Nat.choose_eq_descFactorial_div_factorial]
    norm_num [Nat.descFactorial, Nat.factorial]
  refine (mul_le_mul_of_nonneg_left h1 (mul_nonneg (by norm_num) (Finset.sum_nonneg fun i _ => Nat.cast_nonneg _))).trans ?_
  norm_num [Finset.sum_range_succ, h2, h3]

/-- The hypotheses of C93 are met in a hallway of gap 0.8 for a body of half-width 0.2 (clearance 0.2), success probability 1/2: a count is returned, there are a sampler
and planners, the middle line is a path of this clearance, and the two failure probabilities add up to at most 3/4. -/
theorem C93_nonvacuous : ∃ P, hallwayManip (3 / 10) (4926 / 10000) 1 (fun _ => 1 / 2) = .ok P ∧ 0 ≤ P.gap ∧ P.gap ≤ 7 / 5 ∧
    P.start ∈ house (3 / 2) (P.gap + 1 / 10) ∧
    (∃ γ, ClearPath (freeSet P.obstacles (block (1 / 5) (1 / 5))) (1 / 5) (plane P.start) (plane (9 / 4, 3 / 4)) γ) ∧
    (∃ Pr : Measure (ℕ → Fin 2 → ℝ), IsProbabilityMeasure Pr ∧ UnitDraws Pr fun i x => x i) ∧
    (∀ robot hulls x, ∃ w, TurtleWorld w robot hulls x ∧ KnnWorld w) ∧
    ∃ fuel N r m, numericalBound (1 / 5) (1 / 2) 16 2 none fuel = some (.ok (N, r)) ∧ 2 ≤ m ∧ N ≤ m ∧ 1 ≤ (m : ℝ) * (2 - 1) ∧
      (m : ℝ) * 2 ^ 0 < m + 1 ∧ ⌊(m : ℝ) * 2 ^ 0⌋₊ = m ∧ 1 ≤ m - 1 ∧ m - 1 + 1 ≤ m ∧
      ENNReal.ofReal (1 - 1 / 2) + EReal.exp (tailKL m (m - 1 : ℕ) r 2 9.92) ≤ ENNReal.ofReal (3 / 4) := by
  obtain ⟨P, hP⟩ := (C88_answers (3 / 10) (4926 / 10000) 1 fun _ => 1 / 2).2 (by norm_num)
  obtain ⟨-, -, -, hgap⟩ := C88_sizes (fun _ => by norm_num) hP
  have hg : P.gap = 4 / 5 := by rw [hgap]; norm_num
  obtain ⟨-, -, -, ho, hs⟩ := manip_eq hP
  obtain ⟨γ, hγ, -⟩ := C89_passes hP (by rw [hg]; norm_num) (a := 1 / 5) (b := 1 / 5) (by norm_num) (by norm_num) (by rw [hg]; norm_num)
  refine ⟨P, hP, by rw [hg]; norm_num, by rw [hg]; norm_num, ?_, ⟨γ, ?_⟩, exists_unitDraws _,
    fun robot hulls x => ⟨_, turtleWorld_turtle robot hulls x, turtleWorld_knn robot hulls x⟩, ?_⟩
  · rw [hs]
    left; left; exact ⟨by norm_num, by norm_num, by norm_num, by norm_num⟩
  · rw [show (1 : ℝ) / 5 = P.gap / 2 - 1 / 5 by rw [hg]; norm_num] at hγ ⊢
    rw [hg] at hγ ⊢
    norm_num at hγ ⊢
    exact hγ
  · have hpi := Real.pi_gt_three
    have hpi2 := Real.pi_lt_d2
    obtain ⟨fuel, N, r, h⟩ := C03_answers_partial (δ := 1 / 5) (p := 1 / 2) (vol := 16) (dim := 2) (tol := none)
      (by norm_num) (by norm_num) trivial (by norm_num) (by norm_num) ⟨20000, by norm_num, by norm_num, hallway_count⟩
    have hr : r = 2 / 5 := by
      obtain ⟨-, -, hr, -⟩ := numericalBound_ok h
      rw [hr]
      norm_num [alpha]
    have hq : ballFraction r 2 9.92 = Real.pi * (4 / 25) / 9.92 := by
      rw [hr, ballFraction_eq (by norm_num) (by norm_num), volume_disc _ (by norm_num), ENNReal.toReal_ofReal (by positivity)]
      ring
    refine ⟨fuel, N, r, N + 4, h, by omega, by omega, ?_, by push_cast; linarith, ?_, by omega, by omega, ?_⟩
    · push_cast
      have : (0 : ℝ) ≤ N := Nat.cast_nonneg _
      linarith
    · rw [pow_zero, mul_one, Nat.floor_natCast]
    · refine (add_le_add le_rfl (tail_small (m := N + 4) (by omega) ?_ ?_)).trans ?_
      · rw [hq]; positivity
      · rw [hq, div_le_iff₀ (by norm_num)]
        norm_num at hpi2 ⊢
        linarith
      · rw [← ENNReal.ofReal_add (by norm_num) (by norm_num)]
        norm_num

end Verif.Props
