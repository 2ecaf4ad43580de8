import Verif.Props.Batch
import Verif.Props.HallwaySampling

/-! The turtlebot's motion checker, which judges whole batches, in the roadmap and in the anytime planning call: C131, continued. -/

namespace Verif.Props

open MeasureTheory Verif.Sat2D Verif.Spec Verif.Turtlebot Verif.Hallway Verif.Prm Verif.Anytime Verif.Bound Verif.Net

/-- The motion is accepted in every batch. -/
noncomputable def acceptedAlways {P : Type*} (pos : P → ℝ × ℝ) (robot : List (ℝ × ℝ)) (hulls : List (List (ℝ × ℝ))) (p q : P) : Bool := by
  classical exact decide (∀ (motions : List ((ℝ × ℝ) × (ℝ × ℝ))) (i : ℕ), motions[i]? = some (pos p, pos q) →
    ∃ rs, isMotionValid robot hulls motions = .ok rs ∧ rs[i]? = some true)

/-- The motion is accepted in some batch. -/
noncomputable def acceptedOnce {P : Type*} (pos : P → ℝ × ℝ) (robot : List (ℝ × ℝ)) (hulls : List (List (ℝ × ℝ))) (p q : P) : Bool := by
  classical exact decide (Accepted robot hulls (pos p) (pos q))

/-- C131 for the turtlebot: with a convex robot and convex obstacles with as many corners, its checker accepts the motions that are accepted in every batch, no others than
those accepted in some batch, and it raises ValueError for the empty batch. -/
theorem C131_turtlebot {P : Type*} (pos : P → ℝ × ℝ) {robot : List (ℝ × ℝ)} {hulls : List (List (ℝ × ℝ))}
    (hrob : ConvexPolygon robot ∧ ProperEdges robot) (hobs : ∀ o ∈ hulls, o.length = robot.length ∧ ConvexPolygon o ∧ ProperEdges o) :
    (batch pos robot hulls).Between (acceptedAlways pos robot hulls) (acceptedOnce pos robot hulls) ∧ batch pos robot hulls [] = .error .value := by
  refine ⟨⟨?_, ?_, ?_, ?_⟩, C53_empty_batch_raises robot hulls⟩
  · intro ms hms
    obtain ⟨-, rs, -, h, -⟩ := C53_motion_poses_partial robot hulls (ms.map fun m => (pos m.1, pos m.2)) hrob hobs (by simpa using hms)
    exact ⟨rs, h⟩
  · intro ms rs h
    have hms : ms ≠ [] := by
      rintro rfl
      cases (C53_empty_batch_raises robot hulls).symm.trans h
    obtain ⟨-, rs', -, h', hl, -⟩ := C53_motion_poses_partial robot hulls (ms.map fun m => (pos m.1, pos m.2)) hrob hobs (by simpa using hms)
    cases h'.symm.trans h
    rw [hl, List.length_map]
  · classical
    intro ms rs i p q h hi hlo
    unfold acceptedAlways at hlo
    obtain ⟨rs', h', h1⟩ := of_decide_eq_true hlo (ms.map fun m => (pos m.1, pos m.2)) i (by rw [List.getElem?_map, hi]; rfl)
    cases h'.symm.trans h
    exact h1
  · classical
    intro ms rs i p q h hi hr
    unfold acceptedOnce
    exact decide_eq_true ⟨_, rs, i, h, by rw [List.getElem?_map, hi]; rfl, hr⟩

variable {Ω : Type*} [MeasurableSpace Ω] {Pr : Measure Ω} [IsProbabilityMeasure Pr]

omit [MeasurableSpace Ω] in
theorem knnWorld_withCheck {dim : ℕ} {w : World (Space dim) ℝ} (h : KnnWorld w) (f : Space dim → Space dim → Bool) : KnnWorld (w.withCheck f) :=
  ⟨fun S k => ⟨(h.exact S k).near, (h.exact S k).full, (h.exact S k).distinct⟩, h.sorted, h.visits⟩

theorem euclidean_of_withCheck {dim : ℕ} {w : World (Space dim) ℝ} {f : Space dim → Space dim → Bool} {F : Set (Space dim)} {x : ℕ → Space dim}
    (h : EuclideanWorld (w.withCheck f) F x) : w.Sound :=
  ⟨h.sound.dist_symm, h.sound.dist_nonneg, h.sound.dijkstra, h.sound.knn_true, h.sound.knnUpdate_true⟩

/-- C131, the guarantee of the anytime planning call with a checker that judges whole batches and raises for the empty one. If the checker accepts, in every batch, the motions
that stay in `F`, and one of the counts is at least the count of the bound, then up to the failure probabilities of C93 the call does not answer "no path". It answers with a
path, or it raises at an earlier count at which no sample was within the radius of the start or the goal; when the first count suffices, it answers with a path. -/
theorem C131_anytime_partial {dim : ℕ} {X : ℕ → Ω → Space dim} {S : Set (Space dim)} (hX : IidUniform Pr X S) (hS : MeasurableSet S) (hdim : 1 ≤ dim)
    {δ p vol₁ vol₂ : ℝ} {tol : Option ℝ} {fuel N : ℕ} {r : ℝ} (hvol₁ : volume S ≤ ENNReal.ofReal vol₁) (hv : 0 < vol₂) (hvol₂ : ENNReal.ofReal vol₂ ≤ volume S)
    (hδ : 0 < δ) (ht : TolNonneg tol) (h : numericalBound δ p vol₁ dim tol fuel = some (.ok (N, r))) {F : Set (Space dim)} (hF : F ⊆ S)
    {minS maxS : ℕ} (h2 : 2 ≤ minS) {factor : ℝ} (hf : 1 ≤ minS * (factor - 1)) {i : ℕ} (hi : minS * factor ^ i < maxS + 1)
    (hN : N ≤ ⌊minS * factor ^ i⌋₊) {k : ℕ} (hk : 1 ≤ k) (hk2 : k + 1 ≤ ⌊minS * factor ^ i⌋₊) (tr : Bool) (d : ℕ) :
    Pr {ω | ¬ ∀ (w : World (Space dim) ℝ) (check : Batch (Space dim)) (lo hi : Space dim → Space dim → Bool) (e : PyErr) (a b : Space dim) (γ : ℝ → Space dim),
        EuclideanWorld (w.withCheck lo) F (fun i => X i ω) → KnnWorld w → (tr = true → w.VisitsAll) → check.Between lo hi → check [] = .error e → ClearPath F δ a b γ →
        ∃ fuel counts answer, planB w check a b minS maxS (· * factor) k tr d fuel = some (counts, answer) ∧
          ((∃ j < i, answer = .error e ∧ ¬ (w.Reached k tr d ⌊minS * factor ^ j⌋₊ a ∧ w.Reached k tr d ⌊minS * factor ^ j⌋₊ b)) ∨
            ∃ path, answer = .ok (some (a :: path ++ [b])) ∧ path ≠ [] ∧ (a :: path ++ [b]).IsChain fun p q => hi p q = true ∨ hi q p = true)} ≤
      ENNReal.ofReal (1 - p) + EReal.exp (tailKL ⌊minS * factor ^ i⌋₊ k r dim vol₂) := by
  have hm0 : (0 : ℝ) < minS := by
    have : 0 < minS := by omega
    exact_mod_cast this
  have hf1 : 1 ≤ factor := by
    by_contra hlt
    push Not at hlt
    have : (minS : ℝ) * (factor - 1) < 0 := mul_neg_of_pos_of_neg hm0 (by linarith)
    linarith
  refine (measure_mono ?_).trans (C83_complete hX hS hdim hvol₁ hv hvol₂ hδ ht h hF (m := ⌊minS * factor ^ i⌋₊) (by omega) hN hk2 tr d)
  intro ω hω hgood
  apply hω
  intro w check lo hi' e a b γ hE hK hvis hb he hγ
  have point : ∀ x : Space dim, Metric.ball x δ ⊆ F → lo x x = true := by
    intro x hx
    apply hE.check
    rw [segment_same]
    exact Set.singleton_subset_iff.2 (hx (Metric.mem_ball_self hδ))
  have ha : lo a a = true := point a (hγ.start ▸ hγ.clear 0 ⟨le_rfl, zero_le_one⟩)
  have hgo : lo b b = true := point b (hγ.goal ▸ hγ.clear 1 ⟨zero_le_one, le_rfl⟩)
  have hgrow : ((Knn.init k tr d).grow (w.withCheck lo) ⌊minS * factor ^ i⌋₊).2 = .ok () :=
    grow_ok hE.sound (knnWorld_withCheck hK lo).exact (Knn.init k tr d) (by omega) hk (by intro S hS; cases hS) |>.1
  obtain ⟨len, pts, h1, h3⟩ := hgood (w.withCheck lo) [] [] a b γ hE (knnWorld_withCheck hK lo) (by simp) hgrow (by simp) hγ
  have key := C131_call_partial (F := ℝ) (euclidean_of_withCheck hE) hK.exact tr hvis hb he hk d ha hgo h2 (scale := fun x => x * factor) (maxS := maxS) (i := i)
    (fun i => by
      simp only [scale_iterate]
      exact mul_le_mul_of_nonneg_left (pow_le_pow_right₀ hf1 (Nat.le_succ i)) hm0.le)
    (fun i _ => by simp only [scale_iterate]; exact floor_pow_lt hf i) (by simp only [scale_iterate]; exact hi)
    (c := len) (pts := pts) (by simp only [scale_iterate]; exact h1) h3
  simp only [scale_iterate] at key
  exact key

/-- C131 in the hallway world, with the turtlebot's own motion check as it is called: on whole batches. The call finds a path, or it raises ValueError at a count before the
sufficient one at which no sample was within the radius of the start or the goal. -/
theorem C131_hallway_partial {scale dd : ℝ} {num : ℕ} {u : ℕ → ℝ} {P : Problem} (hP : hallwayManip scale dd num u = .ok P) (hg0 : 0 ≤ P.gap)
    (hg : P.gap ≤ 7 / 5) {bounds : (ℝ × ℝ) × (ℝ × ℝ)} (hbd : extents P.obstacles = .ok bounds)
    {U : ℕ → Ω → Fin 2 → ℝ} (hU : UnitDraws Pr U) {a b δ p : ℝ} (ha : 0 < a) (hb : 0 < b) (hδ : 0 < δ) {tol : Option ℝ} (ht : TolNonneg tol)
    {fuel N : ℕ} {r : ℝ} (h : numericalBound δ p 16 2 tol fuel = some (.ok (N, r)))
    {minS maxS : ℕ} (h2 : 2 ≤ minS) {factor : ℝ} (hf : 1 ≤ minS * (factor - 1)) {i : ℕ} (hi : minS * factor ^ i < maxS + 1)
    (hN : N ≤ ⌊minS * factor ^ i⌋₊) {k : ℕ} (hk : 1 ≤ k) (hk2 : k + 1 ≤ ⌊minS * factor ^ i⌋₊) (tr : Bool) (d : ℕ) :
    Pr {ω | ¬ ∀ (w : World (Space 2) ℝ) (start goal : ℝ × ℝ) (γ : ℝ → Space 2),
        w.Sound → (∀ p q, w.dist p q = dist p q) → (∀ i, w.draw i = plane (sampleFromEnv bounds (U i ω 0, U i ω 1))) → KnnWorld w → (tr = true → w.VisitsAll) →
        start ∈ house (3 / 2) (P.gap + 1 / 10) → ClearPath (freeSet P.obstacles (block a b)) δ (plane start) (plane goal) γ →
        ∃ fuel counts answer,
          planB w (batch (fun x : Space 2 => (x 0, x 1)) (rect (-a) (-b) a b) (P.obstacles.map Box.corners)) (plane start) (plane goal) minS maxS (· * factor) k tr d
            fuel = some (counts, answer) ∧
          ((∃ j < i, answer = .error .value ∧
              ¬ (w.Reached k tr d ⌊minS * factor ^ j⌋₊ (plane start) ∧ w.Reached k tr d ⌊minS * factor ^ j⌋₊ (plane goal))) ∨
            ∃ path, answer = .ok (some (plane start :: path ++ [plane goal])) ∧ path ≠ [] ∧ (plane start :: path ++ [plane goal]).IsChain fun p q =>
              Accepted (rect (-a) (-b) a b) (P.obstacles.map Box.corners) (p 0, p 1) (q 0, q 1) ∨
                Accepted (rect (-a) (-b) a b) (P.obstacles.map Box.corners) (q 0, q 1) (p 0, p 1))} ≤
      ENNReal.ofReal (1 - p) + EReal.exp (tailKL ⌊minS * factor ^ i⌋₊ k r 2 9.92) := by
  obtain ⟨bounds', e1, hX, hvol, hle⟩ := C92_uniform hP hg0 hg hU
  rw [hbd] at e1
  cases e1
  obtain ⟨-, hsub⟩ := C92_bounds hP hg0 hg
  obtain ⟨-, -, -, ho, -⟩ := manip_eq hP
  have hmeas : MeasurableSet worldBox := by
    rw [worldBox_eq]
    exact (PiLp.volume_preserving_ofLp (Fin 2)).measurable measurableSet_Icc
  have key := C131_anytime_partial hX hmeas (by norm_num) (by rw [hvol]; exact hle) (by norm_num) hvol.ge hδ ht h
    (F := freeSet P.obstacles (block a b) ∩ {x | (x 0, x 1) ∈ house (3 / 2) (P.gap + 1 / 10)}) (fun x hx => hsub hx.2) h2 hf hi hN hk hk2 tr d
  refine (measure_mono ?_).trans key
  intro ω hω hgood
  apply hω
  intro w start goal γ hw hdist hdraw hK hvis hst hγ
  have hsz : ∀ o ∈ P.obstacles, 0 < o.w ∧ 0 < o.l := by rw [ho]; exact rooms_sizes (by norm_num) (by linarith)
  obtain ⟨hbetween, hempty⟩ := C131_turtlebot (fun x : Space 2 => (x 0, x 1)) (robot := rect (-a) (-b) a b) (hulls := P.obstacles.map Box.corners)
    ⟨rect_convex _ _ _ _ (by linarith) (by linarith), rect_proper _ _ _ _ (by linarith) (by linarith)⟩ (by
      intro o ho'
      obtain ⟨b, hb', rfl⟩ := List.mem_map.1 ho'
      obtain ⟨w, l⟩ := hsz b hb'
      exact ⟨rfl, rect_convex _ _ _ _ (by linarith) (by linarith), rect_proper _ _ _ _ (by linarith) (by linarith)⟩)
  have hE : EuclideanWorld (w.withCheck (acceptedAlways (fun x : Space 2 => (x 0, x 1)) (rect (-a) (-b) a b) (P.obstacles.map Box.corners)))
      (freeSet P.obstacles (block a b) ∩ {x | (x 0, x 1) ∈ house (3 / 2) (P.gap + 1 / 10)})
      fun i => plane (sampleFromEnv bounds (U i ω 0, U i ω 1)) := by
    classical
    refine ⟨hw.withCheck _, hdist, hdraw, ?_⟩
    intro x y hxy
    unfold World.withCheck acceptedAlways
    apply decide_eq_true
    intro motions i hm
    refine C90_free hP hg ha hb hm ?_
    rintro _ ⟨s, t, hs, ht, hst, rfl⟩
    have := (hxy ⟨s, t, hs, ht, hst, rfl⟩).1
    simpa [freeSet] using this
  have hpath : ClearPath (freeSet P.obstacles (block a b) ∩ {x | (x 0, x 1) ∈ house (3 / 2) (P.gap + 1 / 10)}) δ (plane start) (plane goal) γ := by
    refine ⟨hγ.continuous, hγ.start, hγ.goal, ?_⟩
    intro t ht y hy
    refine ⟨hγ.clear t ht hy, ?_⟩
    have hb0 := hγ.clear t ht
    rw [ho] at hb0
    have hfree : ∀ t ∈ Set.Icc (0 : ℝ) 1, FreeAt (rooms (3 / 2) (P.gap + 1 / 10)) (block a b) (γ t 0, γ t 1) := fun t ht => by
      have := hγ.clear t ht (Metric.mem_ball_self hδ)
      rw [ho] at this
      exact this
    have h2' : P.gap + 1 / 10 ≤ 3 / 2 := by linarith
    refine house_of_ball h2' ha.le hb.le hb0 ?_ hy
    refine house_of_path h2' hγ.continuous (fun t ht => clear_of_free (block_zero ha.le hb.le) (hfree t ht)) ?_ ht
    rw [hγ.start]
    simpa [plane] using hst
  obtain ⟨fuel, counts, answer, h1, h3⟩ := hgood w _ _ _ _ (plane start) (plane goal) γ hE hK hvis hbetween hempty hpath
  refine ⟨fuel, counts, answer, h1, ?_⟩
  rcases h3 with h3 | ⟨path, h4, h5, h6⟩
  · exact .inl h3
  · classical
    refine .inr ⟨path, h4, h5, h6.imp fun p q hpq => ?_⟩
    unfold acceptedOnce at hpq
    exact hpq.imp of_decide_eq_true of_decide_eq_true

/-! ### Examples -/

/-- Five places on a line, 0 to 4; the sampler draws 1, 2, 3, 4, 0, ...; every motion is accepted. -/
def fivePlaces : World (Fin 5) ℤ where
  check _ _ := true
  draw i := ⟨i % 5, Nat.mod_lt i (by norm_num)⟩
  dist p q := |(p.val : ℤ) - q.val|
  knn := exactKnn fun p q => |(p.val : ℤ) - q.val|
  knnUpdate S new k := exactKnn (fun p q => |(p.val : ℤ) - q.val|) (S ++ new) k
  shortest := refShortest
  visits E _ := E

theorem fivePlaces_sound : fivePlaces.Sound where
  dist_symm p q := abs_sub_comm _ _
  dist_nonneg p q := abs_nonneg _
  dijkstra := refShortest_correct
  knn_true S k := exactKnn_true fivePlaces S k
  knnUpdate_true S new k := exactKnn_true fivePlaces (S ++ new) k

/-- The turtlebot's checker on these places, for a robot of side 2 and an obstacle far away. -/
noncomputable def fiveCheck : Batch (Fin 5) := batch (fun p => ((p.val : ℝ), 0)) (rect (-1) (-1) 1 1) [rect 100 (-1) 101 1]

/-- It accepts all motions, but it raises for the empty batch. -/
theorem fiveCheck_eq : fiveCheck = fun ms => if ms.isEmpty then .error .value else .ok (ms.map fun _ => true) := by
  funext ms
  cases ms with
  | nil => exact C53_empty_batch_raises _ _
  | cons m l =>
    obtain ⟨N, rs, hN, h1, h2, h3⟩ := C53_motion_poses_partial (rect (-1) (-1) 1 1) [rect 100 (-1) 101 1]
      ((m :: l).map fun m => (((m.1.val : ℝ), (0 : ℝ)), ((m.2.val : ℝ), (0 : ℝ))))
      ⟨rect_convex _ _ _ _ (by norm_num) (by norm_num), rect_proper _ _ _ _ (by norm_num) (by norm_num)⟩ (by
        intro o ho
        obtain rfl := List.mem_singleton.1 ho
        exact ⟨rfl, rect_convex _ _ _ _ (by norm_num) (by norm_num), rect_proper _ _ _ _ (by norm_num) (by norm_num)⟩) (by simp)
    rw [List.length_map] at h2
    have : rs = (m :: l).map fun _ => true := by
      apply List.ext_getElem?
      intro i
      by_cases hi : i < (m :: l).length
      · have hm : ((m :: l).map fun m => (((m.1.val : ℝ), (0 : ℝ)), ((m.2.val : ℝ), (0 : ℝ))))[i]? =
            some ((((m :: l)[i].1.val : ℝ), (0 : ℝ)), (((m :: l)[i].2.val : ℝ), (0 : ℝ))) := by
          rw [List.getElem?_map, List.getElem?_eq_getElem hi]
          rfl
        rw [(h3 i _ hm).1.2, List.getElem?_map, List.getElem?_eq_getElem hi]
        · rfl
        intro k hk o ho
        obtain rfl := List.mem_singleton.1 ho
        rintro ⟨x, hx, hx'⟩
        have hN1 : (0 : ℝ) < (N : ℝ) - 1 := by
          have : (2 : ℝ) ≤ N := by exact_mod_cast hN
          linarith
        have hα0 : 0 ≤ (k : ℝ) / ((N : ℝ) - 1) := by positivity
        have hα1 : (k : ℝ) / ((N : ℝ) - 1) ≤ 1 := by
          rw [div_le_one hN1]
          have : (k : ℝ) + 1 ≤ N := by exact_mod_cast hk
          linarith
        generalize (k : ℝ) / ((N : ℝ) - 1) = α at hα0 hα1 hx
        have ha : ((m :: l)[i].1.val : ℝ) ≤ 4 := by exact_mod_cast Nat.le_of_lt_succ (m :: l)[i].1.isLt
        have hb : ((m :: l)[i].2.val : ℝ) ≤ 4 := by exact_mod_cast Nat.le_of_lt_succ (m :: l)[i].2.isLt
        generalize ((m :: l)[i].1.val : ℝ) = a at ha hx
        generalize ((m :: l)[i].2.val : ℝ) = b at hb hx
        have c1 : polygonHull (rect 100 (-1) 101 1) ⊆ {x : ℝ × ℝ | 100 ≤ x.1} := by
          refine convexHull_min ?_ (convex_halfSpace_ge (IsLinearMap.mk (fun _ _ => rfl) fun _ _ => rfl) _)
          intro v hv
          simp only [rect, Set.mem_ofPred_eq, List.mem_cons, List.not_mem_nil, or_false] at hv
          rcases hv with rfl | rfl | rfl | rfl <;> norm_num
        have c2 : polygonHull (placed (rect (-1) (-1) 1 1) (poseAt ((a, 0), (b, 0)) α)) ⊆ {x : ℝ × ℝ | x.1 ≤ 5} := by
          refine convexHull_min ?_ (convex_halfSpace_le (IsLinearMap.mk (fun _ _ => rfl) fun _ _ => rfl) _)
          intro v hv
          simp only [rect, placed, poseAt, Set.mem_ofPred_eq, List.map_cons, List.map_nil, List.mem_cons, List.not_mem_nil, or_false] at hv
          rcases hv with rfl | rfl | rfl | rfl <;> simp only [Set.mem_ofPred_eq] <;> nlinarith
        have h5 : 100 ≤ x.1 := c1 hx'
        have h6 : x.1 ≤ 5 := c2 hx
        linarith
      · rw [List.getElem?_eq_none (by omega), List.getElem?_eq_none (by rw [List.length_map]; omega)]
    unfold fiveCheck batch
    rw [h1, this]
    rfl

theorem fiveCheck_between : fiveCheck.Between (fun _ _ => true) (fun _ _ => true) := by
  rw [fiveCheck_eq]
  refine ⟨?_, ?_, ?_, fun _ _ _ _ _ _ _ _ => rfl⟩
  · intro ms hms
    exact ⟨ms.map fun _ => true, by simp [hms]⟩
  · intro ms rs h
    cases ms with
    | nil => cases h
    | cons m l => cases h; simp
  · intro ms rs i p q h hi _
    cases ms with
    | nil => cases h
    | cons m l =>
      cases h
      rw [List.getElem?_map, hi]
      rfl

/-- The row model of the other claims (one motion at a time, no exception) is not exact for the turtlebot's checker: where nothing is in the way, the planner that checks
single motions finds a path with 4 samples; the call with the turtlebot's checker raises ValueError at 2 samples, because none of these is close enough to the start. -/
theorem C131_empty_batch_false : fiveCheck.Between (fun _ _ => true) (fun _ _ => true) ∧
    planBy fivePlaces 4 1 2 4 (fun x : ℚ => x * 2) 3 false 0 2 = some ([2, 4], .ok (some [4, 2, 1])) ∧
    planB fivePlaces fiveCheck 4 1 2 4 (fun x : ℚ => x * 2) 3 false 0 1 = some ([2], .error .value) := by
  refine ⟨fiveCheck_between, by decide +kernel, ?_⟩
  rw [fiveCheck_eq]
  decide +kernel

/-- The hypotheses of `C131_call_partial` and `C131_between_partial` are met: in the world of the counterexample, with the start at 3 instead of 4, and the call with the
turtlebot's checker finds the path. The hallway worlds are those of C93. -/
theorem C131_nonvacuous : fivePlaces.Sound ∧ (∀ S k, fivePlaces.ExactTable S k (fivePlaces.knn S k)) ∧ fivePlaces.VisitsAll ∧
    (∀ i : ℕ, (fun x : ℚ => x * 2)^[i] (2 : ℕ) ≤ (fun x : ℚ => x * 2)^[i + 1] (2 : ℕ)) ∧ fiveCheck.Between (fun _ _ => true) (fun _ _ => true) ∧
    fiveCheck [] = .error .value ∧
    (((Knn.init 3 false 0).grow (fivePlaces.withCheck fun _ _ => true) 2).1.query (fivePlaces.withCheck fun _ _ => true) 3 1).2 = .ok ((2 : ℤ), [2]) ∧
    fivePlaces.Reached 3 false 0 2 3 ∧ fivePlaces.Reached 3 false 0 2 1 ∧ ¬ fivePlaces.Reached 3 false 0 2 4 ∧
    planB fivePlaces fiveCheck 3 1 2 4 (fun x : ℚ => x * 2) 3 false 0 1 = some ([2], .ok (some [3, 2, 1])) := by
  have hc : ((Knn.init 3 false 0).grow fivePlaces 2).1.certified = some 1 := by decide +kernel
  refine ⟨fivePlaces_sound, fun S k => exactKnn_table fivePlaces S k, fun _ _ => ⟨fun _ he => he, fun _ he _ => he⟩, ?_, fiveCheck_between, ?_,
    by decide +kernel, ⟨1, hc, 2, by decide +kernel, by decide +kernel⟩, ⟨1, hc, 1, by decide +kernel, by decide +kernel⟩, ?_, ?_⟩
  · intro i
    simp only [scale_iterate]
    have : (0 : ℚ) < 2 ^ i := by positivity
    rw [pow_succ]
    push_cast
    linarith
  · rw [fiveCheck_eq]
    rfl
  · rintro ⟨x, h1, p, hp, hd⟩
    rw [hc] at h1
    cases h1
    have hS : fivePlaces.fresh (0 + 1) 2 = [1, 2] := by decide +kernel
    rw [hS] at hp
    simp only [List.mem_cons, List.not_mem_nil, or_false] at hp
    rcases hp with rfl | rfl
    · revert hd; decide +kernel
    · revert hd; decide +kernel
  · rw [fiveCheck_eq]
    decide +kernel

end Verif.Props
