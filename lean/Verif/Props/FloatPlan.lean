import Verif.Lemmas.BatchCongr
import Verif.Model.FloatBatch
import Verif.Props.BatchHallway
import Verif.Props.FloatAnytime
import Verif.Props.FloatHallway

/-! The anytime planning call with the turtlebot's motion check in float arithmetic and rounded counts: C139. -/

namespace Verif.Props

open MeasureTheory Verif.Sat2D Verif.Spec Verif.Turtlebot Verif.Hallway Verif.Prm Verif.Anytime Verif.Bound Verif.Net Verif.Float64 Verif.FloatSat

variable {Ω : Type*} [MeasurableSpace Ω] {Pr : Measure Ω} [IsProbabilityMeasure Pr]

theorem min_le_max_of_scaleR {minS maxS : ℕ} (hM : maxS < 2 ^ 53) {factor : ℝ} (hf : 1 ≤ (minS : ℝ) * (factor - 1)) {i : ℕ}
    (hi : (scaleR factor)^[i] (minS : ℝ) < maxS + 1) : minS ≤ maxS := by
  by_contra hcon
  push Not at hcon
  have hm : ∀ j, (maxS : ℝ) + 1 ≤ (scaleR factor)^[j] minS := by
    have hfac : 1 ≤ factor := by
      by_contra hlt
      push Not at hlt
      have h0 : (0 : ℝ) ≤ minS := by positivity
      have : (minS : ℝ) * (factor - 1) ≤ 0 := mul_nonpos_of_nonneg_of_nonpos h0 (by linarith)
      linarith
    have hF1 : IsFloat ((maxS : ℝ) + 1) := by exact_mod_cast nat_isFloat (n := maxS + 1) (by omega)
    have h0 : (0 : ℝ) ≤ (maxS : ℝ) + 1 := by positivity
    intro j
    induction j with
    | zero => simp only [Function.iterate_zero, id]; exact_mod_cast hcon
    | succ j ih =>
      rw [Function.iterate_succ_apply']
      have h3 : (maxS : ℝ) + 1 ≤ (scaleR factor)^[j] minS * factor := by nlinarith
      exact le_fl hF1 (h0.trans h3) h3
  exact absurd hi (not_lt.2 (hm i))

/-- C139: the guarantee C131 with rounded counts `num 0, num 1, ...`: the anytime planning call with a checker that judges whole batches. -/
theorem C139_anytime_partial {dim : ℕ} {X : ℕ → Ω → Space dim} {S : Set (Space dim)} (hX : IidUniform Pr X S) (hS : MeasurableSet S) (hdim : 1 ≤ dim)
    {δ p vol₁ vol₂ : ℝ} {tol : Option ℝ} {fuel N : ℕ} {r : ℝ} (hvol₁ : volume S ≤ ENNReal.ofReal vol₁) (hv : 0 < vol₂) (hvol₂ : ENNReal.ofReal vol₂ ≤ volume S)
    (hδ : 0 < δ) (ht : TolNonneg tol) (h : numericalBound δ p vol₁ dim tol fuel = some (.ok (N, r))) {F : Set (Space dim)} (hF : F ⊆ S)
    {minS maxS : ℕ} (h2 : 2 ≤ minS) (hM : maxS < 2 ^ 53) {factor : ℝ} (hf : 1 ≤ minS * (factor - 1)) {num : ℕ → ℝ} (hn0 : num 0 = minS)
    (hn : ∀ i, num (i + 1) = fl (num i * factor)) {i : ℕ} (hi : num i < maxS + 1)
    (hN : N ≤ ⌊num i⌋₊) {k : ℕ} (hk : 1 ≤ k) (hk2 : k + 1 ≤ ⌊num i⌋₊) (tr : Bool) (d : ℕ) :
    Pr {ω | ¬ ∀ (w : World (Space dim) ℝ) (check : Batch (Space dim)) (lo hi : Space dim → Space dim → Bool) (e : PyErr) (a b : Space dim) (γ : ℝ → Space dim),
        EuclideanWorld (w.withCheck lo) F (fun i => X i ω) → KnnWorld w → (tr = true → w.VisitsAll) → check.Between lo hi → check [] = .error e → ClearPath F δ a b γ →
        ∃ fuel counts answer, planB w check a b minS maxS (scaleR factor) k tr d fuel = some (counts, answer) ∧
          ((∃ j < i, answer = .error e ∧ ¬ (w.Reached k tr d ⌊num j⌋₊ a ∧ w.Reached k tr d ⌊num j⌋₊ b)) ∨
            ∃ path, answer = .ok (some (a :: path ++ [b])) ∧ path ≠ [] ∧ (a :: path ++ [b]).IsChain fun p q => hi p q = true ∨ hi q p = true)} ≤
      ENNReal.ofReal (1 - p) + EReal.exp (tailKL ⌊num i⌋₊ k r dim vol₂) := by
  have hnum : ∀ i, num i = (scaleR factor)^[i] minS := by
    intro i
    induction i with
    | zero => exact hn0
    | succ i ih => rw [hn, ih, Function.iterate_succ_apply']; rfl
  simp only [hnum] at hi hN hk2 ⊢
  have hmm := min_le_max_of_scaleR hM hf hi
  have hgr := fun j => scaleR_grow (maxS := maxS) hM hf (by omega) hmm j
  refine (measure_mono ?_).trans (C83_complete hX hS hdim hvol₁ hv hvol₂ hδ ht h hF (m := ⌊(scaleR factor)^[i] (minS : ℝ)⌋₊) (by omega) hN hk2 tr d)
  intro ω hω hgood
  apply hω
  intro w check lo hi' e a b γ hE hK hvis hb he hγ
  have point : ∀ x : Space dim, Metric.ball x δ ⊆ F → lo x x = true := by
    intro x hx
    apply hE.check
    rw [segment_same]
    exact Set.singleton_subset_iff.2 (hx (Metric.mem_ball_self hδ))
  have ha : lo a a = true := point a (hγ.start ▸ hγ.clear 0 ⟨le_rfl, zero_le_one⟩)
  have hgo : lo b b = true := point b (hγ.goal ▸ hγ.clear 1 ⟨zero_le_one, le_rfl⟩)
  have hgrow : ((Knn.init k tr d).grow (w.withCheck lo) ⌊(scaleR factor)^[i] (minS : ℝ)⌋₊).2 = .ok () :=
    grow_ok hE.sound (knnWorld_withCheck hK lo).exact (Knn.init k tr d) (by omega) hk (by intro S hS; cases hS) |>.1
  obtain ⟨len, pts, h1, h3⟩ := hgood (w.withCheck lo) [] [] a b γ hE (knnWorld_withCheck hK lo) (by simp) hgrow (by simp) hγ
  exact C131_call_partial (F := ℝ) (euclidean_of_withCheck hE) hK.exact tr hvis hb he hk d ha hgo h2 (scale := scaleR factor) (maxS := maxS) (i := i)
    (fun j => (hgr j).2.1) (fun j hj => (hgr j).2.2 ((hgr j).2.1.trans_lt hj)) hi (c := len) (pts := pts) h1 h3

/-- The positions whose coordinates are at most `R`. -/
def boxR (R : ℝ) : Set (Space 2) := {x | |x 0| ≤ R ∧ |x 1| ≤ R}

/-- The motion stays in the box and is accepted in floats in every batch of motions in the box. -/
noncomputable def acceptedAlwaysR (dotR : ℝ × ℝ → ℝ × ℝ → ℝ) (R : ℝ) (robot : List (ℝ × ℝ)) (hulls : List (List (ℝ × ℝ))) (p q : Space 2) : Bool := by
  classical exact decide (p ∈ boxR R ∧ q ∈ boxR R ∧ ∀ (motions : List ((ℝ × ℝ) × (ℝ × ℝ))) (i : ℕ), (∀ m ∈ motions, (|m.1.1| ≤ R ∧ |m.1.2| ≤ R) ∧ |m.2.1| ≤ R ∧ |m.2.2| ≤ R) →
    motions[i]? = some ((p 0, p 1), (q 0, q 1)) → ∃ rs, isMotionValidR fl dotR robot hulls motions = .ok rs ∧ rs[i]? = some true)

/-- The motion is accepted in floats in some batch of motions in the box. -/
noncomputable def acceptedOnceR (dotR : ℝ × ℝ → ℝ × ℝ → ℝ) (R : ℝ) (robot : List (ℝ × ℝ)) (hulls : List (List (ℝ × ℝ))) (p q : Space 2) : Bool := by
  classical exact decide (AcceptedR dotR R robot hulls (p 0, p 1) (q 0, q 1))

/-- The float check on batches of motions in the box; elsewhere it accepts what is accepted in some batch. -/
noncomputable def guardedR (dotR : ℝ × ℝ → ℝ × ℝ → ℝ) (R : ℝ) (robot : List (ℝ × ℝ)) (hulls : List (List (ℝ × ℝ))) : Batch (Space 2) := by
  classical exact fun ms => if ∀ m ∈ ms, m.1 ∈ boxR R ∧ m.2 ∈ boxR R then batchR fl dotR (fun x : Space 2 => (x 0, x 1)) robot hulls ms
    else .ok (ms.map fun m => acceptedOnceR dotR R robot hulls m.1 m.2)

theorem batchR_nil (dotR : ℝ × ℝ → ℝ × ℝ → ℝ) (robot : List (ℝ × ℝ)) (hulls : List (List (ℝ × ℝ))) :
    batchR fl dotR (fun x : Space 2 => (x 0, x 1)) robot hulls [] = .error .value := rfl

theorem guardedR_between {dotR : ℝ × ℝ → ℝ × ℝ → ℝ} (hd : DotAccurate dotR (2 ^ (-53 : ℤ)) (2 ^ (-1075 : ℤ))) {R : ℝ} {robot : List (ℝ × ℝ)} {hulls : List (List (ℝ × ℝ))}
    (hB : FloatBodies R robot hulls) : (guardedR dotR R robot hulls).Between (acceptedAlwaysR dotR R robot hulls) (acceptedOnceR dotR R robot hulls) := by
  classical
  have inside : ∀ ms : List (Space 2 × Space 2), (∀ m ∈ ms, m.1 ∈ boxR R ∧ m.2 ∈ boxR R) →
      ∀ m ∈ ms.map fun m => ((m.1 0, m.1 1), (m.2 0, m.2 1)), (|m.1.1| ≤ R ∧ |m.1.2| ≤ R) ∧ |m.2.1| ≤ R ∧ |m.2.2| ≤ R := by
    intro ms h m hm
    obtain ⟨c, hc, rfl⟩ := List.mem_map.1 hm
    exact h c hc
  have good : ∀ ms : List (Space 2 × Space 2), ms ≠ [] → (∀ m ∈ ms, m.1 ∈ boxR R ∧ m.2 ∈ boxR R) →
      ∃ rs, batchR fl dotR (fun x : Space 2 => (x 0, x 1)) robot hulls ms = .ok rs ∧ rs.length = ms.length := by
    intro ms hne h
    obtain ⟨N, rs, -, h1, h2, -⟩ := C137_motion_poses dotR hd R robot hulls (ms.map fun m => ((m.1 0, m.1 1), (m.2 0, m.2 1))) hB (by simpa using hne) (inside ms h)
    exact ⟨rs, h1, by rw [h2, List.length_map]⟩
  refine ⟨?_, ?_, ?_, ?_⟩
  · intro ms hne
    unfold guardedR
    split_ifs with h
    · obtain ⟨rs, h1, -⟩ := good ms hne h
      exact ⟨rs, h1⟩
    · exact ⟨_, rfl⟩
  · intro ms rs h
    have hne : ms ≠ [] := by
      rintro rfl
      unfold guardedR at h
      rw [if_pos (by simp)] at h
      cases h
    unfold guardedR at h
    split_ifs at h with h'
    · obtain ⟨rs', h1, h2⟩ := good ms hne h'
      cases h1.symm.trans h
      exact h2
    · cases h
      rw [List.length_map]
  · intro ms rs i p q h hi hlo
    unfold acceptedAlwaysR at hlo
    obtain ⟨hp, hq, hlo⟩ := of_decide_eq_true hlo
    unfold guardedR at h
    split_ifs at h with h'
    · obtain ⟨rs', h1, h2⟩ := hlo _ i (inside ms h') (by rw [List.getElem?_map, hi]; rfl)
      cases h1.symm.trans h
      exact h2
    · cases h
      rw [List.getElem?_map, hi]
      simp only [Option.map_some, Option.some.injEq]
      unfold acceptedOnceR
      apply decide_eq_true
      have hin : ∀ m ∈ [(((p 0, p 1), (q 0, q 1)) : (ℝ × ℝ) × (ℝ × ℝ))], (|m.1.1| ≤ R ∧ |m.1.2| ≤ R) ∧ |m.2.1| ≤ R ∧ |m.2.2| ≤ R := by
        intro m hm
        rw [List.mem_singleton.1 hm]
        exact ⟨hp, hq⟩
      obtain ⟨rs', h1, h2⟩ := hlo [((p 0, p 1), (q 0, q 1))] 0 hin rfl
      exact ⟨_, rs', 0, hin, h1, rfl, h2⟩
  · intro ms rs i p q h hi hr
    unfold guardedR at h
    split_ifs at h with h'
    · unfold acceptedOnceR
      apply decide_eq_true
      exact ⟨_, rs, i, inside ms h', h, by rw [List.getElem?_map, hi]; rfl, hr⟩
    · cases h
      rw [List.getElem?_map, hi] at hr
      simpa using hr

theorem guardedR_agree (dotR : ℝ × ℝ → ℝ × ℝ → ℝ) (R : ℝ) (robot : List (ℝ × ℝ)) (hulls : List (List (ℝ × ℝ))) :
    (batchR fl dotR (fun x : Space 2 => (x 0, x 1)) robot hulls).AgreeOn (guardedR dotR R robot hulls) (boxR R) := by
  classical
  intro ms h
  unfold guardedR
  rw [if_pos h]

theorem ae_mem_of_uniform {dim : ℕ} {X : ℕ → Ω → Space dim} {S : Set (Space dim)} (hX : IidUniform Pr X S) (hS : MeasurableSet S) : Pr {ω | ¬ ∀ i, X i ω ∈ S} = 0 := by
  have e : {ω | ¬ ∀ i, X i ω ∈ S} = ⋃ i, X i ⁻¹' Sᶜ := by
    ext ω
    simp
  rw [e, measure_iUnion_null_iff]
  intro i
  rw [← Measure.map_apply (hX.measurable i) hS.compl, hX.uniform i, ProbabilityTheory.cond_apply hS]
  simp

/-- C139 in the hallway world, with the turtlebot's motion check in floats as it is called, on whole batches, and with rounded counts. The walls the check gets are rectangles whose
corners are within `ε` of the true ones (at most 2 mm). If a path with the clearance given to the bound exists for a body larger by `ε + 2^-30` on each side, the call finds a path, or
it raises ValueError at a count before the sufficient one at which no sample was within the radius of the start or the goal. All configurations of the path it finds are
within `2ε + 2^-30` of the house. -/
theorem C139_hallway_partial {dotR : ℝ × ℝ → ℝ × ℝ → ℝ} (hd : DotAccurate dotR (2 ^ (-53 : ℤ)) (2 ^ (-1075 : ℤ))) {scale dd : ℝ} {num : ℕ} {u : ℕ → ℝ} {P : Problem}
    (hP : hallwayManip scale dd num u = .ok P) (hg0 : 0 ≤ P.gap) (hg : P.gap ≤ 7 / 5) {bounds : (ℝ × ℝ) × (ℝ × ℝ)} (hbd : extents P.obstacles = .ok bounds)
    {R ε a b : ℝ} (hR4 : 4 ≤ R) (hR : R ≤ 1024) (hε0 : 0 ≤ ε) (hε : ε ≤ 1 / 500) (ha : 0 < a) (hb : 0 < b) {hulls : List (List (ℝ × ℝ))}
    (hB : FloatBodies R [(-a, -b), (a, -b), (a, b), (-a, b)] hulls) (hnear : NearWalls ε P.obstacles hulls) (hrect : Rectangles hulls)
    {U : ℕ → Ω → Fin 2 → ℝ} (hU : UnitDraws Pr U) {δ p : ℝ} (hδ : 0 < δ) {tol : Option ℝ} (ht : TolNonneg tol)
    {fuel N : ℕ} {r : ℝ} (h : numericalBound δ p 16 2 tol fuel = some (.ok (N, r)))
    {minS maxS : ℕ} (h2 : 2 ≤ minS) (hM : maxS < 2 ^ 53) {factor : ℝ} (hf : 1 ≤ minS * (factor - 1)) {counts : ℕ → ℝ} (hn0 : counts 0 = minS)
    (hn : ∀ i, counts (i + 1) = fl (counts i * factor)) {i : ℕ} (hi : counts i < maxS + 1)
    (hN : N ≤ ⌊counts i⌋₊) {k : ℕ} (hk : 1 ≤ k) (hk2 : k + 1 ≤ ⌊counts i⌋₊) (tr : Bool) (d : ℕ) :
    Pr {ω | ¬ ∀ (w : World (Space 2) ℝ) (start goal : ℝ × ℝ) (γ : ℝ → Space 2),
        w.Sound → (∀ p q, w.dist p q = dist p q) → (∀ i, w.draw i = plane (sampleFromEnv bounds (U i ω 0, U i ω 1))) → KnnWorld w → (tr = true → w.VisitsAll) →
        start ∈ house (3 / 2) (P.gap + 1 / 10) →
        ClearPath (freeSet P.obstacles (block (a + (ε + 2 ^ (-30 : ℤ))) (b + (ε + 2 ^ (-30 : ℤ))))) δ (plane start) (plane goal) γ →
        ∃ fuel used answer,
          planB w (batchR fl dotR (fun x : Space 2 => (x 0, x 1)) [(-a, -b), (a, -b), (a, b), (-a, b)] hulls) (plane start) (plane goal) minS maxS (scaleR factor)
            k tr d fuel = some (used, answer) ∧
          ((∃ j < i, answer = .error .value ∧ ¬ (w.Reached k tr d ⌊counts j⌋₊ (plane start) ∧ w.Reached k tr d ⌊counts j⌋₊ (plane goal))) ∨
            ∃ path, answer = .ok (some (plane start :: path ++ [plane goal])) ∧ path ≠ [] ∧
              ((plane start :: path ++ [plane goal]).IsChain fun p q =>
                AcceptedR dotR R [(-a, -b), (a, -b), (a, b), (-a, b)] hulls (p 0, p 1) (q 0, q 1) ∨
                  AcceptedR dotR R [(-a, -b), (a, -b), (a, b), (-a, b)] hulls (q 0, q 1) (p 0, p 1)) ∧
              ∀ x ∈ path, NearHouse (3 / 2) (P.gap + 1 / 10) (2 * ε + 2 ^ (-30 : ℤ)) (x 0, x 1))} ≤
      ENNReal.ofReal (1 - p) + EReal.exp (tailKL ⌊counts i⌋₊ k r 2 9.92) := by
  obtain ⟨bounds', e1, hX, hvol, hle⟩ := C92_uniform hP hg0 hg hU
  rw [hbd] at e1
  cases e1
  obtain ⟨-, hsub⟩ := C92_bounds hP hg0 hg
  obtain ⟨-, -, -, ho, -⟩ := manip_eq hP
  have hmeas : MeasurableSet worldBox := by
    rw [worldBox_eq]
    exact (PiLp.volume_preserving_ofLp (Fin 2)).measurable measurableSet_Icc
  have hbox : worldBox ⊆ boxR R := by
    rintro x ⟨x1, x2, x3, x4⟩
    norm_num at x1 x2 x3 x4
    exact ⟨abs_le.2 ⟨by linarith, by linarith⟩, abs_le.2 ⟨by linarith, by linarith⟩⟩
  have hη : (0 : ℝ) < ε + 2 ^ (-30 : ℤ) := by positivity
  set η := ε + (2 : ℝ) ^ (-30 : ℤ) with hηdef
  have ha' : 0 < a + η := by linarith
  have hb' : 0 < b + η := by linarith
  have key := C139_anytime_partial hX hmeas (by norm_num) (by rw [hvol]; exact hle) (by norm_num) hvol.ge hδ ht h
    (F := freeSet P.obstacles (block (a + η) (b + η)) ∩ {x | (x 0, x 1) ∈ house (3 / 2) (P.gap + 1 / 10)}) (fun x hx => hsub hx.2) h2 hM hf hn0 hn hi hN hk hk2 tr d
  have key' := add_le_add (ae_mem_of_uniform hX hmeas).le key
  rw [zero_add] at key'
  refine (measure_mono ?_).trans ((measure_union_le _ _).trans key')
  intro ω hω
  by_cases hin : ∀ i, plane (sampleFromEnv bounds (U i ω 0, U i ω 1)) ∈ worldBox
  swap
  · exact .inl hin
  right
  intro hgood
  apply hω
  intro w start goal γ hw hdist hdraw hK hvis hst hγ
  have hE : EuclideanWorld (w.withCheck (acceptedAlwaysR dotR R [(-a, -b), (a, -b), (a, b), (-a, b)] hulls))
      (freeSet P.obstacles (block (a + η) (b + η)) ∩ {x | (x 0, x 1) ∈ house (3 / 2) (P.gap + 1 / 10)})
      fun i => plane (sampleFromEnv bounds (U i ω 0, U i ω 1)) := by
    classical
    refine ⟨hw.withCheck _, hdist, hdraw, ?_⟩
    intro x y hxy
    unfold World.withCheck acceptedAlwaysR
    apply decide_eq_true
    refine ⟨hbox (hsub (hxy (left_mem_segment ℝ x y)).2), hbox (hsub (hxy (right_mem_segment ℝ x y)).2), ?_⟩
    intro motions i hm1 hm
    refine C138_free hd hP hg hR hε0 ha hb hB hnear hrect hm1 hm ?_
    rintro _ ⟨s, t, hs, ht, hst, rfl⟩
    have := (hxy ⟨s, t, hs, ht, hst, rfl⟩).1
    rw [← hηdef]
    simpa [freeSet] using this
  have hpath : ClearPath (freeSet P.obstacles (block (a + η) (b + η)) ∩ {x | (x 0, x 1) ∈ house (3 / 2) (P.gap + 1 / 10)}) δ (plane start) (plane goal) γ := by
    refine ⟨hγ.continuous, hγ.start, hγ.goal, ?_⟩
    intro t ht y hy
    refine ⟨hγ.clear t ht hy, ?_⟩
    have hb0 := hγ.clear t ht
    rw [ho] at hb0
    have hfree : ∀ t ∈ Set.Icc (0 : ℝ) 1, FreeAt (rooms (3 / 2) (P.gap + 1 / 10)) (block (a + η) (b + η)) (γ t 0, γ t 1) := fun t ht => by
      have := hγ.clear t ht (Metric.mem_ball_self hδ)
      rw [ho] at this
      exact this
    have h2' : P.gap + 1 / 10 ≤ 3 / 2 := by linarith
    refine house_of_ball h2' ha'.le hb'.le hb0 ?_ hy
    refine house_of_path h2' hγ.continuous (fun t ht => clear_of_free (block_zero ha'.le hb'.le) (hfree t ht)) ?_ ht
    rw [hγ.start]
    simpa [plane] using hst
  have hin' : ∀ t ∈ Set.Icc (0 : ℝ) 1, γ t ∈ boxR R := fun t ht => hbox (hsub (hpath.clear t ht (Metric.mem_ball_self hδ)).2)
  obtain ⟨fuel, used, answer, h1, h3⟩ := hgood w (guardedR dotR R [(-a, -b), (a, -b), (a, b), (-a, b)] hulls) _ _ .value (plane start) (plane goal) γ hE hK hvis
    (guardedR_between hd hB) ((guardedR_agree dotR R _ hulls [] (by simp)).symm.trans (batchR_nil _ _ _)) hpath
  rw [← planB_congr (guardedR_agree dotR R _ hulls) (fun i => by rw [hdraw]; exact hbox (hin i)) (hγ.start ▸ hin' 0 (by simp)) (hγ.goal ▸ hin' 1 (by simp))] at h1
  refine ⟨fuel, used, answer, h1, ?_⟩
  rcases h3 with h3 | ⟨path, h4, h5, h6⟩
  · exact .inl h3
  · classical
    have hchain : (plane start :: path ++ [plane goal]).IsChain fun p q =>
        AcceptedR dotR R [(-a, -b), (a, -b), (a, b), (-a, b)] hulls (p 0, p 1) (q 0, q 1) ∨
          AcceptedR dotR R [(-a, -b), (a, -b), (a, b), (-a, b)] hulls (q 0, q 1) (p 0, p 1) := by
      refine h6.imp fun p q hpq => ?_
      unfold acceptedOnceR at hpq
      exact hpq.imp of_decide_eq_true of_decide_eq_true
    refine .inr ⟨path, h4, h5, hchain, ?_⟩
    have hull : ((0, 0) : ℝ × ℝ) ∈ polygonHull [(-a, -b), (a, -b), (a, b), (-a, b)] := by
      have := rect_hull_block ha.le hb.le
      unfold rect at this
      rw [this]
      exact block_zero ha.le hb.le
    have hmap := (List.isChain_map (f := fun x : Space 2 => ((x 0, x 1) : ℝ × ℝ))
      (R := fun p q => AcceptedR dotR R [(-a, -b), (a, -b), (a, b), (-a, b)] hulls p q ∨ AcceptedR dotR R [(-a, -b), (a, -b), (a, b), (-a, b)] hulls q p)).2 hchain
    rw [List.map_append, List.map_cons, List.cons_append] at hmap
    have := C138_stays hd hP hg hR hε0 hε hB hnear hull hmap (by simpa [plane] using hst)
    intro x hx
    exact this _ (List.mem_append_left _ (List.mem_map_of_mem hx))

/-- The hypotheses of C139 are met in a hallway of gap 0.8 with rounded corners for a body of half-width 0.15 (the enlarged body has half-width less than 0.2 and clearance 0.2),
success probability 1/2: a count is returned, the second rounded count is at least this count, there are a sampler and planners, the middle line is a path of this clearance, and the two
failure probabilities add up to at most 3/4. -/
theorem C139_nonvacuous : ∃ P, hallwayManip (3 / 10) (4926 / 10000) 1 (fun _ => 1 / 2) = .ok P ∧ 0 ≤ P.gap ∧ P.gap ≤ 7 / 5 ∧ (∃ bounds, extents P.obstacles = .ok bounds) ∧
    FloatBodies 8 [(-0.15, -0.15), (0.15, -0.15), (0.15, 0.15), (-0.15, 0.15)] (roundedWalls P.obstacles) ∧
    NearWalls (2 ^ (-49 : ℤ)) P.obstacles (roundedWalls P.obstacles) ∧ Rectangles (roundedWalls P.obstacles) ∧ P.start ∈ house (3 / 2) (P.gap + 1 / 10) ∧
    (∃ γ, ClearPath (freeSet P.obstacles (block (0.15 + (2 ^ (-49 : ℤ) + 2 ^ (-30 : ℤ))) (0.15 + (2 ^ (-49 : ℤ) + 2 ^ (-30 : ℤ))))) (1 / 5)
      (plane P.start) (plane (9 / 4, 3 / 4)) γ) ∧
    (∃ Pr : Measure (ℕ → Fin 2 → ℝ), IsProbabilityMeasure Pr ∧ UnitDraws Pr fun i x => x i) ∧
    (∀ x : ℕ → ℝ × ℝ, ∃ w : World (Space 2) ℝ, w.Sound ∧ (∀ p q, w.dist p q = dist p q) ∧ (∀ i, w.draw i = plane (x i)) ∧ KnnWorld w ∧ w.VisitsAll) ∧
    ∃ (fuel N : ℕ) (r : ℝ) (m : ℕ) (counts : ℕ → ℝ), numericalBound (1 / 5) (1 / 2) 16 2 none fuel = some (.ok (N, r)) ∧ 2 ≤ m ∧ 2 * m < 2 ^ 53 ∧ 1 ≤ (m : ℝ) * (2 - 1) ∧
      counts 0 = m ∧ (∀ i, counts (i + 1) = fl (counts i * 2)) ∧ counts 1 < (2 * m : ℕ) + 1 ∧ N ≤ ⌊counts 1⌋₊ ∧ 1 ≤ 2 * m - 1 ∧ 2 * m - 1 + 1 ≤ ⌊counts 1⌋₊ ∧
      ENNReal.ofReal (1 - 1 / 2) + EReal.exp (tailKL ⌊counts 1⌋₊ (2 * m - 1 : ℕ) r 2 9.92) ≤ ENNReal.ofReal (3 / 4) := by
  obtain ⟨P, hP⟩ := (C88_answers (3 / 10) (4926 / 10000) 1 fun _ => 1 / 2).2 (by norm_num)
  obtain ⟨-, -, -, hgap⟩ := C88_sizes (fun _ => by norm_num) hP
  have hg : P.gap = 4 / 5 := by rw [hgap]; norm_num
  obtain ⟨-, -, -, ho, hs⟩ := manip_eq hP
  obtain ⟨γ, hγ, -⟩ := C89_passes hP (by rw [hg]; norm_num) (a := 1 / 5) (b := 1 / 5) (by norm_num) (by norm_num) (by rw [hg]; norm_num)
  obtain ⟨w1, w2, w3⟩ := rounded_facts (L := 3 / 2) (h := P.gap + 1 / 10) (by norm_num) (by rw [hg]; norm_num) (by norm_num) (by rw [hg]; norm_num)
  rw [← ho] at w1 w2 w3
  refine ⟨P, hP, by rw [hg]; norm_num, by rw [hg]; norm_num, ⟨_, (C92_bounds hP (by rw [hg]; norm_num) (by rw [hg]; norm_num)).1⟩,
    rect_bodies (by norm_num) (by norm_num) (by norm_num) (by norm_num) w3, w1, w2, ?_, ⟨γ, ?_⟩, exists_unitDraws _,
    fun x => ⟨turtleWorld [] [] x, (turtleWorld_turtle [] [] x).sound, (turtleWorld_turtle [] [] x).dist, (turtleWorld_turtle [] [] x).draw, turtleWorld_knn [] [] x, fun _ _ => ⟨fun _ he => he, fun _ he _ => he⟩⟩, ?_⟩
  · rw [hs]
    left; left; exact ⟨by norm_num, by norm_num, by norm_num, by norm_num⟩
  · have hγ' : ClearPath (freeSet P.obstacles (block (1 / 5) (1 / 5))) (1 / 5) (plane P.start) (plane (9 / 4, 3 / 4)) γ := by
      rw [show (1 : ℝ) / 5 = P.gap / 2 - 1 / 5 by rw [hg]; norm_num] at hγ ⊢
      rw [hg] at hγ ⊢
      norm_num at hγ ⊢
      exact hγ
    refine ⟨hγ'.continuous, hγ'.start, hγ'.goal, fun t ht => (hγ'.clear t ht).trans ?_⟩
    have hsm : (2 : ℝ) ^ (-49 : ℤ) + 2 ^ (-30 : ℤ) ≤ 1 / 1000 := by norm_num
    generalize (2 : ℝ) ^ (-49 : ℤ) + 2 ^ (-30 : ℤ) = d at *
    have hsub : block (0.15 + d) (0.15 + d) ⊆ block (1 / 5) (1 / 5) := by
      rintro x ⟨x1, x2⟩
      norm_num at x1 x2
      exact ⟨by linarith, by linarith⟩
    exact fun x hx o ho v hv => hx o ho v (hsub hv)
  · have hpi := Real.pi_gt_three
    have hpi2 := Real.pi_lt_d2
    obtain ⟨fuel, N, r, h⟩ := C03_answers_partial (δ := 1 / 5) (p := 1 / 2) (vol := 16) (dim := 2) (tol := none)
      (by norm_num) (by norm_num) trivial (by norm_num) (by norm_num) ⟨20000, by norm_num, by norm_num, hallway_count⟩
    have hN : N ≤ 20000 := by
      by_contra hc
      have hleast := (C02_least (tol := none) (by norm_num) (by norm_num) trivial h).2 20000 (by norm_num) (by omega)
      exact absurd hallway_count (not_le.2 hleast)
    have hr : r = 2 / 5 := by
      obtain ⟨-, -, hr, -⟩ := numericalBound_ok h
      rw [hr]
      norm_num [alpha]
    have hq : ballFraction r 2 9.92 = Real.pi * (4 / 25) / 9.92 := by
      rw [hr, ballFraction_eq (by norm_num) (by norm_num), volume_disc _ (by norm_num), ENNReal.toReal_ofReal (by positivity)]
      ring
    have hc1 : (scaleR 2)^[1] ((N + 4 : ℕ) : ℝ) = (2 * (N + 4) : ℕ) := by
      rw [Function.iterate_one]
      unfold scaleR
      rw [show ((N + 4 : ℕ) : ℝ) * 2 = (2 * (N + 4) : ℕ) by push_cast; ring]
      exact fl_float (nat_isFloat (by omega))
    refine ⟨fuel, N, r, N + 4, fun i => (scaleR 2)^[i] ((N + 4 : ℕ) : ℝ), h, by omega, by omega, ?_, rfl, fun i => Function.iterate_succ_apply' _ _ _, ?_, ?_, by omega, ?_, ?_⟩
    · push_cast
      have : (0 : ℝ) ≤ N := Nat.cast_nonneg _
      linarith
    · simp only [hc1]
      linarith
    · simp only [hc1, Nat.floor_natCast]
      omega
    · simp only [hc1, Nat.floor_natCast]
      omega
    · simp only [hc1, Nat.floor_natCast]
      refine (add_le_add le_rfl (tail_small (m := 2 * (N + 4)) (by omega) ?_ ?_)).trans ?_
      · rw [hq]; positivity
      · rw [hq, div_le_iff₀ (by norm_num)]
        norm_num at hpi2 ⊢
        linarith
      · rw [← ENNReal.ofReal_add (by norm_num) (by norm_num)]
        norm_num

end Verif.Props
