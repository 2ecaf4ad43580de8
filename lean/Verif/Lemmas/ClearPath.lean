import Mathlib.Analysis.InnerProductSpace.Basic
import Mathlib.Analysis.Convex.Combination
import Mathlib.Topology.Order.ProjIcc
import Mathlib.Topology.Order.IntermediateValue
import Mathlib.Topology.Algebra.Order.LiminfLimsup
import Mathlib.Tactic.Linarith
import Mathlib.Tactic.Ring
import Mathlib.Tactic.NormNum
import Verif.Spec.Sampling

/-! Chains of samples along a path with clearance. -/

namespace Verif.Net

open Verif.Prm Verif.Spec

variable {E : Type*} [NormedAddCommGroup E] [InnerProductSpace ℝ E]

/-- Two samples in one ball of clearance. -/
theorem segment_ball {F : Set E} {c x y : E} {δ : ℝ} (hF : Metric.ball c δ ⊆ F) (hx : dist x c < δ) (hy : dist y c < δ) :
    segment ℝ x y ⊆ F :=
  ((convex_ball c δ).segment_subset hx hy).trans hF

/-- Samples in neighbouring balls: the segment stays in the two balls of clearance. -/
theorem segment_two_balls {F : Set E} {c c' x x' : E} {δ ρ D : ℝ} (hF : Metric.ball c δ ⊆ F) (hF' : Metric.ball c' δ ⊆ F)
    (hδ : 0 < δ) (hx : dist x c < ρ) (hx' : dist x' c' < ρ) (hD : dist c c' ≤ D) (hρD : D ^ 2 / 4 + ρ ^ 2 ≤ δ ^ 2) :
    segment ℝ x x' ⊆ F := by
  rintro y ⟨a, b, ha, hb, hab, rfl⟩
  have hρ : 0 < ρ := dist_nonneg.trans_lt hx
  set w : E := a • (x - c) + b • (x' - c') with hw
  set e : E := c' - c with he
  have hwn : ‖w‖ < ρ := by
    have h1 : ‖w‖ ≤ a * ‖x - c‖ + b * ‖x' - c'‖ := by
      refine (norm_add_le _ _).trans ?_
      rw [norm_smul, norm_smul, Real.norm_of_nonneg ha, Real.norm_of_nonneg hb]
    rw [dist_eq_norm] at hx hx'
    rcases ha.eq_or_lt with rfl | ha'
    · have hb1 : b = 1 := by linarith
      subst hb1
      linarith
    · nlinarith
  have hen : ‖e‖ ≤ D := by rwa [dist_comm, dist_eq_norm] at hD
  have h1 : a • x + b • x' - c = b • e + w := by
    have : c = a • c + b • c := by rw [← add_smul, hab, one_smul]
    conv_lhs => rw [this]
    rw [hw, he]
    module
  have h2 : a • x + b • x' - c' = w - a • e := by
    have : c' = a • c' + b • c' := by rw [← add_smul, hab, one_smul]
    conv_lhs => rw [this]
    rw [hw, he]
    module
  have h3 : a * ‖b • e + w‖ ^ 2 + b * ‖w - a • e‖ ^ 2 = a * b * ‖e‖ ^ 2 + ‖w‖ ^ 2 := by
    rw [norm_add_sq_real, norm_sub_sq_real, norm_smul, norm_smul, Real.norm_of_nonneg ha, Real.norm_of_nonneg hb,
      inner_smul_left, inner_smul_right, real_inner_comm e w]
    simp only [conj_trivial]
    have hb' : b = 1 - a := by linarith
    subst hb'
    ring
  have hab4 : a * b ≤ 1 / 4 := by nlinarith [sq_nonneg (a - b)]
  have h4 : a * ‖b • e + w‖ ^ 2 + b * ‖w - a • e‖ ^ 2 < δ ^ 2 := by
    rw [h3]
    have h5 : ‖e‖ ^ 2 ≤ D ^ 2 := by
      have := norm_nonneg e
      gcongr
    have h6 : ‖w‖ ^ 2 < ρ ^ 2 := by
      have := norm_nonneg w
      gcongr
    have h7 : a * b * ‖e‖ ^ 2 ≤ 1 / 4 * D ^ 2 := by
      have := mul_nonneg ha hb
      have := sq_nonneg ‖e‖
      gcongr
    linarith
  by_cases h : ‖b • e + w‖ < δ
  · apply hF
    rw [Metric.mem_ball, dist_eq_norm, h1]
    exact h
  · apply hF'
    rw [Metric.mem_ball, dist_eq_norm, h2]
    by_contra h'
    rw [not_lt] at h h'
    have h5 : δ ^ 2 ≤ ‖b • e + w‖ ^ 2 := by gcongr
    have h6 : δ ^ 2 ≤ ‖w - a • e‖ ^ 2 := by gcongr
    nlinarith

/-- The connectedness argument: samples near every point of a path can be chained. -/
theorem exists_chain {X : Type*} [TopologicalSpace X] [PreconnectedSpace X] {γ : X → E} (hγ : Continuous γ) {S : List E} {ρ : ℝ}
    (hnet : ∀ t, ∃ p ∈ S, dist p (γ t) < ρ) (t₀ t₁ : X) :
    ∃ pts : List E, pts ≠ [] ∧ (∀ p ∈ pts, p ∈ S) ∧
      (γ t₀ :: pts ++ [γ t₁]).IsChain fun p q => ∃ t, dist p (γ t) < ρ ∧ dist q (γ t) < ρ := by
  obtain ⟨p₀, hp₀, hd₀⟩ := hnet t₀
  have hρ : 0 < ρ := dist_nonneg.trans_lt hd₀
  set R : E → E → Prop := fun p q => q ∈ S ∧ ∃ t, dist p (γ t) < ρ ∧ dist q (γ t) < ρ with hR
  have hopen : ∀ T : Set E, IsOpen {t | ∃ p ∈ S, p ∈ T ∧ dist p (γ t) < ρ} := by
    intro T
    have : {t | ∃ p ∈ S, p ∈ T ∧ dist p (γ t) < ρ} = ⋃ p ∈ {p | p ∈ S ∧ p ∈ T}, γ ⁻¹' {y | dist p y < ρ} := by
      ext t
      simp [and_assoc]
    rw [this]
    refine isOpen_biUnion fun p _ => IsOpen.preimage hγ ?_
    exact isOpen_lt (continuous_const.dist continuous_id) continuous_const
  set T : Set E := {p | Relation.ReflTransGen R p₀ p} with hT
  have hclopen : IsClopen {t | ∃ p ∈ S, p ∈ T ∧ dist p (γ t) < ρ} := by
    refine ⟨⟨?_⟩, hopen T⟩
    convert hopen Tᶜ using 1
    ext t
    simp only [Set.mem_compl_iff, Set.mem_ofPred_eq, not_exists, not_and, not_lt]
    constructor
    · intro h
      obtain ⟨p, hp, hd⟩ := hnet t
      exact ⟨p, hp, fun hpT => absurd hd (not_lt.2 (h p hp hpT)), hd⟩
    · rintro ⟨q, hq, hqT, hqd⟩ p hp hpT
      by_contra hd
      rw [not_le] at hd
      exact hqT (Relation.ReflTransGen.tail hpT ⟨hq, t, hd, hqd⟩)
  have huniv := hclopen.eq_univ ⟨t₀, p₀, hp₀, Relation.ReflTransGen.refl, hd₀⟩
  obtain ⟨p₁, hp₁, hT₁, hd₁⟩ : t₁ ∈ {t | ∃ p ∈ S, p ∈ T ∧ dist p (γ t) < ρ} := by rw [huniv]; trivial
  -- the chain of samples
  have hlist : ∀ p, Relation.ReflTransGen R p p₁ → p ∈ S → ∃ l : List E, (∀ q ∈ p :: l, q ∈ S) ∧
      (p :: l ++ [γ t₁]).IsChain fun p q => ∃ t, dist p (γ t) < ρ ∧ dist q (γ t) < ρ := by
    intro p hp
    induction hp using Relation.ReflTransGen.head_induction_on with
    | refl =>
      intro hS
      refine ⟨[], by simpa using hS, ?_⟩
      simp only [List.cons_append, List.nil_append, List.isChain_pair]
      exact ⟨t₁, hd₁, by simpa using hρ⟩
    | @head p p' h _ ih =>
      intro hS
      obtain ⟨l, hl, hc⟩ := ih h.1
      refine ⟨p' :: l, ?_, ?_⟩
      · intro q hq
        rcases List.mem_cons.1 hq with rfl | hq
        · exact hS
        · exact hl q hq
      · rw [List.cons_append, List.cons_append, List.isChain_cons_cons]
        exact ⟨h.2, hc⟩
  obtain ⟨l, hl, hc⟩ := hlist p₀ hT₁ hp₀
  refine ⟨p₀ :: l, by simp, hl, ?_⟩
  rw [List.cons_append, List.cons_append, List.isChain_cons_cons]
  exact ⟨⟨t₀, by simpa using hρ, hd₀⟩, hc⟩

/-- Way points at distance exactly `D` along a path of finite length. -/
theorem exists_waypoints {γ : ℝ → E} {D : ℝ} (hD : 0 < D) (k : ℕ) : ∀ {a V : ℝ}, a ∈ Set.Icc (0 : ℝ) 1 → ContinuousOn γ (Set.Icc a 1) →
    eVariationOn γ (Set.Icc a 1) ≤ ENNReal.ofReal V → 0 ≤ V → V < (k + 1) * D →
    ∃ qs : List E, (∀ q ∈ qs, ∃ t ∈ Set.Icc (0 : ℝ) 1, γ t = q) ∧ (γ a :: qs ++ [γ 1]).IsChain (fun p q => dist p q ≤ D) ∧
      pathLength dist (γ a :: qs ++ [γ 1]) ≤ V ∧ qs.length * D ≤ V := by
  induction k with
  | zero =>
    intro a V ha hγ hV hV0 hlt
    have hend : dist (γ a) (γ 1) ≤ V := by
      have := eVariationOn.edist_le γ (s := Set.Icc a 1) (x := a) (y := 1) ⟨le_refl _, ha.2⟩ ⟨ha.2, le_refl _⟩
      rw [edist_dist] at this
      exact (ENNReal.ofReal_le_ofReal_iff hV0).1 (this.trans hV)
    refine ⟨[], by simp, ?_, ?_, ?_⟩
    · simp only [List.cons_append, List.nil_append, List.isChain_pair]
      push_cast at hlt
      linarith
    · simpa [pathLength] using hend
    · simpa using hV0
  | succ k ih =>
    intro a V ha hγ hV hV0 hlt
    by_cases hfar : D ≤ dist (γ a) (γ 1)
    · have hIVT : D ∈ (fun t => dist (γ a) (γ t)) '' Set.Icc a 1 := by
        refine intermediate_value_Icc (f := fun t => dist (γ a) (γ t)) ha.2
          (continuous_dist.comp_continuousOn (continuousOn_const.prodMk hγ)) ⟨?_, hfar⟩
        simpa using hD.le
      obtain ⟨t, ht, hDt⟩ := hIVT
      simp only at hDt
      have hadd := eVariationOn.Icc_add_Icc γ (s := Set.univ) ht.1 ht.2 (Set.mem_univ t)
      simp only [Set.univ_inter] at hadd
      have h1 := eVariationOn.edist_le γ (s := Set.Icc a t) (x := a) (y := t) ⟨le_refl _, ht.1⟩ ⟨ht.1, le_refl _⟩
      rw [edist_dist, hDt] at h1
      have hfin : eVariationOn γ (Set.Icc t 1) ≠ ⊤ := by
        intro h
        rw [h] at hadd
        rw [← hadd] at hV
        simp at hV
      have hVt : eVariationOn γ (Set.Icc t 1) ≤ ENNReal.ofReal (V - D) := by
        rw [ENNReal.ofReal_sub _ hD.le]
        apply ENNReal.le_sub_of_add_le_left (by simp)
        calc _ ≤ eVariationOn γ (Set.Icc a t) + eVariationOn γ (Set.Icc t 1) := by gcongr
          _ ≤ _ := by rw [hadd]; exact hV
      have hDV : D ≤ V := by
        have : ENNReal.ofReal D ≤ ENNReal.ofReal V := h1.trans ((le_add_right (le_refl _)).trans (hadd.le.trans hV))
        exact (ENNReal.ofReal_le_ofReal_iff hV0).1 this
      obtain ⟨qs, h2, h3, h4, h5⟩ := ih (a := t) (V := V - D) ⟨ha.1.trans ht.1, ht.2⟩
        (hγ.mono (Set.Icc_subset_Icc_left ht.1)) hVt (by linarith) (by push_cast at hlt ⊢; linarith)
      refine ⟨γ t :: qs, ?_, ?_, ?_, ?_⟩
      · intro q hq
        rcases List.mem_cons.1 hq with rfl | hq
        · exact ⟨t, ⟨ha.1.trans ht.1, ht.2⟩, rfl⟩
        · exact h2 q hq
      · rw [List.cons_append, List.cons_append, List.isChain_cons_cons]
        exact ⟨hDt.le, h3⟩
      · have : pathLength dist (γ a :: (γ t :: qs) ++ [γ 1]) = dist (γ a) (γ t) + pathLength dist (γ t :: qs ++ [γ 1]) := rfl
        rw [this, hDt]
        linarith
      · simp only [List.length_cons]
        push_cast
        linarith
    · have hend : dist (γ a) (γ 1) ≤ V := by
        have := eVariationOn.edist_le γ (s := Set.Icc a 1) (x := a) (y := 1) ⟨le_refl _, ha.2⟩ ⟨ha.2, le_refl _⟩
        rw [edist_dist] at this
        exact (ENNReal.ofReal_le_ofReal_iff hV0).1 (this.trans hV)
      refine ⟨[], by simp, ?_, ?_, ?_⟩
      · simp only [List.cons_append, List.nil_append, List.isChain_pair]
        linarith
      · simpa [pathLength] using hend
      · simpa using hV0

omit [InnerProductSpace ℝ E] in
/-- Moving the inner points of a chain by less than `ρ` each. -/
theorem pathLength_perturb {ρ : ℝ} (b : E) {xs qs : List E} (h : List.Forall₂ (fun x q => dist x q < ρ) xs qs) : ∀ y z : E,
    pathLength dist (y :: xs ++ [b]) ≤ dist y z + pathLength dist (z :: qs ++ [b]) + 2 * ρ * qs.length := by
  induction h with
  | nil =>
    intro y z
    simp only [List.cons_append, List.nil_append, pathLength, add_zero, List.length_nil, Nat.cast_zero, mul_zero]
    exact dist_triangle y z b
  | @cons x q xs qs hxq _ ih =>
    intro y z
    have h1 : pathLength dist (y :: (x :: xs) ++ [b]) = dist y x + pathLength dist (x :: xs ++ [b]) := rfl
    have h2 : pathLength dist (z :: (q :: qs) ++ [b]) = dist z q + pathLength dist (q :: qs ++ [b]) := rfl
    rw [h1, h2]
    have h3 := ih x q
    have h4 := dist_triangle4 y z q x
    rw [dist_comm q x] at h4
    simp only [List.length_cons]
    push_cast
    linarith

theorem isChain_forall₂ {α β : Type*} {R : α → α → Prop} {N : β → α → Prop} {G : β → β → Prop}
    (h : ∀ x q x' q', N x q → N x' q' → R q q' → G x x') {xs : List β} {qs : List α} (hN : List.Forall₂ N xs qs) (hR : qs.IsChain R) :
    xs.IsChain G := by
  induction hN with
  | nil => exact List.IsChain.nil
  | @cons x q xs qs hxq hrest ih =>
    cases hrest with
    | nil => exact List.IsChain.singleton _
    | @cons x' q' xs qs hxq' hrest' =>
      rw [List.isChain_cons_cons] at hR ⊢
      exact ⟨h _ _ _ _ hxq hxq' hR.1, ih hR.2⟩

/-- A chain of good hops is a chain of samples for the planner. -/
theorem sampleChain_of_isChain {dim : ℕ} {w : World (Space dim) ℝ} {F : Set (Space dim)} {x : ℕ → Space dim} (hw : EuclideanWorld w F x)
    {S pts : List (Space dim)} {r : ℝ} {a b : Space dim} (hne : pts ≠ []) (hS : ∀ p ∈ pts, p ∈ S)
    (hc : (a :: pts ++ [b]).IsChain fun p q => dist p q < r ∧ segment ℝ p q ⊆ F) :
    w.SampleChain S r a b pts ∧ pts.IsChain fun p q => w.dist p q < r := by
  rw [List.isChain_append] at hc
  obtain ⟨h1, -, h2⟩ := hc
  rw [List.isChain_cons] at h1
  refine ⟨⟨hne, hS, ?_, ?_, ?_⟩, h1.2.imp fun p q hpq => by rw [hw.dist]; exact hpq.1⟩
  · intro p hp
    obtain ⟨h3, h4⟩ := h1.1 p hp
    refine ⟨?_, hw.check _ _ h4⟩
    rw [hw.dist, dist_comm]
    exact h3.le
  · intro p hp
    have hp' : (a :: pts).getLast? = some p := by
      cases pts with
      | nil => exact absurd rfl hne
      | cons c l => rwa [List.getLast?_cons_cons]
    obtain ⟨h3, h4⟩ := h2 p hp' b (by simp)
    refine ⟨by rw [hw.dist]; exact h3.le, hw.check _ _ ?_⟩
    rw [segment_symm]
    exact h4
  · refine h1.2.imp fun p q hpq => ⟨by rw [hw.dist]; exact hpq.1.le, Or.inl (hw.check _ _ hpq.2)⟩

/-- Existence: the hops. -/
theorem clearPath_hops {dim : ℕ} {F : Set (Space dim)} {S : List (Space dim)} {r ρ δ : ℝ} {a b : Space dim} {γ : ℝ → Space dim}
    (hγ : ClearPath F δ a b γ) (hρ : ρ ≤ δ) (hr : 2 * ρ ≤ r) (hnet : ∀ c, Metric.ball c δ ⊆ F → ∃ p ∈ S, dist p c < ρ) :
    ∃ pts : List (Space dim), pts ≠ [] ∧ (∀ p ∈ pts, p ∈ S) ∧
      (a :: pts ++ [b]).IsChain fun p q => dist p q < r ∧ segment ℝ p q ⊆ F := by
  have hcont : Continuous fun t : Set.Icc (0 : ℝ) 1 => γ t := continuousOn_iff_continuous_domRestrict.1 hγ.continuous
  obtain ⟨pts, h1, h2, h3⟩ := exists_chain hcont (S := S) (ρ := ρ) (fun t => hnet _ (hγ.clear t t.2)) ⟨0, by simp⟩ ⟨1, by simp⟩
  simp only [hγ.start, hγ.goal] at h3
  refine ⟨pts, h1, h2, h3.imp ?_⟩
  rintro p q ⟨t, hp, hq⟩
  refine ⟨?_, segment_ball (hγ.clear t t.2) (hp.trans_le hρ) (hq.trans_le hρ)⟩
  have := dist_triangle_right p q (γ t)
  linarith

/-- Existence, deterministic part. -/
theorem clearPath_chain {dim : ℕ} {w : World (Space dim) ℝ} {F : Set (Space dim)} {x : ℕ → Space dim} (hw : EuclideanWorld w F x)
    {S : List (Space dim)} {r ρ δ : ℝ} {a b : Space dim} {γ : ℝ → Space dim} (hγ : ClearPath F δ a b γ) (hρ : ρ ≤ δ) (hr : 2 * ρ ≤ r)
    (hnet : ∀ c, Metric.ball c δ ⊆ F → ∃ p ∈ S, dist p c < ρ) :
    ∃ pts, w.SampleChain S r a b pts ∧ pts.IsChain fun p q => w.dist p q < r := by
  obtain ⟨pts, h1, h2, h3⟩ := clearPath_hops hγ hρ hr hnet
  exact ⟨pts, sampleChain_of_isChain hw h1 h2 h3⟩

/-- Length: the hops, and how many there are. -/
theorem clearPath_short_hops_count {dim : ℕ} {F : Set (Space dim)} {S : List (Space dim)} {r ρ δ D L : ℝ} {a b : Space dim}
    {γ : ℝ → Space dim} (hγ : ClearPath F δ a b γ) (hL : LengthAtMost γ L)
    (hL0 : 0 ≤ L) (hδ : 0 < δ) (hD : 0 < D) (hr : D + 2 * ρ ≤ r) (hρD : D ^ 2 / 4 + ρ ^ 2 ≤ δ ^ 2)
    (hnet : ∀ c, Metric.ball c δ ⊆ F → ∃ p ∈ S, dist p c < ρ) :
    ∃ pts : List (Space dim), pts ≠ [] ∧ (∀ p ∈ pts, p ∈ S) ∧
      (a :: pts ++ [b]).IsChain (fun p q => dist p q < r ∧ segment ℝ p q ⊆ F) ∧
      pathLength dist (a :: pts ++ [b]) ≤ L + 2 * ρ / D * max L D ∧ pts.length * D ≤ max L D := by
  have h01 : (0 : ℝ) ∈ Set.Icc (0 : ℝ) 1 := by simp
  obtain ⟨p₀, hp₀, hd₀⟩ := hnet _ (hγ.clear 0 h01)
  have hρ : 0 < ρ := dist_nonneg.trans_lt hd₀
  obtain ⟨k, hk⟩ := exists_nat_gt (L / D)
  have hk' : L < (k + 1) * D := by
    rw [div_lt_iff₀ hD] at hk
    linarith
  obtain ⟨qs, hq1, hq2, hq3, hq4⟩ := exists_waypoints hD k h01 hγ.continuous hL hL0 hk'
  rw [hγ.start, hγ.goal] at hq2 hq3
  -- make sure that there is a way point
  obtain ⟨qs', hne, hm1, hm2, hm3, hm4⟩ : ∃ qs' : List (Space dim), qs' ≠ [] ∧ (∀ q ∈ qs', Metric.ball q δ ⊆ F) ∧
      (a :: qs' ++ [b]).IsChain (fun p q => dist p q ≤ D) ∧ pathLength dist (a :: qs' ++ [b]) ≤ L ∧ qs'.length * D ≤ max L D := by
    cases qs with
    | nil =>
      refine ⟨[a], by simp, ?_, ?_, ?_, ?_⟩
      · intro q hq
        rw [List.mem_singleton.1 hq, ← hγ.start]
        exact hγ.clear 0 h01
      · simp only [List.cons_append, List.nil_append, List.isChain_cons_cons] at hq2 ⊢
        exact ⟨by simpa using hD.le, hq2⟩
      · have : pathLength dist (a :: [a] ++ [b]) = dist a a + pathLength dist (a :: [] ++ [b]) := rfl
        rw [this, dist_self, zero_add]
        exact hq3
      · simp
    | cons q qs =>
      refine ⟨q :: qs, by simp, ?_, hq2, hq3, hq4.trans (le_max_left _ _)⟩
      intro q hq
      obtain ⟨t, ht, rfl⟩ := hq1 q hq
      exact hγ.clear t ht
  obtain ⟨xs, hxs, hxS⟩ : ∃ xs : List (Space dim), List.Forall₂ (fun x q => dist x q < ρ) xs qs' ∧ ∀ x ∈ xs, x ∈ S := by
    clear hne hm2 hm3 hm4
    induction qs' with
    | nil => exact ⟨[], List.Forall₂.nil, by simp⟩
    | cons q qs' ih =>
      obtain ⟨xs, h1, h2⟩ := ih fun q' hq' => hm1 q' (by simp [hq'])
      obtain ⟨y, hy, hyq⟩ := hnet q (hm1 q (by simp))
      refine ⟨y :: xs, List.Forall₂.cons hyq h1, ?_⟩
      intro z hz
      rcases List.mem_cons.1 hz with rfl | hz
      · exact hy
      · exact h2 z hz
  have hxne : xs ≠ [] := by
    rintro rfl
    cases hxs
    exact hne rfl
  have hb : Metric.ball b δ ⊆ F := by
    rw [← hγ.goal]
    exact hγ.clear 1 (by simp)
  have ha : Metric.ball a δ ⊆ F := by
    rw [← hγ.start]
    exact hγ.clear 0 h01
  have hN : List.Forall₂ (fun x q => dist x q < ρ ∧ Metric.ball q δ ⊆ F) (a :: xs ++ [b]) (a :: qs' ++ [b]) := by
    refine List.rel_append (List.Forall₂.cons ⟨by simpa using hρ, ha⟩ ?_) (List.Forall₂.cons ⟨by simpa using hρ, hb⟩ List.Forall₂.nil)
    clear hne hm2 hm3 hm4 hxne hxS
    induction hxs with
    | nil => exact List.Forall₂.nil
    | cons h _ ih => exact List.Forall₂.cons ⟨h, hm1 _ (by simp)⟩ (ih fun q hq => hm1 q (by simp [hq]))
  refine ⟨xs, hxne, hxS, isChain_forall₂ ?_ hN hm2, ?_, by rw [hxs.length_eq]; exact hm4⟩
  · rintro x q x' q' ⟨h1, h2⟩ ⟨h1', h2'⟩ h3
    refine ⟨?_, segment_two_balls h2 h2' hδ h1 h1' h3 hρD⟩
    have := dist_triangle4_right x q x' q'
    have h4 := dist_triangle4 x q q' x'
    rw [dist_comm q' x'] at h4
    linarith
  · have h1 := pathLength_perturb b hxs a a
    rw [dist_self, zero_add] at h1
    have h2 : 2 * ρ * qs'.length ≤ 2 * ρ / D * max L D := by
      have : 2 * ρ * qs'.length = 2 * ρ / D * (qs'.length * D) := by
        field_simp
      rw [this]
      gcongr
    linarith

/-- Length: the hops. -/
theorem clearPath_short_hops {dim : ℕ} {F : Set (Space dim)} {S : List (Space dim)} {r ρ δ D L : ℝ} {a b : Space dim}
    {γ : ℝ → Space dim} (hγ : ClearPath F δ a b γ) (hL : LengthAtMost γ L)
    (hL0 : 0 ≤ L) (hδ : 0 < δ) (hD : 0 < D) (hr : D + 2 * ρ ≤ r) (hρD : D ^ 2 / 4 + ρ ^ 2 ≤ δ ^ 2)
    (hnet : ∀ c, Metric.ball c δ ⊆ F → ∃ p ∈ S, dist p c < ρ) :
    ∃ pts : List (Space dim), pts ≠ [] ∧ (∀ p ∈ pts, p ∈ S) ∧
      (a :: pts ++ [b]).IsChain (fun p q => dist p q < r ∧ segment ℝ p q ⊆ F) ∧
      pathLength dist (a :: pts ++ [b]) ≤ L + 2 * ρ / D * max L D := by
  obtain ⟨pts, h1, h2, h3, h4, -⟩ := clearPath_short_hops_count hγ hL hL0 hδ hD hr hρD hnet
  exact ⟨pts, h1, h2, h3, h4⟩

/-- Length, deterministic part. -/
theorem clearPath_short {dim : ℕ} {w : World (Space dim) ℝ} {F : Set (Space dim)} {x : ℕ → Space dim} (hw : EuclideanWorld w F x)
    {S : List (Space dim)} {r ρ δ D L : ℝ} {a b : Space dim} {γ : ℝ → Space dim} (hγ : ClearPath F δ a b γ) (hL : LengthAtMost γ L)
    (hL0 : 0 ≤ L) (hδ : 0 < δ) (hD : 0 < D) (hr : D + 2 * ρ ≤ r) (hρD : D ^ 2 / 4 + ρ ^ 2 ≤ δ ^ 2)
    (hnet : ∀ c, Metric.ball c δ ⊆ F → ∃ p ∈ S, dist p c < ρ) :
    ∃ pts, (w.SampleChain S r a b pts ∧ pts.IsChain fun p q => w.dist p q < r) ∧
      pathLength w.dist (a :: pts ++ [b]) ≤ L + 2 * ρ / D * max L D := by
  have hdist : w.dist = dist := by
    funext p q
    exact hw.dist p q
  obtain ⟨pts, h1, h2, h3, h4⟩ := clearPath_short_hops hγ hL hL0 hδ hD hr hρD hnet
  rw [hdist]
  exact ⟨pts, hdist ▸ sampleChain_of_isChain hw h1 h2 h3, h4⟩

end Verif.Net
