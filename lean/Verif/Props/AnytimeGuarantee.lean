import Verif.Props.Anytime
import Verif.Props.KnnGuarantee

/-! The anytime planning call with enough samples: C93. -/

namespace Verif.Props

open MeasureTheory ProbabilityTheory Verif.Spec Verif.Prm Verif.Bound Verif.Net Verif.Anytime

section Loop

variable {P K F : Type*} [LinearOrder K] [AddCommGroup K] [IsOrderedAddMonoid K] [Field F] [LinearOrder F] [IsStrictOrderedRing F] [FloorSemiring F]

theorem tried_samples (w : World P K) (start goal : P) (k : ℕ) (tr : Bool) (d : ℕ) (l : List ℕ) (hch : l.IsChain (· < ·)) :
    ((Knn.init k tr d).run w (tried start goal l)).samples = none ∨
      ∃ S c, ((Knn.init k tr d).run w (tried start goal l)).samples = some S ∧ S.length ≤ c ∧ l.getLast? = some c := by
  induction l using List.reverseRecOn with
  | nil => exact .inl rfl
  | append_singleton l m ih =>
    right
    have e : (Knn.init k tr d).run w (tried start goal (l ++ [m])) =
        ((((Knn.init k tr d).run w (tried start goal l)).grow w m).1.query w start goal).1 := by
      simp [tried, Knn.run, Knn.step]
    rw [List.isChain_append] at hch
    rw [e, query_samples]
    rcases grow_samples w ((Knn.init k tr d).run w (tried start goal l)) m with ⟨S, hS, hSm, _⟩ | ⟨_, S, hS, hSm⟩
    · rcases ih hch.1 with h | ⟨S', c, h, hc, hl⟩
      · rw [h] at hS; cases hS
      · rw [h] at hS
        cases hS
        have := hch.2.2 c hl m (by simp)
        omega
    · exact ⟨S, m, hS, by omega, by simp⟩

/-- `plan_no_path` for any way to multiply. -/
theorem no_path_by {w : World P K} (hw : w.Sound) (hx : ∀ S k, w.ExactTable S k (w.knn S k)) {start goal : P}
    (hs : w.check start start = true) (hg : w.check goal goal = true) {minS maxS : ℕ} (h2 : 2 ≤ minS) {scale : F → F}
    (hle : ∀ i, scale^[i] (minS : F) ≤ scale^[i + 1] minS)
    (hf : ∀ i, scale^[i + 1] (minS : F) < maxS + 1 → ⌊scale^[i] (minS : F)⌋₊ < ⌊scale^[i + 1] (minS : F)⌋₊)
    {k : ℕ} (hk : 1 ≤ k) (tr : Bool) (d : ℕ) {i : ℕ} (hi : scale^[i] (minS : F) < maxS + 1) :
    ∃ fuel counts answer, planBy w start goal minS maxS scale k tr d fuel = some (counts, .ok answer) ∧
      (answer = none → ∃ ops : List (Knn.Op P K), (∀ o ∈ ops, o ≠ .reset ∧ ∀ k', o ≠ .setNeighbors k') ∧
        (((Knn.init k tr d).run w ops).grow w ⌊scale^[i] (minS : F)⌋₊).2 = .ok () ∧
        ∃ c, (((Knn.init k tr d).run w (ops ++ [.grow ⌊scale^[i] (minS : F)⌋₊])).query w start goal).2 = .ok (c, [])) := by
  have hmono : Monotone fun i => scale^[i] (minS : F) := monotone_nat_of_le_succ hle
  have hge : ∀ i, (minS : F) ≤ scale^[i] minS := fun i => hmono (Nat.zero_le i)
  have hmm : minS ≤ maxS := by
    have h3 : (minS : F) < maxS + 1 := (hge i).trans_lt hi
    have : minS < maxS + 1 := by exact_mod_cast h3
    omega
  obtain ⟨fuel, counts, path, hp⟩ := answers_by hw hx hs hg minS maxS h2 hmm scale hf k hk tr d
  obtain ⟨fuel', counts', answer, h1, h3, -, h5, -, -, h7, -, h8, -⟩ := anytime_by hw hs hg minS maxS scale k tr d
  have hu := plan_unique hp h1
  simp only [Prod.mk.injEq] at hu
  obtain ⟨rfl, rfl⟩ := hu
  refine ⟨fuel, counts, path, hp, ?_⟩
  rintro rfl
  obtain ⟨hno, hlen⟩ := h8 rfl
  have hchain := h7 hf
  have hil : i < counts.length := by
    by_contra hcon
    push Not at hcon
    exact absurd (hlen.trans (hmono hcon)) (not_le.2 hi)
  have hci : counts[i]? = some ⌊scale^[i] (minS : F)⌋₊ := by
    rw [h3, List.getElem?_map, List.getElem?_range hil]
    rfl
  have hc2 : 2 ≤ ⌊scale^[i] (minS : F)⌋₊ := by
    apply Nat.le_floor
    have h4 : ((2 : ℕ) : F) ≤ minS := by exact_mod_cast h2
    exact h4.trans (hge i)
  generalize ⌊scale^[i] (minS : F)⌋₊ = m at hci hc2
  refine ⟨tried start goal (counts.take i), ?_, ?_, ?_⟩
  · intro o ho
    obtain ⟨n, -, hn⟩ := List.mem_flatMap.1 ho
    simp only [List.mem_cons, List.not_mem_nil, or_false] at hn
    rcases hn with rfl | rfl <;> exact ⟨by simp, by simp⟩
  · refine (grow_ok hw hx _ hc2 ?_ ?_).1
    · rw [tried_k]
      exact hk
    · intro S hS
      have hp := List.isChain_iff_pairwise.1 hchain
      rcases tried_samples w start goal k tr d (counts.take i) (List.isChain_iff_pairwise.2 (hp.sublist (List.take_sublist _ _))) with h | ⟨S', c, h, hc, hl⟩
      · rw [h] at hS; cases hS
      · rw [h] at hS
        cases hS
        have hsub : (counts.take i ++ [m]).Pairwise (· < ·) := by
          have : counts.take (i + 1) = counts.take i ++ [m] := by
            rw [List.take_add_one, hci]
            rfl
          rw [← this]
          exact hp.sublist (List.take_sublist _ _)
        have := (List.pairwise_append.1 hsub).2.2 c (List.mem_of_getLast? hl) m (by simp)
        omega
  · exact hno i m hci

/-- If the planning call answers "no path" although it has the budget for the `i`-th count, then the roadmap of that size, reached by growth steps and queries
only, had no path. -/
theorem plan_no_path {w : World P K} (hw : w.Sound) (hx : ∀ S k, w.ExactTable S k (w.knn S k)) {start goal : P}
    (hs : w.check start start = true) (hg : w.check goal goal = true) {minS maxS : ℕ} (h2 : 2 ≤ minS) {factor : F}
    (hf : 1 ≤ (minS : F) * (factor - 1)) {k : ℕ} (hk : 1 ≤ k) (tr : Bool) (d : ℕ) {i : ℕ} (hi : (minS : F) * factor ^ i < maxS + 1) :
    ∃ fuel counts answer, plan w start goal minS maxS factor k tr d fuel = some (counts, .ok answer) ∧
      (answer = none → ∃ ops : List (Knn.Op P K), (∀ o ∈ ops, o ≠ .reset ∧ ∀ k', o ≠ .setNeighbors k') ∧
        (((Knn.init k tr d).run w ops).grow w ⌊(minS : F) * factor ^ i⌋₊).2 = .ok () ∧
        ∃ c, (((Knn.init k tr d).run w (ops ++ [.grow ⌊(minS : F) * factor ^ i⌋₊])).query w start goal).2 = .ok (c, [])) := by
  have hm0 : (0 : F) < minS := by
    have : 0 < minS := by omega
    exact_mod_cast this
  have hf1 : 1 ≤ factor := by
    by_contra hlt
    push Not at hlt
    have : (minS : F) * (factor - 1) < 0 := mul_neg_of_pos_of_neg hm0 (by linarith)
    linarith
  have h := no_path_by hw hx hs hg h2 (scale := fun x => x * factor) (maxS := maxS) (i := i)
    (fun i => by
      simp only [scale_iterate]
      exact mul_le_mul_of_nonneg_left (pow_le_pow_right₀ hf1 (Nat.le_succ i)) hm0.le)
    (fun i _ => by simp only [scale_iterate]; exact floor_pow_lt hf i) hk tr d (by simp only [scale_iterate]; exact hi)
  simp only [scale_iterate] at h
  exact h

end Loop

variable {Ω : Type*} [MeasurableSpace Ω] {Pr : Measure Ω} [IsProbabilityMeasure Pr] {dim : ℕ} {X : ℕ → Ω → Space dim} {S : Set (Space dim)}

/-- C93. Take count and radius of `compute_numerical_bound` for a region of volume at most `vol₁` and at least `vol₂`. If one of the counts
`⌊min * factor ^ i⌋` of the anytime planning call is at least the returned count and within the budget, then up to the sum of the failure probabilities of the bound and
of the Chernoff-KL bound the call answers with a path, for all starts and goals joined by a path of the given clearance. -/
theorem C93_anytime (hX : IidUniform Pr X S) (hS : MeasurableSet S) (hdim : 1 ≤ dim) {δ p vol₁ vol₂ : ℝ} {tol : Option ℝ} {fuel N : ℕ}
    {r : ℝ} (hvol₁ : volume S ≤ ENNReal.ofReal vol₁) (hv : 0 < vol₂) (hvol₂ : ENNReal.ofReal vol₂ ≤ volume S) (hδ : 0 < δ)
    (ht : TolNonneg tol) (h : numericalBound δ p vol₁ dim tol fuel = some (.ok (N, r))) {F : Set (Space dim)} (hF : F ⊆ S)
    {minS maxS : ℕ} (h2 : 2 ≤ minS) {factor : ℝ} (hf : 1 ≤ minS * (factor - 1)) {i : ℕ} (hi : minS * factor ^ i < maxS + 1)
    (hN : N ≤ ⌊minS * factor ^ i⌋₊) {k : ℕ} (hk : 1 ≤ k) (hk2 : k + 1 ≤ ⌊minS * factor ^ i⌋₊) (tr : Bool) (d : ℕ) :
    Pr {ω | ¬ ∀ (w : World (Space dim) ℝ) (a b : Space dim) (γ : ℝ → Space dim), EuclideanWorld w F (fun i => X i ω) → KnnWorld w →
        ClearPath F δ a b γ → ∃ fuel counts path, plan w a b minS maxS factor k tr d fuel = some (counts, .ok (some path))} ≤
      ENNReal.ofReal (1 - p) + EReal.exp (tailKL ⌊minS * factor ^ i⌋₊ k r dim vol₂) := by
  refine (measure_mono ?_).trans (C83_complete hX hS hdim hvol₁ hv hvol₂ hδ ht h hF (m := ⌊minS * factor ^ i⌋₊) (by omega) hN hk2 tr d)
  intro ω hω hgood
  apply hω
  intro w a b γ hE hK hγ
  have point : ∀ x : Space dim, Metric.ball x δ ⊆ F → w.check x x = true := by
    intro x hx
    apply hE.check
    rw [segment_same]
    exact Set.singleton_subset_iff.2 (hx (Metric.mem_ball_self hδ))
  have ha : w.check a a = true := point a (hγ.start ▸ hγ.clear 0 ⟨le_rfl, zero_le_one⟩)
  have hb : w.check b b = true := point b (hγ.goal ▸ hγ.clear 1 ⟨zero_le_one, le_rfl⟩)
  obtain ⟨fuel, counts, answer, hp, hnone⟩ := plan_no_path hE.sound hK.exact ha hb h2 hf hk tr d hi
  cases answer with
  | some path => exact ⟨fuel, counts, path, hp⟩
  | none =>
    exfalso
    obtain ⟨ops, hops, hgrow, c, hc⟩ := hnone rfl
    obtain ⟨len, pts, h1, h3⟩ := hgood w ops [] a b γ hE hK hops hgrow (by simp) hγ
    rw [h1] at hc
    cases hc
    exact h3 rfl

end Verif.Props
