import Mathlib.MeasureTheory.Measure.Lebesgue.EqHaar
import Mathlib.MeasureTheory.Measure.Haar.InnerProductSpace
import Verif.Lemmas.NetTheorem
import Verif.Lemmas.ClearPath
import Verif.Lemmas.PrmFull

/-! Independent uniform samples: the epsilon-net theorem for them, and the sample list of a PRM that is never reset. -/

namespace Verif.Net

open MeasureTheory ProbabilityTheory Verif.Spec Verif.Prm

variable {Ω : Type*} [MeasurableSpace Ω] {Pr : Measure Ω} [IsProbabilityMeasure Pr] {dim : ℕ} {X : ℕ → Ω → Space dim} {S : Set (Space dim)}

theorem IidUniform.prob (h : IidUniform Pr X S) : IsProbabilityMeasure (cond volume S) := by
  rw [← h.uniform 0]
  exact Measure.isProbabilityMeasure_map (h.measurable 0).aemeasurable

theorem IidUniform.volume_ne (h : IidUniform Pr X S) : volume S ≠ 0 ∧ volume S ≠ ⊤ := by
  have hp := IidUniform.prob h
  constructor
  · intro h0
    have := hp.measure_univ
    rw [cond_eq_zero_of_meas_eq_zero h0] at this
    simp at this
  · intro h0
    have := hp.measure_univ
    rw [ProbabilityTheory.cond, h0] at this
    simp at this

/-- The joint law of a block of samples. -/
theorem IidUniform.law (h : IidUniform Pr X S) (d m : ℕ) :
    Pr.map (fun ω (i : Fin m) => X (d + i) ω) = Measure.pi fun _ : Fin m => cond volume S := by
  have hinj : Function.Injective fun i : Fin m => d + (i : ℕ) := by
    intro i j hij
    apply Fin.ext
    simpa using hij
  have h1 := (iIndepFun_iff_map_fun_eq_pi_map (f := fun (i : Fin m) => X (d + i)) fun i => (h.measurable _).aemeasurable).1
    (h.indep.precomp hinj)
  rw [h1]
  congr 1
  funext i
  exact h.uniform _

/-- Uniform samples hit every ball inside the sampled region. -/
theorem iid_net (h : IidUniform Pr X S) (hS : MeasurableSet S) (hdim : 1 ≤ dim) {vol ρ : ℝ} (hρ : 0 ≤ ρ)
    (hvol : volume S ≤ ENNReal.ofReal vol) {m : ℕ} (hm : 2 ≤ m) (d : ℕ) :
    Pr.real {ω | ∃ c, Metric.ball c ρ ⊆ S ∧ ∀ i < m, ρ ≤ dist (X (d + i) ω) c} ≤
      failureBound m ((volume (Metric.ball (0 : Space dim) ρ)).toReal / vol) (dim + 1) := by
  have := IidUniform.prob h
  have hne := IidUniform.volume_ne h
  have hnt : Nontrivial (Space dim) := by
    have : Nonempty (Fin dim) := ⟨⟨0, hdim⟩⟩
    infer_instance
  have hfin : Module.finrank ℝ (Space dim) = dim := by simp
  have hvol0 : 0 < vol := by
    by_contra hcon
    rw [ENNReal.ofReal_eq_zero.2 (not_lt.1 hcon)] at hvol
    exact hne.1 (le_antisymm hvol bot_le)
  set κ : ℝ := (volume (Metric.ball (0 : Space dim) 1)).toReal / vol with hκ
  have hball : ∀ (c : Space dim) (s : ℝ), 0 ≤ s → (volume (Metric.ball c s)).toReal = (volume (Metric.ball (0 : Space dim) 1)).toReal * s ^ dim := by
    intro c s hs
    rw [Measure.addHaar_ball volume c hs, ENNReal.toReal_mul, hfin, ENNReal.toReal_ofReal (by positivity), mul_comm]
  have hnet := net_of_density (m := m) (cond volume S) (C := {c | Metric.ball c ρ ⊆ S}) (r := ρ) (κ := κ) (d := dim) hfin.symm hdim hm hρ
    (by
      intro c hc s hs0 hs
      have hsub : Metric.ball c s ⊆ S := (Metric.ball_subset_ball hs).trans hc
      rw [Measure.real, cond_apply hS, Set.inter_eq_right.2 hsub, ENNReal.toReal_mul, ENNReal.toReal_inv, hball c s hs0, hκ]
      have h1 : (volume S).toReal ≤ vol := ENNReal.toReal_le_of_le_ofReal hvol0.le hvol
      have h2 : 0 < (volume S).toReal := ENNReal.toReal_pos hne.1 hne.2
      have h3 : vol⁻¹ ≤ (volume S).toReal⁻¹ := by gcongr
      have h4 : 0 ≤ (volume (Metric.ball (0 : Space dim) 1)).toReal * s ^ dim := by positivity
      calc _ = vol⁻¹ * ((volume (Metric.ball (0 : Space dim) 1)).toReal * s ^ dim) := by
            field_simp
        _ ≤ _ := by gcongr)
  have hκρ : κ * ρ ^ dim = (volume (Metric.ball (0 : Space dim) ρ)).toReal / vol := by
    rw [hball 0 ρ hρ, hκ]
    field_simp
  rw [hκρ] at hnet
  refine le_trans ?_ hnet
  rw [← IidUniform.law h d m]
  have hmeas : AEMeasurable (fun ω (i : Fin m) => X (d + i) ω) Pr := by
    refine Measurable.aemeasurable ?_
    exact measurable_pi_lambda _ fun i => h.measurable _
  have hpm : IsProbabilityMeasure (Pr.map fun ω (i : Fin m) => X (d + i) ω) := Measure.isProbabilityMeasure_map hmeas
  unfold Measure.real
  refine ENNReal.toReal_mono (measure_ne_top _ _) ?_
  refine le_trans (measure_mono fun ω hω => ?_)
    (Measure.le_map_apply hmeas {x : Fin m → Space dim | ∃ c ∈ {c | Metric.ball c ρ ⊆ S}, ∀ i, ρ ≤ dist (x i) c})
  obtain ⟨c, hc, hω⟩ := hω
  exact ⟨c, hc, fun i => hω i i.2⟩

/-! ### Histories without reset -/

variable {P K : Type*} [LinearOrder K]

/-- The samples are the first draws after the one for the size. -/
def FirstDraws (w : World P K) (d : ℕ) (s : Full P K) : Prop :=
  (s.samples = none ∧ s.drawn = d + 1) ∨ ∃ n, s.samples = some (w.fresh (d + 1) n) ∧ s.drawn = d + 1 + n

theorem fresh_append (w : World P K) (d n k : ℕ) : w.fresh d n ++ w.fresh (d + n) k = w.fresh d (n + k) := by
  unfold World.fresh
  rw [List.range_add, List.map_append, List.map_map]
  congr 1
  apply List.map_congr_left
  intro i _
  simp [add_assoc]

theorem fresh_length (w : World P K) (d n : ℕ) : (w.fresh d n).length = n := by simp [World.fresh]

theorem firstDraws_grow {w : World P K} {d : ℕ} {s : Full P K} (h : FirstDraws w d s) (n : ℕ) : FirstDraws w d (s.grow w n).1 := by
  rcases h with ⟨h1, h2⟩ | ⟨k, h1, h2⟩
  · refine Or.inr ⟨n, ?_, ?_⟩
    · unfold Full.grow Full.rebuild
      rw [h1, h2]
    · unfold Full.grow Full.rebuild
      rw [h1, h2]
  · unfold Full.grow
    rw [h1]
    simp only [fresh_length]
    split
    · exact Or.inr ⟨k, h1, h2⟩
    · rename_i hk
      refine Or.inr ⟨n, ?_, ?_⟩
      · unfold Full.rebuild
        rw [h2, fresh_append]
        simp only
        congr 2
        omega
      · unfold Full.rebuild
        simp only
        omega

theorem firstDraws_run {w : World P K} {d : ℕ} {s : Full P K} (h : FirstDraws w d s) (ops : List (Full.Op P K))
    (hops : ∀ o ∈ ops, o ≠ .reset) : FirstDraws w d (s.run w ops) := by
  induction ops generalizing s with
  | nil => exact h
  | cons o ops ih =>
    refine ih ?_ fun o' ho' => hops o' (by simp [ho'])
    cases o with
    | grow n => exact firstDraws_grow h n
    | setRadius r =>
      have h' : FirstDraws w d { s with connR := r } := h
      simp only [Full.step, Full.setRadius]
      split
      · exact h'
      · exact firstDraws_grow h' _
    | query a b =>
      simp only [Full.step, Full.query]
      split
      · rename_i h1 h2
        exact h
      · exact h
      · exact h
    | reset => exact absurd rfl (hops _ (by simp))

theorem firstDraws_init (w : World P K) (d : ℕ) (r : K) : FirstDraws w d (Full.init r d) := Or.inl ⟨rfl, rfl⟩

/-- Without reset the sample list consists of consecutive draws. -/
theorem samples_of_run {w : World P K} {d : ℕ} {r : K} {ops : List (Full.Op P K)} (hops : ∀ o ∈ ops, o ≠ .reset) {S : List P}
    (hS : ((Full.init r d).run w ops).samples = some S) : S = w.fresh (d + 1) S.length := by
  rcases firstDraws_run (firstDraws_init w d r) ops hops with ⟨h, _⟩ | ⟨n, h, _⟩
  · rw [h] at hS
    cases hS
  · rw [h] at hS
    cases hS
    rw [fresh_length]

end Verif.Net
