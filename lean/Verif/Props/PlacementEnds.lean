import Mathlib.Probability.BorelCantelli
import Mathlib.MeasureTheory.Measure.Lebesgue.Basic
import Mathlib.Topology.Bases
import Mathlib.Probability.Independence.InfinitePi
import Verif.Props.Placement
import Verif.Spec.PlaneDraws

/-! The placement of objects ends with probability one if there is always room: C94. -/

namespace Verif.Props

open MeasureTheory ProbabilityTheory Verif.Spec Verif.Placement

theorem plane_volume : volume (Set.Icc (0 : ℝ × ℝ) 1) = 1 := by
  rw [Measure.volume_eq_prod]
  have : Set.Icc (0 : ℝ × ℝ) 1 = Set.Icc (0 : ℝ) 1 ×ˢ Set.Icc (0 : ℝ) 1 := by
    rw [Set.Icc_prod_Icc]; rfl
  rw [this, Measure.prod_prod]
  simp

/-- There are such draws. -/
theorem exists_planeDraws : ∃ Pr : Measure (ℕ → ℝ × ℝ), IsProbabilityMeasure Pr ∧ PlaneDraws Pr fun i x => x i := by
  have : IsProbabilityMeasure (cond (volume : Measure (ℝ × ℝ)) (Set.Icc 0 1)) :=
    cond_isProbabilityMeasure_of_finite (by rw [plane_volume]; simp) (by rw [plane_volume]; simp)
  refine ⟨Measure.infinitePi fun _ => cond volume (Set.Icc 0 1), inferInstance, fun i => measurable_pi_apply i, ?_, ?_⟩
  · exact iIndepFun_infinitePi (X := fun _ x => x) fun _ => measurable_id
  · intro i
    exact (measurePreserving_eval_infinitePi (fun _ => cond volume (Set.Icc (0 : ℝ × ℝ) 1)) i).map_eq

/-- Independent uniform draws come everywhere again and again, with probability one. -/
theorem draws_everywhere {Ω : Type*} [MeasurableSpace Ω] {Pr : Measure Ω} [IsProbabilityMeasure Pr] {U : ℕ → Ω → ℝ × ℝ} (hU : PlaneDraws Pr U) :
    ∀ᵐ ω ∂Pr, Everywhere fun n => U n ω := by
  let B := TopologicalSpace.countableBasis (ℝ × ℝ)
  have hB : B.Countable := TopologicalSpace.countable_countableBasis _
  have hone : ∀ V : Set (ℝ × ℝ), IsOpen V → (V ∩ Set.Ioo 0 1 ×ˢ Set.Ioo 0 1).Nonempty → ∀ᵐ ω ∂Pr, ∀ N, ∃ n ≥ N, U n ω ∈ V := by
    intro V hV hne
    have hmeas : ∀ n, MeasurableSet (U n ⁻¹' V) := fun n => hU.measurable n hV.measurableSet
    have hind : iIndepSet (fun n => U n ⁻¹' V) Pr := by
      rw [iIndepSet_iff_meas_biInter hmeas]
      intro S
      exact hU.indep.measure_inter_preimage_eq_mul S (fun _ _ => hV.measurableSet)
    have hlaw : ∀ n, Pr (U n ⁻¹' V) = volume (Set.Icc (0 : ℝ × ℝ) 1 ∩ V) := by
      intro n
      rw [← Measure.map_apply (hU.measurable n) hV.measurableSet, hU.uniform n]
      rw [cond_apply measurableSet_Icc, plane_volume]
      simp
    have hpos : 0 < volume (Set.Icc (0 : ℝ × ℝ) 1 ∩ V) := by
      have hopen : IsOpen (V ∩ Set.Ioo (0 : ℝ) 1 ×ˢ Set.Ioo (0 : ℝ) 1) := hV.inter (isOpen_Ioo.prod isOpen_Ioo)
      refine (hopen.measure_pos volume hne).trans_le (measure_mono ?_)
      rintro x ⟨hx, h1, h2⟩
      exact ⟨⟨⟨h1.1.le, h2.1.le⟩, ⟨h1.2.le, h2.2.le⟩⟩, hx⟩
    have hsum : ∑' n, Pr (U n ⁻¹' V) = ⊤ := by
      simp only [hlaw]
      exact ENNReal.tsum_const_eq_top_of_ne_zero hpos.ne'
    have hlim := measure_limsup_eq_one hmeas hind hsum
    have hae : ∀ᵐ ω ∂Pr, ω ∈ Filter.limsup (fun n => U n ⁻¹' V) Filter.atTop := by
      rw [← prob_compl_eq_zero_iff (MeasurableSet.measurableSet_limsup hmeas)] at hlim
      rw [ae_iff]
      exact hlim
    filter_upwards [hae] with ω hω
    intro N
    rw [Filter.mem_limsup_iff_frequently_mem] at hω
    obtain ⟨n, hn, h⟩ := Filter.frequently_atTop.1 hω N
    exact ⟨n, hn, h⟩
  have hall : ∀ᵐ ω ∂Pr, ∀ V ∈ B, (V ∩ Set.Ioo 0 1 ×ˢ Set.Ioo 0 1).Nonempty → ∀ N, ∃ n ≥ N, U n ω ∈ V := by
    rw [ae_ball_iff hB]
    intro V hV
    by_cases hne : (V ∩ Set.Ioo 0 1 ×ˢ Set.Ioo 0 1).Nonempty
    · filter_upwards [hone V (TopologicalSpace.isOpen_of_mem_countableBasis hV) hne] with ω h
      exact fun _ => h
    · exact Filter.Eventually.of_forall fun _ h => absurd h hne
  filter_upwards [hall] with ω hω
  intro W hW hne N
  obtain ⟨x, hxW, hx⟩ := hne
  obtain ⟨V, hV, hxV, hVW⟩ := (TopologicalSpace.isBasis_countableBasis (ℝ × ℝ)).exists_subset_of_mem_open hxW hW
  obtain ⟨n, hn, h⟩ := hω V hV ⟨x, hxV, hx⟩ N
  exact ⟨n, hn, hVW h⟩

/-- ... and they are between 0 and 1. -/
theorem draws_between {Ω : Type*} [MeasurableSpace Ω] {Pr : Measure Ω} [IsProbabilityMeasure Pr] {U : ℕ → Ω → ℝ × ℝ} (hU : PlaneDraws Pr U) :
    ∀ᵐ ω ∂Pr, Draws2 fun n => U n ω := by
  have : ∀ᵐ ω ∂Pr, ∀ n, U n ω ∈ Set.Icc (0 : ℝ × ℝ) 1 := by
    rw [ae_all_iff]
    intro n
    have hm : Pr (U n ⁻¹' (Set.Icc (0 : ℝ × ℝ) 1)ᶜ) = 0 := by
      rw [← Measure.map_apply (hU.measurable n) measurableSet_Icc.compl, hU.uniform n, cond_apply measurableSet_Icc]
      simp
    rw [ae_iff]
    exact hm
  filter_upwards [this] with ω hω
  intro n
  obtain ⟨⟨a, b⟩, c, d⟩ := hω n
  exact ⟨a, c, b, d⟩

/-- A closed square. -/
def blocked (c : (ℝ × ℝ) × ℝ) : Set (ℝ × ℝ) := Set.Icc (c.1.1 - c.2) (c.1.1 + c.2) ×ˢ Set.Icc (c.1.2 - c.2) (c.1.2 + c.2)

/-- Squares whose total area is below that of a given square leave an open part of it. -/
theorem exists_free (a b : ℝ) {w : ℝ} (hw : 0 < w) (L : List ((ℝ × ℝ) × ℝ)) (hr : ∀ c ∈ L, 0 ≤ c.2) (hsum : (L.map fun c => 4 * c.2 ^ 2).sum < w ^ 2) :
    ∃ V : Set (ℝ × ℝ), IsOpen V ∧ (V ∩ Set.Ioo a (a + w) ×ˢ Set.Ioo b (b + w)).Nonempty ∧ ∀ x ∈ V, ∀ c ∈ L, x ∉ blocked c := by
  have hvol : ∀ L : List ((ℝ × ℝ) × ℝ), (∀ c ∈ L, 0 ≤ c.2) → volume {x | ∃ c ∈ L, x ∈ blocked c} ≤ ENNReal.ofReal ((L.map fun c => 4 * c.2 ^ 2).sum) := by
    intro L
    induction L with
    | nil => intro _; simp
    | cons c L ih =>
      intro hr
      have hc := hr c (by simp)
      have ih := ih fun d hd => hr d (by simp [hd])
      have hsub : {x | ∃ d ∈ c :: L, x ∈ blocked d} ⊆ blocked c ∪ {x | ∃ d ∈ L, x ∈ blocked d} := by
        rintro x ⟨d, hd, hx⟩
        rcases List.mem_cons.1 hd with rfl | hd
        · exact Or.inl hx
        · exact Or.inr ⟨d, hd, hx⟩
      refine (measure_mono hsub).trans ((measure_union_le _ _).trans ?_)
      have hb : volume (blocked c) = ENNReal.ofReal (4 * c.2 ^ 2) := by
        rw [blocked, Measure.volume_eq_prod, Measure.prod_prod, Real.volume_Icc, Real.volume_Icc, ← ENNReal.ofReal_mul (by linarith)]
        congr 1
        ring
      rw [hb, List.map_cons, List.sum_cons, ENNReal.ofReal_add (by positivity) (List.sum_nonneg (fun y hy => by obtain ⟨c, -, rfl⟩ := List.mem_map.1 hy; positivity))]
      gcongr
  have hclosed : ∀ L : List ((ℝ × ℝ) × ℝ), IsClosed {x | ∃ c ∈ L, x ∈ blocked c} := by
    intro L
    have : {x | ∃ c ∈ L, x ∈ blocked c} = ⋃ c ∈ {c | c ∈ L}, blocked c := by
      ext x; simp
    rw [this]
    exact (List.finite_toSet L).isClosed_biUnion fun c _ => isClosed_Icc.prod isClosed_Icc
  refine ⟨{x | ∃ c ∈ L, x ∈ blocked c}ᶜ, (hclosed L).isOpen_compl, ?_, fun x hx c hc hxc => hx ⟨c, hc, hxc⟩⟩
  by_contra hne
  rw [Set.not_nonempty_iff_eq_empty] at hne
  have hsub : (Set.Ioo a (a + w) ×ˢ Set.Ioo b (b + w)) ⊆ {x | ∃ c ∈ L, x ∈ blocked c} := by
    intro x hx
    by_contra hn
    exact (Set.eq_empty_iff_forall_notMem.1 hne x) ⟨hn, hx⟩
  have h1 := (measure_mono (μ := volume) hsub).trans (hvol L hr)
  rw [Measure.volume_eq_prod, Measure.prod_prod, Real.volume_Ioo, Real.volume_Ioo, ← ENNReal.ofReal_mul (by linarith)] at h1
  have := (ENNReal.ofReal_le_ofReal_iff (List.sum_nonneg (fun y hy => by obtain ⟨c, -, rfl⟩ := List.mem_map.1 hy; positivity))).1 h1
  nlinarith

variable {β : Type*} [DecidableEq β]

/-- C94, the search ends if the draws come everywhere and there is always room. -/
theorem C94_ends {s : Scene β} {u : ℕ → ℝ × ℝ} (hu : Draws2 u) (he : Everywhere u) {minDistance : β → ℝ} {items : List (β × β)} {obstacles : List β} {st : State β}
    (hnd : (items.map Prod.fst).Nodup) (hf : ∀ x ∈ items, Fits s x.1 x.2) (hroom : AlwaysRoom s minDistance items obstacles st.pos) :
    ∃ N st', ∀ fuel ≥ N, samplePlacements s u minDistance fuel items obstacles st = some (true, st') := by
  induction items generalizing obstacles st with
  | nil => exact ⟨0, st, fun _ _ => rfl⟩
  | cons x items ih =>
    obtain ⟨b, surface⟩ := x
    have hfb : Fits s b surface := hf (b, surface) (by simp)
    obtain ⟨V, hV, hne, hfree⟩ := hroom [] b surface items rfl st.pos (by simp) (by simp)
    have hex : ∃ n, ∀ o ∈ obstacles, o ≠ b → o ≠ surface → s.near b (placeOf s b surface (u (st.drawn + n))) o (st.pos o) (minDistance b) = false := by
      obtain ⟨n, hn, hmem⟩ := he V hV hne st.drawn
      refine ⟨n - st.drawn, fun o ho => ?_⟩
      rw [Nat.add_sub_cancel' hn]
      exact hfree _ hmem o (by simpa using ho)
    classical
    obtain ⟨hgood, hbad⟩ : (∀ o ∈ obstacles, o ≠ b → o ≠ surface → s.near b (placeOf s b surface (u (st.drawn + Nat.find hex))) o (st.pos o) (minDistance b) = false) ∧
        ∀ m < Nat.find hex, ∃ o ∈ obstacles, o ≠ b ∧ o ≠ surface ∧ s.near b (placeOf s b surface (u (st.drawn + m))) o (st.pos o) (minDistance b) = true := by
      refine ⟨Nat.find_spec hex, fun m hm => ?_⟩
      have := Nat.find_min hex hm
      push Not at this
      obtain ⟨o, h1, h2, h3, h4⟩ := this
      exact ⟨o, h1, h2, h3, by simpa using h4⟩
    generalize Nat.find hex = n at hgood hbad
    have hloop : ∀ fuel, n < fuel → loop (attempt s u b surface (minDistance b) obstacles) fuel st =
        some (true, ⟨Function.update st.pos b (placeOf s b surface (u (st.drawn + n))), st.drawn + n + 1⟩) := fun fuel hfuel => C94_first_partial hfb hfuel hbad hgood
    have hnd' := List.nodup_cons.1 (by simpa using hnd : (b :: items.map Prod.fst).Nodup)
    obtain ⟨N, st', hN⟩ := ih (obstacles := obstacles ++ [b]) (st := ⟨Function.update st.pos b (placeOf s b surface (u (st.drawn + n))), st.drawn + n + 1⟩) hnd'.2 (fun x hx => hf x (by simp [hx])) (by
      intro before b' surface' after hsplit pos' hon hoff
      have hb : b ∉ before.map Prod.fst := by
        intro h
        apply hnd'.1
        rw [hsplit]
        simp only [List.map_append, List.mem_append]
        exact Or.inl h
      obtain ⟨V', h1, h2, h3⟩ := hroom ((b, surface) :: before) b' surface' after (by rw [hsplit]; rfl) pos' (by
          intro x hx
          rcases List.mem_cons.1 hx with rfl | hx
          · have := hoff b hb
            simp only [Function.update_self] at this
            dsimp only
            rw [this]
            exact placeOf_on s hfb (hu _)
          · exact hon x hx) (by
          intro o ho
          simp only [List.map_cons, List.mem_cons, not_or] at ho
          rw [hoff o ho.2]
          exact Function.update_of_ne ho.1 _ _)
      exact ⟨V', h1, h2, fun x hx o ho => h3 x hx o (by simpa [or_assoc] using ho)⟩)
    refine ⟨max N (n + 1), st', fun fuel hfuel => ?_⟩
    rw [samplePlacements, hloop fuel (by omega)]
    exact hN fuel (by omega)

/-- C94, answering: with independent uniform draws, `sample_placements` answers True with probability one if every body fits on its surface and there is always room. -/
theorem C94_almost_surely {Ω : Type*} [MeasurableSpace Ω] {Pr : Measure Ω} [IsProbabilityMeasure Pr] {U : ℕ → Ω → ℝ × ℝ} (hU : PlaneDraws Pr U) {s : Scene β} {minDistance : β → ℝ}
    {items : List (β × β)} {obstacles : List β} {st : State β}
    (hnd : (items.map Prod.fst).Nodup) (hf : ∀ x ∈ items, Fits s x.1 x.2) (hroom : AlwaysRoom s minDistance items obstacles st.pos) :
    ∀ᵐ ω ∂Pr, ∃ fuel st', samplePlacements s (fun n => U n ω) minDistance fuel items obstacles st = some (true, st') := by
  filter_upwards [draws_everywhere hU, draws_between hU] with ω h1 h2
  obtain ⟨N, st', h⟩ := C94_ends h2 h1 hnd hf hroom
  exact ⟨N, st', h N le_rfl⟩

end Verif.Props
