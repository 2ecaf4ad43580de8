import Verif.Lemmas.Uniform
import Verif.Lemmas.GrayUniform
import Verif.Lemmas.Draws
import Verif.Props.NarrowPassage

/-!
C84: the environments' samplers are uniform on the free space, and successive samples independent.
-/

namespace Verif.Props

open MeasureTheory ProbabilityTheory Verif.Envs Verif.Spec

variable {Ω : Type*} [MeasurableSpace Ω] {Pr : Measure Ω} {n : ℕ}

/-- The corridor as a subset of Euclidean space. -/
def corridorSet (n : ℕ) (delta length : ℝ) : Set (Space (n + 1)) := {x | InCorridor delta length fun i => x i}

/-- The free space of the narrow passage as a subset of Euclidean space. -/
def narrowSet (n : ℕ) (c : ℝ) : Set (Space (n + 1)) := {x | NarrowFree c fun i => x i}

theorem uniform_measurable {m : ℕ} (lo hi : Fin m → ℝ) : Measurable (uniform lo hi) := by
  unfold uniform
  fun_prop

theorem toLp_measurable {m : ℕ} : Measurable (WithLp.toLp 2 : (Fin m → ℝ) → Space m) :=
  (PiLp.volume_preserving_toLp (Fin m)).measurable

/-- C84, straight line: the samples are independent and uniform on the corridor. -/
theorem C84_straight {delta length : ℝ} (hd : 0 < delta) (hl : 0 ≤ length) {e : StraightLine ℝ n}
    (he : StraightLine.init n delta length = .ok e) {U : ℕ → Ω → Fin (n + 1) → ℝ} (hU : UnitDraws Pr U) :
    IidUniform Pr (fun i ω => WithLp.toLp 2 (e.sample (U i ω))) (corridorSet n delta length) := by
  unfold StraightLine.init at he
  split_ifs at he
  cases he
  have hm : Measurable fun u : Fin (n + 1) → ℝ => (WithLp.toLp 2 (uniform (headRest (-delta) (-delta)) (headRest (length + delta) delta) u) :
      Space (n + 1)) := toLp_measurable.comp (uniform_measurable _ _)
  refine ⟨fun i => hm.comp (hU.measurable i), hU.indep.comp _ fun _ => hm, fun i => ?_⟩
  have h1 : Pr.map (U i) = cond volume (Set.Icc 0 1) := hU.uniform i
  have hlt : ∀ j : Fin (n + 1), (headRest (-delta) (-delta) : Fin (n + 1) → ℝ) j < headRest (length + delta) delta j := by
    intro j
    refine Fin.cases ?_ (fun k => ?_) j
    · simp only [headRest, Fin.cons_zero]; linarith
    · simp only [headRest, Fin.cons_succ]; linarith
  have h2 := Uniform.map_box _ _ hlt
  have h3 := Uniform.map_toLp (T := Set.Icc (headRest (-delta) (-delta) : Fin (n + 1) → ℝ) (headRest (length + delta) delta))
    measurableSet_Icc
  show Pr.map (fun ω => WithLp.toLp 2 (uniform _ _ (U i ω))) = cond volume _
  have h4 : (fun ω => (WithLp.toLp 2 (uniform (headRest (-delta) (-delta)) (headRest (length + delta) delta) (U i ω)) : Space (n + 1))) =
      WithLp.toLp 2 ∘ uniform (headRest (-delta) (-delta)) (headRest (length + delta) delta) ∘ U i := rfl
  rw [h4, ← Measure.map_map toLp_measurable ((uniform_measurable _ _).comp (hU.measurable i)),
    ← Measure.map_map (uniform_measurable _ _) (hU.measurable i), h1]
  have h5 : (cond volume (Set.Icc (0 : Fin (n + 1) → ℝ) 1)).map
      (uniform (headRest (-delta) (-delta)) (headRest (length + delta) delta)) = _ := h2
  rw [h5, h3, headRest_Icc]
  rfl

instance : MeasurableSpace Region := ⊤
instance : MeasurableSingletonClass Region := ⟨fun _ => trivial⟩
deriving instance DecidableEq for Region
instance : Fintype Region := ⟨{.left, .right, .hall}, by rintro (_ | _ | _) <;> simp⟩

/-- The three boxes of the narrow passage. -/
def narrowBox (n : ℕ) (c : ℝ) : Region → Set (Fin (n + 1) → ℝ)
  | .left => Set.Icc (headRest (-3 / 2) (-1 / 2)) (headRest (-1 / 2) (1 / 2))
  | .right => Set.Icc (headRest (1 / 2) (-1 / 2)) (headRest (3 / 2) (1 / 2))
  | .hall => Set.Icc (headRest (-1 / 2) (-c)) (headRest (1 / 2) c)

theorem narrowBox_union (c : ℝ) : (⋃ r, narrowBox n c r) = {x | NarrowFree c x} := by
  ext x
  simp only [Set.mem_iUnion, Set.mem_ofPred_eq, NarrowFree]
  constructor
  · rintro ⟨_ | _ | _, h⟩ <;> simp only [narrowBox, headRest_Icc] at h
    · exact Or.inl h
    · exact Or.inr (Or.inr h)
    · exact Or.inr (Or.inl h)
  · rintro (h | h | h)
    · exact ⟨.left, by simp only [narrowBox, headRest_Icc]; exact h⟩
    · exact ⟨.hall, by simp only [narrowBox, headRest_Icc]; exact h⟩
    · exact ⟨.right, by simp only [narrowBox, headRest_Icc]; exact h⟩

theorem plane_null (v : ℝ) : volume {x : Fin (n + 1) → ℝ | x 0 = v} = 0 := by
  have h : {x : Fin (n + 1) → ℝ | x 0 = v} = (Function.eval (0 : Fin (n + 1)) : (Fin (n + 1) → ℝ) → ℝ) ⁻¹' ({v} : Set ℝ) := rfl
  rw [h]
  exact (Measure.quasiMeasurePreserving_eval (fun _ : Fin (n + 1) => (volume : Measure ℝ)) 0).preimage_null (by simp)

theorem narrowBox_disjoint (c : ℝ) : Pairwise fun r s => AEDisjoint volume (narrowBox n c r) (narrowBox n c s) := by
  have key : ∀ r s, r ≠ s → narrowBox n c r ∩ narrowBox n c s ⊆ {x | x 0 = -1 / 2} ∪ {x | x 0 = 1 / 2} := by
    intro r s hrs x hx
    obtain ⟨h1, h2⟩ := hx
    simp only [Set.mem_union, Set.mem_ofPred_eq]
    rcases r with _ | _ | _ <;> rcases s with _ | _ | _ <;> simp only [narrowBox, headRest_Icc, Set.mem_ofPred_eq] at h1 h2 <;>
      first
        | exact absurd rfl hrs
        | exact Or.inl (by linarith [h1.1, h1.2.1, h2.1, h2.2.1])
        | exact Or.inr (by linarith [h1.1, h1.2.1, h2.1, h2.2.1])
  intro r s hrs
  exact measure_mono_null (key r s hrs) (measure_union_null (plane_null _) (plane_null _))

/-- The weight with which `NarrowPassage.sample` draws a box. -/
noncomputable def narrowWeight (n : ℕ) (c : ℝ) : Region → ℝ
  | .left => (NarrowPassage.init n c).pLeft
  | .right => (NarrowPassage.init n c).pRight
  | .hall => (NarrowPassage.init n c).pHall

theorem narrowWeight_eq {c : ℝ} (hc : 0 ≤ c) (r : Region) :
    ENNReal.ofReal (narrowWeight n c r) = volume (narrowBox n c r) / volume (⋃ r, narrowBox n c r) := by
  rw [narrowBox_union, C18_volume hc]
  obtain ⟨-, -, -, -, h1, h2, h3⟩ := C18_weights (n := n) c
  obtain ⟨b1, b2, b3⟩ := narrow_boxVol (n := n) c
  have hvol : 0 < (NarrowPassage.init n c).volume := by
    have : (NarrowPassage.init n c).volume = 1 + 1 + |2 * c| ^ n := congrArg₂ (· + ·) (congrArg₂ (· + ·) b1 b2) b3
    rw [this]; positivity
  rw [ENNReal.eq_div_iff (by simpa using hvol) ENNReal.ofReal_ne_top, mul_comm]
  have b1' := h1.trans b1
  have b2' := h2.trans b2
  have b3' := h3.trans b3
  have hv1 : (-1 / 2 - -3 / 2 : ℝ) * (1 / 2 - -1 / 2) ^ n = 1 := by norm_num
  have hv2 : (3 / 2 - 1 / 2 : ℝ) * (1 / 2 - -1 / 2) ^ n = 1 := by norm_num
  have hv3 : (1 / 2 - -1 / 2 : ℝ) * (c - -c) ^ n = |2 * c| ^ n := by
    rw [show (1 / 2 - -1 / 2 : ℝ) = 1 by norm_num, one_mul, abs_of_nonneg (by linarith)]; ring_nf
  rw [← ENNReal.ofReal_mul' hvol.le]
  cases r with
  | left => rw [narrowWeight, b1', narrowBox, headRest_volume (by norm_num) (by norm_num), hv1]
  | right => rw [narrowWeight, b2', narrowBox, headRest_volume (by norm_num) (by norm_num), hv2]
  | hall => rw [narrowWeight, b3', narrowBox, headRest_volume (by norm_num) (by linarith), hv3]

/-- C84, narrow passage: the samples are independent and uniform on the free space. -/
theorem C84_narrow {c : ℝ} (hc : 0 ≤ c) {R : ℕ → Ω → Region} {U : ℕ → Ω → Fin (n + 1) → ℝ}
    (h : ChoiceDraws Pr (narrowWeight n c) R U) :
    IidUniform Pr (fun i ω => WithLp.toLp 2 ((NarrowPassage.init n c).sample (R i ω) (U i ω))) (narrowSet n c) := by
  have hm : ∀ r, Measurable ((NarrowPassage.init n c).sample r) := by
    intro r
    cases r <;> exact uniform_measurable _ _
  have hm' : Measurable fun q : Region × (Fin (n + 1) → ℝ) => (WithLp.toLp 2 ((NarrowPassage.init n c).sample q.1 q.2) : Space (n + 1)) :=
    toLp_measurable.comp (measurable_from_prod_countable_right hm)
  refine ⟨fun i => hm'.comp ((h.measurable i).prodMk (h.measurable' i)), h.indep.comp _ fun _ => hm', fun i => ?_⟩
  have hB : ∀ r, MeasurableSet (narrowBox n c r) := by
    intro r
    cases r <;> exact measurableSet_Icc
  have hmix := Uniform.mixture (ν := volume) (B := narrowBox n c) (f := (NarrowPassage.init n c).sample) (h.measurable i) (h.measurable' i)
    (h.indepPair i) hm hB (narrowBox_disjoint c) (fun r => by rw [h.choice, narrowWeight_eq hc]) ?_ ?_
  · have h3 := Uniform.map_toLp (T := {x : Fin (n + 1) → ℝ | NarrowFree c x})
      (by rw [← narrowBox_union]; exact MeasurableSet.iUnion hB)
    rw [narrowBox_union] at hmix
    show Pr.map (WithLp.toLp 2 ∘ fun ω => (NarrowPassage.init n c).sample (R i ω) (U i ω)) = cond volume _
    rw [← Measure.map_map toLp_measurable, hmix, h3]
    · rfl
    · exact (measurable_from_prod_countable_right (f := fun q : Region × (Fin (n + 1) → ℝ) =>
        (NarrowPassage.init n c).sample q.1 q.2) hm).comp ((h.measurable i).prodMk (h.measurable' i))
  · intro r
    cases r <;> exact isCompact_Icc.measure_ne_top
  · intro r hr
    have hu : Pr.map (U i) = cond volume (Set.Icc 0 1) := h.uniform i
    rw [hu]
    have box : ∀ {a b a' b' : ℝ}, a < a' → b ≤ b' → volume (Set.Icc (headRest a b : Fin (n + 1) → ℝ) (headRest a' b')) ≠ 0 →
        (cond volume (Set.Icc (0 : Fin (n + 1) → ℝ) 1)).map (uniform (headRest a b) (headRest a' b')) =
          cond volume (Set.Icc (headRest a b : Fin (n + 1) → ℝ) (headRest a' b')) := by
      intro a b a' b' h1 h2 h3
      refine Uniform.map_box _ _ fun j => ?_
      refine Fin.cases ?_ (fun k => ?_) j
      · simpa [headRest] using h1
      · simp only [headRest, Fin.cons_succ]
        refine lt_of_le_of_ne h2 fun hbb => h3 ?_
        have hn : n ≠ 0 := fun h0 => (Fin.cast h0 k).elim0
        rw [headRest_volume h1.le h2, hbb]
        simp [hn]
    cases r with
    | left => exact box (by norm_num) (by norm_num) hr
    | right => exact box (by norm_num) (by norm_num) hr
    | hall => exact box (by norm_num) (by linarith) hr

/-! ### Gray-code corridor -/

open Verif.Gray Verif.GrayUniform

/-- The sampled part of the corridor as a subset of Euclidean space. -/
def grayCoreSet (e : GrayCodeWalls ℝ n) : Set (Space (n + 1)) := {x | GrayCore e.cubes e.thickness fun i => x i}

/-- The weight with which a cube and then a region of it are drawn. -/
noncomputable def grayWeight (e : GrayCodeWalls ℝ n) (r : Fin e.cubes.length × Fin 3) : ℝ :=
  (e.cuboidPmf[(r.1 : ℕ)]?).getD 0 * ((regionPmf e r.1)[(r.2 : ℕ)]?).getD 0

/-- The boxes that are drawn from. -/
def grayPiece (e : GrayCodeWalls ℝ n) (r : Fin e.cubes.length × Fin 3) : Set (Fin (n + 1) → ℝ) :=
  match target e.cubes r.1 r.2 with
  | none => ∅
  | some a => Set.Icc (lo e.thickness e.cubes[r.1] a) (hi e.thickness e.cubes[r.1] a)

theorem hyperplane_null {m : ℕ} (i : Fin m) (v : ℝ) : volume {x : Fin m → ℝ | x i = v} = 0 := by
  have h : {x : Fin m → ℝ | x i = v} = (Function.eval i : (Fin m → ℝ) → ℝ) ⁻¹' ({v} : Set ℝ) := rfl
  rw [h]
  exact (Measure.quasiMeasurePreserving_eval (fun _ : Fin m => (volume : Measure ℝ)) i).preimage_null (by simp)

theorem piece_overlap {th : ℝ} (h1 : th < 1 / 2) {c a a' : Fin (n + 1) → ℤ} {i : Fin (n + 1)}
    (r1 : a i = c i ∨ a i = c i + 1 ∨ a i = c i - 1) (r2 : a' i = c i ∨ a' i = c i + 1 ∨ a' i = c i - 1) (hne : a i ≠ a' i)
    {x : Fin (n + 1) → ℝ} (x1 : lo th c a i ≤ x i) (x2 : x i ≤ hi th c a i) (x3 : lo th c a' i ≤ x i) (x4 : x i ≤ hi th c a' i) :
    x i = (c i : ℝ) + th ∨ x i = (c i : ℝ) + 1 - th := by
  unfold lo at x1 x3
  unfold GrayUniform.hi at x2 x4
  have n1 : ¬ c i + 1 = c i := by omega
  have n2 : ¬ c i - 1 = c i := by omega
  have n3 : c i < c i + 1 := by omega
  have n4 : ¬ c i < c i - 1 := by omega
  rcases r1 with q | q | q <;> rcases r2 with q' | q' | q' <;> rw [q] at x1 x2 <;> rw [q'] at x3 x4 <;>
    simp only [if_true, if_neg n1, if_neg n2, if_pos n3, if_neg n4] at x1 x2 x3 x4
  · exact absurd (q.trans q'.symm) hne
  · exact Or.inr (by linarith)
  · exact Or.inl (by linarith)
  · exact Or.inr (by linarith)
  · exact absurd (q.trans q'.symm) hne
  · exact absurd h1 (by linarith)
  · exact Or.inl (by linarith)
  · exact absurd h1 (by linarith)
  · exact absurd (q.trans q'.symm) hne

theorem grayPiece_disjoint {length : ℕ} {th : ℝ} (h0 : 0 ≤ th) (h1 : th < 1 / 2) {e : GrayCodeWalls ℝ n}
    (h : GrayCodeWalls.init n length th = .ok e) :
    Pairwise fun r s => AEDisjoint volume (grayPiece e r) (grayPiece e s) := by
  obtain ⟨hnd, -, -, hadj⟩ := C20_hamiltonian_path h
  obtain ⟨-, -, hcubes, hth, -⟩ := init_ok h
  have hch : e.cubes.IsChain CubeAdj := by rw [hcubes]; exact order_chain _ _
  rintro ⟨k, r⟩ ⟨k', r'⟩ hne
  cases ht : target e.cubes k r with
  | none => simp only [grayPiece, ht]; exact (Set.empty_disjoint _).aedisjoint
  | some a =>
    cases ht' : target e.cubes k' r' with
    | none => simp only [grayPiece, ht']; exact (Set.disjoint_empty _).aedisjoint
    | some a' =>
      have hk : e.cubes[(k : ℕ)]? = some e.cubes[k] := List.getElem?_eq_getElem k.2
      have hk' : e.cubes[(k' : ℕ)]? = some e.cubes[k'] := List.getElem?_eq_getElem k'.2
      have rng : ∀ (c a : Fin (n + 1) → ℤ), (a = c ∨ Neighbour e.cubes c a) → ∀ i, a i = c i ∨ a i = c i + 1 ∨ a i = c i - 1 := by
        intro c a hca i
        rcases hca with rfl | hca
        · exact Or.inl rfl
        · obtain ⟨j, hs, hr⟩ := neighbour_adj hch hca
          by_cases hij : i = j
          · subst hij; exact Or.inr hs
          · exact Or.inl (hr i hij)
      have r1 := rng _ _ (target_nb hk ht)
      have r2 := rng _ _ (target_nb hk' ht')
      simp only [grayPiece, ht, ht', hth]
      by_cases hc : e.cubes[k] = e.cubes[k']
      · have hkk : k = k' := by
          have := (List.Nodup.getElem_inj_iff hnd).1 (show e.cubes[(k : ℕ)] = e.cubes[(k' : ℕ)] from hc)
          exact Fin.ext this
        subst hkk
        have haa : a ≠ a' := by
          rintro rfl
          exact hne (Prod.ext rfl (Fin.ext (target_inj hnd ht ht')))
        obtain ⟨i, hi⟩ := Function.ne_iff.1 haa
        refine measure_mono_null (t := {x | x i = (e.cubes[k] i : ℝ) + th} ∪ {x | x i = (e.cubes[k] i : ℝ) + 1 - th}) ?_
          (measure_union_null (hyperplane_null _ _) (hyperplane_null _ _))
        rintro x ⟨⟨x1, x2⟩, x3, x4⟩
        exact piece_overlap h1 (r1 i) (r2 i) hi (x1 i) (x2 i) (x3 i) (x4 i)
      · obtain ⟨i, hi⟩ := Function.ne_iff.1 hc
        refine measure_mono_null (t := {x | x i = (e.cubes[k] i : ℝ)} ∪ {x | x i = (e.cubes[k'] i : ℝ)}) ?_
          (measure_union_null (hyperplane_null _ _) (hyperplane_null _ _))
        have box : ∀ (c a : Fin (n + 1) → ℤ) (x : Fin (n + 1) → ℝ), x ∈ Set.Icc (lo th c a) (GrayUniform.hi th c a) →
            (c i : ℝ) ≤ x i ∧ x i ≤ (c i : ℝ) + 1 := by
          intro c a x hx
          have x1 := hx.1 i
          have x2 := hx.2 i
          unfold lo at x1
          unfold GrayUniform.hi at x2
          constructor
          · split_ifs at x1 <;> linarith
          · split_ifs at x2 <;> linarith
        rintro x ⟨hx, hx'⟩
        have b1 := box _ _ _ hx
        have b2 := box _ _ _ hx'
        simp only [Set.mem_union, Set.mem_ofPred_eq]
        rcases lt_or_gt_of_ne hi with hlt | hlt
        · right
          have : ((e.cubes[k] i : ℤ) : ℝ) + 1 ≤ (e.cubes[k'] i : ℝ) := by exact_mod_cast hlt
          linarith [b1.2, b2.1]
        · left
          have : ((e.cubes[k'] i : ℤ) : ℝ) + 1 ≤ (e.cubes[k] i : ℝ) := by exact_mod_cast hlt
          linarith [b1.1, b2.2]

theorem grayPiece_union {length : ℕ} {th : ℝ} (h0 : 0 ≤ th) (h1 : th < 1 / 2) {e : GrayCodeWalls ℝ n}
    (h : GrayCodeWalls.init n length th = .ok e) : (⋃ r, grayPiece e r) = {x | GrayCore e.cubes e.thickness x} := by
  obtain ⟨hnd, -, -, hadj⟩ := C20_hamiltonian_path h
  obtain ⟨-, -, hcubes, hth, -⟩ := init_ok h
  have hch : e.cubes.IsChain CubeAdj := by rw [hcubes]; exact order_chain _ _
  ext x
  simp only [Set.mem_iUnion, Set.mem_ofPred_eq, hth]
  constructor
  · rintro ⟨⟨k, r⟩, hx⟩
    have hk : e.cubes[(k : ℕ)]? = some e.cubes[k] := List.getElem?_eq_getElem k.2
    cases ht : target e.cubes k r with
    | none => simp [grayPiece, ht] at hx
    | some a =>
      simp only [grayPiece, ht, hth] at hx
      set c := e.cubes[k] with hc
      have hcm : c ∈ e.cubes := List.getElem_mem k.2
      have l : ∀ i, lo th c a i ≤ x i := fun i => hx.1 i
      have u : ∀ i, x i ≤ GrayUniform.hi th c a i := fun i => hx.2 i
      unfold lo at l
      unfold GrayUniform.hi at u
      have hmid : ∀ i, a i = c i → (c i : ℝ) + th ≤ x i ∧ x i ≤ (c i : ℝ) + 1 - th := by
        intro i hi
        have l := l i
        have u := u i
        rw [if_pos hi] at l u
        exact ⟨by linarith, by linarith⟩
      refine ⟨c, hcm, fun i => ?_, fun i => ?_, ?_⟩
      · have l := l i
        have u := u i
        constructor
        · split_ifs at l <;> linarith
        · split_ifs at u <;> linarith
      · by_cases hi : a i = c i
        · exact ⟨Or.inl (hmid i hi).1, Or.inl (hmid i hi).2⟩
        · rcases target_nb hk ht with rfl | hnb
          · exact absurd rfl hi
          · obtain ⟨j, hs, hr⟩ := neighbour_adj hch hnb
            have hij : i = j := by
              by_contra hij
              exact hi (hr i hij)
            subst hij
            have l := l i
            have u := u i
            rw [if_neg hi] at l u
            rcases hs with hs | hs
            · rw [if_pos (by omega)] at l
              exact ⟨Or.inl (by linarith), Or.inr ⟨a, hnb, hs⟩⟩
            · rw [if_neg (by omega)] at u
              exact ⟨Or.inr ⟨a, hnb, hs⟩, Or.inl (by linarith)⟩
      · rcases target_nb hk ht with hac | hnb
        · exact ⟨0, fun i _ => hmid i (by rw [hac])⟩
        · obtain ⟨j, hs, hr⟩ := neighbour_adj hch hnb
          exact ⟨j, fun i hij => hmid i (hr i hij)⟩
  · rintro ⟨c, hc, hin, hcl, j, hj⟩
    obtain ⟨k, hk, hkc⟩ := List.getElem_of_mem hc
    have hk' : e.cubes[k]? = some c := by rw [List.getElem?_eq_getElem hk, hkc]
    have fin : ∀ (a : Fin (n + 1) → ℤ) (r : Fin 3), target e.cubes k r = some a →
        x ∈ Set.Icc (lo th c a) (GrayUniform.hi th c a) → ∃ r, x ∈ grayPiece e r := by
      intro a r hr hx
      refine ⟨(⟨k, hk⟩, r), ?_⟩
      unfold grayPiece
      simp only [hr, hth]
      have : e.cubes[(⟨k, hk⟩ : Fin e.cubes.length)] = c := hkc
      rw [this]
      exact hx
    have nb : ∀ a, Neighbour e.cubes c a → (a j < c j → x j ≤ (c j : ℝ) + th) → (c j < a j → (c j : ℝ) + 1 - th ≤ x j) → a j ≠ c j →
        ∃ r, x ∈ grayPiece e r := by
      intro a hnb q1 q2 q3
      obtain ⟨r, hr⟩ := target_surj hnd hk' hnb
      obtain ⟨j', hs, hr'⟩ := neighbour_adj hch hnb
      have hjj : j = j' := by
        by_contra hjj
        exact q3 (hr' j hjj)
      subst hjj
      refine fin a r hr ⟨fun i => ?_, fun i => ?_⟩
      · unfold lo
        by_cases hij : i = j
        · subst hij
          rw [if_neg q3]
          split_ifs with q
          · linarith [q2 q]
          · linarith [(hin i).1]
        · rw [if_pos (hr' i hij)]; exact (hj i hij).1
      · unfold GrayUniform.hi
        by_cases hij : i = j
        · subst hij
          rw [if_neg q3]
          split_ifs with q
          · linarith [(hin i).2]
          · exact q1 (by omega)
        · rw [if_pos (hr' i hij)]; linarith [(hj i hij).2]
    rcases lt_or_ge (x j) ((c j : ℝ) + th) with hlow | hlow
    · rcases (hcl j).1 with h2 | ⟨a, hnb, ha⟩
      · exact absurd hlow (not_lt.2 h2)
      · exact nb a hnb (fun _ => hlow.le) (fun q => absurd q (by omega)) (by omega)
    · rcases lt_or_ge ((c j : ℝ) + 1 - th) (x j) with hup | hup
      · rcases (hcl j).2 with h2 | ⟨a, hnb, ha⟩
        · exact absurd hup (not_lt.2 h2)
        · exact nb a hnb (fun q => absurd q (by omega)) (fun _ => hup.le) (by omega)
      · obtain ⟨r, hr⟩ := target_self hk'
        have all : ∀ i, (c i : ℝ) + th ≤ x i ∧ x i ≤ (c i : ℝ) + 1 - th := by
          intro i
          by_cases hij : i = j
          · subst hij; exact ⟨hlow, hup⟩
          · exact hj i hij
        refine fin c r hr ⟨fun i => ?_, fun i => ?_⟩
        · unfold lo; rw [if_pos rfl]; exact (all i).1
        · unfold GrayUniform.hi; rw [if_pos rfl]; linarith [(all i).2]

/-- C84 (part), Gray-code corridor: almost surely each call returns a point, and these are independent and uniform on the middles of
the cubes and the openings between them. Missing: the corners between two openings of a cube, which are free but never sampled
(`C84_gray_false`). -/
theorem C84_gray_partial [IsProbabilityMeasure Pr] {length : ℕ} {th : ℝ} (h0 : 0 ≤ th) (h1 : th < 1 / 2) {e : GrayCodeWalls ℝ n}
    (he : GrayCodeWalls.init n length th = .ok e) {R : ℕ → Ω → Fin e.cubes.length × Fin 3} {U : ℕ → Ω → Fin (n + 1) → ℝ}
    (h : ChoiceDraws Pr (grayWeight e) R U) :
    ∃ X : ℕ → Ω → Space (n + 1), IidUniform Pr X (grayCoreSet e) ∧
      ∀ i, ∀ᵐ ω ∂Pr, sample e (R i ω).1 (R i ω).2 (U i ω) = .ok fun j => X i ω j := by
  obtain ⟨-, -, hcubes, hth, -⟩ := init_ok he
  have hch : e.cubes.IsChain CubeAdj := by rw [hcubes]; exact order_chain _ _
  have hk : ∀ k : Fin e.cubes.length, e.cubes[(k : ℕ)]? = some e.cubes[k] := fun k => List.getElem?_eq_getElem k.2
  obtain ⟨total, htot, hweight⟩ := weight_piece h0 h1 he
  -- the value of a draw
  have hval : ∀ r : Fin e.cubes.length × Fin 3, ∃ f : (Fin (n + 1) → ℝ) → Fin (n + 1) → ℝ, Measurable f ∧
      (volume (grayPiece e r) ≠ 0 → (cond volume (Set.Icc (0 : Fin (n + 1) → ℝ) 1)).map f = cond volume (grayPiece e r)) ∧
      (target e.cubes r.1 r.2 ≠ none → ∀ u, sample e r.1 r.2 u = .ok (f u)) := by
    rintro ⟨k, r⟩
    cases ht : target e.cubes k r with
    | none => exact ⟨fun _ => 0, measurable_const, fun hz => absurd (by simp [grayPiece, ht]) hz, fun hz => absurd rfl hz⟩
    | some a =>
      obtain ⟨σ, hσ⟩ := sample_piece he (hk k) ht
      refine ⟨_, ?_, ?_, fun _ => hσ⟩
      · fun_prop
      · intro hz
        simp only [grayPiece, ht, hth] at hz ⊢
        refine Uniform.map_box_perm _ _ (fun i => ?_) σ
        by_contra hn
        apply hz
        rw [Real.volume_Icc_pi]
        exact Finset.prod_eq_zero (Finset.mem_univ i) (by simpa using hn)
  choose f hfm hfl hfs using hval
  have hB : ∀ r, MeasurableSet (grayPiece e r) := by
    intro r
    unfold grayPiece
    split
    · exact MeasurableSet.empty
    · exact measurableSet_Icc
  have hBt : ∀ r, volume (grayPiece e r) ≠ ⊤ := by
    intro r
    unfold grayPiece
    split
    · simp
    · exact isCompact_Icc.measure_ne_top
  -- weights
  have hw : ∀ r, ENNReal.ofReal (grayWeight e r) = volume (grayPiece e r) / ENNReal.ofReal total := by
    rintro ⟨k, r⟩
    obtain ⟨w1, w2⟩ := hweight k r _ (hk k)
    unfold grayWeight
    cases ht : target e.cubes k r with
    | none => rw [w2 ht]; simp [grayPiece, ht]
    | some a =>
      rw [w1 a ht]
      simp only [grayPiece, ht, hth]
      rw [Real.volume_Icc_pi, ENNReal.ofReal_div_of_pos htot]
      congr 1
      rw [ENNReal.ofReal_prod_of_nonneg]
      intro i _
      have : ∀ (q : ℤ) (m : ℤ), (0 : ℝ) ≤ ((q : ℝ) + if m = q then 1 - th else if q < m then 1 else th) -
          ((q : ℝ) + if m = q then th else if q < m then 1 - th else 0) := by
        intro q m
        split_ifs <;> linarith
      exact this _ _
  have hsum : ∑ r, Pr (R 0 ⁻¹' {r}) = 1 := by
    rw [← measure_univ (μ := Pr), ← Set.preimage_univ (f := R 0), ← measure_biUnion_finset]
    · congr 1
      ext ω
      simp
    · intro r _ s _ hrs
      refine Set.disjoint_left.2 fun ω h1 h2 => hrs ?_
      simp only [Set.mem_preimage, Set.mem_singleton_iff] at h1 h2
      exact h1.symm.trans h2
    · exact fun r _ => h.measurable 0 (measurableSet_singleton r)
  have hunion : volume (⋃ r, grayPiece e r) = ENNReal.ofReal total := by
    rw [measure_iUnion₀ (grayPiece_disjoint h0 h1 he) fun r => (hB r).nullMeasurableSet, tsum_fintype]
    have h2 : ∀ r, Pr (R 0 ⁻¹' {r}) = volume (grayPiece e r) * (ENNReal.ofReal total)⁻¹ := fun r => by
      rw [h.choice, hw, div_eq_mul_inv]
    rw [Finset.sum_congr rfl fun r _ => h2 r, ← Finset.sum_mul, ← div_eq_mul_inv,
      ENNReal.div_eq_one_iff (by simpa using htot) ENNReal.ofReal_ne_top] at hsum
    exact hsum
  have hmeas : Measurable fun q : (Fin e.cubes.length × Fin 3) × (Fin (n + 1) → ℝ) => (WithLp.toLp 2 (f q.1 q.2) : Space (n + 1)) :=
    toLp_measurable.comp (measurable_from_prod_countable_right hfm)
  refine ⟨fun i ω => WithLp.toLp 2 (f (R i ω) (U i ω)),
    ⟨fun i => hmeas.comp ((h.measurable i).prodMk (h.measurable' i)), h.indep.comp _ fun _ => hmeas, fun i => ?_⟩, fun i => ?_⟩
  · have hu : Pr.map (U i) = cond volume (Set.Icc 0 1) := h.uniform i
    have hmix := Uniform.mixture (ν := volume) (B := grayPiece e) (f := f) (h.measurable i) (h.measurable' i)
      (h.indepPair i) hfm hB (grayPiece_disjoint h0 h1 he) (fun r => by rw [h.choice, hw, hunion]) hBt
      (fun r hr => by rw [hu]; exact hfl r hr)
    have h3 := Uniform.map_toLp (T := {x : Fin (n + 1) → ℝ | GrayCore e.cubes e.thickness x})
      (by rw [← grayPiece_union h0 h1 he]; exact MeasurableSet.iUnion hB)
    rw [grayPiece_union h0 h1 he] at hmix
    show Pr.map (WithLp.toLp 2 ∘ fun ω => f (R i ω) (U i ω)) = cond volume _
    rw [← Measure.map_map toLp_measurable, hmix, h3]
    · rfl
    · exact (measurable_from_prod_countable_right (f := fun q : (Fin e.cubes.length × Fin 3) × (Fin (n + 1) → ℝ) => f q.1 q.2) hfm).comp
        ((h.measurable i).prodMk (h.measurable' i))
  · have hbad : Pr (⋃ r ∈ {r | target e.cubes r.1 r.2 = none}, R i ⁻¹' {r}) = 0 := by
      rw [measure_biUnion_null_iff (Set.to_countable _)]
      intro r hr
      rw [h.choice, hw]
      have : grayPiece e r = ∅ := by
        unfold grayPiece
        simp only [Set.mem_ofPred_eq] at hr
        rw [hr]
      rw [this]
      simp
    rw [ae_iff]
    refine measure_mono_null ?_ hbad
    intro ω hω
    simp only [Set.mem_iUnion, Set.mem_preimage, Set.mem_singleton_iff, exists_prop, exists_eq_right', Set.mem_ofPred_eq] at hω ⊢
    by_contra hn
    exact hω (hfs _ hn _)

/-- C84 fails for the Gray-code corridor: with walls of positive thickness there is a corner between two openings that is free,
according to the definition and to `distance_to_wall`, and has positive measure, but no draw returns a point of it. (Two dimensions,
length two; the corner is in the second cube.) -/
theorem C84_gray_false {th : ℝ} (h0 : 0 < th) (h1 : th < 1 / 2) :
    ∃ e : GrayCodeWalls ℝ 1, GrayCodeWalls.init 1 2 th = .ok e ∧
      let Q : Set (Fin 2 → ℝ) := {x | (1 - th < x 0 ∧ x 0 < 1) ∧ 1 < x 1 ∧ x 1 < 1 + th}
      volume Q ≠ 0 ∧ (∀ x ∈ Q, GrayFree e.cubes th x ∧ ∃ d, distanceToWall e x = .ok d ∧ 0 ≤ d) ∧
      ∀ (ix rix : ℕ) (u : Fin 2 → ℝ), (∀ i, 0 ≤ u i ∧ u i ≤ 1) → ∀ x ∈ Q, sample e ix rix u ≠ .ok x := by
  obtain ⟨e, he⟩ := (C20_init (n := 1) 2 th).1 (by omega)
  obtain ⟨-, -, hcubes, hth, -⟩ := init_ok he
  obtain ⟨hnd, hlen, hmem, hadj⟩ := C20_hamiltonian_path he
  have hord : order 1 2 = [![0, 0], ![0, 1], ![1, 1], ![1, 0]] := by decide +kernel
  have hch : e.cubes.IsChain CubeAdj := by rw [hcubes]; exact order_chain _ _
  have hc1 : e.cubes[1]? = some ![0, 1] := by rw [hcubes, hord]; rfl
  have nb0 : Neighbour e.cubes ![0, 1] ![0, 0] := Or.inr ⟨0, by rw [hcubes, hord]; rfl, hc1⟩
  have nb2 : Neighbour e.cubes ![0, 1] ![1, 1] := Or.inl ⟨1, hc1, by rw [hcubes, hord]; rfl⟩
  refine ⟨e, he, ?_, ?_, ?_⟩
  · have hopen : {x : Fin 2 → ℝ | (1 - th < x 0 ∧ x 0 < 1) ∧ 1 < x 1 ∧ x 1 < 1 + th} =
        Set.pi Set.univ fun i => Set.Ioo ((![1 - th, 1] : Fin 2 → ℝ) i) ((![1, 1 + th] : Fin 2 → ℝ) i) := by
      ext x
      simp [Fin.forall_fin_two]
    rw [hopen, Real.volume_pi_Ioo]
    simp [h0]
  · rintro x ⟨⟨a1, a2⟩, a3, a4⟩
    have hin : ∀ i, (((![0, 1] : Fin 2 → ℤ) i : ℤ) : ℝ) ≤ x i ∧ x i < (((![0, 1] : Fin 2 → ℤ) i : ℤ) : ℝ) + 1 := by
      rw [Fin.forall_fin_two]
      simp
      exact ⟨⟨by linarith, a2⟩, a3.le, by linarith⟩
    have hcl : ClearOfWalls e.cubes th ![0, 1] x := by
      unfold ClearOfWalls
      rw [Fin.forall_fin_two]
      simp only [Matrix.cons_val_zero, Matrix.cons_val_one]
      exact ⟨⟨Or.inl (by push_cast; linarith), Or.inr ⟨_, nb2, by simp⟩⟩, Or.inr ⟨_, nb0, by simp⟩, Or.inl (by push_cast; linarith)⟩
    obtain ⟨g1, g2⟩ := clear_dist he (List.mem_of_getElem? hc1) hin hcl
    exact ⟨g2, g1⟩
  · rintro ix rix u hu x ⟨⟨a1, a2⟩, a3, a4⟩ hs
    rcases Nat.lt_or_ge ix e.cubes.length with hix | hix
    · have hk := List.getElem?_eq_getElem hix
      cases ht : target e.cubes ix rix with
      | none =>
        obtain ⟨gl, g0⟩ := getLast?_eq_getElem?_iff hnd hk
        unfold sample at hs
        rw [hk] at hs
        simp only [g0, gl] at hs
        unfold target at ht
        by_cases hend : ix = 0 ∨ ix + 1 = e.cubes.length
        · rw [if_pos hend] at ht
          rw [if_pos hend] at hs
          have : ¬ rix < 2 := by
            intro hlt
            split_ifs at ht <;> first | omega | (rw [List.getElem?_eq_none_iff] at ht; omega)
          rw [List.getElem?_eq_none (by simp; omega)] at hs
          cases hs
        · rw [if_neg hend] at ht
          rw [if_neg hend] at hs
          have : ¬ rix < 3 := by
            intro hlt
            split_ifs at ht <;> first | omega | (rw [List.getElem?_eq_none_iff] at ht; omega)
          rw [List.getElem?_eq_none (by simp; omega)] at hs
          cases hs
      | some a =>
        obtain ⟨σ, hσ⟩ := sample_piece he hk ht
        rw [hσ] at hs
        have hx := Except.ok.inj hs
        have hr : rix < 3 := by
          unfold target at ht
          split_ifs at ht <;> omega
        have hpiece : x ∈ ⋃ r, grayPiece e r := by
          refine Set.mem_iUnion.2 ⟨(⟨ix, hix⟩, ⟨rix, hr⟩), ?_⟩
          unfold grayPiece
          simp only [ht, hth]
          have hle : ∀ i, lo th e.cubes[ix] a i ≤ GrayUniform.hi th e.cubes[ix] a i := by
            intro i
            unfold lo GrayUniform.hi
            split_ifs <;> linarith
          rw [← hx]
          refine ⟨fun i => ?_, fun i => ?_⟩
          · have := mul_nonneg (sub_nonneg.2 (hle i)) (hu (σ i)).1
            show lo th e.cubes[ix] a i ≤ _
            linarith
          · have := mul_le_of_le_one_right (sub_nonneg.2 (hle i)) (hu (σ i)).2
            show _ ≤ GrayUniform.hi th e.cubes[ix] a i
            linarith
        rw [grayPiece_union h0.le h1 he, hth] at hpiece
        obtain ⟨c, hc, hin, -, j, hj⟩ := hpiece
        have c0 : c 0 = 0 := by
          have b1 := (hin 0).1
          have b2 := (hin 0).2
          have : (-1 : ℝ) < c 0 := by linarith
          have : (c 0 : ℝ) < 1 := by linarith
          have h3 : -1 < c 0 := by exact_mod_cast ‹(-1 : ℝ) < c 0›
          have h4 : c 0 < 1 := by exact_mod_cast this
          omega
        have c1 : c 1 = 1 := by
          have b1 := (hin 1).1
          have b2 := (hin 1).2
          have h5 : (0 : ℝ) < c 1 := by linarith
          have h6 : (c 1 : ℝ) < 2 := by linarith
          have h3 : 0 < c 1 := by exact_mod_cast h5
          have h4 : c 1 < 2 := by exact_mod_cast h6
          omega
        by_cases hj0 : j = 0
        · have := (hj 1 (by rw [hj0]; decide)).1
          rw [c1] at this
          push_cast at this
          linarith
        · have := (hj 0 (Ne.symm hj0)).2
          rw [c0] at this
          push_cast at this
          linarith
    · unfold sample at hs
      rw [List.getElem?_eq_none hix] at hs
      cases hs

theorem sum_getD (l : List ℝ) (m : ℕ) (h : l.length ≤ m) : ∑ r : Fin m, (l[(r : ℕ)]?).getD 0 = l.sum := by
  induction l generalizing m with
  | nil => simp
  | cons a l ih =>
    cases m with
    | zero => simp at h
    | succ m =>
      rw [Fin.sum_univ_succ]
      simp only [Fin.val_zero, List.getElem?_cons_zero, Option.getD_some, Fin.val_succ, List.getElem?_cons_succ, List.sum_cons]
      rw [ih m (by simpa using h)]

/-- The hypotheses of C84 are met: for a corridor, a narrow passage and a Gray-code corridor in every dimension there are random draws
of the required kind. -/
theorem C84_nonvacuous :
    (∃ e : StraightLine ℝ 2, StraightLine.init 2 (1 / 2) 1 = .ok e) ∧
    (∃ Pr : Measure (ℕ → Fin (n + 1) → ℝ), IsProbabilityMeasure Pr ∧ UnitDraws Pr fun i x => x i) ∧
    (∀ c : ℝ, ∃ Pr : Measure (ℕ → Region × (Fin (n + 1) → ℝ)), IsProbabilityMeasure Pr ∧
      ChoiceDraws Pr (narrowWeight n c) (fun i x => (x i).1) fun i x => (x i).2) ∧
    ∃ e : GrayCodeWalls ℝ 1, GrayCodeWalls.init 1 2 (1 / 8) = .ok e ∧
      ∃ Pr : Measure (ℕ → (Fin e.cubes.length × Fin 3) × (Fin 2 → ℝ)), IsProbabilityMeasure Pr ∧
        ChoiceDraws Pr (grayWeight e) (fun i x => (x i).1) fun i x => (x i).2 := by
  refine ⟨?_, exists_unitDraws _, fun c => exists_choiceDraws (fun r => ?_) ?_ _, ?_⟩
  · refine ⟨_, if_neg (by norm_num) |>.trans (if_neg (by norm_num))⟩
  · obtain ⟨h1, h2, h3, -⟩ := C18_weights (n := n) c
    cases r with
    | left => exact h1
    | right => exact h2
    | hall => exact h3
  · obtain ⟨-, -, -, h4, -⟩ := C18_weights (n := n) c
    rw [← h4]
    show ∑ r ∈ {.left, .right, .hall}, narrowWeight n c r = _
    rw [Finset.sum_insert (by decide), Finset.sum_insert (by decide), Finset.sum_singleton, ← add_assoc]
    rfl
  · obtain ⟨e, he⟩ := (C20_init (n := 1) 2 (1 / 8 : ℝ)).1 (by omega)
    obtain ⟨hw, hl, hl3, hl2⟩ := C21_weights (by norm_num) (by norm_num) he
    have hcub := hw e.cuboidPmf (by simp)
    have hreg : ∀ k, (∀ w ∈ regionPmf e k, 0 ≤ w) ∧ (regionPmf e k).sum = 1 ∧ (regionPmf e k).length ≤ 3 := by
      intro k
      unfold regionPmf
      split_ifs
      · exact ⟨(hw e.endPmf (by simp)).1, (hw e.endPmf (by simp)).2, by omega⟩
      · exact ⟨(hw e.midPmf (by simp)).1, (hw e.midPmf (by simp)).2, by omega⟩
    have nn : ∀ (l : List ℝ) (k : ℕ), (∀ w ∈ l, 0 ≤ w) → 0 ≤ (l[k]?).getD 0 := by
      intro l k hl
      cases hk : l[k]? with
      | none => simp
      | some w => exact hl w (List.mem_of_getElem? hk)
    refine ⟨e, he, exists_choiceDraws (fun r => mul_nonneg (nn _ _ hcub.1) (nn _ _ (hreg _).1)) ?_ _⟩
    rw [Fintype.sum_prod_type]
    simp only
    have : ∀ k : Fin e.cubes.length, ∑ r : Fin 3, (e.cuboidPmf[(k : ℕ)]?).getD 0 * ((regionPmf e k)[(r : ℕ)]?).getD 0 =
        (e.cuboidPmf[(k : ℕ)]?).getD 0 := by
      intro k
      rw [← Finset.mul_sum, sum_getD _ 3 (hreg k).2.2, (hreg k).2.1, mul_one]
    rw [Finset.sum_congr rfl fun k _ => this k, sum_getD _ _ hl.le, hcub.2]

end Verif.Props
