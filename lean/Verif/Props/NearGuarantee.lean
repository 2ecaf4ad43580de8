import Mathlib.NumberTheory.Real.Irrational
import Verif.Lemmas.NearKnn
import Verif.Lemmas.Float32
import Verif.Props.TableDist
import Verif.Props.KnnGuarantee

/-! C143: the guarantees of the k-NN PRM when the planner and the nearest-neighbour library compute inexact distances. -/

namespace Verif.Props

open MeasureTheory ProbabilityTheory Verif.Bound Verif.Spec Verif.Net Verif.Prm

variable {Ω : Type*} [MeasurableSpace Ω] {Pr : Measure Ω} [IsProbabilityMeasure Pr] {dim : ℕ} {X : ℕ → Ω → Space dim}
  {S : Set (Space dim)}

theorem isChain_mem {α : Type*} {R G : α → α → Prop} {l : List α} (h : l.IsChain R) (hG : ∀ p q, p ∈ l → q ∈ l → R p q → G p q) : l.IsChain G := by
  induction l with
  | nil => exact List.IsChain.nil
  | cons x l ih =>
    rw [List.isChain_cons] at h ⊢
    exact ⟨fun y hy => hG x y (by simp) (by simp [List.mem_of_mem_head? hy]) (h.1 y hy),
      ih h.2 fun p q hp hq => hG p q (by simp [hp]) (by simp [hq])⟩

theorem clearPath_ends {F : Set (Space dim)} {δ : ℝ} (hδ : 0 < δ) {a b : Space dim} {γ : ℝ → Space dim} (h : ClearPath F δ a b γ) : a ∈ F ∧ b ∈ F := by
  have h0 := h.clear 0 (by simp) (Metric.mem_ball_self hδ)
  have h1 := h.clear 1 (by simp) (Metric.mem_ball_self hδ)
  rw [h.start] at h0
  rw [h.goal] at h1
  exact ⟨h0, h1⟩

/-- The certified radius, outside the event that some sample has `k` others closer than `s`. -/
theorem near_certified {w : World (Space dim) ℝ} {td : Space dim → Space dim → ℝ} {κ α s r : ℝ} {F B : Set (Space dim)} {ω : Ω}
    (hw : NearWorld w td κ α F B (fun i => X i ω)) (hkw : NearKnn w td) (hκ : κ < 1) (hs : r + α ≤ (1 - κ) * s) {m k d : ℕ} (hk : k + 1 ≤ m)
    (hnot : ¬ ∃ i < m, k ≤ neighbours X (d + 1) m s ω i) {x : ℝ}
    (hx : Knn.certify (w.knn (w.fresh (d + 1) m) (min (m - 1) k)) = .ok x) : r ≤ x := by
  by_contra hlt
  refine hnot (many_near_with hw.near.sound hk ?_ (hkw.exact _ _) (hkw.sorted _ _) hx (not_le.1 hlt))
  intro i _ j _ hij
  rw [hw.draw, hw.draw] at hij
  rw [dist_comm]
  have h1 := (abs_le.1 (hw.near.table _ (hw.inside (d + 1 + i)) _ (hw.inside (d + 1 + j)))).1
  by_contra hge
  have := mul_le_mul_of_nonneg_left (not_lt.1 hge) (sub_pos.2 hκ).le
  linarith

/-- The growth in the two events: the query after it. -/
theorem near_answer {w : World (Space dim) ℝ} {td : Space dim → Space dim → ℝ} {κ α s r r' : ℝ} {F B : Set (Space dim)} {ω : Ω}
    (hw : NearWorld w td κ α F B (fun i => X i ω)) (hkw : NearKnn w td) (hκ0 : 0 ≤ κ) (hκ : κ < 1) (hr : (1 + κ) * r + α ≤ r')
    (hs : r' + α ≤ (1 - κ) * s) {ops rs : List (Knn.Op (Space dim) ℝ)} {k m d : ℕ} {tr : Bool}
    (hops : ∀ o ∈ ops, o ≠ .reset ∧ ∀ k', o ≠ .setNeighbors k') (hok : (((Knn.init k tr d).run w ops).grow w m).2 = .ok ())
    (hrs : ∀ o ∈ rs, (∃ r₀, o = .setRadius r₀ ∧ r' ≤ r₀) ∨ ∃ a b, o = .query a b) (hk : k + 1 ≤ m)
    (hnot : ¬ ∃ i < m, k ≤ neighbours X (d + 1) m s ω i) {a b : Space dim} {pts : List (Space dim)}
    (ha : a ∈ B) (hb : b ∈ B) (hne : pts ≠ []) (hmem : ∀ p ∈ pts, p ∈ w.fresh (d + 1) m)
    (hc : (a :: pts ++ [b]).IsChain fun p q => dist p q < r ∧ segment ℝ p q ⊆ F) :
    ∃ (len : ℝ) (pts' : List (Space dim)),
      (((Knn.init k tr d).run w (ops ++ .grow m :: rs)).query w a b).2 = .ok ((len : WithTop ℝ), pts') ∧ pts' ≠ [] ∧
      len ≤ (1 + κ) * pathLength dist (a :: pts ++ [b]) + (pts.length + 1) * α := by
  have hup : ∀ (f : Space dim → Space dim → ℝ), (∀ p ∈ B, ∀ q ∈ B, |f p q - dist p q| ≤ κ * dist p q + α) →
      ∀ p ∈ B, ∀ q ∈ B, dist p q < r → f p q < r' := by
    intro f hf p hp q hq hpq
    have h1 := (abs_le.1 (hf p hp q hq)).2
    have h2 := mul_lt_mul_of_pos_left hpq (show 0 < 1 + κ by linarith)
    linarith
  have hB : ∀ p ∈ pts, p ∈ B := by
    intro p hp
    obtain ⟨i, -, rfl⟩ := List.mem_map.1 (hmem p hp)
    rw [hw.draw]
    exact hw.inside _
  rw [List.isChain_append] at hc
  obtain ⟨h1, -, h2⟩ := hc
  rw [List.isChain_cons] at h1
  obtain ⟨len, pts', e1, e2, e3⟩ := knn_route_with hw.near.sound hkw.visits hw.near.dist_self hw.near.table_self (hkw.exact _ _) hops hok hrs
    (fun x hx => near_certified hw hkw hκ hs hk hnot hx) (a := a) (b := b) hne hmem
    (fun p hp => by
      obtain ⟨h3, h4⟩ := h1.1 p hp
      rw [dist_comm] at h3
      exact ⟨(hup _ hw.near.dist p (hB p (List.mem_of_mem_head? hp)) a ha h3).le, hw.check _ _ h4⟩)
    (fun p hp => by
      have hp' : (a :: pts).getLast? = some p := by
        rw [List.getLast?_cons, hp]; rfl
      obtain ⟨h3, h4⟩ := h2 p hp' b rfl
      refine ⟨(hup _ hw.near.dist p (hB p (List.mem_of_mem_getLast? hp)) b hb h3).le, hw.check _ _ ?_⟩
      rwa [segment_symm])
    (isChain_mem h1.2 fun p q hp hq h => ⟨hup _ hw.near.table p (hB p hp) q (hB q hq) h.1, .inl (hw.check _ _ h.2)⟩)
  refine ⟨len, pts', e1, e2, e3.trans ?_⟩
  have := (abs_le.1 (routeLength_near hw.near.dist hw.near.table ha hb hne hB)).2
  linarith

/-- C143, certified radius. Distances have a relative error `κ` and an absolute error `α` in the bounds `B`; the k-NN PRM with exact neighbours in the library's distances, grown to
`m` samples (in whatever steps): its certified radius is at least `r` up to the probability of the Chernoff-KL bound at a radius `s` larger by the errors. -/
theorem C143_certified (hX : IidUniform Pr X S) (hS : MeasurableSet S) (hdim : 1 ≤ dim) {vol : ℝ} (hv : 0 < vol)
    (hvol : ENNReal.ofReal vol ≤ volume S) {m k : ℕ} (hm : 2 ≤ m) (hk : k + 1 ≤ m) {r s κ α : ℝ} (hκ : κ < 1) (hs0 : 0 ≤ s)
    (hs : r + α ≤ (1 - κ) * s) (F B : Set (Space dim)) (tr : Bool) (d : ℕ) :
    Pr {ω | ¬ ∀ (w : World (Space dim) ℝ) (td : Space dim → Space dim → ℝ) (ops rs : List (Knn.Op (Space dim) ℝ)),
        NearWorld w td κ α F B (fun i => X i ω) → NearKnn w td →
        (∀ o ∈ ops, o ≠ .reset ∧ ∀ k', o ≠ .setNeighbors k') → (((Knn.init k tr d).run w ops).grow w m).2 = .ok () →
        RadiusChanges rs → ∃ x, ((Knn.init k tr d).run w (ops ++ .grow m :: rs)).certified = some x ∧ r ≤ x} ≤
      EReal.exp (tailKL m k s dim vol) := by
  refine le_trans (measure_mono fun ω hω => ?_) (C80_chernoff_kl hX hS hdim hv hvol hm hs0 (Nat.cast_nonneg k) (d + 1))
  by_contra hnot
  apply hω
  intro w td ops rs hw hkw hops hok hrs
  obtain ⟨x, h1, h2, -⟩ := certified_with hw.near.sound hkw.visits hops hok hrs
  refine ⟨x, h2, near_certified hw hkw hκ hs hk ?_ h1⟩
  rintro ⟨i, hi, hki⟩
  exact hnot ⟨i, hi, by exact_mod_cast hki⟩

/-- C143, existence. As `C83_complete` with inexact distances: the radius may have been set in between, but not below one that exceeds the returned one by the errors, and
the second failure probability is taken at a radius `s` that exceeds it by the errors once more. -/
theorem C143_complete (hX : IidUniform Pr X S) (hS : MeasurableSet S) (hdim : 1 ≤ dim) {δ p vol₁ vol₂ : ℝ} {tol : Option ℝ} {fuel N : ℕ}
    {r r' s κ α : ℝ} (hvol₁ : volume S ≤ ENNReal.ofReal vol₁) (hv : 0 < vol₂) (hvol₂ : ENNReal.ofReal vol₂ ≤ volume S) (hδ : 0 < δ)
    (ht : TolNonneg tol) (h : numericalBound δ p vol₁ dim tol fuel = some (.ok (N, r))) (hκ0 : 0 ≤ κ) (hκ : κ < 1) (hs0 : 0 ≤ s)
    (hr : (1 + κ) * r + α ≤ r') (hs : r' + α ≤ (1 - κ) * s) {F B : Set (Space dim)} (hF : F ⊆ S) (hB : F ⊆ B)
    {m k : ℕ} (hm : 2 ≤ m) (hN : N ≤ m) (hk : k + 1 ≤ m) (tr : Bool) (d : ℕ) :
    Pr {ω | ¬ ∀ (w : World (Space dim) ℝ) (td : Space dim → Space dim → ℝ) (ops rs : List (Knn.Op (Space dim) ℝ)) (a b : Space dim) (γ : ℝ → Space dim),
        NearWorld w td κ α F B (fun i => X i ω) → NearKnn w td →
        (∀ o ∈ ops, o ≠ .reset ∧ ∀ k', o ≠ .setNeighbors k') → (((Knn.init k tr d).run w ops).grow w m).2 = .ok () →
        (∀ o ∈ rs, (∃ r₀, o = .setRadius r₀ ∧ r' ≤ r₀) ∨ ∃ a b, o = .query a b) → ClearPath F δ a b γ →
        ∃ len pts, (((Knn.init k tr d).run w (ops ++ .grow m :: rs)).query w a b).2 = .ok (len, pts) ∧ pts ≠ []} ≤
      ENNReal.ofReal (1 - p) + EReal.exp (tailKL m k s dim vol₂) := by
  have hnet := C77_net hX hS hdim hvol₁ hδ.le ht h hN (d + 1)
  have hp0 : 0 ≤ 1 - p := measureReal_nonneg.trans hnet
  refine le_trans ?_ (add_le_add (to_ennreal hp0 hnet) (C80_chernoff_kl hX hS hdim hv hvol₂ hm hs0 (Nat.cast_nonneg k) (d + 1)))
  refine le_trans (measure_mono fun ω hω => ?_) (measure_union_le _ _)
  by_contra hnot
  rw [Set.mem_union, not_or] at hnot
  apply hω
  intro w td ops rs a b γ hw hkw hops hok hrs hγ
  obtain ⟨pts, h1, h2, h3⟩ := clearPath_hops (S := w.fresh (d + 1) m) (r := r) hγ (netRadius_le hδ.le tol)
    (radius_ge hδ.le h) (net_of_not_mem hF hδ.le hnot.1 hw.draw (by rw [fresh_length]) (by rw [fresh_length]))
  obtain ⟨len, pts', e1, e2, -⟩ := near_answer hw hkw hκ0 hκ hr hs hops hok hrs hk (by
    rintro ⟨i, hi, hki⟩
    exact hnot.2 ⟨i, hi, by exact_mod_cast hki⟩) (hB (clearPath_ends hδ hγ).1) (hB (clearPath_ends hδ hγ).2) h1 h2 h3
  exact ⟨len, pts', e1, e2⟩

/-- C143, length: the same with stretch factor `1 + t`, for paths of length at most `L`; the reported length exceeds the bound of `C83_length` by the errors of
the hops. -/
theorem C143_length (hX : IidUniform Pr X S) (hS : MeasurableSet S) (hdim : 1 ≤ dim) {δ p vol₁ vol₂ t : ℝ} {fuel N : ℕ}
    {r r' s κ α : ℝ} (hvol₁ : volume S ≤ ENNReal.ofReal vol₁) (hv : 0 < vol₂) (hvol₂ : ENNReal.ofReal vol₂ ≤ volume S) (hδ : 0 < δ)
    (ht : 0 ≤ t) (h : numericalBound δ p vol₁ dim (some t) fuel = some (.ok (N, r))) (hκ0 : 0 ≤ κ) (hκ : κ < 1) (hα : 0 ≤ α) (hs0 : 0 ≤ s)
    (hr : (1 + κ) * r + α ≤ r') (hs : r' + α ≤ (1 - κ) * s) {F B : Set (Space dim)} (hF : F ⊆ S) (hB : F ⊆ B)
    {m k : ℕ} (hm : 2 ≤ m) (hN : N ≤ m) (hk : k + 1 ≤ m) (tr : Bool) (d : ℕ) :
    Pr {ω | ¬ ∀ (w : World (Space dim) ℝ) (td : Space dim → Space dim → ℝ) (ops rs : List (Knn.Op (Space dim) ℝ)) (a b : Space dim) (γ : ℝ → Space dim)
        (L D : ℝ), NearWorld w td κ α F B (fun i => X i ω) → NearKnn w td →
        (∀ o ∈ ops, o ≠ .reset ∧ ∀ k', o ≠ .setNeighbors k') → (((Knn.init k tr d).run w ops).grow w m).2 = .ok () →
        (∀ o ∈ rs, (∃ r₀, o = .setRadius r₀ ∧ r' ≤ r₀) ∨ ∃ a b, o = .query a b) → ClearPath F δ a b γ → LengthAtMost γ L → 0 ≤ L →
        D = 2 * δ / Real.sqrt (1 + t ^ 2) →
        ∃ (len : ℝ) (pts : List (Space dim)),
          (((Knn.init k tr d).run w (ops ++ .grow m :: rs)).query w a b).2 = .ok ((len : WithTop ℝ), pts) ∧ pts ≠ [] ∧
          len ≤ (1 + κ) * (L + t * max L D) + (max L D / D + 1) * α} ≤
      ENNReal.ofReal (1 - p) + EReal.exp (tailKL m k s dim vol₂) := by
  have hnet := C77_net hX hS hdim hvol₁ hδ.le (tol := some t) ht h hN (d + 1)
  have hp0 : 0 ≤ 1 - p := measureReal_nonneg.trans hnet
  refine le_trans ?_ (add_le_add (to_ennreal hp0 hnet) (C80_chernoff_kl hX hS hdim hv hvol₂ hm hs0 (Nat.cast_nonneg k) (d + 1)))
  refine le_trans (measure_mono fun ω hω => ?_) (measure_union_le _ _)
  by_contra hnot
  rw [Set.mem_union, not_or] at hnot
  apply hω
  intro w td ops rs a b γ L D hw hkw hops hok hrs hγ hL hL0 hD
  obtain ⟨f1, f2, f3, f4⟩ := spacing_facts (t := t) hδ
  obtain ⟨pts, h1, h2, h3, h4, h5⟩ := clearPath_short_hops_count (S := w.fresh (d + 1) m) (r := r) hγ hL hL0 hδ f1
    (by rw [f2, ← C06_radius_consistent h]) f3.le (net_of_not_mem hF hδ.le hnot.1 hw.draw (by rw [fresh_length]) (by rw [fresh_length]))
  rw [f4] at h4
  have hDs : spacing δ t = D := hD.symm
  rw [hDs] at h4 h5 f1
  obtain ⟨len, pts', e1, e2, e3⟩ := near_answer hw hkw hκ0 hκ hr hs hops hok hrs hk (by
    rintro ⟨i, hi, hki⟩
    exact hnot.2 ⟨i, hi, by exact_mod_cast hki⟩) (hB (clearPath_ends hδ hγ).1) (hB (clearPath_ends hδ hγ).2) h1 h2 h3
  refine ⟨len, pts', e1, e2, e3.trans ?_⟩
  rw [← le_div_iff₀ f1] at h5
  exact add_le_add (mul_le_mul_of_nonneg_left h4 (by linarith)) (mul_le_mul_of_nonneg_right (by linarith) hα)

/-! ### The hypotheses can be met: tables in single precision -/

/-- `discWorld` with a nearest-neighbour library that rounds its distances to single precision. -/
noncomputable abbrev singleWorld (F : Set (Space 2)) (x : ℕ → Space 2) : World (Space 2) ℝ :=
  { discWorld F x with
    knn := exactKnn fun p q => Float32.fl (dist p q)
    knnUpdate := fun S new k => exactKnn (fun p q => Float32.fl (dist p q)) (S ++ new) k }

theorem singleWorld_near (F : Set (Space 2)) (x : ℕ → Space 2) :
    NearWorld (singleWorld F x) (fun p q => Float32.fl (dist p q)) (2 ^ (-24 : ℤ)) (2 ^ (-150 : ℤ)) F Set.univ x where
  near :=
    { sound :=
        { dist_symm := dist_comm
          dist_nonneg := fun _ _ => dist_nonneg
          td_symm := fun p q => by rw [dist_comm]
          td_nonneg := fun _ _ => Float32.fl_nonneg dist_nonneg
          dijkstra := refShortest_correct
          knn := fun S k => exactKnn_true { discWorld F x with dist := fun p q => Float32.fl (dist p q) } S k
          knnUpdate := fun S new k => exactKnn_true { discWorld F x with dist := fun p q => Float32.fl (dist p q) } (S ++ new) k }
      dist := fun p _ q _ => by
        have h : (singleWorld F x).dist p q = dist p q := rfl
        rw [h, sub_self, abs_zero]
        positivity
      table := fun p _ q _ => by
        have := Float32.fl_err (dist p q)
        rwa [abs_of_nonneg (dist_nonneg (x := p) (y := q))] at this
      dist_self := fun p => dist_self p
      table_self := fun p => by rw [dist_self, Float32.fl_zero] }
  draw := fun _ => rfl
  inside := fun _ => Set.mem_univ _
  check := (discWorld_euclidean F x).check

theorem singleWorld_knn (F : Set (Space 2)) (x : ℕ → Space 2) : NearKnn (singleWorld F x) (fun p q => Float32.fl (dist p q)) where
  exact := fun S k => exactKnn_table { singleWorld F x with dist := fun p q => Float32.fl (dist p q) } S k
  sorted := by
    intro S k row hrow
    obtain ⟨a, -, rfl⟩ := List.mem_map.1 hrow
    exact (List.pairwise_insertionSort (fun x y : ℕ × ℝ => x.2 ≤ y.2) _).sublist (List.take_sublist _ _)
  visits := arrayVisits_existing rfl

theorem singleWorld_ne (F : Set (Space 2)) (x : ℕ → Space 2) : (singleWorld F x).dist ≠ fun p q => Float32.fl (dist p q) := by
  intro heq
  have h8 : dist (EuclideanSpace.single 0 (Real.sqrt 2) : Space 2) 0 = Float32.fl (dist (EuclideanSpace.single 0 (Real.sqrt 2) : Space 2) 0) :=
    congrFun (congrFun heq _) _
  rw [dist_zero_right, PiLp.norm_single, Real.norm_of_nonneg (Real.sqrt_nonneg 2)] at h8
  have h9 := Float32.isFloat_fl (Real.sqrt 2)
  rw [← h8] at h9
  obtain ⟨n, e, -, -, hn⟩ := h9
  refine irrational_sqrt_two ⟨(n : ℚ) * 2 ^ e, ?_⟩
  rw [hn]
  push_cast
  rfl

theorem grow_answers {P : Type*} {w : World P ℝ} (hw : w.Sound) {k m : ℕ} (hk : 1 ≤ k) (hm : 2 ≤ m)
    (hx : w.ExactTable (w.fresh 1 m) (min (m - 1) k) (w.knn (w.fresh 1 m) (min (m - 1) k))) : ((Knn.init k true 0).grow w m).2 = .ok () := by
  set S := w.fresh 1 m with hS
  have hlen : S.length = m := fresh_length w 1 m
  have hrows : ∃ y, Knn.certify (w.knn S (min (m - 1) k)) = .ok y := by
    apply certify_rows_ok
    · intro h0
      have := (hw.knn_true S (min (m - 1) k)).1
      rw [h0, hlen] at this
      simp at this
      omega
    · intro row hrow h0
      obtain ⟨i, hi⟩ := List.mem_iff_getElem?.1 hrow
      have := hx.full i row hi
      rw [h0, hlen] at this
      simp at this
      omega
  obtain ⟨y, hy⟩ := hrows
  have hgrow : (Knn.init k true 0).grow w m = Knn.rebuild w { Knn.init k true 0 with drawn := 0 + 1 + m } S := rfl
  rw [hgrow]
  unfold Knn.rebuild
  simp only [hlen, Knn.init]
  rw [tableGraph_ok (hw.knn_true _ _)]
  simp only
  rw [hy]
  simp [Knn.setRadius, Knn.mustReload]

theorem near_grow {P : Type*} {w : World P ℝ} {td : P → P → ℝ} (hw : w.SoundWith td) (hkw : NearKnn w td) {k m : ℕ} (hk : 1 ≤ k) (hm : 2 ≤ m) :
    ((Knn.init k true 0).grow w m).2 = .ok () := by
  have h := grow_answers (tagged_sound hw) hk hm (by rw [tagged_fresh]; exact tagged_exact (hkw.exact _ _))
  have h2 := knn_grow_tagged w td m (Knn.init k true 0)
  rw [knn_init_tagged] at h2
  rwa [h2] at h

/-- With `k = m - 1` the Chernoff-KL bound is small. -/
theorem tail_eighth {m : ℕ} (hm : 8 ≤ m) {r vol : ℝ} {dim : ℕ} (hf0 : 0 < ballFraction r dim vol) (hf : ballFraction r dim vol ≤ 1 / 8) :
    EReal.exp (tailKL m (m - 1 : ℕ) r dim vol) ≤ ENNReal.ofReal (1 / 4) := by
  have hm0 : (8 : ℝ) ≤ m := by exact_mod_cast hm
  have hcast : ((m - 1 : ℕ) : ℝ) = (m : ℝ) - 1 := by
    push_cast [Nat.cast_sub (show 1 ≤ m by omega)]
    ring
  unfold tailKL
  simp only [if_true, hcast]
  set f := ballFraction r dim vol with hfd
  clear_value f
  rw [min_eq_left (by linarith)]
  set x : ℝ := ((m : ℝ) - 1) / m with hx
  have hx34 : 3 / 4 ≤ x := by
    rw [hx, le_div_iff₀ (by linarith)]
    linarith
  have hx1 : x < 1 := by
    rw [hx, div_lt_one (by linarith)]
    linarith
  rw [max_eq_left (by linarith), show f + (x - f) = x by ring]
  unfold entropy2 relEntr
  rw [if_pos ⟨by linarith, hf0⟩, if_pos ⟨by linarith, by linarith⟩, ← EReal.coe_add, ← EReal.coe_mul, ← EReal.coe_sub, EReal.exp_coe]
  apply ENNReal.ofReal_le_ofReal
  clear_value x
  have hent : Real.log 2 ≤ x * Real.log (x / f) + (1 - x) * Real.log ((1 - x) / (1 - f)) := by
    have h1 := Real.binEntropy_le_log_two (p := x)
    rw [Real.binEntropy_eq_negMulLog_add_negMulLog_one_sub] at h1
    unfold Real.negMulLog at h1
    rw [Real.log_div (x := x) (by linarith) hf0.ne', Real.log_div (x := 1 - x) (by linarith) (by linarith)]
    have h2 : Real.log f ≤ -(3 * Real.log 2) := by
      refine (Real.log_le_log hf0 hf).trans ?_
      rw [show (1 / 8 : ℝ) = (2 ^ 3)⁻¹ by norm_num, Real.log_inv, Real.log_pow]
      norm_num
    have h3 : Real.log (1 - f) ≤ 0 := Real.log_nonpos (by linarith) (by linarith)
    have h5 : 0 < Real.log 2 := Real.log_pos (by norm_num)
    have h8 := mul_nonneg (sub_nonneg.2 hx34) h5.le
    have h9 := mul_nonneg (sub_nonneg.2 hx1.le) (neg_nonneg.2 h3)
    have h10 := mul_le_mul_of_nonneg_left h2 (show 0 ≤ x by linarith)
    nlinarith
  have h6 : Real.log m - (x * Real.log (x / f) + (1 - x) * Real.log ((1 - x) / (1 - f))) * ((m : ℝ) - 1) ≤
      Real.log m - Real.log 2 * ((m : ℝ) - 1) := by
    have : Real.log 2 * ((m : ℝ) - 1) ≤ (x * Real.log (x / f) + (1 - x) * Real.log ((1 - x) / (1 - f))) * ((m : ℝ) - 1) :=
      mul_le_mul_of_nonneg_right hent (by linarith)
    linarith
  refine (Real.exp_le_exp.2 h6).trans ?_
  rw [Real.exp_sub, Real.exp_log (by linarith), ← hcast, mul_comm, Real.exp_nat_mul, Real.exp_log (by norm_num),
    div_le_iff₀ (by positivity)]
  obtain ⟨n, rfl⟩ : ∃ n, m = n + 8 := ⟨m - 8, by omega⟩
  have h7 : ∀ n : ℕ, ((n + 8 : ℕ) : ℝ) ≤ 1 / 4 * 2 ^ (n + 8 - 1) := by
    intro n
    induction n with
    | zero => norm_num
    | succ n ih =>
      have : n + 1 + 8 - 1 = (n + 8 - 1) + 1 := by omega
      rw [this, pow_succ]
      push_cast at ih ⊢
      linarith
  exact h7 n

theorem ballFraction_five_halves : ballFraction (5 / 2) 2 (64 * Real.pi) = 25 / 256 := by
  rw [ballFraction_eq (by norm_num) (by norm_num), volume_disc (5 / 2) (by norm_num),
    ENNReal.toReal_ofReal (by have := Real.pi_pos; positivity)]
  have := Real.pi_pos.ne'
  field_simp
  norm_num

/-- The hypotheses of C143 are met by the disc of radius 8, clearance 1, success probability 1/2, with a library that rounds its distances to single precision: a
count is returned, there are a sampler, a planner whose growth succeeds, two different distances, and a path of clearance 1, and the two failure
probabilities add up to at most 3/4. -/
theorem C143_nonvacuous : ∃ (fuel N : ℕ) (r r' s κ α : ℝ) (m k : ℕ),
    numericalBound 1 (1 / 2) (64 * Real.pi) 2 none fuel = some (.ok (N, r)) ∧ 0 < κ ∧ κ < 1 ∧ 0 < α ∧ 0 ≤ s ∧ (1 + κ) * r + α ≤ r' ∧
    r' + α ≤ (1 - κ) * s ∧ 2 ≤ m ∧ N ≤ m ∧ k + 1 ≤ m ∧
    ENNReal.ofReal (1 - 1 / 2) + EReal.exp (tailKL m k s 2 (64 * Real.pi)) ≤ ENNReal.ofReal (3 / 4) ∧
    ∃ (Pr : Measure (ℕ → Space 2)), IsProbabilityMeasure Pr ∧
      IidUniform Pr (fun i x => x i) (Metric.ball (0 : Space 2) 8) ∧ MeasurableSet (Metric.ball (0 : Space 2) 8) ∧
      volume (Metric.ball (0 : Space 2) 8) = ENNReal.ofReal (64 * Real.pi) ∧
      ∀ x : ℕ → Space 2, ∃ (w : World (Space 2) ℝ) (td : Space 2 → Space 2 → ℝ), NearWorld w td κ α (Metric.ball 0 8) Set.univ x ∧ NearKnn w td ∧
        w.dist ≠ td ∧ (((Knn.init k true 0).run w []).grow w m).2 = .ok () ∧
        ∃ (a b : Space 2) (γ : ℝ → Space 2), a ≠ b ∧ ClearPath (Metric.ball 0 8) 1 a b γ ∧ LengthAtMost γ 2 := by
  obtain ⟨fuel, N, r, h⟩ := answers_64th (δ := 1) (vol := 64 * Real.pi) (by norm_num) netMeasure_disc8
  have hr : r = 2 := by
    obtain ⟨-, -, hr, -⟩ := numericalBound_ok h
    rw [hr]
    norm_num [alpha]
  have hvol := volume_disc 8 (by norm_num)
  rw [show Real.pi * (8 : ℝ) ^ 2 = 64 * Real.pi by ring] at hvol
  have hprob : IsProbabilityMeasure (cond volume (Metric.ball (0 : Space 2) 8)) :=
    cond_isProbabilityMeasure_of_finite (by rw [hvol]; simp [Real.pi_pos]) (by rw [hvol]; exact ENNReal.ofReal_ne_top)
  refine ⟨fuel, N, r, 9 / 4, 5 / 2, 2 ^ (-24 : ℤ), 2 ^ (-150 : ℤ), N + 8, N + 7, h, by positivity, by norm_num, by positivity, by norm_num,
    by rw [hr]; norm_num, by norm_num, by omega, by omega, by omega, ?_,
    Measure.infinitePi fun _ => cond volume (Metric.ball (0 : Space 2) 8), inferInstance, ⟨fun i => measurable_pi_apply i, ?_, ?_⟩,
    measurableSet_ball, hvol, ?_⟩
  · refine (add_le_add le_rfl (tail_eighth (m := N + 8) (by omega) ?_ ?_)).trans ?_
    · rw [ballFraction_five_halves]; norm_num
    · rw [ballFraction_five_halves]; norm_num
    · rw [← ENNReal.ofReal_add (by norm_num) (by norm_num)]
      norm_num
  · exact iIndepFun_infinitePi (X := fun _ x => x) fun _ => measurable_id
  · intro i
    exact (measurePreserving_eval_infinitePi (fun _ => cond volume (Metric.ball (0 : Space 2) 8)) i).map_eq
  · intro x
    obtain ⟨a, b, γ, h5, h6, h7⟩ := disc_path
    refine ⟨singleWorld _ x, _, singleWorld_near _ x, singleWorld_knn _ x, ?_,
      near_grow (singleWorld_near (Metric.ball 0 8) x).near.sound (singleWorld_knn _ x) (by omega) (by omega), a, b, γ, h5,
      ⟨h6.continuous, h6.start, h6.goal, fun t ht => (h6.clear t ht).trans (Metric.ball_subset_ball (by norm_num))⟩, h7⟩
    exact singleWorld_ne _ x

/-- The hypotheses of C142 are met by two samples and a library that rounds its distances to single precision: after one growth a query between two different points is
answered with a path. -/
theorem C142_nonvacuous : ∃ (w : World (Space 2) ℝ) (td : Space 2 → Space 2 → ℝ) (S : List (Space 2)) (r : ℝ) (a b : Space 2) (d : WithTop ℝ)
    (pts : List (Space 2)), w.SoundWith td ∧ w.dist ≠ td ∧ (∀ p q, |w.dist p q - dist p q| ≤ 2 ^ (-24 : ℤ) * dist p q + 2 ^ (-150 : ℤ)) ∧
    (∀ p q, |td p q - dist p q| ≤ 2 ^ (-24 : ℤ) * dist p q + 2 ^ (-150 : ℤ)) ∧ ((Knn.init 1 true 0).run w [.grow 2]).samples = some S ∧
    ((Knn.init 1 true 0).run w [.grow 2]).connR.or ((Knn.init 1 true 0).run w [.grow 2]).certified = some r ∧ a ≠ b ∧
    (((Knn.init 1 true 0).run w [.grow 2]).query w a b).2 = .ok (d, pts) ∧ pts ≠ [] := by
  set x : ℕ → Space 2 := fun i => if i = 1 then 0 else EuclideanSpace.single 0 4 with hxd
  set b : Space 2 := EuclideanSpace.single 0 (Real.sqrt 2) with hb
  have hw := singleWorld_near Set.univ x
  have hkw := singleWorld_knn Set.univ x
  set w := singleWorld Set.univ x with hwd
  have hf : w.fresh 1 2 = [x 1, x 2] := rfl
  have hd : dist (x 1) (x 2) = 4 := by
    change dist (0 : Space 2) (EuclideanSpace.single 0 4) = 4
    rw [dist_zero_left, PiLp.norm_single]
    norm_num
  have h4 : Float32.fl 4 = 4 := Float32.fl_eq ⟨1, 2, by norm_num, by norm_num, by norm_num⟩ (by norm_num)
  have hcert : ∀ y, Knn.certify (w.knn (w.fresh 1 2) (min (2 - 1) 1)) = .ok y → (4 : ℝ) ≤ y := by
    intro y hy
    rw [hf] at hy
    have hk : w.knn [x 1, x 2] (min (2 - 1) 1) = [[(1, (4 : ℝ))], [(0, 4)]] := by
      change exactKnn (fun p q => Float32.fl (dist p q)) [x 1, x 2] 1 = _
      simp [exactKnn, hd, dist_comm (x 2), h4]
    rw [hk] at hy
    simp [Knn.certify] at hy
    linarith
  have hok : (((Knn.init 1 true 0).run w []).grow w 2).2 = .ok () := near_grow hw.near.sound hkw (by norm_num) (by norm_num)
  obtain ⟨len, pts, h1, h2, -⟩ := knn_route_with hw.near.sound hkw.visits hw.near.dist_self hw.near.table_self (hkw.exact _ _)
    (ops := []) (rs := []) (by simp) hok (by simp) hcert (a := 0) (b := b) (pts := [x 1]) (by simp) (by simp [hf])
    (by
      intro p hp
      cases hp
      exact ⟨by rw [show x 1 = 0 from rfl, hw.near.dist_self]; norm_num, hw.check _ _ (Set.subset_univ _)⟩)
    (by
      intro p hp
      cases hp
      refine ⟨?_, hw.check _ _ (Set.subset_univ _)⟩
      change dist (0 : Space 2) b ≤ 4
      rw [dist_zero_left, hb, PiLp.norm_single, Real.norm_of_nonneg (Real.sqrt_nonneg 2), Real.sqrt_le_left (by norm_num)]
      norm_num)
    (by simp)
  obtain ⟨y, -, h3, h6⟩ := certified_with hw.near.sound hkw.visits (ops := []) (rs := []) (by simp) hok (by intro o ho; cases ho)
  obtain ⟨r, hr⟩ : ∃ r, ((Knn.init 1 true 0).run w [.grow 2]).connR.or ((Knn.init 1 true 0).run w [.grow 2]).certified = some r := by
    rw [show ((Knn.init 1 true 0).run w [.grow 2]).certified = some y from h3]
    cases ((Knn.init 1 true 0).run w [.grow 2]).connR <;> simp
  refine ⟨w, _, [x 1, x 2], r, 0, b, _, pts, hw.near.sound, singleWorld_ne _ x, fun p q => hw.near.dist p trivial q trivial, fun p q => hw.near.table p trivial q trivial, h6, hr, ?_, h1, h2⟩
  intro h0
  have h5 := congrArg norm h0
  rw [norm_zero, hb, PiLp.norm_single, Real.norm_of_nonneg (Real.sqrt_nonneg 2)] at h5
  have := Real.sqrt_pos.2 (show (0 : ℝ) < 2 by norm_num)
  linarith

end Verif.Props
