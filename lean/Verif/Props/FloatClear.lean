import Verif.Lemmas.FloatClear
import Verif.Props.FloatNarrow

/-! Narrow-passage samples and clear motions in floats: C127. -/

namespace Verif.Props

open Verif.Envs Verif.Spec Verif.Util Verif.Float64

variable {n : ℕ}

/-- With exact arithmetic the rounded sampler is the sampler of C18. -/
theorem C127_exact (e : NarrowPassage ℝ n) (r : Region) (u : Fin (n + 1) → ℝ) : e.sampleR id r u = e.sample r u := by
  cases r <;> rfl

theorem uniformR_mem {l r u : ℝ} (hl : IsFloat l) (hr : IsFloat r) (hd : IsFloat (r - l)) (hlr : l ≤ r) (h0 : 0 ≤ u) (h1 : u ≤ 1) :
    l ≤ fl (l + fl (fl (r - l) * u)) ∧ fl (l + fl (fl (r - l) * u)) ≤ r := by
  rw [fl_float hd]
  have h2 : 0 ≤ fl ((r - l) * u) := fl_nonneg (mul_nonneg (by linarith) h0)
  have h3 : fl ((r - l) * u) ≤ r - l := fl_le_float hd (by nlinarith)
  exact ⟨float_le_fl hl (by linarith), fl_le_float hr (by linarith)⟩

theorem sampleR_free {c : ℝ} (fc : IsFloat c) (hc : 0 ≤ c) (r : Region) {u : Fin (n + 1) → ℝ} (hu : ∀ i, 0 ≤ u i ∧ u i ≤ 1) :
    NarrowFree c ((NarrowPassage.init n c).sampleR fl r u) := by
  have f12 : IsFloat (1 / 2 : ℝ) := ⟨1, -1, by norm_num, by norm_num, by norm_num⟩
  have f12' : IsFloat (-1 / 2 : ℝ) := ⟨-1, -1, by norm_num, by norm_num, by norm_num⟩
  have f32 : IsFloat (3 / 2 : ℝ) := ⟨3, -1, by norm_num, by norm_num, by norm_num⟩
  have f32' : IsFloat (-3 / 2 : ℝ) := ⟨-3, -1, by norm_num, by norm_num, by norm_num⟩
  have fd : ∀ x y : ℝ, y - x = 1 → IsFloat (y - x) := fun x y h => by rw [h]; exact one_isFloat
  cases r
  · left
    have h0 := uniformR_mem f32' f12' (fd _ _ (by norm_num)) (by norm_num) (hu 0).1 (hu 0).2
    refine ⟨h0.1, h0.2, fun i => ?_⟩
    have hi := uniformR_mem f12' f12 (fd _ _ (by norm_num)) (by norm_num) (hu i.succ).1 (hu i.succ).2
    exact hi
  · right; right
    have h0 := uniformR_mem f12 f32 (fd _ _ (by norm_num)) (by norm_num) (hu 0).1 (hu 0).2
    refine ⟨h0.1, h0.2, fun i => ?_⟩
    have hi := uniformR_mem f12' f12 (fd _ _ (by norm_num)) (by norm_num) (hu i.succ).1 (hu i.succ).2
    exact hi
  · right; left
    have h0 := uniformR_mem f12' f12 (fd _ _ (by norm_num)) (by norm_num) (hu 0).1 (hu 0).2
    refine ⟨h0.1, h0.2, fun i => ?_⟩
    have hi := uniformR_mem fc.neg fc (by rw [show c - -c = 2 * c by ring]; exact fc.double) (by linarith) (hu i.succ).1 (hu i.succ).2
    exact hi

/-- C127. Every sample is free also in floats, whichever region is drawn and whatever the draws, and its coordinates are floats. -/
theorem C127_sample_free {c : ℝ} (fc : IsFloat c) (hc : 0 ≤ c) (r : Region) {u : Fin (n + 1) → ℝ} (hu : ∀ i, 0 ≤ u i ∧ u i < 1) :
    NarrowFree c ((NarrowPassage.init n c).sampleR fl r u) ∧ ∀ i, IsFloat ((NarrowPassage.init n c).sampleR fl r u i) := by
  refine ⟨sampleR_free fc hc r fun i => ⟨(hu i).1, (hu i).2.le⟩, fun i => ?_⟩
  cases r <;> exact isFloat_fl _

/-- C127 (part). The check in floats accepts a motion that stays more than `2 ^ -46` away from the obstacles if no projection is a point or
runs along a wall line and every coordinate changes by nothing or by at least `2 ^ -900`. The full property has no such side conditions;
it is false as in C17. -/
theorem C127_clear_accepted_partial {c : ℝ} (fc : IsFloat c) (hc0 : 2 ^ (-100 : ℤ) ≤ c) (hc : c < 1 / 2) (a b : Fin (n + 1) → ℝ)
    (fa : ∀ i, IsFloat (a i)) (ha0 : |a 0| ≤ 3 / 2) (hb0 : |b 0| ≤ 3 / 2)
    (ha : ∀ i : Fin n, |a i.succ| ≤ 1 / 2) (hb : ∀ i : Fin n, |b i.succ| ≤ 1 / 2)
    (hmove : ∀ i, b i = a i ∨ 2 ^ (-900 : ℤ) ≤ |b i - a i|) (ht : Transversal c a b)
    (hclear : ∀ x ∈ segment ℝ a b, ¬ NarrowNear (2 ^ (-46 : ℤ)) c x) :
    (NarrowPassage.init n c).isMotionValidR fl a b = true := by
  have cpos : 0 ≤ c := le_trans (by positivity) hc0
  have hη : 100 * eps ≤ (2 : ℝ) ^ (-46 : ℤ) := by
    have : (2 : ℝ) ^ (-46 : ℤ) = 128 * eps := by
      unfold eps
      rw [show (-46 : ℤ) = 7 + -53 by norm_num, zpow_add₀ (by norm_num)]; norm_num
    rw [this]; linarith [eps_pos]
  have hw : (2 : ℝ) ^ (-54 : ℤ) ≤ 1 / 2 - c := half_gap fc ⟨1, -1, by norm_num, by norm_num, by norm_num⟩ hc hc.le le_rfl
  generalize (2 : ℝ) ^ (-46 : ℤ) = η at *
  have pt : ∀ {t : ℝ}, 0 ≤ t → t ≤ 1 → ¬ NarrowNear η c (a + t • (b - a)) := fun {t} h0 h1 =>
    hclear _ (by rw [segment_eq_image']; exact ⟨t, ⟨h0, h1⟩, rfl⟩)
  have hev : ∀ t i, (a + t • (b - a)) i = a i + t * (b i - a i) := fun t i => by simp
  rw [narrowR_valid_iff]
  intro i w hwall
  obtain ⟨hpoint, hvert, hhor⟩ := ht i
  -- a side wall of the upper block, for the coordinate itself and for its negative
  have side : ∀ (s : ℝ), (s = 1 ∨ s = -1) → ∀ x0, (x0 = -1 / 2 ∨ x0 = 1 / 2) →
      detectIntersectR fl (a 0, s * a i.succ) (b 0, s * b i.succ) (x0, c) (x0, 1 / 2) = false := by
    intro s hs x0 hx0
    have habs : ∀ x : ℝ, |s * x| = |x| := by
      intro x; rcases hs with rfl | rfl <;> simp
    rcases hmove 0 with h0 | h0
    · rw [h0]
      have hne : a 0 ≠ x0 := by
        intro h
        exact hvert ⟨h0.symm, by rcases hx0 with rfl | rfl; exacts [.inl h, .inr h]⟩
      have hy : b i.succ ≠ a i.succ := fun h => by
        rcases hpoint with h' | h'
        exacts [h' h0.symm, h' h.symm]
      have h1 := (hmove i.succ).resolve_left hy
      exact side_parallel (fa 0) hx0 hne (by rw [← mul_sub, habs]; exact h1)
    · by_contra hcon
      rw [Bool.not_eq_false] at hcon
      obtain ⟨t, t0, t1, tx, ty1, ty2⟩ := side_near (fa 0) ha0 hb0 hx0 h0 (by rw [habs]; exact ha i) (by rw [habs]; exact hb i) cpos hw hcon
      refine pt t0 t1 ⟨?_, ?_, i, ?_⟩
      · rw [hev]; rw [abs_le] at tx
        rcases hx0 with rfl | rfl <;> linarith [tx.1]
      · rw [hev]; rw [abs_le] at tx
        rcases hx0 with rfl | rfl <;> linarith [tx.2]
      · rw [hev]
        rcases hs with rfl | rfl
        · exact .inl ⟨by linarith, by linarith⟩
        · exact .inr ⟨by linarith, by linarith⟩
  have low : ∀ (s : ℝ), (s = 1 ∨ s = -1) → detectIntersectR fl (a 0, a i.succ) (b 0, b i.succ) (-1 / 2, s * c) (1 / 2, s * c) = false := by
    intro s hs
    rcases hmove i.succ with h0 | h0
    · rw [h0]
      have hx : b 0 ≠ a 0 := fun h => by
        rcases hpoint with h' | h'
        exacts [h' h.symm, h' h0.symm]
      refine low_parallel ?_ ((hmove 0).resolve_left hx)
      rcases hs with rfl | rfl
      · rw [one_mul]
        exact float_gap (fa _) fc hc0 (fun h => hhor ⟨h0.symm, .inl h⟩)
      · have := float_gap (fa i.succ).neg fc hc0 (fun h => hhor ⟨h0.symm, .inr (by linarith)⟩)
        rwa [show -1 * c - a i.succ = -(c - -a i.succ) by ring, abs_neg]
    · by_contra hcon
      rw [Bool.not_eq_false] at hcon
      obtain ⟨t, t0, t1, ty, tx1, tx2⟩ := low_near ha0 hb0 h0 (ha i) (hb i) hcon
      rw [abs_le] at ty
      refine pt t0 t1 ⟨by rw [hev]; linarith, by rw [hev]; linarith, i, ?_⟩
      rw [hev]
      have := hη
      rcases hs with rfl | rfl
      · exact .inl ⟨by linarith, by linarith⟩
      · exact .inr ⟨by linarith, by linarith⟩
  have refl : ∀ x0 : ℝ, detectIntersectR fl (a 0, -1 * a i.succ) (b 0, -1 * b i.succ) (x0, c) (x0, 1 / 2) =
      detectIntersectR fl (a 0, a i.succ) (b 0, b i.succ) (x0, -c) (x0, -1 / 2) := by
    intro x0
    rw [neg_one_mul, neg_one_mul, ← detectR_refl2 (a 0, a i.succ) (b 0, b i.succ) (x0, -c) (x0, -1 / 2)]
    simp only [neg_neg]
    rw [show (-(-1 / 2) : ℝ) = 1 / 2 by norm_num]
  have up : ∀ x0, (x0 = -1 / 2 ∨ x0 = 1 / 2) →
      detectIntersectR fl (a 0, a i.succ) (b 0, b i.succ) (x0, c) (x0, 1 / 2) = false := by
    intro x0 hx0
    have := side 1 (.inl rfl) x0 hx0
    rwa [one_mul, one_mul] at this
  have lowUp := low 1 (.inl rfl)
  have lowDown := low (-1) (.inr rfl)
  rw [one_mul] at lowUp
  rw [neg_one_mul] at lowDown
  simp only [NarrowPassage.init, List.mem_cons, List.not_mem_nil, or_false] at hwall
  rcases hwall with rfl | rfl | rfl | rfl | rfl | rfl
  · exact up _ (.inl rfl)
  · rw [← refl]; exact side (-1) (.inr rfl) _ (.inl rfl)
  · exact lowUp
  · exact lowDown
  · exact up _ (.inr rfl)
  · rw [← refl]; exact side (-1) (.inr rfl) _ (.inr rfl)

/-- C127 fails without the side conditions: as in C17, standing still anywhere is rejected. -/
theorem C127_still_false (c : ℝ) (a : Fin (n + 2) → ℝ) : (NarrowPassage.init (n + 1) c).isMotionValidR fl a a = false := by
  rw [← Bool.not_eq_true, narrowR_valid_iff]
  intro h
  have := h 0 ((-1 / 2, c), (-1 / 2, 1 / 2)) (by simp [NarrowPassage.init])
  simp [detectIntersectR, subR, cross2dR, fl_zero] at this

/-- C127 has cases: along the middle of the passage, from room to room. -/
theorem C127_nonvacuous : (NarrowPassage.init 1 (1 / 8)).isMotionValidR fl ![-1, 0] ![1, 0] = true := by
  have h46 : (2 : ℝ) ^ (-46 : ℤ) ≤ 1 / 16 := by norm_num
  refine C127_clear_accepted_partial ⟨1, -3, by norm_num, by norm_num, by norm_num⟩ (by norm_num) (by norm_num) _ _ ?_ ?_ ?_ ?_ ?_ ?_ ?_ ?_
  · intro i; fin_cases i
    exacts [one_isFloat.neg, zero_isFloat]
  · norm_num
  · norm_num
  · intro i; fin_cases i; norm_num
  · intro i; fin_cases i; norm_num
  · intro i; fin_cases i
    · right
      calc (2 : ℝ) ^ (-900 : ℤ) ≤ 2 ^ (1 : ℤ) := zpow_le_zpow_right₀ (by norm_num) (by norm_num)
        _ ≤ _ := by norm_num
    · left; rfl
  · intro i; fin_cases i; norm_num
  · intro x hx
    rw [segment_eq_image'] at hx
    obtain ⟨t, -, rfl⟩ := hx
    rintro ⟨-, -, i, h⟩
    generalize (2 : ℝ) ^ (-46 : ℤ) = η at *
    fin_cases i
    rcases h with h | h
    · have := h.1
      simp at this
      linarith
    · have := h.2
      simp at this
      linarith

end Verif.Props
