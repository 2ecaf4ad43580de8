import Verif.Lemmas.FloatWall
import Verif.Lemmas.FloatWitness
import Verif.Props.NarrowPassage

/-! The narrow-passage motion check in floats: C126. -/

namespace Verif.Props

open Verif.Envs Verif.Spec Verif.Util Verif.Float64

variable {n : ℕ}

/-- With exact arithmetic the rounded check is the check of C16. -/
theorem C126_exact (e : NarrowPassage ℝ n) (a b : Fin (n + 1) → ℝ) : e.isMotionValidR id a b = e.isMotionValid a b := rfl

theorem narrowR_valid_iff (rd : ℝ → ℝ) (e : NarrowPassage ℝ n) (a b : Fin (n + 1) → ℝ) :
    e.isMotionValidR rd a b = true ↔
      ∀ i : Fin n, ∀ c ∈ e.collLines, detectIntersectR rd (a 0, a i.succ) (b 0, b i.succ) c.1 c.2 = false := by
  unfold NarrowPassage.isMotionValidR
  simp only [foldl_or]
  simp

/-- C126. The check in floats: if both ends are free floats, not within `2 ^ -48` of the outer border, and the motion is accepted, then
every point of the motion is free if the passage is taken `2 ^ -48` wider. -/
theorem C126_accepted_near_free_partial {c : ℝ} (hc : 0 ≤ c) (a b : Fin (n + 1) → ℝ) (fa : ∀ i, IsFloat (a i)) (fb : ∀ i, IsFloat (b i))
    (ha : NarrowFree c a) (hb : NarrowFree c b) (ta : ∀ i : Fin n, |a i.succ| ≤ 1 / 2 - 2 ^ (-48 : ℤ))
    (tb : ∀ i : Fin n, |b i.succ| ≤ 1 / 2 - 2 ^ (-48 : ℤ)) (hv : (NarrowPassage.init n c).isMotionValidR fl a b = true) :
    ∀ x ∈ segment ℝ a b, NarrowFree (c + 2 ^ (-48 : ℤ)) x := by
  have h48 : (0 : ℝ) < 2 ^ (-48 : ℤ) := by positivity
  rw [narrowR_valid_iff] at hv
  intro x hx
  rw [segment_eq_image'] at hx
  obtain ⟨τ, ⟨h0, h1⟩, rfl⟩ := hx
  have hev : ∀ i, (a + τ • (b - a)) i = a i + τ * (b i - a i) := fun i => by simp
  have out : ∀ (p : Fin (n + 1) → ℝ), NarrowFree c p → ∀ i : Fin n, p 0 ≤ -1 / 2 ∨ 1 / 2 ≤ p 0 ∨ (-c ≤ p i.succ ∧ p i.succ ≤ c) := by
    rintro p (h | h | h) i
    · exact .inl h.2.1
    · exact .inr (.inr (h.2.2 i))
    · exact .inr (.inl h.1)
  have range : ∀ (p : Fin (n + 1) → ℝ), NarrowFree c p → -3 / 2 ≤ p 0 ∧ p 0 ≤ 3 / 2 := by
    rintro p (h | h | h)
    · exact ⟨h.1, by linarith [h.2.1]⟩
    · exact ⟨by linarith [h.1], by linarith [h.2.1]⟩
    · exact ⟨by linarith [h.1], h.2.1⟩
  have mix : ∀ {u v l r : ℝ}, l ≤ u → u ≤ r → l ≤ v → v ≤ r → l ≤ u + τ * (v - u) ∧ u + τ * (v - u) ≤ r := by
    intro u v l r h2 h3 h4 h5
    constructor <;> nlinarith
  have hx0 := mix (range a ha).1 (range a ha).2 (range b hb).1 (range b hb).2
  have hxi : ∀ i : Fin n, -1 / 2 ≤ a i.succ + τ * (b i.succ - a i.succ) ∧ a i.succ + τ * (b i.succ - a i.succ) ≤ 1 / 2 := by
    intro i
    have h2 := abs_le.1 (ta i)
    have h3 := abs_le.1 (tb i)
    exact mix (by linarith [h2.1]) (by linarith [h2.2]) (by linarith [h3.1]) (by linarith [h3.2])
  by_cases hl : a 0 + τ * (b 0 - a 0) ≤ -1 / 2
  · left
    simp only [hev]
    exact ⟨hx0.1, hl, hxi⟩
  by_cases hr : 1 / 2 ≤ a 0 + τ * (b 0 - a 0)
  · right; right
    simp only [hev]
    exact ⟨hr, hx0.2, hxi⟩
  push Not at hl hr
  right; left
  simp only [hev]
  refine ⟨hl.le, hr.le, fun i => ?_⟩
  have hw := hv i
  simp only [NarrowPassage.init] at hw
  have upper := plane_near (fa 0) (fb 0) hc (ta i) (tb i)
    (by rcases out a ha i with h | h | h; exacts [.inl h, .inr (.inl h), .inr (.inr h.2)])
    (by rcases out b hb i with h | h | h; exacts [.inl h, .inr (.inl h), .inr (.inr h.2)])
    (hw ((-1 / 2, c), (-1 / 2, 1 / 2)) (by simp)) (hw ((1 / 2, c), (1 / 2, 1 / 2)) (by simp)) h0 h1 hl hr
  have refl : ∀ x0 : ℝ, detectIntersectR fl (a 0, -a i.succ) (b 0, -b i.succ) (x0, c) (x0, 1 / 2) =
      detectIntersectR fl (a 0, a i.succ) (b 0, b i.succ) (x0, -c) (x0, -1 / 2) := by
    intro x0
    have := detectR_refl2 (a 0, a i.succ) (b 0, b i.succ) (x0, -c) (x0, -1 / 2)
    rw [← this]
    simp only [neg_neg]
    rw [show (-(-1 / 2) : ℝ) = 1 / 2 by norm_num]
  have lower := plane_near (ay := -a i.succ) (by' := -b i.succ) (fa 0) (fb 0) hc (by rw [abs_neg]; exact ta i) (by rw [abs_neg]; exact tb i)
    (by rcases out a ha i with h | h | h; exacts [.inl h, .inr (.inl h), .inr (.inr (by linarith [h.1]))])
    (by rcases out b hb i with h | h | h; exacts [.inl h, .inr (.inl h), .inr (.inr (by linarith [h.1]))])
    (by rw [refl]; exact hw ((-1 / 2, -c), (-1 / 2, -1 / 2)) (by simp)) (by rw [refl]; exact hw ((1 / 2, -c), (1 / 2, -1 / 2)) (by simp))
    h0 h1 hl hr
  exact ⟨by linarith, upper⟩

/-- C126 fails without the distance to the border: with clearance 0.15 the motion from (0.7, 0.08) to (-0.5, 0.5) is accepted. Both ends are
free, but the motion goes through the block above the passage: where its first coordinate is 0, the second one is above 0.32. -/
theorem C126_through_block_false :
    (NarrowPassage.init 1 (fl (15 / 100))).isMotionValidR fl ![fl (7 / 10), fl (8 / 100)] ![-1 / 2, 1 / 2] = true ∧
    NarrowFree (fl (15 / 100)) ![fl (7 / 10), fl (8 / 100)] ∧ NarrowFree (fl (15 / 100)) ![(-1 / 2 : ℝ), 1 / 2] ∧
    ∃ x ∈ segment ℝ ![fl (7 / 10), fl (8 / 100)] ![(-1 / 2 : ℝ), 1 / 2], x 0 = 0 ∧ 32 / 100 < x 1 ∧ x 1 < 33 / 100 ∧
      ¬ NarrowFree (fl (15 / 100) + 1 / 10) x := by
  have ec : fl (15 / 100) = 5404319552844595 / 36028797018963968 := by
    rw [fl_rat (m := 5404319552844595) (k := 55) (by norm_num) (by norm_num) (by norm_num) (.inl (by rw [abs_lt]; norm_num))]; norm_num
  have ex : fl (7 / 10) = 3152519739159347 / 4503599627370496 := by
    rw [fl_rat (m := 6305039478318694) (k := 53) (by norm_num) (by norm_num) (by norm_num) (.inl (by rw [abs_lt]; norm_num))]; norm_num
  have ey : fl (8 / 100) = 5764607523034235 / 72057594037927936 := by
    rw [fl_rat (m := 5764607523034235) (k := 56) (by norm_num) (by norm_num) (by norm_num) (.inl (by rw [abs_lt]; norm_num))]; norm_num
  refine ⟨?_, ?_, ?_, ?_⟩
  · rw [narrowR_valid_iff]
    intro i w hw
    obtain ⟨h0, h1, h2, h3, h4, h5⟩ := six_walls
    fin_cases i
    simp only [NarrowPassage.init, List.mem_cons, List.not_mem_nil, or_false] at hw
    rcases hw with rfl | rfl | rfl | rfl | rfl | rfl
    exacts [h0, h1, h2, h3, h4, h5]
  · right; right
    rw [ex, ey]
    refine ⟨by norm_num, by norm_num, fun i => ?_⟩
    fin_cases i
    norm_num
  · left
    refine ⟨by norm_num, by norm_num, fun i => ?_⟩
    fin_cases i
    norm_num
  · rw [ec, ex, ey]
    rw [segment_eq_image']
    refine ⟨_, ⟨3152519739159347 / 5404319552844595, ⟨by norm_num, by norm_num⟩, rfl⟩, ?_, ?_, ?_, ?_⟩
    · norm_num
    · norm_num
    · norm_num
    · rintro (h | h | h)
      · have := h.2.1; norm_num at this
      · have := (h.2.2 0).2; norm_num at this
      · have := h.1; norm_num at this

/-- The answer in floats also depends on the direction: the same motion backwards is rejected. -/
theorem C126_direction_false :
    (NarrowPassage.init 1 (fl (15 / 100))).isMotionValidR fl ![-1 / 2, 1 / 2] ![fl (7 / 10), fl (8 / 100)] = false := by
  rw [← Bool.not_eq_true, narrowR_valid_iff]
  intro h
  have := h 0 ((-1 / 2, fl (15 / 100)), (-1 / 2, 1 / 2)) (by simp [NarrowPassage.init])
  have hb := left_wall_back
  rw [show detectIntersectR fl (-1 / 2, 1 / 2) (fl (7 / 10), fl (8 / 100)) (-1 / 2, fl (15 / 100)) (-1 / 2, 1 / 2) = false from this] at hb
  exact absurd hb (by decide)

/-- The part of C126 has cases: through the passage, from the left to the right room. -/
theorem C126_nonvacuous :
    (∀ i, IsFloat ((![-1, 1 / 16] : Fin 2 → ℝ) i)) ∧ (∀ i, IsFloat ((![1, -1 / 16] : Fin 2 → ℝ) i)) ∧
    NarrowFree (1 / 8 : ℝ) ![-1, 1 / 16] ∧ NarrowFree (1 / 8 : ℝ) ![1, -1 / 16] ∧
    (∀ i : Fin 1, |(![-1, 1 / 16] : Fin 2 → ℝ) i.succ| ≤ 1 / 2 - 2 ^ (-48 : ℤ)) ∧
    (∀ i : Fin 1, |(![1, -1 / 16] : Fin 2 → ℝ) i.succ| ≤ 1 / 2 - 2 ^ (-48 : ℤ)) ∧
    (NarrowPassage.init 1 (1 / 8)).isMotionValidR fl ![-1, 1 / 16] ![1, -1 / 16] = true := by
  have f1 : IsFloat (1 : ℝ) := one_isFloat
  have f16 : IsFloat (1 / 16 : ℝ) := ⟨1, -4, by norm_num, by norm_num, by norm_num⟩
  refine ⟨?_, ?_, ?_, ?_, ?_, ?_, ?_⟩
  · intro i; fin_cases i
    exacts [f1.neg, f16]
  · intro i; fin_cases i
    exacts [f1, by simpa [neg_div] using f16.neg]
  · left
    refine ⟨by norm_num, by norm_num, fun i => ?_⟩
    fin_cases i; norm_num
  · right; right
    refine ⟨by norm_num, by norm_num, fun i => ?_⟩
    fin_cases i; norm_num
  · intro i; fin_cases i; norm_num [abs_of_pos]
  · intro i; fin_cases i; norm_num [abs_of_neg, abs_of_pos]
  · rw [narrowR_valid_iff]
    intro i w hw
    obtain ⟨h0, h1, h2, h3, h4, h5⟩ := six_walls_clear
    fin_cases i
    simp only [NarrowPassage.init, List.mem_cons, List.not_mem_nil, or_false] at hw
    rcases hw with rfl | rfl | rfl | rfl | rfl | rfl
    exacts [h0, h1, h2, h3, h4, h5]

end Verif.Props
