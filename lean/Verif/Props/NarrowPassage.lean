import Mathlib.Tactic.Linarith
import Verif.Model.Envs
import Verif.Spec.Envs
import Verif.Props.Intersect
import Verif.Props.StraightLine

/-!
Properties C16-C19: the `NarrowPassage` environment.
-/

set_option linter.unusedSectionVars false

namespace Verif.Props

open Verif.Envs Verif.Spec Verif.Util

variable {K : Type*} [Field K] [LinearOrder K] [IsStrictOrderedRing K] {n : ℕ}

theorem foldl_or {α : Type*} (l : List α) (f : α → Bool) (b : Bool) :
    l.foldl (fun acc x => acc || f x) b = (b || l.any f) := by
  induction l generalizing b with
  | nil => simp
  | cons x l ih => simp [ih, Bool.or_assoc]

/-- The motion is accepted exactly if no projection is reported to intersect one of the six lines. -/
theorem narrow_valid_iff (e : NarrowPassage K n) (a b : Fin (n + 1) → K) :
    e.isMotionValid a b = true ↔
      ∀ i : Fin n, ∀ c ∈ e.collLines, detectIntersect (a 0, a i.succ) (b 0, b i.succ) c.1 c.2 = false := by
  unfold NarrowPassage.isMotionValid
  simp only [foldl_or]
  simp

/-! ### The rectangle argument -/

/-- From a point `z` strictly inside the upper block (or on its top) to a point `a` not above the block and outside it:
the segment meets the left, lower or right side. -/
theorem block_exit {c z0 zi a0 ai : K} (h1 : -1 / 2 < z0) (h2 : z0 < 1 / 2) (h3 : c < zi) (h4 : zi ≤ 1 / 2)
    (ha : ai ≤ 1 / 2) (hout : a0 ≤ -1 / 2 ∨ 1 / 2 ≤ a0 ∨ ai ≤ c) :
    ∃ s, 0 ≤ s ∧ s ≤ 1 ∧
      ((z0 + s * (a0 - z0) = -1 / 2 ∧ c ≤ zi + s * (ai - zi) ∧ zi + s * (ai - zi) ≤ 1 / 2) ∨
       (z0 + s * (a0 - z0) = 1 / 2 ∧ c ≤ zi + s * (ai - zi) ∧ zi + s * (ai - zi) ≤ 1 / 2) ∨
       (zi + s * (ai - zi) = c ∧ -1 / 2 ≤ z0 + s * (a0 - z0) ∧ z0 + s * (a0 - z0) ≤ 1 / 2)) := by
  -- exit through the left side before parameter `u`
  have left : ∀ u, 0 ≤ u → u ≤ 1 → z0 + u * (a0 - z0) ≤ -1 / 2 → c ≤ zi + u * (ai - zi) →
      ∃ s, 0 ≤ s ∧ s ≤ 1 ∧ (z0 + s * (a0 - z0) = -1 / 2 ∧ c ≤ zi + s * (ai - zi) ∧ zi + s * (ai - zi) ≤ 1 / 2) := by
    intro u hu0 hu1 hx hy
    have hneg : a0 - z0 < 0 := by
      by_contra hcon
      have := mul_nonneg hu0 (not_lt.mp hcon)
      linarith
    refine ⟨(-1 / 2 - z0) / (a0 - z0), div_nonneg_of_nonpos (by linarith) hneg.le, ?_, ?_, ?_, ?_⟩
    · rw [div_le_one_of_neg hneg]
      have := mul_le_mul_of_nonpos_right hu1 hneg.le
      linarith
    · rw [div_mul_cancel₀ _ hneg.ne]; ring
    all_goals
      have hs : (-1 / 2 - z0) / (a0 - z0) ≤ u := by
        rw [div_le_iff_of_neg hneg]; linarith
      have hs0 : 0 ≤ (-1 / 2 - z0) / (a0 - z0) := div_nonneg_of_nonpos (by linarith) hneg.le
      set s := (-1 / 2 - z0) / (a0 - z0)
    · rcases le_total 0 (ai - zi) with h | h
      · have := mul_nonneg hs0 h; linarith
      · have := mul_le_mul_of_nonpos_right hs h; linarith
    · rcases le_total 0 (ai - zi) with h | h
      · have := mul_le_mul_of_nonneg_right (le_trans hs hu1) h; linarith
      · have := mul_nonpos_of_nonneg_of_nonpos hs0 h; linarith
  have right : ∀ u, 0 ≤ u → u ≤ 1 → 1 / 2 ≤ z0 + u * (a0 - z0) → c ≤ zi + u * (ai - zi) →
      ∃ s, 0 ≤ s ∧ s ≤ 1 ∧ (z0 + s * (a0 - z0) = 1 / 2 ∧ c ≤ zi + s * (ai - zi) ∧ zi + s * (ai - zi) ≤ 1 / 2) := by
    intro u hu0 hu1 hx hy
    have hpos : 0 < a0 - z0 := by
      by_contra hcon
      have := mul_nonpos_of_nonneg_of_nonpos hu0 (not_lt.mp hcon)
      linarith
    refine ⟨(1 / 2 - z0) / (a0 - z0), div_nonneg (by linarith) hpos.le, ?_, ?_, ?_, ?_⟩
    · rw [div_le_one hpos]
      have := mul_le_mul_of_nonneg_right hu1 hpos.le
      linarith
    · rw [div_mul_cancel₀ _ hpos.ne']; ring
    all_goals
      have hs : (1 / 2 - z0) / (a0 - z0) ≤ u := by
        rw [div_le_iff₀ hpos]; linarith
      have hs0 : 0 ≤ (1 / 2 - z0) / (a0 - z0) := div_nonneg (by linarith) hpos.le
      set s := (1 / 2 - z0) / (a0 - z0)
    · rcases le_total 0 (ai - zi) with h | h
      · have := mul_nonneg hs0 h; linarith
      · have := mul_le_mul_of_nonpos_right hs h; linarith
    · rcases le_total 0 (ai - zi) with h | h
      · have := mul_le_mul_of_nonneg_right (le_trans hs hu1) h; linarith
      · have := mul_nonpos_of_nonneg_of_nonpos hs0 h; linarith
  rcases lt_or_ge c ai with hc | hc
  · rcases hout with h | h | h
    · obtain ⟨s, h5, h6, h7⟩ := left 1 zero_le_one le_rfl (by linarith) (by linarith)
      exact ⟨s, h5, h6, Or.inl h7⟩
    · obtain ⟨s, h5, h6, h7⟩ := right 1 zero_le_one le_rfl (by linarith) (by linarith)
      exact ⟨s, h5, h6, Or.inr (Or.inl h7)⟩
    · linarith
  · have hneg : ai - zi < 0 := by linarith
    have e : zi + (c - zi) / (ai - zi) * (ai - zi) = c := by rw [div_mul_cancel₀ _ hneg.ne]; ring
    have u0 : 0 ≤ (c - zi) / (ai - zi) := div_nonneg_of_nonpos (by linarith) hneg.le
    have u1 : (c - zi) / (ai - zi) ≤ 1 := by rw [div_le_one_of_neg hneg]; linarith
    rcases lt_or_ge (z0 + (c - zi) / (ai - zi) * (a0 - z0)) (-1 / 2) with h | h
    · obtain ⟨s, h5, h6, h7⟩ := left _ u0 u1 h.le e.ge
      exact ⟨s, h5, h6, Or.inl h7⟩
    · rcases lt_or_ge (1 / 2) (z0 + (c - zi) / (ai - zi) * (a0 - z0)) with h' | h'
      · obtain ⟨s, h5, h6, h7⟩ := right _ u0 u1 h'.le e.ge
        exact ⟨s, h5, h6, Or.inr (Or.inl h7)⟩
      · exact ⟨_, u0, u1, Or.inr (Or.inr ⟨e, h, h'⟩)⟩

/-- A point of the segment from `p` to `q` at which the first coordinate is `x` and the second between `y` and `y'`. -/
theorem share_vertical {p q : K × K} {s x y y' : K} (h0 : 0 ≤ s) (h1 : s ≤ 1) (hx : p.1 + s * (q.1 - p.1) = x)
    (hy : y ≤ p.2 + s * (q.2 - p.2) ∧ p.2 + s * (q.2 - p.2) ≤ y' ∨ y' ≤ p.2 + s * (q.2 - p.2) ∧ p.2 + s * (q.2 - p.2) ≤ y) :
    SharePoint K p q (x, y) (x, y') := by
  rw [sharePoint_iff]
  rcases eq_or_ne y y' with rfl | hne
  · refine ⟨s, 0, h0, h1, le_rfl, zero_le_one, by simpa using hx, ?_⟩
    simp only [sub_self, mul_zero, add_zero]
    rcases hy with h | h <;> exact le_antisymm (by linarith) (by linarith)
  · have hd : y' - y ≠ 0 := sub_ne_zero.2 hne.symm
    refine ⟨s, (p.2 + s * (q.2 - p.2) - y) / (y' - y), h0, h1, ?_, ?_, by simpa using hx, ?_⟩
    · rcases hy with h | h
      · exact div_nonneg (by linarith) (by linarith)
      · exact div_nonneg_of_nonpos (by linarith) (by linarith)
    · rcases hy with h | h
      · have : 0 < y' - y := lt_of_le_of_ne (by linarith) hd.symm
        rw [div_le_one this]; linarith
      · have : y' - y < 0 := lt_of_le_of_ne (by linarith) hd
        rw [div_le_one_of_neg this]; linarith
    · simp only; rw [div_mul_cancel₀ _ hd]; ring

/-- A point of the segment from `p` to `q` at which the second coordinate is `y` and the first between -1/2 and 1/2. -/
theorem share_horizontal {p q : K × K} {s y : K} (h0 : 0 ≤ s) (h1 : s ≤ 1) (hy : p.2 + s * (q.2 - p.2) = y)
    (hx : -1 / 2 ≤ p.1 + s * (q.1 - p.1) ∧ p.1 + s * (q.1 - p.1) ≤ 1 / 2) :
    SharePoint K p q (-1 / 2, y) (1 / 2, y) := by
  rw [sharePoint_iff]
  refine ⟨s, p.1 + s * (q.1 - p.1) + 1 / 2, h0, h1, by linarith, by linarith, ?_, ?_⟩
  · simp only; ring
  · simpa using hy

theorem narrowFree_big {c : K} (hc : c ≤ 1 / 2) {x : Fin (n + 1) → K} (h : NarrowFree c x) :
    -3 / 2 ≤ x 0 ∧ x 0 ≤ 3 / 2 ∧ ∀ i : Fin n, -1 / 2 ≤ x i.succ ∧ x i.succ ≤ 1 / 2 := by
  rcases h with ⟨h1, h2, h3⟩ | ⟨h1, h2, h3⟩ | ⟨h1, h2, h3⟩
  · exact ⟨h1, by linarith, h3⟩
  · exact ⟨by linarith, by linarith, fun i => ⟨by linarith [(h3 i).1], by linarith [(h3 i).2]⟩⟩
  · exact ⟨by linarith, h2, h3⟩

/-- A free configuration is not inside a block: beside the passage its other coordinates are within the clearance. -/
theorem narrowFree_out {c : K} {x : Fin (n + 1) → K} (h : NarrowFree c x) (i : Fin n) :
    (x 0 ≤ -1 / 2 ∨ 1 / 2 ≤ x 0 ∨ x i.succ ≤ c) ∧ (x 0 ≤ -1 / 2 ∨ 1 / 2 ≤ x 0 ∨ -x i.succ ≤ c) := by
  rcases h with ⟨h1, h2, h3⟩ | ⟨h1, h2, h3⟩ | ⟨h1, h2, h3⟩
  · exact ⟨Or.inl h2, Or.inl h2⟩
  · exact ⟨Or.inr (Or.inr (h3 i).2), Or.inr (Or.inr (by linarith [(h3 i).1]))⟩
  · exact ⟨Or.inr (Or.inl h1), Or.inr (Or.inl h1)⟩

theorem segment_coord {a b x : Fin (n + 1) → K} (h : x ∈ segment K a b) :
    ∃ t, 0 ≤ t ∧ t ≤ 1 ∧ ∀ i, x i = a i + t * (b i - a i) := by
  rw [segment_eq_image'] at h
  obtain ⟨t, ⟨h0, h1⟩, rfl⟩ := h
  exact ⟨t, h0, h1, fun i => by simp⟩

/-- C16. If both endpoints are free and the motion is accepted, the whole straight motion is free. -/
theorem C16_accepted_free {c : K} (hc : c ≤ 1 / 2) (a b : Fin (n + 1) → K) (ha : NarrowFree c a)
    (hb : NarrowFree c b) (hv : (NarrowPassage.init n c).isMotionValid a b = true) :
    ∀ x ∈ segment K a b, NarrowFree c x := by
  rw [narrow_valid_iff] at hv
  intro x hx
  obtain ⟨t, ht0, ht1, hxt⟩ := segment_coord hx
  obtain ⟨A1, A2, A3⟩ := narrowFree_big hc ha
  obtain ⟨B1, B2, B3⟩ := narrowFree_big hc hb
  have mix : ∀ {l u v w : K}, l ≤ v → v ≤ u → l ≤ w → w ≤ u → l ≤ v + t * (w - v) ∧ v + t * (w - v) ≤ u := by
    intro l u v w h1 h2 h3 h4
    constructor <;> nlinarith
  have X0 := mix A1 A2 B1 B2
  have Xi := fun i => mix (A3 i).1 (A3 i).2 (B3 i).1 (B3 i).2
  rw [← hxt 0] at X0
  have Xi : ∀ i : Fin n, -1 / 2 ≤ x i.succ ∧ x i.succ ≤ 1 / 2 := fun i => by rw [hxt]; exact Xi i
  by_contra hnf
  have hl : -1 / 2 < x 0 := by
    by_contra hcon
    exact hnf (Or.inl ⟨X0.1, not_lt.mp hcon, Xi⟩)
  have hr : x 0 < 1 / 2 := by
    by_contra hcon
    exact hnf (Or.inr (Or.inr ⟨not_lt.mp hcon, X0.2, Xi⟩))
  have hi : ∃ i : Fin n, c < x i.succ ∨ c < -x i.succ := by
    by_contra hcon
    push Not at hcon
    exact hnf (Or.inr (Or.inl ⟨hl.le, hr.le, fun i => ⟨by linarith [(hcon i).2], (hcon i).1⟩⟩))
  obtain ⟨i, hi⟩ := hi
  -- a common point of the projected motion and a line contradicts acceptance
  have no : ∀ l ∈ (NarrowPassage.init n c).collLines, ¬ SharePoint K (a 0, a i.succ) (b 0, b i.succ) l.1 l.2 := by
    intro l hl hs
    have := C12_no_miss _ _ _ _ hs
    rw [hv i l hl] at this
    cases this
  simp only [NarrowPassage.init, List.mem_cons, List.not_mem_nil, or_false, forall_eq_or_imp, forall_eq] at no
  obtain ⟨n1, n2, n3, n4, n5, n6⟩ := no
  -- the point at fraction s of the way from x back to a is at parameter t(1-s) of the motion
  have back : ∀ (s : K) (j : Fin (n + 1)), x j + s * (a j - x j) = a j + (t * (1 - s)) * (b j - a j) := by
    intro s j; rw [hxt j]; ring
  have hts : ∀ {s : K}, 0 ≤ s → s ≤ 1 → 0 ≤ t * (1 - s) ∧ t * (1 - s) ≤ 1 := by
    intro s h0 h1
    constructor
    · exact mul_nonneg ht0 (by linarith)
    · nlinarith
  rcases hi with hi | hi
  · obtain ⟨s, s0, s1, hs⟩ := block_exit hl hr hi (Xi i).2 (A3 i).2 (narrowFree_out ha i).1
    rw [back s 0, back s i.succ] at hs
    obtain ⟨u0, u1⟩ := hts s0 s1
    rcases hs with ⟨e, h1, h2⟩ | ⟨e, h1, h2⟩ | ⟨e, h1, h2⟩
    · exact n1 (share_vertical u0 u1 e (Or.inl ⟨h1, h2⟩))
    · exact n5 (share_vertical u0 u1 e (Or.inl ⟨h1, h2⟩))
    · exact n3 (share_horizontal u0 u1 e ⟨h1, h2⟩)
  · obtain ⟨s, s0, s1, hs⟩ := block_exit (ai := -a i.succ) hl hr hi (by linarith [(Xi i).1]) (by linarith [(A3 i).1])
      (narrowFree_out ha i).2
    have eneg : -x i.succ + s * (-a i.succ - -x i.succ) = -(x i.succ + s * (a i.succ - x i.succ)) := by ring
    rw [eneg, back s 0, back s i.succ] at hs
    obtain ⟨u0, u1⟩ := hts s0 s1
    rcases hs with ⟨e, h1, h2⟩ | ⟨e, h1, h2⟩ | ⟨e, h1, h2⟩
    · exact n2 (share_vertical u0 u1 e (Or.inr ⟨by simp only; linarith, by simp only; linarith⟩))
    · exact n6 (share_vertical u0 u1 e (Or.inr ⟨by simp only; linarith, by simp only; linarith⟩))
    · exact n4 (share_horizontal u0 u1 (by simp only; linarith) ⟨h1, h2⟩)

/-- C16 is not vacuous: a slanted motion through a three-dimensional passage. -/
example : NarrowFree (K := ℚ) (n := 2) (1 / 10) ![-1, 1 / 20, 1 / 30] ∧ NarrowFree (K := ℚ) (n := 2) (1 / 10) ![1, -1 / 20, 0] ∧
    (NarrowPassage.init 2 (1 / 10 : ℚ)).isMotionValid ![-1, 1 / 20, 1 / 30] ![1, -1 / 20, 0] = true := by
  refine ⟨?_, ?_, by decide +kernel⟩
  · left; norm_num [Fin.forall_fin_succ]
  · right; right; norm_num [Fin.forall_fin_succ]

/-- C16 needs free endpoints: a motion inside an obstacle block is accepted. -/
theorem C16_endpoints_not_checked :
    (NarrowPassage.init 1 (1 / 10 : ℚ)).isMotionValid ![0, 2 / 10] ![1 / 10, 3 / 10] = true ∧
    ¬ NarrowFree (K := ℚ) (n := 1) (1 / 10) ![0, 2 / 10] := by
  refine ⟨by decide +kernel, ?_⟩
  norm_num [NarrowFree, Fin.forall_fin_succ]

/-! ### Completeness -/

/-- C17 (part). A motion that touches no obstacle is accepted if no projection is a point or runs along a wall line. The
full property has no such side condition; it is false. -/
theorem C17_clear_accepted_partial {c : K} (hc : c < 1 / 2) (a b : Fin (n + 1) → K)
    (hclear : ∀ x ∈ segment K a b, ¬ NarrowObstacle c x) (ht : Transversal c a b) :
    (NarrowPassage.init n c).isMotionValid a b = true := by
  rw [narrow_valid_iff]
  intro i
  obtain ⟨hp, h0, hi⟩ := ht i
  -- a common point with a line is an obstacle contact
  have key : ∀ (p q : K × K), (∀ u : K, 0 ≤ u → u ≤ 1 → -1 / 2 ≤ p.1 + u * (q.1 - p.1) ∧ p.1 + u * (q.1 - p.1) ≤ 1 / 2 ∧
      ((c ≤ p.2 + u * (q.2 - p.2) ∧ p.2 + u * (q.2 - p.2) ≤ 1 / 2) ∨
       (-1 / 2 ≤ p.2 + u * (q.2 - p.2) ∧ p.2 + u * (q.2 - p.2) ≤ -c))) →
      ¬ SharePoint K (a 0, a i.succ) (b 0, b i.succ) p q := by
    intro p q hu hs
    rw [sharePoint_iff] at hs
    obtain ⟨s, u, s0, s1, u0, u1, e1, e2⟩ := hs
    apply hclear (fun j => a j + s * (b j - a j))
    · rw [segment_eq_image']
      exact ⟨s, ⟨s0, s1⟩, by ext j; simp⟩
    · obtain ⟨h1, h2, h3⟩ := hu u u0 u1
      rw [← e1] at h1 h2
      rw [← e2] at h3
      exact ⟨h1, h2, i, h3⟩
  have sep : ∀ p q : K × K, ¬ SharePoint K (a 0, a i.succ) (b 0, b i.succ) p q →
      (Parallel (a 0, a i.succ) (b 0, b i.succ) p q →
        (p.1 - a 0) * (b i.succ - a i.succ) ≠ (p.2 - a i.succ) * (b 0 - a 0)) →
      detectIntersect (a 0, a i.succ) (b 0, b i.succ) p q = false := by
    intro p q hs hpar
    rw [← Bool.not_eq_true]
    by_cases h : Parallel (a 0, a i.succ) (b 0, b i.succ) p q
    · rw [C13_parallel _ _ _ _ h]; exact hpar h
    · rw [C13_exact _ _ _ _ h]; exact hs
  have vert : ∀ (x y y' : K), (x = -1 / 2 ∨ x = 1 / 2) → y ≠ y' →
      Parallel (a 0, a i.succ) (b 0, b i.succ) (x, y) (x, y') →
      (x - a 0) * (b i.succ - a i.succ) ≠ (y - a i.succ) * (b 0 - a 0) := by
    intro x y y' hx hy hpar he
    unfold Parallel at hpar
    simp only [sub_self, mul_zero, mul_eq_zero, sub_eq_zero] at hpar
    rcases hpar with hpar | hpar
    · rw [hpar, sub_self, mul_zero, mul_eq_zero, sub_eq_zero, sub_eq_zero] at he
      rcases he with he | he
      · exact h0 ⟨hpar.symm, by rw [← he]; exact hx⟩
      · rcases hp with hp | hp
        · exact hp hpar.symm
        · exact hp he.symm
    · exact hy hpar.symm
  have horiz : ∀ y : K, (y = c ∨ y = -c) →
      Parallel (a 0, a i.succ) (b 0, b i.succ) (-1 / 2, y) (1 / 2, y) →
      (-1 / 2 - a 0) * (b i.succ - a i.succ) ≠ (y - a i.succ) * (b 0 - a 0) := by
    intro y hy hpar he
    unfold Parallel at hpar
    norm_num at hpar
    have hpar : b i.succ = a i.succ := by linarith
    rw [hpar, sub_self, mul_zero, eq_comm, mul_eq_zero, sub_eq_zero, sub_eq_zero] at he
    rcases he with he | he
    · exact hi ⟨hpar.symm, by rw [← he]; exact hy⟩
    · rcases hp with hp | hp
      · exact hp he.symm
      · exact hp hpar.symm
  simp only [NarrowPassage.init, List.mem_cons, List.not_mem_nil, or_false, forall_eq_or_imp, forall_eq]
  refine ⟨?_, ?_, ?_, ?_, ?_, ?_⟩
  · apply sep _ _ (key _ _ _) (vert _ _ _ (Or.inl rfl) (by linarith))
    intro u u0 u1
    refine ⟨by simp, by norm_num, Or.inl ⟨?_, ?_⟩⟩ <;> simp only <;> nlinarith
  · apply sep _ _ (key _ _ _) (vert _ _ _ (Or.inl rfl) (by intro h; linarith))
    intro u u0 u1
    refine ⟨by simp, by norm_num, Or.inr ⟨?_, ?_⟩⟩ <;> simp only <;> nlinarith
  · apply sep _ _ (key _ _ _) (horiz _ (Or.inl rfl))
    intro u u0 u1
    refine ⟨by simp only; linarith, by simp only; linarith, Or.inl ⟨?_, ?_⟩⟩ <;> simp only <;> linarith
  · apply sep _ _ (key _ _ _) (horiz _ (Or.inr rfl))
    intro u u0 u1
    refine ⟨by simp only; linarith, by simp only; linarith, Or.inr ⟨?_, ?_⟩⟩ <;> simp only <;> linarith
  · apply sep _ _ (key _ _ _) (vert _ _ _ (Or.inr rfl) (by intro h; linarith))
    intro u u0 u1
    refine ⟨by norm_num, by norm_num, Or.inl ⟨?_, ?_⟩⟩ <;> simp only <;> nlinarith
  · apply sep _ _ (key _ _ _) (vert _ _ _ (Or.inr rfl) (by intro h; linarith))
    intro u u0 u1
    refine ⟨by norm_num, by norm_num, Or.inr ⟨?_, ?_⟩⟩ <;> simp only <;> nlinarith

/-- C17, exactly: between free endpoints a motion is accepted if and only if it touches no obstacle and no projection is a point or runs
along a wall line. So the side condition of `C17_clear_accepted_partial` names all the clear motions that are wrongly rejected. -/
theorem C17_exact {c : K} (hc : c < 1 / 2) (a b : Fin (n + 1) → K) (ha : NarrowFree c a) (hb : NarrowFree c b) :
    (NarrowPassage.init n c).isMotionValid a b = true ↔ (∀ x ∈ segment K a b, ¬ NarrowObstacle c x) ∧ Transversal c a b := by
  refine ⟨fun hv => ⟨fun x hx hobs => ?_, fun i => ?_⟩, fun h => C17_clear_accepted_partial hc a b h.1 h.2⟩
  · have hfree := C16_accepted_free hc.le a b ha hb hv x hx
    rw [narrow_valid_iff] at hv
    obtain ⟨t, t0, t1, hxt⟩ := segment_coord hx
    obtain ⟨l, r, i, hi⟩ := hobs
    have no : ∀ p q : K × K, (p, q) ∈ (NarrowPassage.init n c).collLines →
        ¬ SharePoint K (a 0, a i.succ) (b 0, b i.succ) p q := by
      intro p q hpq hs
      have h1 := C12_no_miss _ _ _ _ hs
      rw [hv i _ hpq] at h1
      cases h1
    have e0 := hxt 0
    have ei := hxt i.succ
    -- the left and the right sides of the blocks
    have side : (x 0 = -1 / 2 ∨ x 0 = 1 / 2) → False := by
      rintro (h0 | h0) <;> rcases hi with hi | hi
      · exact no (-1 / 2, c) (-1 / 2, 1 / 2) (by simp [NarrowPassage.init])
          (share_vertical t0 t1 (by rw [← e0]; exact h0) (Or.inl (by simp only; rw [← ei]; exact hi)))
      · exact no (-1 / 2, -c) (-1 / 2, -1 / 2) (by simp [NarrowPassage.init])
          (share_vertical t0 t1 (by rw [← e0]; exact h0) (Or.inr (by simp only; rw [← ei]; exact hi)))
      · exact no (1 / 2, c) (1 / 2, 1 / 2) (by simp [NarrowPassage.init])
          (share_vertical t0 t1 (by rw [← e0]; exact h0) (Or.inl (by simp only; rw [← ei]; exact hi)))
      · exact no (1 / 2, -c) (1 / 2, -1 / 2) (by simp [NarrowPassage.init])
          (share_vertical t0 t1 (by rw [← e0]; exact h0) (Or.inr (by simp only; rw [← ei]; exact hi)))
    rcases hfree with ⟨-, h, -⟩ | ⟨-, -, h⟩ | ⟨h, -, -⟩
    · exact side (Or.inl (le_antisymm h l))
    · rcases hi with hi | hi
      · exact no (-1 / 2, c) (1 / 2, c) (by simp [NarrowPassage.init])
          (share_horizontal t0 t1 (by rw [← ei]; exact le_antisymm (h i).2 hi.1) (by simp only; rw [← e0]; exact ⟨l, r⟩))
      · exact no (-1 / 2, -c) (1 / 2, -c) (by simp [NarrowPassage.init])
          (share_horizontal t0 t1 (by rw [← ei]; exact le_antisymm hi.2 (h i).1) (by simp only; rw [← e0]; exact ⟨l, r⟩))
    · exact side (Or.inr (le_antisymm r h))
  · rw [narrow_valid_iff] at hv
    -- a parallel wall on the line of the motion is reported
    have no : ∀ p q : K × K, (p, q) ∈ (NarrowPassage.init n c).collLines →
        Parallel (a 0, a i.succ) (b 0, b i.succ) p q →
        (p.1 - a 0) * (b i.succ - a i.succ) = (p.2 - a i.succ) * (b 0 - a 0) → False := by
      intro p q hpq hpar he
      have h1 := (C13_parallel _ _ _ _ hpar).2 he
      rw [hv i _ hpq] at h1
      cases h1
    refine ⟨?_, ?_, ?_⟩
    · by_contra hcon
      push Not at hcon
      exact no (-1 / 2, c) (-1 / 2, 1 / 2) (by simp [NarrowPassage.init]) (by simp [Parallel, hcon.1, hcon.2])
        (by simp [hcon.1, hcon.2])
    · rintro ⟨h, h0 | h0⟩
      · exact no (-1 / 2, c) (-1 / 2, 1 / 2) (by simp [NarrowPassage.init]) (by simp [Parallel, h]) (by simp [← h, h0])
      · exact no (1 / 2, c) (1 / 2, 1 / 2) (by simp [NarrowPassage.init]) (by simp [Parallel, h]) (by simp [← h, h0])
    · rintro ⟨h, h0 | h0⟩
      · exact no (-1 / 2, c) (1 / 2, c) (by simp [NarrowPassage.init]) (by simp [Parallel, h]) (by simp [← h, h0])
      · exact no (-1 / 2, -c) (1 / 2, -c) (by simp [NarrowPassage.init]) (by simp [Parallel, h]) (by simp [← h, h0])

/-- C17 is not vacuous: the slanted motion above touches no obstacle. -/
example : (∀ x ∈ segment ℚ (![-1, 1 / 20] : Fin 2 → ℚ) ![1, -1 / 20], ¬ NarrowObstacle (n := 1) (1 / 10) x) ∧
    Transversal (n := 1) (1 / 10) ![-1, 1 / 20] (![1, -1 / 20] : Fin 2 → ℚ) := by
  constructor
  · intro x hx
    obtain ⟨t, h0, h1, h⟩ := segment_coord (n := 1) hx
    have h1' := h (Fin.succ 0)
    simp at h1'
    rintro ⟨-, -, i, hi⟩
    fin_cases i
    simp only [Fin.mk_zero', Fin.succ_zero_eq_one] at hi
    rw [h1'] at hi
    rcases hi with hi | hi <;> linarith [hi.1, hi.2]
  · intro i
    fin_cases i
    norm_num

/-- C17 fails: standing still anywhere is rejected (in particular in the middle of the left room), -/
theorem C17_clear_accepted_false (c : K) (a : Fin (n + 2) → K) : (NarrowPassage.init (n + 1) c).isMotionValid a a = false := by
  rw [← Bool.not_eq_true, narrow_valid_iff]
  intro h
  have := h 0 ((-1 / 2, c), (-1 / 2, 1 / 2)) (by simp [NarrowPassage.init])
  rw [← Bool.not_eq_true, C13_parallel _ _ _ _ (by simp [Parallel])] at this
  simp at this

/-- and in three or more dimensions so is every motion that moves along a single sideways axis, however far from obstacles. -/
theorem C17_sideways_rejected (c : K) (a b : Fin (n + 3) → K) (h0 : a 0 = b 0) (h1 : a 1 = b 1 ∨ a 2 = b 2) :
    (NarrowPassage.init (n + 2) c).isMotionValid a b = false := by
  rw [← Bool.not_eq_true, narrow_valid_iff]
  intro h
  rcases h1 with h1 | h1
  · have := h 0 ((-1 / 2, c), (-1 / 2, 1 / 2)) (by simp [NarrowPassage.init])
    rw [← Bool.not_eq_true, C13_parallel _ _ _ _ (by simp [Parallel, h0, h1])] at this
    simp [h0, h1] at this
  · have := h 1 ((-1 / 2, c), (-1 / 2, 1 / 2)) (by simp [NarrowPassage.init])
    have e : (Fin.succ 1 : Fin (n + 3)) = 2 := rfl
    rw [← Bool.not_eq_true, C13_parallel _ _ _ _ (by simp [Parallel, h0, e, h1])] at this
    simp [h0, e, h1] at this

/-- C17 also fails in two dimensions for a motion in the left room, 0.1 away from every obstacle, at the wall's height. -/
theorem C17_collinear_rejected :
    (NarrowPassage.init 1 (1 / 10 : ℚ)).isMotionValid ![-14 / 10, 1 / 10] ![-6 / 10, 1 / 10] = false := by
  decide +kernel

/-! ### Sampling -/

theorem narrow_boxVol (c : K) :
    boxVol (NarrowPassage.init n c).leftLb (NarrowPassage.init n c).leftUb = 1 ∧
    boxVol (NarrowPassage.init n c).rightLb (NarrowPassage.init n c).rightUb = 1 ∧
    boxVol (NarrowPassage.init n c).hallLb (NarrowPassage.init n c).hallUb = |2 * c| ^ n := by
  refine ⟨?_, ?_, ?_⟩ <;> simp only [boxVol, NarrowPassage.init, headRest, Fin.prod_univ_succ, Fin.cons_zero, Fin.cons_succ,
    Finset.prod_const, Finset.card_univ, Fintype.card_fin]
  · norm_num
  · norm_num
  · rw [show (1 / 2 - -1 / 2 : K) = 1 by norm_num, abs_one, one_mul]; congr 2; ring

/-- C18. Every sample is free, whichever region is drawn and whatever the uniform draw. -/
theorem C18_sample_free {c : K} (hc0 : 0 ≤ c) (r : Region) {u : Fin (n + 1) → K} (hu : ∀ i, 0 ≤ u i ∧ u i < 1) :
    NarrowFree c ((NarrowPassage.init n c).sample r u) := by
  have box : ∀ {a b a' b' : K}, a ≤ a' → b ≤ b' →
      a ≤ uniform (headRest a b) (headRest a' b') u 0 ∧ uniform (headRest a b) (headRest a' b') u 0 ≤ a' ∧
      ∀ i : Fin n, b ≤ uniform (headRest a b) (headRest a' b') u i.succ ∧
        uniform (headRest a b) (headRest a' b') u i.succ ≤ b' := by
    intro a b a' b' h1 h2
    rw [← inBox_iff rfl rfl]
    apply uniform_mem _ hu
    intro i
    refine Fin.cases ?_ (fun j => ?_) i <;> simpa [headRest]
  cases r with
  | left => exact Or.inl (box (a := -3 / 2) (b := -1 / 2) (a' := -1 / 2) (b' := 1 / 2) (by norm_num) (by norm_num))
  | right =>
    exact Or.inr (Or.inr (box (a := 1 / 2) (b := -1 / 2) (a' := 3 / 2) (b' := 1 / 2) (by norm_num) (by norm_num)))
  | hall =>
    exact Or.inr (Or.inl (box (a := -1 / 2) (b := -c) (a' := 1 / 2) (b' := c) (by norm_num) (by linarith)))

/-- C18. The region weights are a probability distribution, proportional to the volumes of the regions. -/
theorem C18_weights (c : K) :
    let e := NarrowPassage.init n c
    0 ≤ e.pLeft ∧ 0 ≤ e.pRight ∧ 0 ≤ e.pHall ∧ e.pLeft + e.pRight + e.pHall = 1 ∧
    e.pLeft * e.volume = ∏ i, |e.leftUb i - e.leftLb i| ∧ e.pRight * e.volume = ∏ i, |e.rightUb i - e.rightLb i| ∧
    e.pHall * e.volume = ∏ i, |e.hallUb i - e.hallLb i| := by
  intro e
  obtain ⟨h1, h2, h3⟩ := narrow_boxVol (n := n) c
  have hvol : e.vol = 1 + 1 + |2 * c| ^ n := by
    exact congrArg₂ (· + ·) (congrArg₂ (· + ·) h1 h2) h3
  have hpos : 0 < e.vol := by rw [hvol]; positivity
  have el : e.pLeft = 1 / e.vol := by rw [← h1]; rfl
  have er : e.pRight = 1 / e.vol := by rw [← h2]; rfl
  have eh : e.pHall = |2 * c| ^ n / e.vol := by rw [← h3]; rfl
  refine ⟨by rw [el]; positivity, by rw [er]; positivity, by rw [eh]; positivity, ?_, ?_, ?_, ?_⟩
  · rw [el, er, eh, ← add_div, ← add_div, ← hvol, div_self hpos.ne']
  · rw [el, NarrowPassage.volume, div_mul_cancel₀ _ hpos.ne']; exact h1.symm
  · rw [er, NarrowPassage.volume, div_mul_cancel₀ _ hpos.ne']; exact h2.symm
  · rw [eh, NarrowPassage.volume, div_mul_cancel₀ _ hpos.ne']; exact h3.symm

/-- A box of vectors in terms of Mathlib's interval. -/
theorem headRest_Icc (a b a' b' : ℝ) :
    Set.Icc (headRest a b : Fin (n + 1) → ℝ) (headRest a' b') =
      {x | a ≤ x 0 ∧ x 0 ≤ a' ∧ ∀ i : Fin n, b ≤ x i.succ ∧ x i.succ ≤ b'} := by
  ext x
  rw [Set.mem_Icc, Pi.le_def, Pi.le_def, inBox_iff rfl rfl]
  rfl

theorem headRest_volume {a b a' b' : ℝ} (h1 : a ≤ a') (h2 : b ≤ b') :
    MeasureTheory.volume (Set.Icc (headRest a b : Fin (n + 1) → ℝ) (headRest a' b')) =
      ENNReal.ofReal ((a' - a) * (b' - b) ^ n) := by
  rw [Real.volume_Icc_pi, Fin.prod_univ_succ]
  simp only [headRest, Fin.cons_zero, Fin.cons_succ, Finset.prod_const, Finset.card_univ, Fintype.card_fin]
  rw [ENNReal.ofReal_mul (by linarith), ENNReal.ofReal_pow (by linarith)]

/-- C18. The reported volume is the Lebesgue measure of the free space. -/
theorem C18_volume {c : ℝ} (hc0 : 0 ≤ c) :
    MeasureTheory.volume {x : Fin (n + 1) → ℝ | NarrowFree c x} = ENNReal.ofReal (NarrowPassage.init n c).volume := by
  have hset : {x : Fin (n + 1) → ℝ | NarrowFree c x} =
      (Set.Icc (headRest (-3 / 2) (-1 / 2)) (headRest (-1 / 2) (1 / 2)) ∪
        Set.Icc (headRest (-1 / 2) (-c)) (headRest (1 / 2) c)) ∪
        Set.Icc (headRest (1 / 2) (-1 / 2)) (headRest (3 / 2) (1 / 2)) := by
    ext x
    rw [headRest_Icc, headRest_Icc, headRest_Icc]
    simp only [Set.mem_union, Set.mem_ofPred_eq, NarrowFree, or_assoc]
  have null : ∀ v : ℝ, MeasureTheory.volume {x : Fin (n + 1) → ℝ | x 0 = v ∧ ∀ i : Fin n, -1 / 2 ≤ x i.succ ∧ x i.succ ≤ 1 / 2} = 0 := by
    intro v
    have : {x : Fin (n + 1) → ℝ | x 0 = v ∧ ∀ i : Fin n, -1 / 2 ≤ x i.succ ∧ x i.succ ≤ 1 / 2} =
        Set.Icc (headRest v (-1 / 2)) (headRest v (1 / 2)) := by
      rw [headRest_Icc]
      ext x
      simp only [Set.mem_ofPred_eq]
      constructor
      · rintro ⟨rfl, h⟩; exact ⟨le_rfl, le_rfl, h⟩
      · rintro ⟨h1, h2, h⟩; exact ⟨le_antisymm h2 h1, h⟩
    rw [this, headRest_volume le_rfl (by norm_num)]
    simp
  have d1 : MeasureTheory.AEDisjoint MeasureTheory.volume
      (Set.Icc (headRest (-3 / 2) (-1 / 2) : Fin (n + 1) → ℝ) (headRest (-1 / 2) (1 / 2)))
      (Set.Icc (headRest (-1 / 2) (-c)) (headRest (1 / 2) c)) := by
    apply MeasureTheory.measure_mono_null _ (null (-1 / 2))
    rw [headRest_Icc, headRest_Icc]
    rintro x ⟨⟨h1, h2, h3⟩, h4, h5, h6⟩
    exact ⟨le_antisymm h2 h4, h3⟩
  have d2 : MeasureTheory.AEDisjoint MeasureTheory.volume
      (Set.Icc (headRest (-3 / 2) (-1 / 2) : Fin (n + 1) → ℝ) (headRest (-1 / 2) (1 / 2)) ∪
        Set.Icc (headRest (-1 / 2) (-c)) (headRest (1 / 2) c))
      (Set.Icc (headRest (1 / 2) (-1 / 2)) (headRest (3 / 2) (1 / 2))) := by
    apply MeasureTheory.measure_mono_null _ (null (1 / 2))
    rw [headRest_Icc, headRest_Icc, headRest_Icc]
    rintro x ⟨⟨h1, h2, h3⟩ | ⟨h1, h2, h3⟩, h4, h5, h6⟩
    · exact absurd (le_trans h4 h2) (by norm_num)
    · exact ⟨le_antisymm h2 h4, h6⟩
  rw [hset, MeasureTheory.measure_union₀ measurableSet_Icc.nullMeasurableSet d2,
    MeasureTheory.measure_union₀ measurableSet_Icc.nullMeasurableSet d1,
    headRest_volume (by norm_num) (by norm_num), headRest_volume (by norm_num) (by linarith),
    headRest_volume (by norm_num) (by norm_num)]
  obtain ⟨h1, h2, h3⟩ := narrow_boxVol (n := n) c
  have hvol : (NarrowPassage.init n c).volume = 1 + 1 + |2 * c| ^ n :=
    congrArg₂ (· + ·) (congrArg₂ (· + ·) h1 h2) h3
  have v1 : (-1 / 2 - -3 / 2 : ℝ) * (1 / 2 - -1 / 2) ^ n = 1 := by norm_num
  have v2 : (1 / 2 - -1 / 2 : ℝ) * (c - -c) ^ n = (2 * c) ^ n := by
    rw [show (1 / 2 - -1 / 2 : ℝ) = 1 by norm_num, one_mul]; ring_nf
  have v3 : (3 / 2 - 1 / 2 : ℝ) * (1 / 2 - -1 / 2) ^ n = 1 := by norm_num
  rw [hvol, abs_of_nonneg (by linarith), v1, v2, v3, ← ENNReal.ofReal_add zero_le_one (by positivity),
    ← ENNReal.ofReal_add (by positivity) zero_le_one]
  congr 1; ring

/-! ### Path geometry -/

/-- C19 fails: curve points have one coordinate too many, in every dimension; -/
theorem C19_dimension_false (c t : K) : ((NarrowPassage.init n c).curvePoint t).length = (n + 1) + 1 := by
  simp [NarrowPassage.curvePoint]

/-- and `distance_to_path` raises for every point with the right number of coordinates (dimension two or more). -/
theorem C19_distance_raises_false (hn : 1 ≤ n) (c : ℝ) (p : List ℝ) (hp : p.length = n + 1) :
    (NarrowPassage.init n c).distanceToPath p = .error .value := by
  match p, hp with
  | x :: y :: p, hp =>
    have hl : (NarrowPassage.init n c).lineDir.length = n + 2 := by simp [NarrowPassage.init]
    unfold NarrowPassage.distanceToPath
    simp only
    have : broadcastSub (x :: y :: p) ((NarrowPassage.init n c).lineDir.map (clip x 0 1 * ·)) = .error .value := by
      unfold broadcastSub
      rw [if_neg (by rw [List.length_map, hl, hp]; omega)]
      simp only [NarrowPassage.init, List.replicate_succ, List.map_cons]
    rw [this]
  | [x], hp => simp at hp; omega

/-- Nor is it the distance to the path where it does not raise: the points of the path itself, as `arclength_to_curve_point` returns them, get the distance to the half of the path with nonnegative
first coordinate. -/
theorem C19_distance_offset_false (c t : ℝ) (h0 : 0 ≤ t) (h1 : t ≤ 1) :
    (NarrowPassage.init n c).distanceToPath ((NarrowPassage.init n c).curvePoint t) = .ok (max 0 (1 / 2 - t)) := by
  have ht : clip t 0 1 = t := by unfold clip; rw [max_eq_left h0, min_eq_left h1]
  have hz : ∀ (m : ℕ) (a : ℝ), ((List.zipWith (· - ·) (List.replicate m (0 : ℝ)) ((List.replicate m (0 : ℝ)).map (a * ·))).map (· ^ 2)).sum = 0 := by
    intro m a
    induction m with
    | zero => simp
    | succ m ih =>
      rw [List.replicate_succ, List.map_cons, List.zipWith_cons_cons, List.map_cons, List.sum_cons, ih]
      norm_num
  unfold NarrowPassage.distanceToPath NarrowPassage.curvePoint broadcastSub
  simp only [ht, NarrowPassage.init]
  rw [if_pos (by simp)]
  simp only [List.map_cons, List.zipWith_cons_cons, List.sum_cons, hz, add_zero, mul_one]
  rw [Real.sqrt_sq_eq_abs]
  congr 1
  unfold clip
  rcases le_total t (1 / 2) with h | h
  · rw [max_eq_right (show -1 / 2 + t ≤ 0 by linarith), min_eq_left zero_le_one, max_eq_right (show 0 ≤ 1 / 2 - t by linarith), sub_zero, abs_of_nonpos (by linarith)]
    ring
  · rw [max_eq_left (show 0 ≤ -1 / 2 + t by linarith), min_eq_left (show -1 / 2 + t ≤ 1 by linarith), sub_self, abs_zero, max_eq_left (by linarith)]

/-- C19 (part). Apart from the extra trailing zero, curve points are on the path from `(-0.5, 0, ..)` to `(0.5, 0, ..)` and in
the passage. -/
theorem C19_curve_partial {c : K} (hc0 : 0 ≤ c) (t : K) :
    ∃ x : Fin (n + 1) → K, (NarrowPassage.init n c).curvePoint t = List.ofFn x ++ [0] ∧ NarrowFree c x ∧
      x ∈ segment K (headRest (-1 / 2) 0) (headRest (1 / 2) 0) := by
  have hc := clip_mem (x := t) (zero_le_one (α := K))
  refine ⟨headRest (-1 / 2 + clip t 0 1) 0, ?_, Or.inr (Or.inl ⟨?_, ?_, fun i => ?_⟩), ?_⟩
  · simp [NarrowPassage.curvePoint, headRest, List.replicate_succ', List.ofFn_const]
  · simp [headRest, hc.1]
  · simp only [headRest, Fin.cons_zero]; linarith [hc.2]
  · simp only [headRest, Fin.cons_succ]; exact ⟨by linarith, hc0⟩
  · rw [segment_eq_image']
    refine ⟨clip t 0 1, hc, ?_⟩
    ext i
    refine Fin.cases ?_ (fun j => ?_) i
    · simp only [headRest, Fin.cons_zero, Pi.add_apply, Pi.smul_apply, Pi.sub_apply, smul_eq_mul]; ring
    · simp [headRest]

end Verif.Props
