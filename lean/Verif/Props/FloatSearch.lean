import Verif.Lemmas.Float64
import Verif.Lemmas.Py
import Verif.Model.FloatSearch
import Verif.Spec.Float64

/-! The radius search in floats: C125. -/

namespace Verif.Props

open Verif.Float64 Verif.Spec Verif.Bound

variable {β : Type*} [LinearOrder β] (g : ℝ → β) (L : β)

theorem next_ulp {a : ℝ} (ha : IsFloat a) (h0 : 0 ≤ a) : NextFloat a (a + ulp a) :=
  ⟨ha, add_ulp_isFloat ha h0, by have := ulp_pos a; linarith, fun c hc h => by have := add_ulp_le ha hc h0 h.1; linarith [h.2]⟩

theorem float_search_total {lb0 ub0 tol : ℝ} (hlb0 : 0 ≤ lb0) (hgap : ∀ a b, NextFloat a b → lb0 ≤ a → b ≤ ub0 → b - a ≤ tol) :
    ∀ (n : ℕ) (lb ub : ℝ), ub - lb ≤ n * 2 ^ (-1074 : ℤ) → IsFloat lb → IsFloat ub → lb0 ≤ lb → ub ≤ ub0 → lb < ub →
      (lb = lb0 ∨ (g lb ≤ L ∧ g (fl (lb - fl (tol / 2))) < g lb)) → (ub = ub0 ∨ ¬ (g ub ≤ L ∧ g (fl (ub - fl (tol / 2))) < g ub)) →
      ∃ fuel r, loop (halvingBodyFloat g L tol) fuel (lb, ub) = some (.ok r) ∧ IsFloat r ∧ lb0 ≤ r ∧ r < ub0 ∧
        (r = lb0 ∨ (g r ≤ L ∧ g (fl (r - fl (tol / 2))) < g r)) ∧
        ∃ u, IsFloat u ∧ r < u ∧ u ≤ ub0 ∧ fl (u - r) ≤ tol ∧ (u = ub0 ∨ ¬ (g u ≤ L ∧ g (fl (u - fl (tol / 2))) < g u)) := by
  intro n
  induction n with
  | zero =>
    intro lb ub hn _ _ _ _ h
    simp only [Nat.cast_zero, zero_mul] at hn
    linarith
  | succ n ih =>
    intro lb ub hn hl hu hl0 hu0 h hlt hut
    have h0 : 0 ≤ lb := hlb0.trans hl0
    by_cases hd : fl (ub - lb) ≤ tol
    · exact ⟨1, lb, by simp [loop, halvingBodyFloat, hd], hl, hl0, h.trans_le hu0, hlt, ub, hu, h, hu0, hd, hut⟩
    · have hlt' : lb + ulp lb < ub := by
        rcases (add_ulp_le hl hu h0 h).lt_or_eq with h1 | h1
        · exact h1
        · exfalso
          have hnx := next_ulp hl h0
          rw [h1] at hnx
          have h2 := hgap _ _ hnx hl0 hu0
          have h3 : ub - lb = ulp lb := by linarith
          have h4 : IsFloat (ub - lb) := by rw [h3]; exact zpow_isFloat (place_ge _)
          rw [fl_eq h4 (by linarith)] at hd
          exact hd h2
      obtain ⟨ht, hlt1, htu⟩ := mid_between hl hu h0 hlt'
      set t := fl (fl (lb + ub) / 2) with htdef
      obtain ⟨x, hx⟩ := hl.int
      obtain ⟨y, hy⟩ := hu.int
      obtain ⟨z, hz⟩ := ht.int
      have hU : (0 : ℝ) < 2 ^ (-1074 : ℤ) := by positivity
      have hshrink : ub - t ≤ n * 2 ^ (-1074 : ℤ) ∧ t - lb ≤ n * 2 ^ (-1074 : ℤ) := by
        rw [hx, hz] at hlt1
        rw [hy, hz] at htu
        have e1 : x < z := by exact_mod_cast lt_of_mul_lt_mul_right hlt1 hU.le
        have e2 : z < y := by exact_mod_cast lt_of_mul_lt_mul_right htu hU.le
        rw [hy, hx] at hn
        have e3 : y - x ≤ n + 1 := by
          have : ((y : ℝ) - x) * 2 ^ (-1074 : ℤ) ≤ (n + 1) * 2 ^ (-1074 : ℤ) := by push_cast at hn; linarith
          have := le_of_mul_le_mul_right this hU
          exact_mod_cast this
        constructor
        · rw [hy, hz, ← sub_mul]
          have : (y : ℝ) - z ≤ n := by exact_mod_cast (by omega : y - z ≤ n)
          gcongr
        · rw [hx, hz, ← sub_mul]
          have : (z : ℝ) - x ≤ n := by exact_mod_cast (by omega : z - x ≤ n)
          gcongr
      have hnlt : ¬ ub < lb := by linarith
      by_cases hc : g t ≤ g (fl (t - fl (tol / 2))) ∨ L < g t
      · obtain ⟨fuel, r, hr, hrest⟩ := ih lb t hshrink.2 hl ht hl0 (htu.le.trans hu0) hlt1 hlt (Or.inr fun h' => by
          rcases hc with hc | hc
          · exact absurd h'.2 (not_lt.2 hc)
          · exact absurd h'.1 (not_le.2 hc))
        refine ⟨fuel + 1, r, ?_, hrest⟩
        rw [← hr]
        simp only [loop, halvingBodyFloat, hd, hnlt, if_false, ← htdef, hc, if_true]
      · push Not at hc
        obtain ⟨fuel, r, hr, hrest⟩ := ih t ub hshrink.1 ht hu (hl0.trans hlt1.le) hu0 htu (Or.inr ⟨hc.2, hc.1⟩) hut
        refine ⟨fuel + 1, r, ?_, hrest⟩
        rw [← hr]
        have hc' : ¬ (g t ≤ g (fl (t - fl (tol / 2))) ∨ L < g t) := by push Not; exact hc
        simp only [loop, halvingBodyFloat, hd, hnlt, if_false, ← htdef, hc']

/-- C125: if neighbouring floats in the interval are no further apart than the tolerance, the radius search in floats stops. It returns a float of the interval that is the lower end or was checked; the next one that was not accepted is
(in floats) within the tolerance. -/
theorem C125_answers {lb ub tol : ℝ} (hl : IsFloat lb) (hu : IsFloat ub) (h0 : 0 ≤ lb) (h : lb < ub) (hgap : ∀ a b, NextFloat a b → lb ≤ a → b ≤ ub → b - a ≤ tol) :
    ∃ fuel r, halvingRadiusSearchFloat g L lb ub tol fuel = some (.ok r) ∧ IsFloat r ∧ lb ≤ r ∧ r < ub ∧
      (r = lb ∨ (g r ≤ L ∧ g (fl (r - fl (tol / 2))) < g r)) ∧
      ∃ u, IsFloat u ∧ r < u ∧ u ≤ ub ∧ fl (u - r) ≤ tol ∧ (u = ub ∨ ¬ (g u ≤ L ∧ g (fl (u - fl (tol / 2))) < g u)) := by
  obtain ⟨n, hn⟩ := exists_nat_ge ((ub - lb) / 2 ^ (-1074 : ℤ))
  have hU : (0 : ℝ) < 2 ^ (-1074 : ℤ) := by positivity
  rw [div_le_iff₀ hU] at hn
  obtain ⟨fuel, r, hr, hrest⟩ := float_search_total g L h0 hgap n lb ub hn hl hu le_rfl le_rfl h (Or.inl rfl) (Or.inl rfl)
  exact ⟨fuel, r, by rw [halvingRadiusSearchFloat, if_pos h]; exact hr, hrest⟩

/-- C125, with the default tolerance `1e-6`: the search stops for all radii up to `2 ^ 33`. -/
theorem C125_default {lb ub : ℝ} (hl : IsFloat lb) (hu : IsFloat ub) (h0 : 0 ≤ lb) (h : lb < ub) (hub : ub ≤ 2 ^ 33) :
    ∃ fuel r, halvingRadiusSearchFloat g L lb ub (fl (1 / 10 ^ 6)) fuel = some (.ok r) ∧ IsFloat r ∧ lb ≤ r ∧ r < ub ∧
      (r = lb ∨ (g r ≤ L ∧ g (fl (r - fl (fl (1 / 10 ^ 6) / 2))) < g r)) ∧
      ∃ u, IsFloat u ∧ r < u ∧ u ≤ ub ∧ fl (u - r) ≤ fl (1 / 10 ^ 6) ∧ (u = ub ∨ ¬ (g u ≤ L ∧ g (fl (u - fl (fl (1 / 10 ^ 6) / 2))) < g u)) := by
  apply C125_answers g L hl hu h0 h
  intro a b hab ha hb
  obtain ⟨fa, fb, hlt, hno⟩ := hab
  have ha0 := h0.trans ha
  have hba : b ≤ a + ulp a := by
    by_contra hc
    push Not at hc
    exact hno _ (add_ulp_isFloat fa ha0) ⟨by have := ulp_pos a; linarith, hc⟩
  have hpl : place a ≤ -20 := by
    apply place_le_of_lt ha0 (by norm_num)
    have : (2 : ℝ) ^ ((-20 : ℤ) + 53) = 2 ^ 33 := by norm_num
    rw [this]; linarith
  have hul : ulp a ≤ 2 ^ (-20 : ℤ) := zpow_le_zpow_right₀ (by norm_num) hpl
  have : (2 : ℝ) ^ (-20 : ℤ) ≤ fl (1 / 10 ^ 6) := le_fl (zpow_isFloat (by norm_num)) (by norm_num) (by norm_num)
  exact (by linarith : b - a ≤ ulp a).trans (hul.trans this)

theorem place_eq {x : ℝ} {e : ℤ} (he : -1074 ≤ e) (h1 : (2 : ℝ) ^ (e + 52) ≤ x) (h2 : x < 2 ^ (e + 53)) : place x = e := by
  have h0 : 0 ≤ x := le_trans (by positivity) h1
  have h3 := place_le_of_lt h0 he h2
  have h4 := (zpow_lt_zpow_iff_right₀ (by norm_num : (1 : ℝ) < 2)).1 (h1.trans_lt (lt_place h0))
  omega

/-- C125, otherwise: neighbouring floats further apart than the tolerance, of which the second one has an even last bit, are never left, whatever the bound. -/
theorem C125_never {n e : ℤ} (hodd : n % 2 = 1) (hn : 2 ^ 52 ≤ n) (hn' : n < 2 ^ 53) (he : -1074 ≤ e) {tol : ℝ} (ht : IsFloat tol) (ht0 : 0 < tol) (hte : tol < 2 ^ e) :
    NextFloat (n * 2 ^ e) ((n + 1) * 2 ^ e) ∧ ∀ fuel, halvingRadiusSearchFloat g L (n * 2 ^ e) ((n + 1) * 2 ^ e) tol fuel = none := by
  have hU : (0 : ℝ) < 2 ^ e := by positivity
  have hnR : (2 : ℝ) ^ 52 ≤ n := by exact_mod_cast hn
  have hnR' : (n : ℝ) + 1 ≤ 2 ^ 53 := by exact_mod_cast hn'
  have e52 : (2 : ℝ) ^ (e + 52) = 2 ^ 52 * 2 ^ e := by rw [zpow_add₀ (by norm_num)]; norm_num; ring
  have e53 : (2 : ℝ) ^ (e + 53) = 2 ^ 53 * 2 ^ e := by rw [zpow_add₀ (by norm_num)]; norm_num; ring
  have fa : IsFloat (n * 2 ^ e) := mul_isFloat (by rw [abs_of_nonneg (by omega)]; omega) he
  have fb : IsFloat ((n + 1) * 2 ^ e) := by
    have := mul_isFloat (n := n + 1) (by rw [abs_of_nonneg (by omega)]; omega) he
    push_cast at this
    exact this
  have a0 : (0 : ℝ) ≤ n * 2 ^ e := by
    have : (0 : ℝ) ≤ n := le_trans (by positivity) hnR
    positivity
  have hpa : place (n * 2 ^ e) = e := place_eq he (by rw [e52]; gcongr) (by rw [e53]; gcongr; linarith)
  have hua : ulp (n * 2 ^ e) = 2 ^ e := by rw [ulp, hpa]
  have hab : (n : ℝ) * 2 ^ e + ulp (n * 2 ^ e) = (n + 1) * 2 ^ e := by rw [hua]; ring
  have he' : -1074 ≤ e - 1 := by
    obtain ⟨k, hk⟩ := ht.int
    by_contra hc
    have : e = -1074 := by omega
    subst this
    rw [hk] at hte ht0
    have h1 : (k : ℝ) < 1 := lt_of_mul_lt_mul_right (by linarith) hU.le
    have h2 : (0 : ℝ) < k := by
      by_contra hc
      push Not at hc
      have := mul_nonpos_of_nonpos_of_nonneg hc hU.le
      linarith
    have h3 : k < 1 := by exact_mod_cast h1
    have h4 : 0 < k := by exact_mod_cast h2
    omega
  have half : (2 : ℝ) ^ e = 2 * 2 ^ (e - 1) := by
    rw [show e = (e - 1) + 1 by ring, zpow_add_one₀ (by norm_num)]; simp; ring
  have hround : roundEven ((n : ℝ) + 1 / 2) = n + 1 := by
    have hfl : ⌊(n : ℝ) + 1 / 2⌋ = n := by
      rw [Int.floor_eq_iff]; constructor <;> linarith
    have hfr : Int.fract ((n : ℝ) + 1 / 2) = 1 / 2 := by
      rw [Int.fract, hfl]; ring
    rw [roundEven, hfr, hfl, if_neg (by norm_num), if_neg (by norm_num), if_neg (by omega)]
  have htest : fl (fl ((n : ℝ) * 2 ^ e + (n + 1) * 2 ^ e) / 2) = (n + 1) * 2 ^ e := by
    have hp : place ((n : ℝ) * 2 ^ e + (n + 1) * 2 ^ e) = e + 1 := by
      have k1 : (2 : ℝ) ^ (e + 1 + 52) = 2 ^ 53 * 2 ^ e := by rw [← e53]; congr 1; ring
      have k2 : (2 : ℝ) ^ (e + 1 + 53) = 2 ^ 54 * 2 ^ e := by
        rw [show e + 1 + 53 = e + 54 by ring, zpow_add₀ (by norm_num)]; norm_num; ring
      apply place_eq (by omega)
      · rw [k1, ← add_mul]; gcongr; linarith
      · rw [k2, ← add_mul]; gcongr; linarith
    have hq : ((n : ℝ) * 2 ^ e + (n + 1) * 2 ^ e) / ulp ((n : ℝ) * 2 ^ e + (n + 1) * 2 ^ e) = n + 1 / 2 := by
      rw [ulp, hp, zpow_add_one₀ (by norm_num)]
      field_simp
      ring
    have h1 : fl ((n : ℝ) * 2 ^ e + (n + 1) * 2 ^ e) = 2 * ((n + 1) * 2 ^ e) := by
      rw [fl, hq, hround, ulp, hp, zpow_add_one₀ (by norm_num)]
      push_cast
      ring
    rw [h1, mul_div_cancel_left₀ _ (by norm_num)]
    exact fl_eq fb (by linarith [ulp_pos (n * 2 ^ e)])
  have hback : fl ((n + 1 : ℝ) * 2 ^ e - fl (tol / 2)) = (n + 1) * 2 ^ e := by
    have t1 : 0 ≤ fl (tol / 2) := fl_nonneg (by linarith)
    have t2 : fl (tol / 2) ≤ 2 ^ (e - 1) := fl_le (zpow_isFloat he') (by linarith) (by linarith)
    generalize fl (tol / 2) = d at t1 t2
    rcases t1.eq_or_lt with rfl | t1
    · rw [sub_zero]
      exact fl_eq fb (by linarith [ulp_pos (n * 2 ^ e)])
    · have hp : place ((n + 1 : ℝ) * 2 ^ e - d) = e := by
        apply place_eq he
        · rw [e52]
          have : (2 : ℝ) ^ 52 * 2 ^ e ≤ n * 2 ^ e := by gcongr
          linarith
        · rw [e53]
          have : ((n : ℝ) + 1) * 2 ^ e ≤ 2 ^ 53 * 2 ^ e := by gcongr
          linarith
      have hq : ((n + 1 : ℝ) * 2 ^ e - d) / ulp ((n + 1 : ℝ) * 2 ^ e - d) = (n + 1) - d / 2 ^ e := by
        rw [ulp, hp]; field_simp
      have hd0 : 0 < d / 2 ^ e := by positivity
      have hd1 : d / 2 ^ e ≤ 1 / 2 := by rw [div_le_iff₀ hU]; linarith
      have hr : roundEven ((n + 1 : ℝ) - d / 2 ^ e) = n + 1 := by
        rcases hd1.eq_or_lt with h1 | h1
        · rw [h1, show (n + 1 : ℝ) - 1 / 2 = n + 1 / 2 by ring, hround]
        · have hfl : ⌊(n + 1 : ℝ) - d / 2 ^ e⌋ = n := by
            rw [Int.floor_eq_iff]; constructor <;> linarith
          rw [roundEven, Int.fract, hfl, if_neg (by linarith), if_pos (by linarith)]
      rw [fl, hq, hr, ulp, hp]
      push_cast
      ring
  refine ⟨by rw [← hab]; exact next_ulp fa a0, fun fuel => ?_⟩
  have hlt : (n : ℝ) * 2 ^ e < (n + 1) * 2 ^ e := by linarith [ulp_pos (n * 2 ^ e)]
  rw [halvingRadiusSearchFloat, if_pos hlt]
  refine LoopDiverges.of_fixed ?_ fuel
  have hdiff : fl ((n + 1 : ℝ) * 2 ^ e - n * 2 ^ e) = 2 ^ e := by
    rw [show (n + 1 : ℝ) * 2 ^ e - n * 2 ^ e = 2 ^ e by ring]
    exact fl_eq (zpow_isFloat he) hU.le
  simp only [halvingBodyFloat, hdiff, not_le.2 hte, if_false, not_lt.2 hlt.le, htest, hback, le_refl, true_or, if_true]

/-- With the default tolerance: between these two radii above `2 ^ 33` the search never answers. -/
theorem C125_large : ∃ lb ub : ℝ, IsFloat lb ∧ IsFloat ub ∧ 0 ≤ lb ∧ lb < ub ∧ ub ≤ 2 ^ 33 + 1 ∧
    ∀ fuel, halvingRadiusSearchFloat g L lb ub (fl (1 / 10 ^ 6)) fuel = none := by
  have hf : IsFloat (3 * 2 ^ (-21 : ℤ)) := ⟨3, -21, by norm_num, by norm_num, by norm_num⟩
  obtain ⟨hn, h⟩ := C125_never g L (n := 2 ^ 52 + 1) (e := -19) (tol := fl (1 / 10 ^ 6)) (by norm_num) (by norm_num) (by norm_num) (by norm_num) (fl_isFloat (by norm_num))
    (lt_of_lt_of_le (by positivity) (le_fl (zpow_isFloat (e := -20) (by norm_num)) (by norm_num) (by norm_num)))
    (lt_of_le_of_lt (fl_le hf (by norm_num) (by norm_num)) (by norm_num))
  exact ⟨_, _, hn.1, hn.2.1, by positivity, hn.2.2.1, by norm_num, h⟩

/-- The hypotheses of C125 are met by radii 0 and 1; the search with an accepted radius 1/2 returns a positive radius up to that. -/
theorem C125_nonvacuous : IsFloat 0 ∧ IsFloat 1 ∧ (1 : ℝ) ≤ 2 ^ 33 ∧
    ∃ fuel r, halvingRadiusSearchFloat (fun x : ℝ => x) (1 / 2) 0 1 (fl (1 / 10 ^ 6)) fuel = some (.ok r) ∧ 0 < r ∧ r ≤ 1 / 2 := by
  have f0 : IsFloat 0 := ⟨0, 0, by norm_num, by norm_num, by norm_num⟩
  have f1 : IsFloat 1 := ⟨1, 0, by norm_num, by norm_num, by norm_num⟩
  refine ⟨f0, f1, by norm_num, ?_⟩
  obtain ⟨fuel, r, hr, -, hr0, -, hpass, u, fu, hru, hu1, hut, hfail⟩ := C125_default (fun x : ℝ => x) (1 / 2) f0 f1 le_rfl one_pos (by norm_num)
  have t1 : (2 : ℝ) ^ (-20 : ℤ) ≤ fl (1 / 10 ^ 6) := le_fl (zpow_isFloat (by norm_num)) (by norm_num) (by norm_num)
  have t2 : fl (1 / 10 ^ 6) ≤ 1 / 2 := by
    have := fl_le (f := 2 ^ (-1 : ℤ)) (x := 1 / 10 ^ 6) (zpow_isFloat (by norm_num)) (by norm_num) (by norm_num)
    norm_num at this ⊢
    exact this
  have d1 : (2 : ℝ) ^ (-21 : ℤ) ≤ fl (fl (1 / 10 ^ 6) / 2) := by
    refine le_fl (zpow_isFloat (by norm_num)) (le_trans (by positivity) (div_le_div_of_nonneg_right t1 (by norm_num))) ?_
    calc (2 : ℝ) ^ (-21 : ℤ) = 2 ^ (-20 : ℤ) / 2 := by norm_num
      _ ≤ _ := div_le_div_of_nonneg_right t1 (by norm_num)
  generalize fl (fl (1 / 10 ^ 6) / 2) = d at d1 hpass hfail
  refine ⟨fuel, r, hr, ?_, ?_⟩
  · rcases hr0.eq_or_lt with rfl | h
    · exfalso
      rw [sub_zero, fl_eq fu hru.le] at hut
      have hu2 : u ≤ 1 / 2 := hut.trans t2
      have d0 : 0 < d := lt_of_lt_of_le (by positivity) d1
      rcases hfail with rfl | hfail
      · norm_num at hu2
      · apply hfail
        refine ⟨hu2, ?_⟩
        rcases le_total (u - d) 0 with hx | hx
        · have : roundEven ((u - d) / ulp (u - d)) ≤ (0 : ℤ) := roundEven_le (by push_cast; exact div_nonpos_of_nonpos_of_nonneg hx (ulp_pos _).le)
          have h0 : (roundEven ((u - d) / ulp (u - d)) : ℝ) ≤ 0 := by exact_mod_cast this
          exact lt_of_le_of_lt (mul_nonpos_of_nonpos_of_nonneg h0 (ulp_pos _).le) hru
        · have h1 := fl_near (u - d)
          rw [abs_le] at h1
          have hp : place (u - d) ≤ -52 := place_le_of_lt hx (by norm_num) (by norm_num; linarith)
          have h2 : ulp (u - d) ≤ 2 ^ (-52 : ℤ) := zpow_le_zpow_right₀ (by norm_num) hp
          have h3 : (2 : ℝ) ^ (-52 : ℤ) < 2 ^ (-21 : ℤ) := zpow_lt_zpow_right₀ (by norm_num) (by norm_num)
          have h4 := h2.trans_lt (h3.trans_le d1)
          show fl (u - d) < u
          linarith
    · exact h
  · rcases hpass with rfl | h
    · norm_num
    · exact h.1

end Verif.Props
