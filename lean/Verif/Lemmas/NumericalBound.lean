import Mathlib.MeasureTheory.Measure.Lebesgue.VolumeOfBalls
import Verif.Spec.Bound
import Verif.Model.Bound
import Verif.Lemmas.SauerShelah
import Verif.Lemmas.Search

namespace Verif.Bound

open Finset

theorem ssCombSum_eq (m vc : ℕ) : ssCombSum m vc = partialRow vc (2 * m) := by
  unfold ssCombSum partialRow
  rw [← List.sum_toFinset _ List.nodup_range]
  congr 1
  ext; simp

theorem sauerShelah_eq (m : ℕ) (ρ : ℝ) (vc : ℕ) :
    sauerShelahLog2 m ρ vc = logRow vc (2 * m) - ρ * m / 2 + 1 := by
  unfold sauerShelahLog2 logRow
  rw [ssCombSum_eq]; ring

theorem sauerShelah_concave (ρ : ℝ) (vc m : ℕ) :
    sauerShelahLog2 m ρ vc + sauerShelahLog2 (m + 2) ρ vc ≤ 2 * sauerShelahLog2 (m + 1) ρ vc := by
  simp only [sauerShelah_eq]
  have := logRow_concave_two vc m
  push_cast
  linarith

theorem sauerShelah_zero (ρ : ℝ) (vc : ℕ) : sauerShelahLog2 0 ρ vc = 1 := by
  rw [sauerShelah_eq]
  simp [logRow, partialRow_zero]

theorem failureBound_eq (m : ℕ) (ρ : ℝ) (vc : ℕ) :
    Spec.failureBound m ρ vc = (2 : ℝ) ^ sauerShelahLog2 m ρ vc := by
  have hp : (0 : ℝ) < partialRow vc (2 * m) := by exact_mod_cast partialRow_pos vc (2 * m)
  rw [sauerShelah_eq, Real.rpow_add (by norm_num), Real.rpow_sub (by norm_num)]
  unfold logRow
  rw [Real.rpow_logb (by norm_num) (by norm_num) hp, Real.rpow_one]
  unfold Spec.failureBound
  have : -(ρ * m) / 2 = -(ρ * m / 2) := by ring
  rw [this, Real.rpow_neg (by norm_num)]
  unfold partialRow
  push_cast
  ring

theorem sauerShelah_le_iff (m : ℕ) (ρ : ℝ) (vc : ℕ) {γ : ℝ} (hγ : 0 < γ) :
    sauerShelahLog2 m ρ vc ≤ Real.logb 2 γ ↔ Spec.failureBound m ρ vc ≤ γ := by
  rw [failureBound_eq, Real.le_logb_iff_rpow_le (by norm_num) hγ]

theorem logb_lt_one {p : ℝ} (h0 : 0 < p) (h1 : p < 1) : Real.logb 2 (1 - p) < 1 := by
  rw [Real.logb_lt_iff_lt_rpow (by norm_num) (by linarith)]
  norm_num; linarith

/-- Past the target the bound is automatically decreasing. -/
theorem good_iff (ρ : ℝ) (vc m : ℕ) {L : ℝ} (hL : L < 1) :
    Good (fun m => sauerShelahLog2 m ρ vc) L m ↔ sauerShelahLog2 m ρ vc ≤ L := by
  refine ⟨fun h => h.1, fun h => ⟨h, ?_⟩⟩
  have hlt : sauerShelahLog2 m ρ vc < sauerShelahLog2 0 ρ vc := by
    rw [sauerShelah_zero]; linarith
  exact (concave_decreasing (f := fun m => sauerShelahLog2 m ρ vc) (sauerShelah_concave ρ vc) hlt m (by omega)).le

theorem sauerShelah_upward (ρ : ℝ) (vc : ℕ) {L : ℝ} (hL : L < 1) {m n : ℕ} (hmn : m ≤ n)
    (h : sauerShelahLog2 m ρ vc ≤ L) : sauerShelahLog2 n ρ vc ≤ L := by
  have hlt : sauerShelahLog2 m ρ vc < sauerShelahLog2 0 ρ vc := by
    rw [sauerShelah_zero]; linarith
  exact le_trans
    (concave_antitone_from (f := fun m => sauerShelahLog2 m ρ vc) (sauerShelah_concave ρ vc) hlt n hmn) h

/-- What a run of the search on the Sauer-Shelah bound means. -/
theorem search_sauerShelah {ρ : ℝ} {vc : ℕ} {L : ℝ} (hL : L < 1) {fuel N : ℕ}
    (h : doublingSampleSearch (fun m => sauerShelahLog2 m ρ vc) L fuel = some (.ok N)) :
    2 ≤ N ∧ (∀ m, N ≤ m → sauerShelahLog2 m ρ vc ≤ L) ∧ ∀ m, 2 ≤ m → m < N → L < sauerShelahLog2 m ρ vc := by
  rcases search_post _ _ h with ⟨n, hn, h2, hg, hb⟩ | ⟨he, _⟩
  · cases hn
    refine ⟨h2, fun m hm => sauerShelah_upward ρ vc hL hm hg.1, fun m hm1 hm2 => ?_⟩
    rcases hb with rfl | hb
    · omega
    · rw [good_iff ρ vc _ hL] at hb
      by_contra hcon
      exact hb (sauerShelah_upward ρ vc hL (by omega) (not_lt.mp hcon))
  · cases he

/-- The search finds the least count if that is at most `2^53`. -/
theorem search_complete {ρ : ℝ} {vc : ℕ} {L : ℝ} (hL : L < 1) {N : ℕ} (h2 : 2 ≤ N) (h53 : N ≤ 2 ^ 53)
    (hN : sauerShelahLog2 N ρ vc ≤ L) :
    ∃ fuel n, doublingSampleSearch (fun m => sauerShelahLog2 m ρ vc) L fuel = some (.ok n) ∧ n ≤ N := by
  have hgood : ∀ m, N ≤ m → Good (fun m => sauerShelahLog2 m ρ vc) L m := fun m hm =>
    (good_iff ρ vc m hL).2 (sauerShelah_upward ρ vc hL hm hN)
  obtain ⟨b, hb, hp⟩ := doubling_stops (fun m => sauerShelahLog2 m ρ vc) L
  rcases hp with ⟨k, rfl, hg, hbad, _⟩ | ⟨rfl, hno⟩
  · have hk : 2 ^ (k + 1) ≤ 2 ^ 53 := by
      apply Nat.pow_le_pow_right (by norm_num)
      by_contra hcon
      exact hbad 52 (by omega) (hgood _ (by norm_num at *; exact h53))
    have hk2 : 2 ≤ 2 ^ (k + 1) := by
      have := Nat.one_le_two_pow (n := k)
      rw [pow_succ]; omega
    obtain ⟨b, hs, n, rfl, hn2, hng, hpred⟩ := bisect_stops _ _ hk2 hk hg
    obtain ⟨fuel, hf⟩ := search_of_stops _ _ hb hs
    refine ⟨fuel, n, hf, ?_⟩
    rcases hpred with rfl | hpred
    · exact h2
    · by_contra hcon
      exact hpred (hgood _ (by omega))
  · exfalso
    refine hno 52 ?_ (hgood _ (by norm_num at *; exact h53))
    calc (2 : ℕ) ^ (52 + 1) ≤ 10 ^ 53 := Nat.pow_le_pow_left (by norm_num) _
      _ ≤ 10 ^ 300 := Nat.pow_le_pow_right (by norm_num) (by norm_num)

/-! ### compute_numerical_bound -/

theorem numericalBound_ok {δ p vol : ℝ} {dim : ℕ} {tol : Option ℝ} {fuel N : ℕ} {r : ℝ}
    (h : numericalBound δ p vol dim tol fuel = some (.ok (N, r))) :
    0 < p ∧ p < 1 ∧ r = 2 * (alpha tol + Real.sqrt (1 - alpha tol ^ 2)) * δ ∧
      doublingSampleSearch (fun m => sauerShelahLog2 m (rho δ tol dim vol) (dim + 1)) (Real.logb 2 (1 - p)) fuel
        = some (.ok N) := by
  unfold numericalBound at h
  split at h
  · cases h
  · next hp =>
    rw [not_or, not_le, not_le] at hp
    simp only at h
    split at h
    · cases h
    · cases h
    · next n heq =>
      cases h
      exact ⟨hp.1, hp.2, rfl, heq⟩

theorem numericalBound_of_search {δ p vol : ℝ} {dim : ℕ} {tol : Option ℝ} {fuel N : ℕ} (h0 : 0 < p) (h1 : p < 1)
    (h : doublingSampleSearch (fun m => sauerShelahLog2 m (rho δ tol dim vol) (dim + 1)) (Real.logb 2 (1 - p)) fuel
        = some (.ok N)) :
    numericalBound δ p vol dim tol fuel
      = some (.ok (N, 2 * (alpha tol + Real.sqrt (1 - alpha tol ^ 2)) * δ)) := by
  unfold numericalBound
  rw [if_neg (by rw [not_or, not_le, not_le]; exact ⟨h0, h1⟩)]
  simp only [h]

/-! ### The measure of the net's balls -/

theorem volUnitSphere_pos (dim : ℕ) : 0 < volUnitSphere dim := by
  unfold volUnitSphere
  exact div_pos (Real.rpow_pos_of_pos Real.pi_pos _) (Real.Gamma_pos_of_pos (by positivity))

theorem alpha_nonneg {tol : Option ℝ} (h : Spec.TolNonneg tol) : 0 ≤ alpha tol := by
  cases tol with
  | none => simp [alpha]
  | some t => exact div_nonneg h (Real.sqrt_nonneg _)

theorem rho_eq_netMeasure {δ vol : ℝ} {tol : Option ℝ} {dim : ℕ} (hd : 1 ≤ dim) (hδ : 0 ≤ δ)
    (ht : Spec.TolNonneg tol) : rho δ tol dim vol = Spec.netMeasure δ tol dim vol := by
  have : Nonempty (Fin dim) := ⟨⟨0, hd⟩⟩
  have hr : Spec.netRadius δ tol = alpha tol * δ := by
    cases tol <;> simp [Spec.netRadius, alpha, mul_comm]
  have hr0 : 0 ≤ alpha tol * δ := mul_nonneg (alpha_nonneg ht) hδ
  unfold Spec.netMeasure rho epsilonNetRadius
  rw [EuclideanSpace.volume_ball, hr]
  simp only [Fintype.card_fin]
  rw [ENNReal.toReal_mul, ENNReal.toReal_pow, ENNReal.toReal_ofReal hr0, ENNReal.toReal_ofReal]
  · have : Real.sqrt Real.pi ^ dim = Real.pi ^ ((dim : ℝ) / 2) := by
      rw [Real.sqrt_eq_rpow, ← Real.rpow_natCast, ← Real.rpow_mul Real.pi_pos.le]
      congr 1; ring
    rw [this]
    unfold volUnitSphere
    ring
  · exact div_nonneg (pow_nonneg (Real.sqrt_nonneg _) _) (Real.Gamma_pos_of_pos (by positivity)).le

end Verif.Bound
