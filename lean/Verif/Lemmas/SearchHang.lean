import Verif.Lemmas.NumericalBound

/-! The bisection of bound.py gets stuck when the threshold is an odd number above `2^53`. -/

namespace Verif.Bound

theorem pyHalf_first : pyHalf (1 + 2 ^ 54) = 2 ^ 53 := by decide

theorem pyHalf_chain : ∀ j : Fin 52, pyHalf (2 ^ 53 + (2 ^ 53 + 2 ^ (j.val + 2))) = 2 ^ 53 + 2 ^ (j.val + 1) := by
  decide

theorem pyHalf_stuck : pyHalf (2 ^ 53 + (2 ^ 53 + 2)) = 2 ^ 53 := by decide

section

variable {α : Type*} [LinearOrder α] {f : ℕ → α} {L : α}

theorem bisect_diverges (h : ∀ m, 1 ≤ m → (Good f L m ↔ 2 ^ 53 + 1 ≤ m)) :
    LoopDiverges (bisectBody f L) (1, 2 ^ 54) := by
  have hbad : ¬ Good f L (2 ^ 53) := by
    rw [h _ (by norm_num)]; norm_num
  have stuck : LoopDiverges (bisectBody f L) (2 ^ 53, 2 ^ 53 + 2) := by
    apply LoopDiverges.of_fixed
    rcases bisectBody_mid f L (lb := 2 ^ 53) (ub := 2 ^ 53 + 2) (by norm_num) (by norm_num) with ⟨hg, _⟩ | ⟨_, he⟩
    · rw [pyHalf_stuck] at hg; exact absurd hg hbad
    · rw [he, pyHalf_stuck]
  have chain : ∀ j, j ≤ 52 → LoopDiverges (bisectBody f L) (2 ^ 53, 2 ^ 53 + 2 ^ (j + 1)) := by
    intro j
    induction j with
    | zero => intro _; simpa using stuck
    | succ j ih =>
      intro hj
      have hm := pyHalf_chain ⟨j, by omega⟩
      simp only at hm
      have hpos : 2 ≤ 2 ^ (j + 1) := by
        have := Nat.one_le_two_pow (n := j)
        rw [pow_succ]; omega
      rcases bisectBody_mid f L (lb := 2 ^ 53) (ub := 2 ^ 53 + 2 ^ (j + 1 + 1))
        (by have : 2 ^ (j + 1 + 1) = 2 ^ (j + 1) * 2 := pow_succ 2 (j + 1)
            omega) (by omega) with ⟨_, he⟩ | ⟨hg, _⟩
      · rw [hm] at he
        exact LoopDiverges.of_next he (ih (by omega))
      · rw [hm] at hg
        exact absurd ((h _ (by omega)).2 (by omega)) hg
  rcases bisectBody_mid f L (lb := 1) (ub := 2 ^ 54) (by norm_num) (by norm_num) with ⟨hg, _⟩ | ⟨_, he⟩
  · rw [pyHalf_first] at hg; exact absurd hg hbad
  · rw [pyHalf_first] at he
    refine LoopDiverges.of_next he ?_
    have := chain 52 (le_refl _)
    have e : 2 ^ 53 + 2 ^ (52 + 1) = 2 ^ 54 := by norm_num
    rw [e] at this
    exact this

theorem search_diverges (h : ∀ m, 1 ≤ m → (Good f L m ↔ 2 ^ 53 + 1 ≤ m)) (fuel : ℕ) :
    doublingSampleSearch f L fuel = none := by
  have hb := bisect_diverges h
  unfold doublingSampleSearch
  split
  · rfl
  · next e heq =>
    exfalso
    rcases doubling_post f L ⟨fuel, heq⟩ with ⟨k, hk, _⟩ | ⟨_, hno⟩
    · cases hk
    · refine hno 53 ?_ ((h _ Nat.one_le_two_pow).2 (by norm_num))
      calc (2 : ℕ) ^ (53 + 1) ≤ 10 ^ 54 := Nat.pow_le_pow_left (by norm_num) _
        _ ≤ 10 ^ 300 := Nat.pow_le_pow_right (by norm_num) (by norm_num)
  · next ub heq =>
    rcases doubling_post f L ⟨fuel, heq⟩ with ⟨k, hk, hg, hbad, _⟩ | ⟨hk, _⟩
    · cases hk
      have hge : 53 ≤ k := by
        by_contra hcon
        have := (h _ Nat.one_le_two_pow).1 hg
        have h2 : 2 ^ (k + 1) ≤ 2 ^ 53 := Nat.pow_le_pow_right (by norm_num) (by omega)
        omega
      have hle : k ≤ 53 := by
        by_contra hcon
        exact hbad 53 (by omega) ((h _ Nat.one_le_two_pow).2 (by norm_num))
      have : k = 53 := le_antisymm hle hge
      subst this
      exact hb fuel
    · cases hk

end

/-- For every target and every `T ≥ 1` there is a ball measure for which `T` is the exact threshold. -/
theorem exists_rho (vc : ℕ) {L : ℝ} (hL : L < 1) {T : ℕ} (hT : 1 ≤ T) :
    ∃ ρ : ℝ, 0 < ρ ∧ ∀ m, sauerShelahLog2 m ρ vc ≤ L ↔ T ≤ m := by
  have hT0 : (0 : ℝ) < T := by exact_mod_cast hT
  have hlog : 0 ≤ logRow vc (2 * T) := by
    unfold logRow
    apply Real.logb_nonneg (by norm_num)
    exact_mod_cast partialRow_pos vc (2 * T)
  refine ⟨2 * (logRow vc (2 * T) + 1 - L) / T, by apply div_pos <;> linarith, ?_⟩
  set ρ : ℝ := 2 * (logRow vc (2 * T) + 1 - L) / T with hρ
  have hfT : sauerShelahLog2 T ρ vc = L := by
    rw [sauerShelah_eq, hρ]; field_simp; ring
  have hlt : sauerShelahLog2 T ρ vc < sauerShelahLog2 0 ρ vc := by
    rw [sauerShelah_zero, hfT]; exact hL
  have hdec := concave_decreasing (f := fun m => sauerShelahLog2 m ρ vc) (sauerShelah_concave ρ vc) hlt
  intro m
  constructor
  · intro hm
    by_contra hcon
    have hcon : m + 1 ≤ T := by omega
    have hup := sauerShelah_upward ρ vc hL (show m ≤ T - 1 by omega) hm
    have := hdec (T - 1) (by omega)
    rw [Nat.sub_add_cancel hT, hfT] at this
    linarith
  · intro hm
    exact sauerShelah_upward ρ vc hL hm hfT.le

/-- Every positive ball measure is that of some clearance. -/
theorem exists_clearance {dim : ℕ} (hd : 1 ≤ dim) {vol ρ : ℝ} (hv : 0 < vol) (hρ : 0 < ρ) :
    ∃ δ : ℝ, 0 < δ ∧ rho δ none dim vol = ρ := by
  have hs := volUnitSphere_pos dim
  refine ⟨(ρ * vol / volUnitSphere dim) ^ (1 / (dim : ℝ)), Real.rpow_pos_of_pos (by positivity) _, ?_⟩
  unfold rho epsilonNetRadius alpha
  simp only [one_mul]
  rw [← Real.rpow_natCast, ← Real.rpow_mul (by positivity)]
  have : (1 / (dim : ℝ)) * dim = 1 := by
    have : (dim : ℝ) ≠ 0 := by positivity
    field_simp
  rw [this, Real.rpow_one]
  field_simp

/-! ### What is returned is at most `2^53` -/

/-- Above `2^53` no two consecutive numbers have 53 significant bits. -/
theorem rep_consecutive {n : ℕ} (h1 : Rep n) (h2 : Rep (n + 1)) : n + 1 ≤ 2 ^ 53 := by
  by_contra hcon
  have hn : 2 ^ 53 ≤ n := by omega
  have even : ∀ x, 2 ^ 53 ≤ x → Rep x → 2 ∣ x := by
    intro x hx hr
    have hx0 : x ≠ 0 := by have : 0 < 2 ^ 53 := by norm_num
                           omega
    have hlog : 53 ≤ Nat.log2 x := (Nat.le_log2 hx0).2 hx
    exact dvd_trans (dvd_pow_self 2 (by omega)) hr
  have a := even n hn h1
  have b := even (n + 1) (by omega) h2
  omega

section

variable {α : Type*} [LinearOrder α] {f : ℕ → α} {L : α}

theorem bisect_small {ub : ℕ} (hu : 2 ≤ ub) (hr : Rep ub) (hg : Good f L ub) {n : ℕ}
    (h : LoopStops (bisectBody f L) (1, ub) (.ok n)) : n ≤ 2 ^ 53 := by
  have key : ∀ b, LoopStops (bisectBody f L) (1, ub) b → ∀ n, b = .ok n → n ≤ 2 ^ 53 := by
    intro b hb
    refine LoopStops.post (BisectInv f L) (fun b => ∀ n, b = .ok n → n ≤ 2 ^ 53) ?_ ?_
      (s := (1, ub)) ⟨le_refl _, Nat.lt_of_lt_of_le Nat.one_lt_two hu, rep_of_lt (by norm_num), hr, Or.inl rfl, hg⟩ hb
    · intro s b hs hb n hn
      obtain ⟨lb, ub⟩ := s
      by_cases hd : ub = lb + 1
      · rw [bisectBody_done f L hd] at hb
        cases hb; cases hn
        subst hd
        exact rep_consecutive hs.2.2.1 hs.2.2.2.1
      · rcases bisectBody_mid f L hd hs.2.1 with ⟨_, he⟩ | ⟨_, he⟩ <;> rw [hb] at he <;> cases he
    · intro s s' hs hn
      rcases bisectInv_step f L hs with ⟨b', hb', _⟩ | ⟨s'', hs', hi, _⟩
      · rw [hn] at hb'; cases hb'
      · rw [hn] at hs'; cases hs'; exact hi
  exact key _ h n rfl

/-- The search never returns a count above `2^53`. -/
theorem search_small {fuel n : ℕ} (h : doublingSampleSearch f L fuel = some (.ok n)) : n ≤ 2 ^ 53 := by
  rcases search_some f L h with ⟨_, he⟩ | ⟨ub, hd, hb⟩
  · cases he
  · rcases doubling_post f L hd with ⟨k, hk, hg, _⟩ | ⟨hk, _⟩
    · cases hk
      exact bisect_small (by have := Nat.one_le_two_pow (n := k); rw [pow_succ]; omega) (rep_two_pow _) hg hb
    · cases hk

end

set_option exponentiation.threshold 1000 in
/-- `2^996` is the largest power of two up to `10^300`. -/
theorem pow_le_big {j : ℕ} : 2 ^ j ≤ 10 ^ 300 ↔ j ≤ 996 := by
  constructor
  · intro h
    by_contra hcon
    have h1 : 2 ^ 997 ≤ 2 ^ j := Nat.pow_le_pow_right (by norm_num) (by omega)
    have h2 : (10 : ℕ) ^ 300 < 2 ^ 997 := by norm_num
    omega
  · intro h
    exact (Nat.pow_le_pow_right (by norm_num) h).trans (by norm_num)

end Verif.Bound
