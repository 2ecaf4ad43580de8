import Mathlib.Tactic.IntervalCases
import Mathlib.Tactic.NormNum
import Mathlib.Tactic.Push
import Verif.Model.Bound
import Verif.Lemmas.Py

/-! The doubling/bisection search of bound.py, for an arbitrary function. -/

namespace Verif.Bound

/-! ### The binary64 midpoint -/

/-- `x` has at most 53 significant bits. -/
def Rep (x : ℕ) : Prop := 2 ^ (Nat.log2 x - 52) ∣ x

theorem rep_of_lt {x : ℕ} (h : x < 2 ^ 53) : Rep x := by
  unfold Rep
  rcases Nat.eq_zero_or_pos x with rfl | hx
  · exact dvd_zero _
  · have : Nat.log2 x < 53 := (Nat.log2_lt hx.ne').2 h
    have : Nat.log2 x - 52 = 0 := by omega
    rw [this]; simp

theorem log2_two_pow (k : ℕ) : Nat.log2 (2 ^ k) = k := by
  rw [Nat.log2_eq_log_two]; exact Nat.log_pow (by norm_num) k

theorem rep_two_pow (k : ℕ) : Rep (2 ^ k) := by
  unfold Rep
  rw [log2_two_pow]
  exact pow_dvd_pow 2 (by omega)

theorem log2_mono {a b : ℕ} (h : a ≤ b) : Nat.log2 a ≤ Nat.log2 b := by
  rw [Nat.log2_eq_log_two, Nat.log2_eq_log_two]; exact Nat.log_mono_right h

theorem rep_double {x : ℕ} (h : Rep x) : Rep (2 * x) := by
  unfold Rep at *
  rcases Nat.eq_zero_or_pos x with rfl | hx
  · simp
  · have : Nat.log2 (2 * x) = Nat.log2 x + 1 := Nat.log2_two_mul hx.ne'
    rw [this]
    obtain ⟨c, hc⟩ := h
    by_cases h52 : 52 ≤ Nat.log2 x
    · have e : Nat.log2 x + 1 - 52 = (Nat.log2 x - 52) + 1 := by omega
      rw [e, pow_succ]
      refine ⟨c, ?_⟩
      calc 2 * x = 2 * (2 ^ (Nat.log2 x - 52) * c) := by rw [← hc]
        _ = _ := by ring
    · have e : Nat.log2 x + 1 - 52 = 0 := by omega
      rw [e]; simp

/-- Rounding to 53 bits. -/
def round53 (n : ℕ) : ℕ :=
  if n < 2 ^ 53 then n else roundHalfEven n (Nat.log2 n - 52) * 2 ^ (Nat.log2 n - 52)

theorem roundHalfEven_cases (n s : ℕ) :
    roundHalfEven n s = n / 2 ^ s ∨ (roundHalfEven n s = n / 2 ^ s + 1 ∧ 0 < n % 2 ^ s) := by
  unfold roundHalfEven
  have hp : 0 < 2 ^ s := Nat.two_pow_pos s
  simp only
  split
  · left; rfl
  · split
    · right; exact ⟨rfl, by omega⟩
    · split
      · left; rfl
      · right; exact ⟨rfl, by omega⟩

theorem rep_le_round53 {x n : ℕ} (hx : Rep x) (h : x ≤ n) : x ≤ round53 n := by
  unfold round53
  split
  · exact h
  · next hn =>
    have hn : 2 ^ 53 ≤ n := not_lt.mp hn
    have hn0 : n ≠ 0 := by have : 0 < 2 ^ 53 := by norm_num
                           omega
    set s := Nat.log2 n - 52 with hs
    have hlog : 53 ≤ Nat.log2 n := (Nat.le_log2 hn0).2 hn
    have hfloor : n / 2 ^ s * 2 ^ s ≤ roundHalfEven n s * 2 ^ s := by
      rcases roundHalfEven_cases n s with e | ⟨e, _⟩ <;> rw [e]
      exact Nat.mul_le_mul_right _ (Nat.le_succ _)
    refine le_trans ?_ hfloor
    rcases Nat.lt_or_ge x (2 ^ Nat.log2 n) with hlt | hge
    · refine le_trans hlt.le ?_
      have hdvd : 2 ^ s ∣ 2 ^ Nat.log2 n := pow_dvd_pow 2 (by omega)
      obtain ⟨c, hc⟩ := hdvd
      have hle : 2 ^ Nat.log2 n ≤ n := Nat.log2_self_le hn0
      rw [hc] at hle ⊢
      have : c ≤ n / 2 ^ s := (Nat.le_div_iff_mul_le (Nat.two_pow_pos s)).2 (by rw [mul_comm]; exact hle)
      rw [mul_comm]; exact Nat.mul_le_mul_right _ this
    · have hx0 : x ≠ 0 := by have := Nat.two_pow_pos (Nat.log2 n); omega
      have hl1 : Nat.log2 n ≤ Nat.log2 x := (Nat.le_log2 hx0).2 hge
      have hl2 := log2_mono h
      have hl : Nat.log2 x = Nat.log2 n := le_antisymm hl2 hl1
      unfold Rep at hx
      rw [hl, ← hs] at hx
      obtain ⟨c, hc⟩ := hx
      have hle : c ≤ n / 2 ^ s := (Nat.le_div_iff_mul_le (Nat.two_pow_pos s)).2 (by rw [mul_comm, ← hc]; exact h)
      rw [hc, mul_comm]; exact Nat.mul_le_mul_right _ hle

theorem round53_le_rep {x n : ℕ} (hx : Rep x) (h : n ≤ x) : round53 n ≤ x := by
  unfold round53
  split
  · exact h
  · next hn =>
    have hn : 2 ^ 53 ≤ n := not_lt.mp hn
    have hn0 : n ≠ 0 := by have : 0 < 2 ^ 53 := by norm_num
                           omega
    set s := Nat.log2 n - 52 with hs
    have hl := log2_mono h
    have hdvd : 2 ^ s ∣ x := dvd_trans (pow_dvd_pow 2 (by omega)) hx
    obtain ⟨c, hc⟩ := hdvd
    have hpos := Nat.two_pow_pos s
    have hdm := Nat.div_add_mod n (2 ^ s)
    rcases roundHalfEven_cases n s with e | ⟨e, hr⟩ <;> rw [e]
    · rw [mul_comm]; omega
    · have : n / 2 ^ s < c := by
        by_contra hcon
        have hcon : c ≤ n / 2 ^ s := not_lt.mp hcon
        have : 2 ^ s * c ≤ 2 ^ s * (n / 2 ^ s) := Nat.mul_le_mul_left _ hcon
        omega
      rw [hc, mul_comm]; exact Nat.mul_le_mul_left _ this

theorem pyHalf_eq (n : ℕ) : pyHalf n = round53 n / 2 := by
  unfold pyHalf round53
  split <;> rfl

theorem le_pyHalf {lb n : ℕ} (hl : Rep lb) (h : 2 * lb ≤ n) : lb ≤ pyHalf n := by
  rw [pyHalf_eq]
  have := rep_le_round53 (rep_double hl) h
  omega

theorem pyHalf_le {ub n : ℕ} (hu : Rep ub) (h : n ≤ 2 * ub) : pyHalf n ≤ ub := by
  rw [pyHalf_eq]
  have := round53_le_rep (rep_double hu) h
  omega

/-- For `q` of exactly `k+1` bits, scaled values have the expected number of bits. -/
theorem rep_mul_pow {q s : ℕ} (hq : q < 2 ^ 53) : Rep (q * 2 ^ s) := by
  unfold Rep
  rcases Nat.eq_zero_or_pos q with rfl | hq0
  · simp
  · have hne : q * 2 ^ s ≠ 0 := Nat.mul_ne_zero hq0.ne' (Nat.two_pow_pos s).ne'
    have : Nat.log2 (q * 2 ^ s) < 53 + s := by
      rw [Nat.log2_lt hne, pow_add]
      exact Nat.mul_lt_mul_of_pos_right hq (Nat.two_pow_pos s)
    exact dvd_trans (pow_dvd_pow 2 (by omega)) (dvd_mul_left _ _)

theorem rep_pyHalf (n : ℕ) : Rep (pyHalf n) := by
  unfold pyHalf
  split
  · next h => exact rep_of_lt (by omega)
  · next hn =>
    have hn : 2 ^ 53 ≤ n := not_lt.mp hn
    have hn0 : n ≠ 0 := by have : 0 < 2 ^ 53 := by norm_num
                           omega
    have hlog : 53 ≤ Nat.log2 n := (Nat.le_log2 hn0).2 hn
    obtain ⟨s, hs⟩ : ∃ s, Nat.log2 n - 52 = s + 1 := ⟨Nat.log2 n - 53, by omega⟩
    simp only [hs]
    have e : roundHalfEven n (s + 1) * 2 ^ (s + 1) / 2 = roundHalfEven n (s + 1) * 2 ^ s := by
      rw [pow_succ, ← mul_assoc, Nat.mul_div_cancel _ (by norm_num)]
    rw [e]
    have hlt : n < 2 ^ (Nat.log2 n + 1) := Nat.lt_log2_self
    have hq : n / 2 ^ (s + 1) < 2 ^ 53 := by
      rw [Nat.div_lt_iff_lt_mul (Nat.two_pow_pos _), ← pow_add]
      have : 53 + (s + 1) = Nat.log2 n + 1 := by omega
      rw [this]; exact hlt
    rcases roundHalfEven_cases n (s + 1) with e' | ⟨e', _⟩ <;> rw [e']
    · exact rep_mul_pow hq
    · rcases Nat.lt_or_ge (n / 2 ^ (s + 1) + 1) (2 ^ 53) with h1 | h1
      · exact rep_mul_pow h1
      · have : n / 2 ^ (s + 1) + 1 = 2 ^ 53 := by omega
        rw [this, ← pow_add]
        exact rep_two_pow _

/-- Below `2^53` the midpoint is strictly between its arguments. -/
theorem pyHalf_strict {lb ub : ℕ} (h : lb + 2 ≤ ub) (hub : ub ≤ 2 ^ 53) :
    lb < pyHalf (lb + ub) ∧ pyHalf (lb + ub) < ub := by
  unfold pyHalf
  split
  · omega
  · next hn =>
    have hn : 2 ^ 53 ≤ lb + ub := not_lt.mp hn
    have hn0 : lb + ub ≠ 0 := by omega
    have h1 : 53 ≤ Nat.log2 (lb + ub) := (Nat.le_log2 hn0).2 hn
    have h2 : Nat.log2 (lb + ub) < 54 := (Nat.log2_lt hn0).2 (by norm_num at *; omega)
    have hs : Nat.log2 (lb + ub) - 52 = 1 := by omega
    simp only [hs]
    unfold roundHalfEven
    simp only [pow_one]
    rcases Nat.mod_two_eq_zero_or_one (lb + ub) with hr | hr
    · simp [hr]; omega
    · simp only [hr]
      norm_num
      split <;> omega

/-! ### The two loops -/

section

variable {α : Type*} [LinearOrder α] (f : ℕ → α) (L : α)

/-- The break condition of the doubling loop, which is also what the bisection tests. -/
def Good (m : ℕ) : Prop := f m ≤ L ∧ f (m + 1) ≤ f m

theorem doublingBody_good {ub : ℕ} (h : Good f L ub) : doublingBody f L ub = .done (.ok ub) := by
  unfold doublingBody
  have h' : f ub ≤ L ∧ f (ub + 1) ≤ f ub := h
  simp [h']

theorem doublingBody_bad {ub : ℕ} (h : ¬ Good f L ub) :
    doublingBody f L ub = if 10 ^ 300 < ub * 2 then .done (.error .overflow) else .next (ub * 2) := by
  unfold doublingBody
  have h' : ¬ (f ub ≤ L ∧ f (ub + 1) ≤ f ub) := h
  simp only [h', if_false]

theorem two_le_big : 2 ^ (0 + 1) ≤ 10 ^ 300 :=
  le_trans (by norm_num : 2 ^ (0 + 1) ≤ 10 ^ 1) (Nat.pow_le_pow_right (by norm_num) (by norm_num))

/-- Outcome of the doubling loop. -/
def DoublingPost (b : Except PyErr ℕ) : Prop :=
  (∃ k, b = .ok (2 ^ (k + 1)) ∧ Good f L (2 ^ (k + 1)) ∧ (∀ j < k, ¬ Good f L (2 ^ (j + 1))) ∧
      2 ^ (k + 1) ≤ 10 ^ 300) ∨
    (b = .error .overflow ∧ ∀ j, 2 ^ (j + 1) ≤ 10 ^ 300 → ¬ Good f L (2 ^ (j + 1)))

theorem doubling_stops : ∃ b, LoopStops (doublingBody f L) 2 b ∧ DoublingPost f L b := by
  refine LoopStops.of_measure
    (fun ub => ∃ k, ub = 2 ^ (k + 1) ∧ 2 ^ (k + 1) ≤ 10 ^ 300 ∧ ∀ j < k, ¬ Good f L (2 ^ (j + 1)))
    (DoublingPost f L) (fun ub => 10 ^ 300 - ub) ?_ ⟨0, by norm_num, two_le_big, by omega⟩
  rintro ub ⟨k, rfl, hle, hbad⟩
  by_cases hg : Good f L (2 ^ (k + 1))
  · exact Or.inl ⟨_, doublingBody_good f L hg, Or.inl ⟨k, rfl, hg, hbad, hle⟩⟩
  · have hbad' : ∀ j < k + 1, ¬ Good f L (2 ^ (j + 1)) := by
      intro j hj
      rcases Nat.lt_succ_iff_lt_or_eq.mp hj with h | rfl
      · exact hbad j h
      · exact hg
    rw [doublingBody_bad f L hg]
    have e : 2 ^ (k + 1) * 2 = 2 ^ (k + 1 + 1) := (pow_succ 2 (k + 1)).symm
    rw [e]
    split
    · next hgt =>
      refine Or.inl ⟨_, rfl, Or.inr ⟨rfl, fun j hj => ?_⟩⟩
      apply hbad' j
      by_contra hcon
      have : 2 ^ (k + 1 + 1) ≤ 2 ^ (j + 1) := Nat.pow_le_pow_right (by norm_num) (by omega)
      omega
    · next hgt =>
      refine Or.inr ⟨_, rfl, ⟨k + 1, rfl, not_lt.mp hgt, hbad'⟩, ?_⟩
      have hpos := Nat.two_pow_pos (k + 1)
      have : 2 ^ (k + 1 + 1) = 2 ^ (k + 1) * 2 := pow_succ 2 (k + 1)
      omega

theorem doubling_post {b : Except PyErr ℕ} (h : LoopStops (doublingBody f L) 2 b) : DoublingPost f L b := by
  obtain ⟨c, hc, hp⟩ := doubling_stops f L
  rw [h.unique hc]; exact hp

/-- Invariant of the bisection loop. -/
def BisectInv (s : ℕ × ℕ) : Prop :=
  1 ≤ s.1 ∧ s.1 < s.2 ∧ Rep s.1 ∧ Rep s.2 ∧ (s.1 = 1 ∨ ¬ Good f L s.1) ∧ Good f L s.2

/-- Outcome of the bisection loop. -/
def BisectPost (b : Except PyErr ℕ) : Prop :=
  ∃ n, b = .ok n ∧ 2 ≤ n ∧ Good f L n ∧ (n = 2 ∨ ¬ Good f L (n - 1))

theorem bisectBody_mid {lb ub : ℕ} (h1 : ub ≠ lb + 1) (h2 : lb < ub) :
    (Good f L (pyHalf (lb + ub)) ∧ bisectBody f L (lb, ub) = .next (lb, pyHalf (lb + ub))) ∨
      (¬ Good f L (pyHalf (lb + ub)) ∧ bisectBody f L (lb, ub) = .next (pyHalf (lb + ub), ub)) := by
  unfold bisectBody Good
  simp only [h1, if_false, not_le.mpr h2]
  by_cases hg : f (pyHalf (lb + ub)) ≤ L ∧ f (pyHalf (lb + ub) + 1) ≤ f (pyHalf (lb + ub))
  · left
    refine ⟨hg, ?_⟩
    rw [if_neg]
    rw [not_or, not_lt, not_lt]; exact hg
  · right
    refine ⟨hg, ?_⟩
    rw [if_pos]
    by_contra hcon
    rw [not_or, not_lt, not_lt] at hcon
    exact hg hcon

theorem bisectBody_done {lb ub : ℕ} (h1 : ub = lb + 1) : bisectBody f L (lb, ub) = .done (.ok ub) := by
  unfold bisectBody; simp [h1]

theorem bisectInv_step {s : ℕ × ℕ} (hs : BisectInv f L s) :
    (∃ b, bisectBody f L s = .done b ∧ BisectPost f L b) ∨
      (∃ s', bisectBody f L s = .next s' ∧ BisectInv f L s' ∧
        ((s' = (s.1, pyHalf (s.1 + s.2)) ∨ s' = (pyHalf (s.1 + s.2), s.2)) ∧ s.1 + 2 ≤ s.2)) := by
  obtain ⟨lb, ub⟩ := s
  obtain ⟨h1, hlt, hrl, hru, hbad, hgood⟩ := hs
  dsimp only at h1 hlt hrl hru hbad hgood ⊢
  by_cases hd : ub = lb + 1
  · left
    refine ⟨_, bisectBody_done f L hd, ub, rfl, by omega, hgood, ?_⟩
    rcases hbad with rfl | hbad
    · left; omega
    · right; rw [hd, Nat.add_sub_cancel]; exact hbad
  · right
    have hle : lb ≤ pyHalf (lb + ub) := le_pyHalf hrl (by omega)
    have hge : pyHalf (lb + ub) ≤ ub := pyHalf_le hru (by omega)
    rcases bisectBody_mid f L hd hlt with ⟨hg, he⟩ | ⟨hg, he⟩
    · refine ⟨_, he, ⟨h1, ?_, hrl, rep_pyHalf _, hbad, hg⟩, Or.inl rfl, by omega⟩
      dsimp only
      rcases Nat.lt_or_ge lb (pyHalf (lb + ub)) with h | h
      · exact h
      · exfalso
        have heq : pyHalf (lb + ub) = lb := le_antisymm h hle
        rcases hbad with h11 | hbad
        · -- the midpoint of (1, ub) is above 1
          subst h11
          have : 2 ≤ pyHalf (1 + ub) := le_pyHalf (rep_of_lt (by norm_num)) (by omega)
          omega
        · exact hbad (heq ▸ hg)
    · refine ⟨_, he, ⟨le_trans h1 hle, ?_, rep_pyHalf _, hru, Or.inr hg, hgood⟩, Or.inr rfl, by omega⟩
      dsimp only
      rcases Nat.lt_or_ge (pyHalf (lb + ub)) ub with h | h
      · exact h
      · exfalso
        have heq : pyHalf (lb + ub) = ub := le_antisymm hge h
        exact hg (by rw [heq]; exact hgood)

theorem bisect_post {ub : ℕ} (hu : 2 ≤ ub) (hr : Rep ub) (hg : Good f L ub) {b : Except PyErr ℕ}
    (h : LoopStops (bisectBody f L) (1, ub) b) : BisectPost f L b := by
  refine LoopStops.post (BisectInv f L) (BisectPost f L) ?_ ?_
    (s := (1, ub)) ⟨le_refl _, Nat.lt_of_lt_of_le Nat.one_lt_two hu, rep_of_lt (by norm_num), hr, Or.inl rfl, hg⟩ h
  · intro s b hs hb
    rcases bisectInv_step f L hs with ⟨b', hb', hp⟩ | ⟨s', hs', _⟩
    · rw [hb] at hb'; cases hb'; exact hp
    · rw [hb] at hs'; cases hs'
  · intro s s' hs hn
    rcases bisectInv_step f L hs with ⟨b', hb', hp⟩ | ⟨s'', hs', hi, _⟩
    · rw [hn] at hb'; cases hb'
    · rw [hn] at hs'; cases hs'; exact hi

theorem bisect_stops {ub : ℕ} (hu : 2 ≤ ub) (hub : ub ≤ 2 ^ 53) (hg : Good f L ub) :
    ∃ b, LoopStops (bisectBody f L) (1, ub) b ∧ BisectPost f L b := by
  have hr : Rep ub := by
    rcases Nat.lt_or_ge ub (2 ^ 53) with h | h
    · exact rep_of_lt h
    · rw [le_antisymm hub h]; exact rep_two_pow 53
  refine LoopStops.of_measure (fun s => BisectInv f L s ∧ s.2 ≤ 2 ^ 53) (BisectPost f L) (fun s => s.2 - s.1) ?_
    (s := (1, ub)) ⟨⟨le_refl _, Nat.lt_of_lt_of_le Nat.one_lt_two hu, rep_of_lt (by norm_num), hr, Or.inl rfl, hg⟩, hub⟩
  rintro s ⟨hs, hle⟩
  rcases bisectInv_step f L hs with h | ⟨s', hs', hi, hcase, hgap⟩
  · exact Or.inl h
  · obtain ⟨ha, hb⟩ := pyHalf_strict hgap hle
    refine Or.inr ⟨s', hs', ⟨hi, ?_⟩, ?_⟩
    · rcases hcase with rfl | rfl <;> simp only <;> omega
    · rcases hcase with rfl | rfl <;> simp only <;> omega

/-! ### The whole search -/

theorem search_some {fuel : ℕ} {b : Except PyErr ℕ} (h : doublingSampleSearch f L fuel = some b) :
    (LoopStops (doublingBody f L) 2 b ∧ b = .error .overflow) ∨
      ∃ ub, LoopStops (doublingBody f L) 2 (.ok ub) ∧ LoopStops (bisectBody f L) (1, ub) b := by
  unfold doublingSampleSearch at h
  split at h
  · cases h
  · next e heq =>
    cases h
    left
    have hs : LoopStops (doublingBody f L) 2 (.error e) := ⟨fuel, heq⟩
    refine ⟨hs, ?_⟩
    rcases doubling_post f L hs with ⟨k, hk, _⟩ | ⟨hk, _⟩
    · cases hk
    · exact hk
  · next ub heq => exact Or.inr ⟨ub, ⟨fuel, heq⟩, ⟨fuel, h⟩⟩

theorem search_of_stops {ub : ℕ} {b : Except PyErr ℕ} (h1 : LoopStops (doublingBody f L) 2 (.ok ub))
    (h2 : LoopStops (bisectBody f L) (1, ub) b) : ∃ fuel, doublingSampleSearch f L fuel = some b := by
  obtain ⟨n, hn⟩ := h1
  obtain ⟨m, hm⟩ := h2
  refine ⟨n + m, ?_⟩
  unfold doublingSampleSearch
  rw [loop_mono hn m]
  simp only
  rw [Nat.add_comm]
  exact loop_mono hm n

theorem search_of_overflow (h1 : LoopStops (doublingBody f L) 2 (.error .overflow)) :
    ∃ fuel, doublingSampleSearch f L fuel = some (.error .overflow) := by
  obtain ⟨n, hn⟩ := h1
  exact ⟨n, by unfold doublingSampleSearch; rw [hn]⟩

/-- Partial correctness of the search: a returned count is good, its predecessor is not (or is 1), and the only error is
the overflow report, raised if no power of two up to `10^300` is good. -/
theorem search_post {fuel : ℕ} {b : Except PyErr ℕ} (h : doublingSampleSearch f L fuel = some b) :
    BisectPost f L b ∨ (b = .error .overflow ∧ ∀ j, 2 ^ (j + 1) ≤ 10 ^ 300 → ¬ Good f L (2 ^ (j + 1))) := by
  rcases search_some f L h with ⟨hs, he⟩ | ⟨ub, hd, hb⟩
  · right
    rcases doubling_post f L hs with ⟨k, hk, _⟩ | hk
    · rw [he] at hk; cases hk
    · exact hk
  · left
    rcases doubling_post f L hd with ⟨k, hk, hg, _⟩ | ⟨hk, _⟩
    · cases hk
      exact bisect_post f L (by
        have := Nat.one_le_two_pow (n := k)
        rw [pow_succ]; omega) (rep_two_pow _) hg hb
    · cases hk

end

end Verif.Bound
