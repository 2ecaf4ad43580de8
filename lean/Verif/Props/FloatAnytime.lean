import Verif.Props.AnytimeGuarantee
import Verif.Lemmas.FloatUniform
import Verif.Props.FloatSearch

/-! The anytime planning loop with rounded sample counts: C130. -/

namespace Verif.Props

open MeasureTheory ProbabilityTheory Verif.Spec Verif.Prm Verif.Bound Verif.Net Verif.Anytime Verif.Float64

section Counts

theorem nat_isFloat {n : ℕ} (h : n ≤ 2 ^ 53) : IsFloat (n : ℝ) := by
  have := mul_isFloat (n := (n : ℤ)) (e := 0) (by rw [abs_of_nonneg (by positivity)]; exact_mod_cast h) (by norm_num)
  simpa using this

/-- The unrounded product of two steps of the loop is never below the count plus one, so neither is the rounded one. -/
theorem scaleR_grow {minS maxS : ℕ} (hm : maxS < 2 ^ 53) {factor : ℝ} (hf : 1 ≤ (minS : ℝ) * (factor - 1)) (h2 : 1 ≤ minS) (hle : minS ≤ maxS) (i : ℕ) :
    (minS : ℝ) ≤ (scaleR factor)^[i] minS ∧ (scaleR factor)^[i] (minS : ℝ) ≤ (scaleR factor)^[i + 1] minS ∧
      ((scaleR factor)^[i] minS < maxS + 1 → ⌊(scaleR factor)^[i] (minS : ℝ)⌋₊ < ⌊(scaleR factor)^[i + 1] (minS : ℝ)⌋₊) := by
  have hm1 : (1 : ℝ) ≤ minS := by exact_mod_cast h2
  have hfac : 1 ≤ factor := by
    by_contra hcon
    push Not at hcon
    have : (minS : ℝ) * (factor - 1) ≤ 0 := mul_nonpos_of_nonneg_of_nonpos (by linarith) (by linarith)
    linarith
  have hF : IsFloat (minS : ℝ) := nat_isFloat (by omega)
  have step : ∀ x : ℝ, (minS : ℝ) ≤ x → x + 1 ≤ x * factor := by
    intro x hx
    have : (minS : ℝ) * (factor - 1) ≤ x * (factor - 1) := mul_le_mul_of_nonneg_right hx (by linarith)
    linarith
  have base : (minS : ℝ) ≤ (scaleR factor)^[i] minS ∧ IsFloat ((scaleR factor)^[i] minS) := by
    induction i with
    | zero => exact ⟨le_rfl, hF⟩
    | succ i ih =>
      rw [Function.iterate_succ_apply']
      have := step _ ih.1
      exact ⟨le_fl hF (by linarith [ih.1]) (by linarith [ih.1]), fl_isFloat (by linarith [ih.1])⟩
  rw [Function.iterate_succ_apply']
  refine ⟨base.1, le_fl base.2 (by linarith [base.1, step _ base.1]) (by linarith [step _ base.1]), fun hlt => ?_⟩
  generalize (scaleR factor)^[i] (minS : ℝ) = x at base hlt
  have hx0 : 0 ≤ x := by linarith [base.1]
  have h1 := step x base.1
  have h3 : ⌊x⌋₊ ≤ maxS := floor_le_max hlt
  have h4 : (⌊x⌋₊ : ℝ) ≤ x := Nat.floor_le hx0
  refine Nat.lt_of_succ_le (Nat.le_floor ?_)
  refine le_fl (nat_isFloat (by omega)) (by linarith) ?_
  push_cast
  linarith

/-- The rounded counts stay within one step of the unrounded ones with the same number of products: relative error of two roundings for each product. -/
theorem scaleR_near {minS : ℕ} (h2 : 1 ≤ minS) {factor : ℝ} (hf : 1 ≤ factor) (i : ℕ) :
    (minS : ℝ) * factor ^ i * (1 - eps) ^ (2 * i) ≤ (scaleR (fl factor))^[i] minS ∧
      (scaleR (fl factor))^[i] minS * (1 - eps) ^ (2 * i) ≤ (minS : ℝ) * factor ^ i ∧ (1 : ℝ) ≤ (scaleR (fl factor))^[i] minS := by
  have he0 := eps_pos
  have he1 := eps_le
  have hone : IsFloat (1 : ℝ) := by simpa using nat_isFloat (n := 1) (by norm_num)
  have hm1 : (1 : ℝ) ≤ minS := by exact_mod_cast h2
  have h1000 : (2 : ℝ) ^ (-1000 : ℤ) ≤ 1 := zpow_le_one_of_nonpos₀ (by norm_num) (by norm_num)
  have rel : ∀ x : ℝ, 1 ≤ x → x * (1 - eps) ≤ fl x ∧ fl x * (1 - eps) ≤ x ∧ 1 ≤ fl x := by
    intro x hx
    have h := fl_rel_pos (x := x) (by linarith) (Or.inr (h1000.trans hx))
    refine ⟨by linarith [h.1], ?_, le_fl hone (by linarith) hx⟩
    have h3 : fl x * (1 - eps) ≤ (1 + eps) * x * (1 - eps) := mul_le_mul_of_nonneg_right h.2 (by linarith)
    have h4 : (1 + eps) * x * (1 - eps) = x - eps * (eps * x) := by ring
    have h5 : 0 ≤ eps * (eps * x) := by positivity
    linarith
  obtain ⟨g1, g2, g3⟩ := rel factor hf
  induction i with
  | zero => simpa using hm1
  | succ i ih =>
    obtain ⟨ih1, ih2, ih3⟩ := ih
    rw [Function.iterate_succ_apply']
    generalize (scaleR (fl factor))^[i] (minS : ℝ) = x at *
    set q : ℝ := (1 - eps) ^ (2 * i) with hq
    have hq0 : 0 ≤ q := by rw [hq]; exact pow_nonneg (by linarith) _
    have hc0 : 0 ≤ 1 - eps := by linarith
    have hpow : (1 - eps) ^ (2 * (i + 1)) = q * (1 - eps) * (1 - eps) := by rw [hq]; ring
    have hprod : 1 ≤ x * fl factor := by nlinarith
    obtain ⟨r1, r2, r3⟩ := rel (x * fl factor) hprod
    have hE : 0 ≤ (minS : ℝ) * factor ^ i := by positivity
    refine ⟨?_, ?_, r3⟩
    · rw [hpow, pow_succ]
      calc (minS : ℝ) * (factor ^ i * factor) * (q * (1 - eps) * (1 - eps))
          = (minS * factor ^ i * q) * (factor * (1 - eps)) * (1 - eps) := by ring
        _ ≤ x * fl factor * (1 - eps) := by
          apply mul_le_mul_of_nonneg_right _ hc0
          exact mul_le_mul ih1 g1 (by positivity) (by linarith)
        _ ≤ _ := r1
    · rw [hpow, pow_succ]
      calc fl (x * fl factor) * (q * (1 - eps) * (1 - eps)) = fl (x * fl factor) * (1 - eps) * (q * (1 - eps)) := by ring
        _ ≤ x * fl factor * (q * (1 - eps)) := mul_le_mul_of_nonneg_right r2 (by positivity)
        _ = (x * q) * (fl factor * (1 - eps)) := by ring
        _ ≤ (minS * factor ^ i) * factor := mul_le_mul ih2 g2 (by positivity) hE
        _ = _ := by ring

/-- If only few products were made, the counts differ by at most one. -/
theorem scaleR_floor {minS maxS i : ℕ} (h2 : 1 ≤ minS) (hM : maxS + 1 ≤ 2 ^ 25) (hi : i ≤ maxS + 1) {factor : ℝ} (hf : 1 ≤ factor)
    (hlt : (scaleR (fl factor))^[i] (minS : ℝ) < maxS + 1) :
    ⌊(scaleR (fl factor))^[i] (minS : ℝ)⌋₊ ≤ ⌊(minS : ℝ) * factor ^ i⌋₊ + 1 ∧
      ⌊(minS : ℝ) * factor ^ i⌋₊ ≤ ⌊(scaleR (fl factor))^[i] (minS : ℝ)⌋₊ + 1 := by
  obtain ⟨h3, h4, h5⟩ := scaleR_near h2 hf i
  have hE1 : 0 ≤ (minS : ℝ) * factor ^ i := by positivity
  generalize (scaleR (fl factor))^[i] (minS : ℝ) = x at *
  generalize (minS : ℝ) * factor ^ i = y at *
  have he0 := eps_pos
  have he1 := eps_le
  have hb : 1 - 2 * i * eps ≤ (1 - eps) ^ (2 * i) := by
    have := one_add_mul_le_pow (a := -eps) (by linarith) (2 * i)
    push_cast at this
    rw [← sub_eq_add_neg] at this
    linarith
  have he : eps = 1 / 2 ^ 53 := by unfold eps; norm_num
  have hM' : (maxS : ℝ) + 1 ≤ 2 ^ 25 := by exact_mod_cast hM
  have hi' : (i : ℝ) ≤ maxS + 1 := by exact_mod_cast hi
  have hM0 : (0 : ℝ) ≤ (maxS : ℝ) + 1 := by positivity
  have hsq : ((maxS : ℝ) + 1) * (maxS + 1) ≤ 2 ^ 25 * 2 ^ 25 := mul_le_mul hM' hM' hM0 (by positivity)
  have hd : 2 * (i : ℝ) * eps ≤ 1 / 8 ∧ 2 * (i : ℝ) * eps * (maxS + 1) ≤ 1 / 4 := by
    rw [he]
    constructor
    · have : (i : ℝ) ≤ 2 ^ 25 := hi'.trans hM'
      rw [mul_one_div, div_le_iff₀ (by positivity)]
      norm_num at this ⊢
      linarith
    · have : (i : ℝ) * (maxS + 1) ≤ 2 ^ 25 * 2 ^ 25 := (mul_le_mul_of_nonneg_right hi' hM0).trans hsq
      have h9 : 2 * (i : ℝ) * (1 / 2 ^ 53) * (maxS + 1) = i * (maxS + 1) * (2 / 2 ^ 53) := by ring
      rw [h9]
      calc _ ≤ 2 ^ 25 * 2 ^ 25 * (2 / 2 ^ 53 : ℝ) := mul_le_mul_of_nonneg_right this (by positivity)
        _ = 1 / 4 := by norm_num
  generalize hδ : 2 * (i : ℝ) * eps = δ at hb hd
  have hδ0 : 0 ≤ δ := by rw [← hδ]; positivity
  have hxy : x ≤ y + 1 := by
    have h6 : x * (1 - δ) ≤ y := (mul_le_mul_of_nonneg_left hb (by linarith)).trans h4
    have h7 : δ * x ≤ δ * (maxS + 1) := mul_le_mul_of_nonneg_left hlt.le hδ0
    nlinarith [hd.2]
  have hyx : y ≤ x + 1 := by
    have h6 : y * (1 - δ) ≤ x := (mul_le_mul_of_nonneg_left hb hE1).trans h3
    have h7 : y ≤ 2 * (maxS + 1) := by
      have : y * (1 / 2) ≤ y * (1 - δ) := mul_le_mul_of_nonneg_left (by linarith [hd.1]) hE1
      linarith
    have h8 : δ * y ≤ δ * (2 * (maxS + 1)) := mul_le_mul_of_nonneg_left h7 hδ0
    nlinarith [hd.2]
  constructor
  · rw [← Nat.floor_add_one hE1]; exact Nat.floor_mono hxy
  · rw [← Nat.floor_add_one (by linarith)]; exact Nat.floor_mono hyx

end Counts

section Plan

variable {P K F F' : Type*} [LinearOrder K] [AddCommGroup K] [Field F] [LinearOrder F] [FloorSemiring F]
  [Field F'] [LinearOrder F'] [FloorSemiring F']

/-- The call only depends on the counts and on which of them are in the budget. -/
theorem plan_congr (w : World P K) (start goal : P) (minS maxS : ℕ) (scale : F → F) (scale' : F' → F') (k : ℕ) (tr : Bool) (d fuel : ℕ)
    (h : ∀ i, (∀ j < i, scale^[j] (minS : F) < maxS + 1) → (scale^[i] (minS : F) < maxS + 1 ↔ scale'^[i] (minS : F') < maxS + 1) ∧
      ⌊scale^[i] (minS : F)⌋₊ = ⌊scale'^[i] (minS : F')⌋₊) :
    planBy w start goal minS maxS scale k tr d fuel = planBy w start goal minS maxS scale' k tr d fuel := by
  have key : ∀ (fuel i : ℕ) (prm : Knn P K) (path : Option (List P)) (counts : List ℕ), (∀ j < i, scale^[j] (minS : F) < maxS + 1) →
      (loop (bodyBy w start goal maxS scale) fuel ⟨prm, scale^[i] (minS : F), path, counts⟩).map (fun b => (b.1.counts, b.1.path, b.2)) =
        (loop (bodyBy w start goal maxS scale') fuel ⟨prm, scale'^[i] (minS : F'), path, counts⟩).map (fun b => (b.1.counts, b.1.path, b.2)) := by
    intro fuel
    induction fuel with
    | zero => intros; rfl
    | succ fuel ih =>
      intro i prm path counts hj
      obtain ⟨h1, h2⟩ := h i hj
      unfold loop
      by_cases hlt : scale^[i] (minS : F) < maxS + 1
      · have hlt' := h1.1 hlt
        have ih' := ih (i + 1)
        simp only [Function.iterate_succ_apply'] at ih'
        unfold bodyBy
        simp only [hlt, hlt', if_true, ← h2]
        cases hg : (prm.grow w ⌊scale^[i] (minS : F)⌋₊).2 with
        | error e => simp
        | ok u =>
          simp only
          cases hq : ((prm.grow w ⌊scale^[i] (minS : F)⌋₊).1.query w start goal).2 with
          | error e => simp
          | ok r =>
            obtain ⟨c, pts⟩ := r
            simp only
            by_cases hp : 0 < pts.length
            · simp [hp]
            · simp only [hp, if_false]
              refine ih' _ _ _ ?_
              intro j hj'
              rcases Nat.lt_succ_iff_lt_or_eq.1 hj' with hj' | rfl
              · exact hj j hj'
              · exact hlt
      · have hlt' : ¬ scale'^[i] (minS : F') < maxS + 1 := fun hc => hlt (h1.2 hc)
        unfold bodyBy
        simp [hlt, hlt']
  have := key fuel 0 (Knn.init k tr d) none [] (by simp)
  simp only [Function.iterate_zero, id] at this
  unfold planBy
  split_ifs
  · rfl
  · rfl
  · cases ha : loop (bodyBy w start goal maxS scale) fuel ⟨Knn.init k tr d, (minS : F), none, []⟩ with
    | none =>
      cases hb : loop (bodyBy w start goal maxS scale') fuel ⟨Knn.init k tr d, (minS : F'), none, []⟩ with
      | none => rfl
      | some b => rw [ha, hb] at this; simp at this
    | some a =>
      cases hb : loop (bodyBy w start goal maxS scale') fuel ⟨Knn.init k tr d, (minS : F'), none, []⟩ with
      | none => rw [ha, hb] at this; simp at this
      | some b =>
        rw [ha, hb] at this
        simp only [Option.map_some, Option.some.injEq, Prod.mk.injEq] at this
        obtain ⟨⟨_, _, pa, ca⟩, ra⟩ := a
        obtain ⟨⟨_, _, pb, cb⟩, rb⟩ := b
        simp only at this
        obtain ⟨rfl, rfl, rfl⟩ := this
        cases ra <;> rfl

/-- C130. The anytime planning call with a rounded factor `≥ 1` and rounded products. Everything of `C55_anytime_partial` holds for the counts that are really tried: each is the integer part of a
float, the first is `min`, and the float behind a count is the rounded product of the float behind the count before and the rounded factor. With a budget below `2 ^ 25`
every count differs by at most one from `⌊min * factor ^ i⌋`. If `min * (factor - 1) ≥ 1` for the rounded factor, rounding never makes a count repeat, for budgets below `2 ^ 53`. -/
theorem C130_counts {w : World P K} (hw : w.Sound) {start goal : P} (hs : w.check start start = true)
    (hg : w.check goal goal = true) {minS maxS : ℕ} (h1 : 1 ≤ minS) (hM : maxS < 2 ^ 53) {factor : ℝ} (hf : 1 ≤ factor) (k : ℕ) (tr : Bool) (d : ℕ) :
    ∃ fuel counts answer, ∃ num : ℕ → ℝ, planR w start goal minS maxS (fl factor) k tr d fuel = some (counts, answer) ∧
      num 0 = minS ∧ (∀ i, num (i + 1) = fl (num i * fl factor)) ∧
      counts = (List.range counts.length).map (fun i => ⌊num i⌋₊) ∧
      (maxS + 1 ≤ 2 ^ 25 → ∀ i c, counts[i]? = some c → c ≤ ⌊minS * factor ^ i⌋₊ + 1 ∧ ⌊minS * factor ^ i⌋₊ ≤ c + 1) ∧
      (∀ c ∈ counts, c ≤ maxS) ∧
      (counts = [] ↔ maxS < minS) ∧ (maxS < minS → answer = .error .unbound) ∧
      (counts.IsChain (· < ·) ∨ (counts.dropLast.IsChain (· < ·) ∧ answer = .error .arithmetic)) ∧
      (1 ≤ (minS : ℝ) * (fl factor - 1) → counts.IsChain (· < ·)) ∧
      NoPath w k tr d start goal counts.dropLast ∧
      (answer = .ok none → NoPath w k tr d start goal counts ∧ (maxS : ℝ) + 1 ≤ num counts.length) ∧
      (∀ path, answer = .ok (some path) → ∃ pts, path = start :: pts ++ [goal] ∧ pts ≠ [] ∧ path.IsChain w.Accepted) := by
  obtain ⟨fuel, counts, answer, hp, hc, hle, hempty, hunb, hch, hgrow, hno, hrest⟩ := anytime_by hw hs hg minS maxS (scaleR (fl factor)) k tr d
  refine ⟨fuel, counts, answer, fun i => (scaleR (fl factor))^[i] minS, hp, rfl, fun i => Function.iterate_succ_apply' _ _ _, hc, ?_, hle, hempty, hunb, hch, ?_, hno, hrest⟩
  · intro hM2 i c hi
    have hlen : i < counts.length := (List.getElem?_eq_some_iff.1 hi).1
    have hcc := hi
    rw [hc, List.getElem?_map, List.getElem?_range hlen] at hcc
    simp only [Option.map_some, Option.some.injEq] at hcc
    have hlt : (scaleR (fl factor))^[i] (minS : ℝ) < maxS + 1 := by
      have h2 := hle c (List.mem_of_getElem? hi)
      rw [← hcc] at h2
      have h3 := Nat.lt_floor_add_one ((scaleR (fl factor))^[i] (minS : ℝ))
      have h4 : ((⌊(scaleR (fl factor))^[i] (minS : ℝ)⌋₊ : ℕ) : ℝ) ≤ maxS := by exact_mod_cast h2
      linarith
    have hi2 : i ≤ maxS + 1 := by
      have h5 : counts.dropLast.IsChain (· < ·) := by
        rcases hch with h | h
        · exact List.isChain_iff_pairwise.2 ((List.isChain_iff_pairwise.1 h).sublist (List.dropLast_sublist _))
        · exact h.1
      have := length_le_of_chain h5 fun c hc => hle c (List.mem_of_mem_dropLast hc)
      rw [List.length_dropLast] at this
      omega
    rw [← hcc]
    exact scaleR_floor h1 hM2 hi2 hf hlt
  · intro hfast
    by_cases hmm : minS ≤ maxS
    · refine hgrow fun i hi => ?_
      obtain ⟨_, h3, h4⟩ := scaleR_grow hM hfast h1 hmm i
      exact h4 (h3.trans_lt hi)
    · rw [hempty.2 (by omega)]
      exact .nil

/-- C130: with full exact neighbour tables, at least two samples, a nonempty budget below `2 ^ 53` and fast enough growth, the planning call with rounded products never raises. -/
theorem C130_answers {w : World P K} (hw : w.Sound) (hx : ∀ S k, w.ExactTable S k (w.knn S k)) {start goal : P}
    (hs : w.check start start = true) (hg : w.check goal goal = true) (minS maxS : ℕ) (h2 : 2 ≤ minS) (hle : minS ≤ maxS) (hM : maxS < 2 ^ 53)
    {factor : ℝ} (hf : 1 ≤ (minS : ℝ) * (factor - 1)) (k : ℕ) (hk : 1 ≤ k) (tr : Bool) (d : ℕ) :
    ∃ fuel counts path, planR w start goal minS maxS factor k tr d fuel = some (counts, .ok path) := by
  refine answers_by hw hx hs hg minS maxS h2 hle (scaleR factor) (fun i hi => ?_) k hk tr d
  obtain ⟨_, h3, h4⟩ := scaleR_grow hM hf (by omega) hle i
  exact h4 (h3.trans_lt hi)

/-- Products with 3/2 are exact as long as they are small. -/
theorem scaleR_three_halves {minS maxS : ℕ} (hM : maxS + 1 ≤ 2 ^ 17) (i : ℕ) (h : ∀ j < i, (scaleR (3 / 2))^[j] (minS : ℝ) < maxS + 1) :
    (scaleR (3 / 2))^[i] (minS : ℝ) = minS * (3 / 2) ^ i := by
  induction i with
  | zero => simp
  | succ i ih =>
    have ih' := ih fun j hj => h j (by omega)
    have hlt := h i (by omega)
    rw [Function.iterate_succ_apply', ih']
    rw [ih'] at hlt
    have hval : (minS : ℝ) * (3 / 2) ^ i * (3 / 2) = ((minS * 3 ^ (i + 1) : ℤ) : ℝ) * 2 ^ (-(i + 1 : ℤ)) := by
      push_cast
      rw [zpow_neg, show ((i : ℤ) + 1) = ((i + 1 : ℕ) : ℤ) by push_cast; rfl, zpow_natCast, div_pow]
      field_simp
      ring
    unfold scaleR
    rcases Nat.eq_zero_or_pos minS with h0 | hpos
    · subst h0
      simp [fl_zero]
    have hm1 : (1 : ℝ) ≤ minS := by exact_mod_cast hpos
    have hM' : (maxS : ℝ) + 1 ≤ 2 ^ 17 := by exact_mod_cast hM
    have hb : ((3 : ℝ) / 2) ^ i ≤ 2 ^ 17 := by
      have : 1 * ((3 : ℝ) / 2) ^ i ≤ minS * (3 / 2) ^ i := mul_le_mul_of_nonneg_right hm1 (by positivity)
      linarith
    have h2i : (2 : ℝ) ^ i ≤ 2 ^ 17 * 2 ^ 17 := by
      calc (2 : ℝ) ^ i ≤ (3 / 2 * (3 / 2)) ^ i := pow_le_pow_left₀ (by norm_num) (by norm_num) i
        _ = (3 / 2) ^ i * (3 / 2) ^ i := by rw [mul_pow]
        _ ≤ _ := mul_le_mul hb hb (by positivity) (by positivity)
    have hi34 : i ≤ 34 := by
      by_contra hcon
      push Not at hcon
      have : (2 : ℝ) ^ 35 ≤ 2 ^ i := pow_le_pow_right₀ (by norm_num) hcon
      have : (2 : ℝ) ^ 35 ≤ 2 ^ 17 * 2 ^ 17 := this.trans h2i
      norm_num at this
    rw [hval]
    refine (fl_eq (mul_isFloat ?_ (by omega)) (by positivity)).trans ?_
    · rw [abs_of_nonneg (by positivity)]
      have h3 : (minS : ℝ) * 3 ^ (i + 1) ≤ 2 ^ 53 := by
        calc (minS : ℝ) * 3 ^ (i + 1) = minS * (3 / 2) ^ i * 2 ^ i * 3 := by
              rw [pow_succ, div_pow]; field_simp
          _ ≤ 2 ^ 17 * (2 ^ 17 * 2 ^ 17) * 3 := by
              apply mul_le_mul_of_nonneg_right _ (by norm_num)
              exact mul_le_mul (by linarith) h2i (by positivity) (by positivity)
          _ ≤ 2 ^ 53 := by norm_num
      exact_mod_cast h3
    · rw [← hval]; ring

/-- C130: with the factor 1.5, the default of both planning functions, and a budget below `2 ^ 17` nothing is rounded: the call is the one with rational products, to which C55 applies. -/
theorem C130_three_halves (w : World P K) (start goal : P) (minS maxS : ℕ) (hM : maxS + 1 ≤ 2 ^ 17) (k : ℕ) (tr : Bool) (d fuel : ℕ) :
    planR w start goal minS maxS (3 / 2) k tr d fuel = plan w start goal minS maxS (3 / 2 : ℚ) k tr d fuel := by
  refine plan_congr w start goal minS maxS _ _ k tr d fuel fun i hi => ?_
  rw [scaleR_three_halves hM i hi, scale_iterate]
  have hcast : (minS : ℝ) * (3 / 2) ^ i = ((minS * (3 / 2) ^ i : ℚ) : ℝ) := by push_cast; rfl
  rw [hcast]
  refine ⟨?_, ?_⟩
  · rw [← Rat.cast_lt (K := ℝ)]
    push_cast
    rfl
  · rw [← Int.floor_toNat, ← Int.floor_toNat, Rat.floor_cast]

omit [AddCommGroup K] in
/-- The counts tried so far are the first ones of all counts. -/
theorem counts_prefix {w : World P K} {start goal : P} {maxS : ℕ} {scale : F → F} {fuel : ℕ} {s : Vars P K F} {b : Vars P K F × Except PyErr Unit}
    (h : loop (bodyBy w start goal maxS scale) fuel s = some b) :
    s.counts <+: b.1.counts ∧ (s.num < (maxS : F) + 1 → (s.counts ++ [⌊s.num⌋₊]) <+: b.1.counts) := by
  induction fuel generalizing s with
  | zero => cases h
  | succ fuel ih =>
    unfold loop bodyBy at h
    by_cases hlt : s.num < (maxS : F) + 1
    · have : (s.counts ++ [⌊s.num⌋₊]) <+: b.1.counts := by
        simp only [hlt, if_true] at h
        cases hg : (s.prm.grow w ⌊s.num⌋₊).2 with
        | error e => rw [hg] at h; simp only [Option.some.injEq] at h; rw [← h]
        | ok u =>
          rw [hg] at h
          simp only at h
          cases hq : ((s.prm.grow w ⌊s.num⌋₊).1.query w start goal).2 with
          | error e => rw [hq] at h; simp only [Option.some.injEq] at h; rw [← h]
          | ok r =>
            obtain ⟨c, pts⟩ := r
            rw [hq] at h
            simp only at h
            by_cases hp : 0 < pts.length
            · simp only [hp, if_true, Option.some.injEq] at h; rw [← h]
            · simp only [hp, if_false] at h
              exact (ih h).1
      exact ⟨(List.prefix_append _ _).trans this, fun _ => this⟩
    · simp only [hlt, if_false, Option.some.injEq] at h
      rw [← h]
      exact ⟨List.prefix_rfl, fun hc => absurd hc hlt⟩

end Plan

/-- The float next to 1.2. -/
theorem fl_six_fifths : fl (6 / 5) = 5404319552844595 / 2 ^ 52 := by
  have hp : place (6 / 5) = -52 := place_eq (by norm_num) (by norm_num) (by norm_num)
  have hf : ⌊(6 / 5 / 2 ^ (-52 : ℤ) : ℝ)⌋ = 5404319552844595 := by rw [Int.floor_eq_iff]; norm_num
  unfold fl ulp roundEven
  rw [hp, Int.fract, hf, if_pos (by norm_num)]
  norm_num

/-- The rounded product is 6. -/
theorem fl_five_mul : fl (5 * fl (6 / 5)) = 6 := by
  rw [fl_six_fifths]
  have hp : place (5 * (5404319552844595 / 2 ^ 52)) = -50 := place_eq (by norm_num) (by norm_num) (by norm_num)
  have hf : ⌊(5 * (5404319552844595 / 2 ^ 52) / 2 ^ (-50 : ℤ) : ℝ)⌋ = 6755399441055743 := by rw [Int.floor_eq_iff]; norm_num
  unfold fl ulp roundEven
  rw [hp, Int.fract, hf, if_neg (by norm_num), if_pos (by norm_num)]
  norm_num

/-- C130: rounding matters. With five samples and the float next to 1.2 as factor the unrounded product is below 6, and a second trial with five samples would raise ArithmeticError; the rounded
product is 6, and the call goes on with six samples. -/
theorem C130_rounded_false {P K : Type*} [LinearOrder K] [AddCommGroup K] {w : World P K} {start goal : P}
    (hs : w.check start start = true) (hg : w.check goal goal = true) {maxS : ℕ} (hle : 6 ≤ maxS) (k : ℕ) (tr : Bool) (d : ℕ)
    (hgrow : ((Knn.init k tr d).grow w 5).2 = .ok ()) (hno : ∃ c, (((Knn.init k tr d).run w [.grow 5]).query w start goal).2 = .ok (c, [])) :
    plan w start goal 5 maxS (fl (6 / 5)) k tr d 2 = some ([5, 5], .error .arithmetic) ∧
    ∃ fuel rest answer, planR w start goal 5 maxS (fl (6 / 5)) k tr d fuel = some (5 :: 6 :: rest, answer) := by
  have hprod : (5 : ℝ) * fl (6 / 5) < 6 ∧ (5 : ℝ) ≤ 5 * fl (6 / 5) := by rw [fl_six_fifths]; norm_num
  constructor
  · have h := C55_repeated_count_false hs hg 5 maxS (by omega) (fl (6 / 5)) (by push_cast; linarith [hprod.1]) k tr d hgrow hno
    rw [h]
    have : ⌊((5 : ℕ) : ℝ) * fl (6 / 5)⌋₊ = 5 := by
      rw [Nat.floor_eq_iff (by push_cast; linarith [hprod.2])]
      push_cast
      exact ⟨hprod.2, by linarith [hprod.1]⟩
    rw [this]
  · obtain ⟨c, hc⟩ := hno
    have hrun : (Knn.init k tr d).run w [.grow 5] = ((Knn.init k tr d).grow w 5).1 := by simp [Knn.run, Knn.step]
    rw [hrun] at hc
    have hM : (6 : ℝ) ≤ maxS := by exact_mod_cast hle
    obtain ⟨b, hb, _⟩ := loop_outcome w start goal 5 maxS (scaleR (fl (6 / 5))) k tr d
    obtain ⟨fuel, hf⟩ := plan_eq hs hg 5 maxS (scaleR (fl (6 / 5))) k tr d hb
    obtain ⟨fuel', hl⟩ := hb
    have hpre : [5, 6] <+: b.1.counts := by
      cases fuel' with
      | zero => cases hl
      | succ n =>
        have hlt : ((5 : ℕ) : ℝ) < maxS + 1 := by push_cast; linarith
        have hfl : ⌊((5 : ℕ) : ℝ)⌋₊ = 5 := Nat.floor_natCast 5
        unfold loop bodyBy at hl
        simp only [hlt, if_true, hfl, hgrow, hc, List.length_nil, lt_irrefl, if_false] at hl
        have h := (counts_prefix hl).2
        simp only [scaleR, Nat.cast_ofNat, fl_five_mul] at h
        have := h (by linarith)
        simpa using this
    obtain ⟨rest, hr⟩ := hpre
    refine ⟨fuel, rest, (match b.2 with | .error e => .error e | .ok () => finish start goal b.1.path), ?_⟩
    refine hf.trans ?_
    rw [← hr]
    rfl

/-- The first roadmap of the example has no path to the goal. -/
theorem C130_rounded_nonvacuous : openWorld.check 100 100 = true ∧ ((Knn.init 2 false 0).grow openWorld 5).2 = .ok () ∧
    (((Knn.init 2 false 0).run openWorld [.grow 5]).query openWorld (1 / 2) 100).2 = .ok (⊤, []) := by decide +kernel

variable {Ω : Type*} [MeasurableSpace Ω] {Pr : Measure Ω} [IsProbabilityMeasure Pr] {dim : ℕ} {X : ℕ → Ω → Space dim} {S : Set (Space dim)}

/-- C130: the guarantee C93 with rounded counts. Let `m` be one of the numbers of samples of the anytime planning call, within the budget and at least the count of `compute_numerical_bound`: the
integer part of the `i`-th rounded product. Then up to the failure probabilities of the two bounds the call answers with a path, for all starts and goals joined by a path of the given clearance. -/
theorem C130_guarantee (hX : IidUniform Pr X S) (hS : MeasurableSet S) (hdim : 1 ≤ dim) {δ p vol₁ vol₂ : ℝ} {tol : Option ℝ} {fuel N : ℕ}
    {r : ℝ} (hvol₁ : volume S ≤ ENNReal.ofReal vol₁) (hv : 0 < vol₂) (hvol₂ : ENNReal.ofReal vol₂ ≤ volume S) (hδ : 0 < δ)
    (ht : TolNonneg tol) (h : numericalBound δ p vol₁ dim tol fuel = some (.ok (N, r))) {F : Set (Space dim)} (hF : F ⊆ S)
    {minS maxS : ℕ} (h2 : 2 ≤ minS) (hM : maxS < 2 ^ 53) {factor : ℝ} (hf : 1 ≤ minS * (factor - 1)) {num : ℕ → ℝ} (hn0 : num 0 = minS)
    (hn : ∀ i, num (i + 1) = fl (num i * factor)) {i : ℕ} (hi : num i < maxS + 1)
    (hN : N ≤ ⌊num i⌋₊) {k : ℕ} (hk : 1 ≤ k) (hk2 : k + 1 ≤ ⌊num i⌋₊) (tr : Bool) (d : ℕ) :
    Pr {ω | ¬ ∀ (w : World (Space dim) ℝ) (a b : Space dim) (γ : ℝ → Space dim), EuclideanWorld w F (fun i => X i ω) → KnnWorld w →
        ClearPath F δ a b γ → ∃ fuel counts path, planR w a b minS maxS factor k tr d fuel = some (counts, .ok (some path))} ≤
      ENNReal.ofReal (1 - p) + EReal.exp (tailKL ⌊num i⌋₊ k r dim vol₂) := by
  have hnum : ∀ i, num i = (scaleR factor)^[i] minS := by
    intro i
    induction i with
    | zero => exact hn0
    | succ i ih => rw [hn, ih, Function.iterate_succ_apply']; rfl
  rw [hnum] at hi hN hk2 ⊢
  refine (measure_mono ?_).trans (C83_complete hX hS hdim hvol₁ hv hvol₂ hδ ht h hF (m := ⌊(scaleR factor)^[i] (minS : ℝ)⌋₊) (by omega) hN hk2 tr d)
  intro ω hω hgood
  apply hω
  intro w a b γ hE hK hγ
  have point : ∀ x : Space dim, Metric.ball x δ ⊆ F → w.check x x = true := by
    intro x hx
    apply hE.check
    rw [segment_same]
    exact Set.singleton_subset_iff.2 (hx (Metric.mem_ball_self hδ))
  have ha : w.check a a = true := point a (hγ.start ▸ hγ.clear 0 ⟨le_rfl, zero_le_one⟩)
  have hb : w.check b b = true := point b (hγ.goal ▸ hγ.clear 1 ⟨zero_le_one, le_rfl⟩)
  have hmm : minS ≤ maxS := by
    by_contra hcon
    push Not at hcon
    have hm : ∀ j, (maxS : ℝ) + 1 ≤ (scaleR factor)^[j] minS := by
      have hfac : 1 ≤ factor := by
        by_contra hlt
        push Not at hlt
        have h0 : (0 : ℝ) ≤ minS := by positivity
        have : (minS : ℝ) * (factor - 1) ≤ 0 := mul_nonpos_of_nonneg_of_nonpos h0 (by linarith)
        linarith
      have hF1 : IsFloat ((maxS : ℝ) + 1) := by exact_mod_cast nat_isFloat (n := maxS + 1) (by omega)
      have h0 : (0 : ℝ) ≤ (maxS : ℝ) + 1 := by positivity
      intro j
      induction j with
      | zero => simp only [Function.iterate_zero, id]; exact_mod_cast hcon
      | succ j ih =>
        rw [Function.iterate_succ_apply']
        have h3 : (maxS : ℝ) + 1 ≤ (scaleR factor)^[j] minS * factor := by nlinarith
        exact le_fl hF1 (h0.trans h3) h3
    exact absurd hi (not_lt.2 (hm i))
  obtain ⟨fuel, counts, answer, hp, hnone⟩ := no_path_by hE.sound hK.exact ha hb h2 (scale := scaleR factor) (maxS := maxS) (i := i)
    (fun j => (scaleR_grow hM hf (by omega) hmm j).2.1)
    (fun j hj => (scaleR_grow hM hf (by omega) hmm j).2.2 ((scaleR_grow hM hf (by omega) hmm j).2.1.trans_lt hj)) hk tr d hi
  cases answer with
  | some path => exact ⟨fuel, counts, path, hp⟩
  | none =>
    exfalso
    obtain ⟨ops, hops, hgrow, c, hc⟩ := hnone rfl
    obtain ⟨len, pts, h1, h3⟩ := hgood w ops [] a b γ hE hK hops hgrow (by simp) hγ
    rw [h1] at hc
    cases hc
    exact h3 rfl

/-- A run with rounded products: two roadmaps are tried, the second one has a path. The hypotheses on the counts hold for 1000 samples, a budget of 2000 and the float next to 1.1. -/
theorem C130_nonvacuous : openWorld.Sound ∧ openWorld.check (1/2) (1/2) = true ∧
    planR openWorld (1/2) (9/2) 3 4 (3 / 2) 2 false 0 5 = some ([3, 4], .ok (some [1/2, 1, 2, 3, 4, 9/2])) ∧
    1 ≤ ((1000 : ℕ) : ℝ) * (fl (11 / 10) - 1) ∧ fl (((1000 : ℕ) : ℝ) * fl (11 / 10)) < ((2000 : ℕ) : ℝ) + 1 := by
  have h11 : (1 : ℝ) + 1 / 16 ≤ fl (11 / 10) ∧ fl (11 / 10) ≤ 1 + 1 / 8 := by
    have f1 : IsFloat ((1 : ℝ) + 1 / 16) := by
      have := mul_isFloat (n := 17) (e := -4) (by norm_num) (by norm_num)
      norm_num at this ⊢; exact this
    have f2 : IsFloat ((1 : ℝ) + 1 / 8) := by
      have := mul_isFloat (n := 9) (e := -3) (by norm_num) (by norm_num)
      norm_num at this ⊢; exact this
    exact ⟨le_fl f1 (by norm_num) (by norm_num), fl_le f2 (by norm_num) (by norm_num)⟩
  refine ⟨lineWorld_sound _ _, rfl, ?_, ?_, ?_⟩
  · rw [C130_three_halves _ _ _ _ _ (by norm_num)]
    decide +kernel
  · push_cast; linarith [h11.1]
  · have f3 : IsFloat ((2000 : ℕ) : ℝ) := nat_isFloat (by norm_num)
    have := fl_le (x := ((1000 : ℕ) : ℝ) * fl (11 / 10)) f3 (by push_cast; linarith [h11.1]) (by push_cast; linarith [h11.2])
    push_cast at this ⊢
    linarith

end Verif.Props
