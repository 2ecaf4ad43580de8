import Mathlib.Algebra.Order.Ring.Rat
import Mathlib.Analysis.SpecialFunctions.Pow.Real
import Mathlib.Tactic.FieldSimp
import Mathlib.Tactic.Linarith
import Mathlib.Tactic.Ring
import Verif.Lemmas.Py
import Verif.Model.Bound
import Verif.Model.ExpTrials
import Verif.Model.LineTolerance

/-! Bisections and recorded rows of the experiments: C47, C48, C49, C62, C63. -/

namespace Verif.Props

open Verif.Exps

theorem pyGet_nat {α : Type*} (l : List α) (i : ℕ) (a : α) (h : l[i]? = some a) : pyGet l (i : ℤ) = .ok a := by
  unfold pyGet
  have h1 : ¬ (i : ℤ) < 0 := by omega
  simp only [h1, if_false, Int.toNat_natCast, h]

theorem pyGet_last {α : Type*} (l : List α) (a : α) (h : l[l.length - 1]? = some a) : pyGet l (-1) = .ok a := by
  have hpos : 0 < l.length := by
    by_contra hc
    rw [List.getElem?_eq_none (by omega)] at h
    cases h
  unfold pyGet
  have h1 : ¬ (-1 + (l.length : ℤ)) < 0 := by omega
  have h2 : (-1 + (l.length : ℤ)).toNat = l.length - 1 := by omega
  simp only [show (-1 : ℤ) < 0 by omega, if_true, h1, if_false, h2, h]

theorem pyGet_none {α : Type*} (l : List α) (i : ℕ) (h : l.length ≤ i) : pyGet l (i : ℤ) = .error .index := by
  unfold pyGet
  have h1 : ¬ (i : ℤ) < 0 := by omega
  simp only [h1, if_false, Int.toNat_natCast, List.getElem?_eq_none h]

theorem middle_nat (i j : ℕ) : middle (i : ℤ) (j : ℤ) = (((i + j) / 2 : ℕ) : ℤ) := by
  unfold middle
  omega

/-! ### C47 -/

variable {C K : Type}

/-- C47, what holds for every oracle, monotone or not, if there are at least two settings: the loop stops. Either no setting is said to
solve the problem: then the largest one, `maxConn`, does not. Or the recorded settings are adjacent; the upper one was found to succeed
(the last one by testing `maxConn` in its place) and its path is the recorded one; the lower one was found to fail, unless it is the
very first one. Missing: the first setting is not tested, see `C47_smallest_false`. -/
theorem C47_bisection_partial (t : PrmType) (conns : List C) (hlen : 2 ≤ conns.length) (maxConn : C) (solve : C → Option (K × ℕ)) :
    ∃ f, LoopStops (narrowBody t conns maxConn solve) (narrowStart conns) (.ok f) ∧
      ((f.lb = some ((conns.length : ℤ) - 1) ∧ f.ub = none ∧ f.path = none ∧ solve maxConn = none) ∨
        ∃ (i : ℕ) (lo hi : C), f.lb = some (i : ℤ) ∧ f.ub = some ((i : ℤ) + 1) ∧ conns[i]? = some lo ∧ conns[i + 1]? = some hi ∧
          (i = 0 ∨ solve lo = none) ∧ f.path.isSome ∧ f.info = "" ∧
          (i + 2 < conns.length → solve hi = f.path) ∧ (i + 2 = conns.length → solve maxConn = f.path)) := by
  have key := LoopStops.of_measure (body := narrowBody t conns maxConn solve)
    (fun s => ∃ i j : ℕ, i < j ∧ j < conns.length ∧ s.lb = i ∧ s.ub = j ∧ (i = 0 ∨ ∃ lo, conns[i]? = some lo ∧ solve lo = none) ∧
      (j + 1 = conns.length → s.path = none) ∧
      (j + 1 < conns.length → s.path.isSome ∧ ∃ hi, conns[j]? = some hi ∧ solve hi = s.path))
    (fun b => ∃ f, b = .ok f ∧ ((f.lb = some ((conns.length : ℤ) - 1) ∧ f.ub = none ∧ f.path = none ∧ solve maxConn = none) ∨
        ∃ (i : ℕ) (lo hi : C), f.lb = some (i : ℤ) ∧ f.ub = some ((i : ℤ) + 1) ∧ conns[i]? = some lo ∧ conns[i + 1]? = some hi ∧
          (i = 0 ∨ solve lo = none) ∧ f.path.isSome ∧ f.info = "" ∧
          (i + 2 < conns.length → solve hi = f.path) ∧ (i + 2 = conns.length → solve maxConn = f.path)))
    (fun s => (s.ub - s.lb).toNat) ?_ (s := narrowStart conns) ?_
  · obtain ⟨b, hb, f, rfl, hf⟩ := key
    exact ⟨f, hb, hf⟩
  · rintro ⟨lb, ub, path⟩ ⟨i, j, hij, hj, h1, h2, hlo, hnone, hsome⟩
    simp only at h1 h2 hnone hsome
    subst h1 h2
    unfold narrowBody
    simp only
    by_cases hadj : (i : ℤ) + 1 = (j : ℤ)
    · rw [if_pos hadj]
      have hj' : j = i + 1 := by omega
      subst hj'
      have hgi : ∃ lo, conns[i]? = some lo := ⟨_, List.getElem?_eq_getElem (by omega)⟩
      have hgj : ∃ hi, conns[i + 1]? = some hi := ⟨_, List.getElem?_eq_getElem hj⟩
      obtain ⟨lo, hgi⟩ := hgi
      obtain ⟨hi, hgj⟩ := hgj
      have hlo' : i = 0 ∨ solve lo = none := by
        rcases hlo with h | ⟨lo', h, h'⟩
        · exact Or.inl h
        · rw [hgi, Option.some.injEq] at h; subst h; exact Or.inr h'
      by_cases hlast : i + 1 + 1 = conns.length
      · rw [if_pos (by push_cast; omega)]
        left
        cases hsol : solve maxConn with
        | none => exact ⟨_, rfl, _, rfl, Or.inl ⟨rfl, rfl, hnone hlast, rfl⟩⟩
        | some p =>
          refine ⟨_, rfl, _, rfl, Or.inr ⟨i, lo, hi, rfl, by push_cast; rfl, hgi, hgj, hlo', rfl, rfl, ?_, ?_⟩⟩
          · intro h; omega
          · intro _; rfl
      · rw [if_neg (by push_cast; omega)]
        left
        obtain ⟨hs1, hi', hg', hs2⟩ := hsome (by omega)
        rw [hgj, Option.some.injEq] at hg'
        subst hg'
        refine ⟨_, rfl, _, rfl, Or.inr ⟨i, lo, hi, rfl, by push_cast; rfl, hgi, hgj, hlo', hs1, rfl, fun _ => hs2, ?_⟩⟩
        intro h; omega
    · rw [if_neg hadj, if_neg (by omega)]
      have hm1 : i < (i + j) / 2 := by omega
      have hm2 : (i + j) / 2 < j := by omega
      obtain ⟨c, hc⟩ : ∃ c, conns[(i + j) / 2]? = some c := ⟨_, List.getElem?_eq_getElem (by omega)⟩
      rw [middle_nat, pyGet_nat _ _ _ hc]
      right
      simp only
      cases hsol : solve c with
      | none =>
        refine ⟨_, rfl, ⟨(i + j) / 2, j, hm2, hj, rfl, rfl, Or.inr ⟨c, hc, hsol⟩, hnone, hsome⟩, ?_⟩
        simp only
        omega
      | some p =>
        refine ⟨_, rfl, ⟨i, (i + j) / 2, hm1, by omega, rfl, rfl, hlo, ?_, ?_⟩, ?_⟩
        · intro h; omega
        · intro _; exact ⟨rfl, c, hc, hsol⟩
        · simp only
          omega
  · refine ⟨0, conns.length - 1, by omega, by omega, rfl, ?_, Or.inl rfl, ?_, ?_⟩
    · show (conns.length : ℤ) - 1 = ((conns.length - 1 : ℕ) : ℤ)
      omega
    · intro _; rfl
    · intro h; omega

/-- C47 with the two assumptions the trial makes: success is monotone in the setting (and `maxConn` is as good as the last one), and the
first setting fails. Then either all settings fail and the last one is recorded as failing, with no upper value; or the recorded
settings are adjacent, everything up to the lower one fails and everything from the upper one on succeeds. -/
theorem C47_threshold_partial (t : PrmType) (conns : List C) (hlen : 2 ≤ conns.length) (maxConn : C) (solve : C → Option (K × ℕ))
    (hmono : ∀ (i j : ℕ) (a b : C), i ≤ j → conns[i]? = some a → conns[j]? = some b → (solve a).isSome → (solve b).isSome)
    (hmax : ∀ c, conns[conns.length - 1]? = some c → ((solve c).isSome ↔ (solve maxConn).isSome))
    (hfirst : ∀ c, conns[0]? = some c → solve c = none) :
    ∃ f, LoopStops (narrowBody t conns maxConn solve) (narrowStart conns) (.ok f) ∧
      ((f.lb = some ((conns.length : ℤ) - 1) ∧ f.ub = none ∧ ∀ c ∈ conns, solve c = none) ∨
        ∃ i : ℕ, f.lb = some (i : ℤ) ∧ f.ub = some ((i : ℤ) + 1) ∧ i + 1 < conns.length ∧
          ∀ (j : ℕ) (c : C), conns[j]? = some c → ((solve c).isSome ↔ i + 1 ≤ j)) := by
  obtain ⟨f, hf, h⟩ := C47_bisection_partial t conns hlen maxConn solve
  refine ⟨f, hf, ?_⟩
  have hn : ∀ c, (solve c).isSome = false ↔ solve c = none := fun c => by rw [Option.isSome_eq_false_iff, Option.isNone_iff_eq_none]
  obtain ⟨last, hlast⟩ : ∃ c, conns[conns.length - 1]? = some c := ⟨_, List.getElem?_eq_getElem (by omega)⟩
  rcases h with ⟨h1, h2, _, h4⟩ | ⟨i, lo, hi, h1, h2, h3, h4, h5, h6, _, h7, h8⟩
  · refine Or.inl ⟨h1, h2, ?_⟩
    intro c hc
    obtain ⟨j, hj⟩ := List.mem_iff_getElem?.1 hc
    have hjlt : j < conns.length := (List.getElem?_eq_some_iff.1 hj).1
    rw [← hn, Bool.eq_false_iff]
    intro hs
    have := (hmax last hlast).1 (hmono j (conns.length - 1) c last (by omega) hj hlast hs)
    rw [h4] at this
    cases this
  · have hilt : i + 1 < conns.length := (List.getElem?_eq_some_iff.1 h4).1
    refine Or.inr ⟨i, h1, h2, hilt, ?_⟩
    have hhi : (solve hi).isSome := by
      by_cases hl : i + 2 = conns.length
      · have hh : conns[conns.length - 1]? = some hi := by rw [← hl]; exact h4
        rw [hmax hi hh, h8 hl]
        exact h6
      · rw [h7 (by omega)]
        exact h6
    have hlo : solve lo = none := by
      rcases h5 with rfl | h
      · exact hfirst lo h3
      · exact h
    intro j c hc
    constructor
    · intro hs
      by_contra hcon
      have := hmono j i c lo (by omega) hc h3 hs
      rw [hlo] at this
      cases this
    · intro hj
      exact hmono (i + 1) j hi c hj h4 hc hhi

/-- C47 for every monotone oracle, also one that succeeds everywhere: the recorded pair is the threshold among all settings but the first one, which is never tested: if that one succeeds, it is recorded
as failing (general form of `C47_smallest_false`). -/
theorem C47_all_but_first (t : PrmType) (conns : List C) (hlen : 2 ≤ conns.length) (maxConn : C) (solve : C → Option (K × ℕ))
    (hmono : ∀ (i j : ℕ) (a b : C), i ≤ j → conns[i]? = some a → conns[j]? = some b → (solve a).isSome → (solve b).isSome)
    (hmax : ∀ c, conns[conns.length - 1]? = some c → ((solve c).isSome ↔ (solve maxConn).isSome)) :
    ∃ f, LoopStops (narrowBody t conns maxConn solve) (narrowStart conns) (.ok f) ∧
      ((f.lb = some ((conns.length : ℤ) - 1) ∧ f.ub = none ∧ ∀ c ∈ conns, solve c = none) ∨
        ∃ i : ℕ, f.lb = some (i : ℤ) ∧ f.ub = some ((i : ℤ) + 1) ∧ i + 1 < conns.length ∧
          (∀ (j : ℕ) (c : C), conns[j]? = some c → 1 ≤ j → ((solve c).isSome ↔ i + 1 ≤ j)) ∧
          (∀ c, conns[0]? = some c → (solve c).isSome → i = 0)) := by
  obtain ⟨f, hf, h⟩ := C47_bisection_partial t conns hlen maxConn solve
  refine ⟨f, hf, ?_⟩
  have hn : ∀ c, (solve c).isSome = false ↔ solve c = none := fun c => by rw [Option.isSome_eq_false_iff, Option.isNone_iff_eq_none]
  obtain ⟨last, hlast⟩ : ∃ c, conns[conns.length - 1]? = some c := ⟨_, List.getElem?_eq_getElem (by omega)⟩
  rcases h with ⟨h1, h2, _, h4⟩ | ⟨i, lo, hi, h1, h2, h3, h4, h5, h6, _, h7, h8⟩
  · refine Or.inl ⟨h1, h2, ?_⟩
    intro c hc
    obtain ⟨j, hj⟩ := List.mem_iff_getElem?.1 hc
    have hjlt : j < conns.length := (List.getElem?_eq_some_iff.1 hj).1
    rw [← hn, Bool.eq_false_iff]
    intro hs
    have := (hmax last hlast).1 (hmono j (conns.length - 1) c last (by omega) hj hlast hs)
    rw [h4] at this
    cases this
  · have hilt : i + 1 < conns.length := (List.getElem?_eq_some_iff.1 h4).1
    have hhi : (solve hi).isSome := by
      by_cases hl : i + 2 = conns.length
      · have hh : conns[conns.length - 1]? = some hi := by rw [← hl]; exact h4
        rw [hmax hi hh, h8 hl]
        exact h6
      · rw [h7 (by omega)]
        exact h6
    have hlow : ∀ (j : ℕ) (c : C), conns[j]? = some c → (solve c).isSome → j ≤ i → i = 0 := by
      intro j c hc hs hj
      by_contra hcon
      have := hmono j i c lo hj hc h3 hs
      rw [h5.resolve_left hcon] at this
      cases this
    refine Or.inr ⟨i, h1, h2, hilt, ?_, fun c hc hs => hlow 0 c hc hs (Nat.zero_le _)⟩
    intro j c hc hj1
    constructor
    · intro hs
      by_contra hcon
      have := hlow j c hc hs (by omega)
      omega
    · intro hj
      exact hmono (i + 1) j hi c hj h4 hc hhi

/-- C47 is false as stated: if every setting succeeds, the first one is recorded as failing. -/
theorem C47_smallest_false : LoopStops (narrowBody (K := ℚ) .radius [1, 2, 3] 3 (fun _ : ℚ => some (1, 2))) (narrowStart [1, 2, 3])
    (.ok ⟨some 0, some 1, some (1, 2), ""⟩) := ⟨5, by decide +kernel⟩

/-- C47 with one radius: the only setting is tested and recorded on the right side. -/
theorem C47_one_radius (c maxConn : C) (solve : C → Option (K × ℕ)) :
    ∃ f, LoopStops (narrowBody .radius [c] maxConn solve) (narrowStart [c]) (.ok f) ∧
      (solve c = none → f.lb = some 0 ∧ f.ub = none ∧ f.path = none) ∧
      (∀ p, solve c = some p → f.lb = none ∧ f.ub = some 0 ∧ f.path = some p) := by
  cases h : solve c with
  | none =>
    refine ⟨⟨some 0, none, none, "only one connection; and no path found."⟩, LoopStops.of_done ?_, fun _ => ⟨rfl, rfl, rfl⟩, ?_⟩
    · unfold narrowBody narrowStart
      simp [pyGet, h]
    · intro p hp; cases hp
  | some p =>
    refine ⟨⟨none, some 0, some p, "only one connection; and path found!"⟩, LoopStops.of_done ?_, ?_, ?_⟩
    · unfold narrowBody narrowStart
      simp [pyGet, h]
    · intro hp; cases hp
    · intro q hq; rw [Option.some.injEq] at hq; subst hq; exact ⟨rfl, rfl, rfl⟩

/-- C47 is also false for the k-NN roadmap with one setting (at most five neighbours): nothing is tested and the same setting is recorded
as both failing and succeeding. -/
theorem C47_one_neighbor_count_false (maxConn : ℕ) (solve : ℕ → Option (ℚ × ℕ)) :
    LoopStops (narrowBody .knn (nnKs 2) maxConn solve) (narrowStart (nnKs 2)) (.ok ⟨some 0, some 0, none,
      "something went wrong... rad_lb is not supposed to be >= rad_ub and we have more than one conn"⟩) := by
  refine LoopStops.of_done ?_
  simp [narrowBody, narrowStart, nnKs]

/-- The settings of the k-NN roadmap are the powers of two from four on; so an adjacent pair is a number and its double. -/
theorem C47_neighbor_counts (L i : ℕ) : (nnKs L)[i]? = if i + 2 ≤ L then some (2 ^ (i + 2)) else none := by
  unfold nnKs
  rw [List.getElem?_map]
  split
  · rw [List.getElem?_range' (by omega)]
    simp [Nat.add_comm]
  · rw [List.getElem?_eq_none (by rw [List.length_range']; omega)]
    rfl

/-- Ten radii of which the last four succeed. -/
theorem C47_nonvacuous : LoopStops (narrowBody (K := ℚ) .radius (List.range 10) 12 (fun c => if 6 ≤ c then some (1, c) else none))
    (narrowStart (List.range 10)) (.ok ⟨some 5, some 6, some (1, 6), ""⟩) := ⟨6, by decide +kernel⟩

/-! ### C48 -/

/-- C48: the bisection stops for every list of at least three radii and every oracle, at adjacent radii; the upper one passes unless it
is the last one, and the lower one fails unless it is the second one. Missing: the last radius is not tested, see `C48_last_false`. -/
theorem C48_bisection_partial (rads : List K) (hlen : 3 ≤ rads.length) (passes : K → Bool) :
    ∃ (i : ℕ) (lo hi : K), LoopStops (lineBody rads passes) (1, (rads.length : ℤ) - 1) (.ok ((i : ℤ), (i : ℤ) + 1, false)) ∧ 1 ≤ i ∧
      rads[i]? = some lo ∧ rads[i + 1]? = some hi ∧ (i = 1 ∨ passes lo = false) ∧ (i + 2 = rads.length ∨ passes hi = true) := by
  have key := LoopStops.of_measure (body := lineBody rads passes)
    (fun s => ∃ i j : ℕ, 1 ≤ i ∧ i < j ∧ j < rads.length ∧ s = ((i : ℤ), (j : ℤ)) ∧ (i = 1 ∨ ∃ lo, rads[i]? = some lo ∧ passes lo = false) ∧
      (j + 1 = rads.length ∨ ∃ hi, rads[j]? = some hi ∧ passes hi = true))
    (fun b => ∃ (i : ℕ) (lo hi : K), b = .ok ((i : ℤ), (i : ℤ) + 1, false) ∧ 1 ≤ i ∧ rads[i]? = some lo ∧ rads[i + 1]? = some hi ∧
      (i = 1 ∨ passes lo = false) ∧ (i + 2 = rads.length ∨ passes hi = true))
    (fun s => (s.2 - s.1).toNat) ?_ (s := (1, (rads.length : ℤ) - 1)) ?_
  · obtain ⟨b, hb, i, lo, hi, rfl, h⟩ := key
    exact ⟨i, lo, hi, hb, h⟩
  · rintro s ⟨i, j, h1, hij, hj, rfl, hlo, hhi⟩
    unfold lineBody
    simp only
    by_cases hadj : (i : ℤ) + 1 = (j : ℤ)
    · rw [if_pos hadj]
      have hj' : j = i + 1 := by omega
      subst hj'
      obtain ⟨lo, hgi⟩ : ∃ lo, rads[i]? = some lo := ⟨_, List.getElem?_eq_getElem (by omega)⟩
      obtain ⟨hi, hgj⟩ : ∃ hi, rads[i + 1]? = some hi := ⟨_, List.getElem?_eq_getElem hj⟩
      left
      refine ⟨_, rfl, i, lo, hi, by push_cast; rfl, h1, hgi, hgj, ?_, ?_⟩
      · rcases hlo with h | ⟨lo', h, h'⟩
        · exact Or.inl h
        · rw [hgi, Option.some.injEq] at h; subst h; exact Or.inr h'
      · rcases hhi with h | ⟨hi', h, h'⟩
        · exact Or.inl h
        · rw [hgj, Option.some.injEq] at h; subst h; exact Or.inr h'
    · rw [if_neg hadj, if_neg (by omega)]
      have hm1 : i < (i + j) / 2 := by omega
      have hm2 : (i + j) / 2 < j := by omega
      obtain ⟨c, hc⟩ : ∃ c, rads[(i + j) / 2]? = some c := ⟨_, List.getElem?_eq_getElem (by omega)⟩
      rw [middle_nat, pyGet_nat _ _ _ hc]
      right
      simp only
      cases hp : passes c with
      | false =>
        refine ⟨_, by simp, ⟨(i + j) / 2, j, by omega, hm2, hj, rfl, Or.inr ⟨c, hc, hp⟩, hhi⟩, ?_⟩
        simp only
        omega
      | true =>
        refine ⟨_, by simp, ⟨i, (i + j) / 2, h1, hm1, by omega, rfl, hlo, Or.inr ⟨c, hc, hp⟩⟩, ?_⟩
        simp only
        omega
  · refine ⟨1, rads.length - 1, le_refl _, by omega, by omega, ?_, Or.inl rfl, Or.inl (by omega)⟩
    ext
    · rfl
    · simp only
      omega

/-- C48 for a monotone oracle: if some radius between the second and the last one decides, the bisection ends at the threshold. -/
theorem C48_threshold_partial (rads : List K) (hlen : 3 ≤ rads.length) (passes : K → Bool)
    (hmono : ∀ (i j : ℕ) (a b : K), i ≤ j → rads[i]? = some a → rads[j]? = some b → passes a = true → passes b = true)
    (hsecond : ∀ c, rads[1]? = some c → passes c = false) (hlast : ∀ c, rads[rads.length - 1]? = some c → passes c = true) :
    ∃ i : ℕ, LoopStops (lineBody rads passes) (1, (rads.length : ℤ) - 1) (.ok ((i : ℤ), (i : ℤ) + 1, false)) ∧
      ∀ (j : ℕ) (c : K), rads[j]? = some c → (passes c = true ↔ i + 1 ≤ j) := by
  obtain ⟨i, lo, hi, h0, h1, h2, h3, h4, h5⟩ := C48_bisection_partial rads hlen passes
  have hlo : passes lo = false := by
    rcases h4 with rfl | h
    · exact hsecond lo h2
    · exact h
  have hhi : passes hi = true := by
    rcases h5 with h | h
    · exact hlast hi (by rw [← h]; exact h3)
    · exact h
  refine ⟨i, h0, ?_⟩
  intro j c hc
  constructor
  · intro hp
    by_contra hcon
    have := hmono j i c lo (by omega) hc h2 hp
    rw [hlo] at this
    cases this
  · intro hj
    exact hmono (i + 1) j hi c hj h3 hc hhi

/-- C48 for every monotone oracle: the bisection ends at the threshold among all radii but the first two and the last one, which are never tested. So if no radius passes, the last one is recorded
as the upper one all the same (general form of `C48_last_false`). -/
theorem C48_all_but_ends (rads : List K) (hlen : 3 ≤ rads.length) (passes : K → Bool)
    (hmono : ∀ (i j : ℕ) (a b : K), i ≤ j → rads[i]? = some a → rads[j]? = some b → passes a = true → passes b = true) :
    ∃ i : ℕ, LoopStops (lineBody rads passes) (1, (rads.length : ℤ) - 1) (.ok ((i : ℤ), (i : ℤ) + 1, false)) ∧ 1 ≤ i ∧ i + 1 < rads.length ∧
      (∀ (j : ℕ) (c : K), rads[j]? = some c → 2 ≤ j → j + 1 < rads.length → (passes c = true ↔ i + 1 ≤ j)) ∧
      ((∀ r ∈ rads, passes r = false) → i + 2 = rads.length) := by
  obtain ⟨i, lo, hi, h0, h1, h2, h3, h4, h5⟩ := C48_bisection_partial rads hlen passes
  have hilt : i + 1 < rads.length := (List.getElem?_eq_some_iff.1 h3).1
  refine ⟨i, h0, h1, hilt, ?_, fun hall => ?_⟩
  · intro j c hc hj2 hjl
    constructor
    · intro hp
      by_contra hcon
      have := hmono j i c lo (by omega) hc h2 hp
      rw [h4.resolve_left (by omega)] at this
      cases this
    · intro hj
      exact hmono (i + 1) j hi c hj h3 hc (h5.resolve_left (by omega))
  · rcases h5 with h | h
    · exact h
    · rw [hall hi (List.mem_of_getElem? h3)] at h
      cases h

/-- C48: with fewer than three radii the loop stops at once with the warning and nothing is tested. -/
theorem C48_short (rads : List K) (hlen : rads.length < 3) (passes : K → Bool) :
    LoopStops (lineBody rads passes) (1, (rads.length : ℤ) - 1) (.ok (1, (rads.length : ℤ) - 1, true)) := by
  refine LoopStops.of_done ?_
  unfold lineBody
  simp only
  rw [if_neg (by omega), if_pos (by omega)]

/-- C48 is false as stated: if no radius passes, the last radius is recorded as the upper one all the same. -/
theorem C48_last_false : LoopStops (lineBody ([1, 2, 3, 4] : List ℚ) (fun _ => false)) (1, 3) (.ok (2, 3, false)) := ⟨3, by decide +kernel⟩

/-- C48: on an ascending list the radii kept are exactly those up to the effective radius. -/
theorem C48_truncated [LinearOrder K] (rads : List K) (hs : rads.Pairwise (· ≤ ·)) (eff : K) :
    truncateTo rads eff = rads.filter fun r => decide (r ≤ eff) := by
  unfold truncateTo
  induction rads with
  | nil => rfl
  | cons a l ih =>
    rw [List.pairwise_cons] at hs
    by_cases h : a ≤ eff
    · rw [List.takeWhile_cons_of_pos (by simpa using h), List.filter_cons_of_pos (by simpa using h), ih hs.2]
    · rw [List.takeWhile_cons_of_neg (by simpa using h), List.filter_cons_of_neg (by simpa using h), eq_comm, List.filter_eq_nil_iff]
      intro b hb
      simpa using lt_of_lt_of_le (not_le.1 h) (hs.1 b hb)

theorem C48_nonvacuous : LoopStops (lineBody ([1, 2, 3, 4, 5, 6] : List ℚ) (fun r => decide (4 ≤ r))) (1, 5) (.ok (2, 3, false)) :=
  ⟨4, by decide +kernel⟩

/-! ### C49 -/

/-- C49 for the narrow-passage trial, for the rows of sample sizes with a connection (always so for k-NN): one value for each of the
twelve columns, and each column has the value it is named after. Missing: the row for no connections, see `C49_short_row_false`. -/
theorem C49_narrow_partial (t : PrmType) (dim : ℕ) (δ : K) (seed : ℤ) (n : ℕ) (r : Round K) (f : Found K) (row : List (Val K))
    (hconn : t = .knn ∨ r.conns ≠ []) (h : narrowRow t dim δ seed n r f = .ok row) :
    row.length = narrowColumns.length ∧ cell narrowColumns row "prm_type" = some (.str t.name) ∧
      cell narrowColumns row "dim" = some (.int dim) ∧ cell narrowColumns row "delta_clearance" = some (.num δ) ∧
      cell narrowColumns row "n_samples" = some (.int n) ∧
      (∀ i : ℕ, f.lb = some (i : ℤ) → ∃ c, r.conns[i]? = some c ∧ cell narrowColumns row "conn_lb" = some (.num c)) ∧
      (∀ i : ℕ, f.ub = some (i : ℤ) → ∃ c, r.conns[i]? = some c ∧ cell narrowColumns row "conn_ub" = some (.num c)) ∧
      (f.lb = none → cell narrowColumns row "conn_lb" = some .nan) ∧ (f.ub = none → cell narrowColumns row "conn_ub" = some .nan) ∧
      (f.path = none → cell narrowColumns row "thresh_path_dist" = some .nan ∧ cell narrowColumns row "thresh_path_len" = some .nan) ∧
      (∀ p, f.path = some p → cell narrowColumns row "thresh_path_dist" = some (.num p.1) ∧
        cell narrowColumns row "thresh_path_len" = some (.int p.2)) ∧
      cell narrowColumns row "build_time" = some (.num r.buildTime) ∧ cell narrowColumns row "check_time" = some (.num r.checkTime) ∧
      cell narrowColumns row "info" = some (.str f.info) ∧ cell narrowColumns row "seed" = some (.int seed) := by
  unfold narrowRow at h
  rw [if_neg] at h
  swap
  · rintro ⟨rfl, h0⟩
    rcases hconn with hc | hc
    · cases hc
    · exact hc (List.length_eq_zero_iff.1 h0)
  have hat : ∀ (i : ℕ) (v : Val K), connAt r.conns (some (i : ℤ)) = .ok v → ∃ c, r.conns[i]? = some c ∧ v = .num c := by
    intro i v hv
    unfold connAt at hv
    simp only at hv
    cases hc : r.conns[i]? with
    | none =>
      rw [pyGet_none _ _ (List.getElem?_eq_none_iff.1 hc)] at hv
      cases hv
    | some c =>
      rw [pyGet_nat _ _ _ hc] at hv
      cases hv
      exact ⟨c, rfl, rfl⟩
  cases hlo : connAt r.conns f.lb with
  | error e => rw [hlo] at h; cases h
  | ok lo =>
    cases hhi : connAt r.conns f.ub with
    | error e => rw [hlo, hhi] at h; cases h
    | ok hi =>
      rw [hlo, hhi] at h
      simp only [bind, pure, Except.bind, Except.pure, Except.ok.injEq] at h
      subst h
      refine ⟨rfl, rfl, rfl, rfl, rfl, ?_, ?_, ?_, ?_, ?_, ?_, rfl, rfl, rfl, rfl⟩
      · intro i hi
        rw [hi] at hlo
        obtain ⟨c, hc, rfl⟩ := hat i lo hlo
        exact ⟨c, hc, rfl⟩
      · intro i hi'
        rw [hi'] at hhi
        obtain ⟨c, hc, rfl⟩ := hat i hi hhi
        exact ⟨c, hc, rfl⟩
      · intro hn
        rw [hn] at hlo
        cases hlo
        rfl
      · intro hn
        rw [hn] at hhi
        cases hhi
        rfl
      · intro hn
        rw [hn]
        exact ⟨rfl, rfl⟩
      · intro p hp
        rw [hp]
        exact ⟨rfl, rfl⟩

/-- Rows with one value per column make a table of exactly these rows. -/
theorem C49_table {V : Type} (columns : List String) (rows : List (List V)) (h : ∀ r ∈ rows, r.length = columns.length) :
    dataFrame columns rows = .ok (rows.map (·.map some)) := by
  unfold dataFrame
  by_cases h0 : rows = []
  · rw [if_pos h0, h0]; rfl
  · rw [if_neg h0]
    have hw : (rows.map List.length).foldl max 0 = columns.length := by
      have : ∀ (ls : List (List V)) (a : ℕ), a ≤ columns.length → (∀ r ∈ ls, r.length = columns.length) →
          (ls.map List.length).foldl max a = if ls = [] then a else columns.length := by
        intro ls
        induction ls with
        | nil => intro a _ _; rfl
        | cons r ls ih =>
          intro a ha hls
          rw [List.map_cons, List.foldl_cons, hls r (by simp), Nat.max_eq_right ha,
            ih _ (le_refl _) (fun r hr => hls r (List.mem_cons_of_mem _ hr))]
          simp
      rw [this rows 0 (Nat.zero_le _) h, if_neg h0]
    simp only [hw, ne_eq, not_true_eq_false, if_false]
    congr 1
    apply List.map_congr_left
    intro r hr
    rw [h r hr]
    simp

/-- C49 is false: the row for no connections has ten values. On its own it makes the construction of the table raise. -/
theorem C49_short_row_false (dim : ℕ) (δ : K) (seed : ℤ) (n : ℕ) (solve : K → Option (K × ℕ)) (bt ct : K) (f : Found K) :
    ∃ row, narrowRow .radius dim δ seed n ⟨[], solve, bt, ct⟩ f = .ok row ∧ row.length = 10 ∧ narrowColumns.length = 12 ∧
      dataFrame narrowColumns [row] = .error .value := by
  refine ⟨_, rfl, rfl, rfl, rfl⟩

/-- C49 is false in a second way: if another row of the trial is complete, the table is made, with the values in the wrong columns: the
building time is recorded as path length, the remark as building time, the seed as checking time. -/
theorem C49_misplaced_false (dim : ℕ) (δ : K) (seed : ℤ) (n : ℕ) (solve : K → Option (K × ℕ)) (bt ct : K) (f : Found K) (other : List (Val K))
    (ho : other.length = 12) :
    ∃ row row' rest, narrowRow .radius dim δ seed n ⟨[], solve, bt, ct⟩ f = .ok row ∧
      dataFrame narrowColumns [row, other] = .ok (row' :: rest) ∧
      cell narrowColumns row' "thresh_path_dist" = some (some (.num bt)) ∧
      cell narrowColumns row' "build_time" = some (some (.str "no connections made")) ∧
      cell narrowColumns row' "check_time" = some (some (.int seed)) ∧ cell narrowColumns row' "seed" = some none := by
  refine ⟨_, [some (.str "radius"), some (.int dim), some (.num δ), some (.int n), some .nan, some .nan, some (.num bt), some (.int 0),
    some (.str "no connections made"), some (.int seed), none, none], [other.map some], rfl, ?_, rfl, rfl, rfl, rfl⟩
  unfold dataFrame
  simp [narrowColumns, PrmType.name, List.replicate, ho]

/-- The k-NN trial: every row has one value for each of the seven columns. -/
theorem C49_knn [LinearOrder K] (dim : ℕ) (δ : K) (seed : ℤ) (s : ℕ) (dists : List (List K)) (bt : K) (sched : List ℕ) (rows : List (List (Val K)))
    (h : knnRows dim δ seed s dists bt sched = .ok rows) : ∀ r ∈ rows, r.length = knnColumns.length := by
  induction sched generalizing rows with
  | nil =>
    unfold knnRows at h
    cases h
    intro r hr
    simp at hr
  | cons nn rest ih =>
    unfold knnRows at h
    split at h
    · cases h
      intro r hr
      simp at hr
    · cases h1 : column dists ((nn : ℤ) - 1) with
      | error e => rw [h1] at h; cases h
      | ok col =>
        cases h2 : minOf col with
        | error e => rw [h1] at h; simp only [bind, Except.bind, h2] at h; cases h
        | ok eff =>
          cases h3 : knnRows dim δ seed s dists bt rest with
          | error e => rw [h1] at h; simp only [bind, Except.bind, h2, h3] at h; cases h
          | ok more =>
            rw [h1] at h
            simp only [bind, pure, Except.bind, Except.pure, h2, h3, Except.ok.injEq] at h
            subst h
            intro r hr
            rw [List.mem_cons] at hr
            rcases hr with rfl | hr
            · rfl
            · exact ih more h3 r hr

theorem C49_nonvacuous : (narrowRow .radius 2 (1/4 : ℚ) 7 10 ⟨[1, 2, 3], fun _ => none, 5, 6⟩ ⟨some 1, some 2, some (9, 4), ""⟩) =
    .ok [.str "radius", .int 2, .num (1/4), .int 10, .num 2, .num 3, .num 9, .int 4, .num 5, .num 6, .str "", .int 7] := by
  decide +kernel

/-! ### C62: the tolerance of the straight-line trial -/

/-- C62: for `0 < x ≤ 1` the tolerance computed from `y = (1 + x) / √(1 + x²)` is `x`. -/
theorem C62_inverts (x : ℝ) (hx : 0 < x) (hx1 : x ≤ 1) : epsilonTol ((1 + x) / Real.sqrt (1 + x ^ 2)) = x := by
  have hpos : 0 < 1 + x ^ 2 := by positivity
  have hy2 : ((1 + x) / Real.sqrt (1 + x ^ 2)) ^ 2 = (1 + x) ^ 2 / (1 + x ^ 2) := by rw [div_pow, Real.sq_sqrt hpos.le]
  have hy4 : ((1 + x) / Real.sqrt (1 + x ^ 2)) ^ 4 = ((1 + x) ^ 2 / (1 + x ^ 2)) ^ 2 := by rw [← hy2]; ring
  unfold epsilonTol
  rw [hy4, hy2]
  have hs : 2 * ((1 + x) ^ 2 / (1 + x ^ 2)) - ((1 + x) ^ 2 / (1 + x ^ 2)) ^ 2 = ((1 - x ^ 2) / (1 + x ^ 2)) ^ 2 := by
    field_simp
    ring
  have hnn : 0 ≤ (1 - x ^ 2) / (1 + x ^ 2) := div_nonneg (by nlinarith) hpos.le
  rw [hs, Real.sqrt_sq hnn]
  have hd : (1 + x) ^ 2 / (1 + x ^ 2) - 1 = 2 * x / (1 + x ^ 2) := by
    field_simp
    ring
  have hn : 1 - (1 - x ^ 2) / (1 + x ^ 2) = 2 * x ^ 2 / (1 + x ^ 2) := by
    field_simp
    ring
  rw [hd, hn]
  field_simp

/-- C62 the other way round: for `1 < y ≤ √2` the computed tolerance `x` is in `(0, 1]` and gives `y` back. -/
theorem C62_solves (y : ℝ) (hy : 1 < y) (hy2 : y ^ 2 ≤ 2) :
    0 < epsilonTol y ∧ epsilonTol y ≤ 1 ∧ (1 + epsilonTol y) / Real.sqrt (1 + epsilonTol y ^ 2) = y := by
  set u := y ^ 2 with hu
  have hu1 : 1 < u := by rw [hu]; nlinarith
  have hy4 : y ^ 4 = u ^ 2 := by rw [hu]; ring
  set s := Real.sqrt (2 * u - u ^ 2) with hs
  have hnn : 0 ≤ 2 * u - u ^ 2 := by nlinarith
  have hs0 : 0 ≤ s := Real.sqrt_nonneg _
  have hss : s ^ 2 = 2 * u - u ^ 2 := Real.sq_sqrt hnn
  have hx : epsilonTol y = (1 - s) / (u - 1) := by unfold epsilonTol; rw [hy4]
  have hs1 : s < 1 := by nlinarith [sq_nonneg (u - 1)]
  have hx0 : 0 < epsilonTol y := by rw [hx]; exact div_pos (by linarith) (by linarith)
  have hx1 : epsilonTol y ≤ 1 := by
    rw [hx, div_le_one (by linarith)]
    nlinarith
  refine ⟨hx0, hx1, ?_⟩
  have hmul : epsilonTol y * (u - 1) = 1 - s := by rw [hx]; exact div_mul_cancel₀ _ (by linarith)
  set x := epsilonTol y with hxdef
  have hpos : 0 < 1 + x ^ 2 := by positivity
  have hkey : (1 + x) ^ 2 = y ^ 2 * (1 + x ^ 2) := by
    rw [← hu]
    have hq : (u - 1) * x ^ 2 - 2 * x + (u - 1) = 0 := by
      have h1 : s = 1 - x * (u - 1) := by linarith
      have h2 : (1 - x * (u - 1)) ^ 2 = 2 * u - u ^ 2 := by rw [← h1]; exact hss
      have h3 : (u - 1) * ((u - 1) * x ^ 2 - 2 * x + (u - 1)) = 0 := by nlinarith
      rcases mul_eq_zero.1 h3 with h | h
      · linarith
      · exact h
    nlinarith
  rw [div_eq_iff (Real.sqrt_pos.2 hpos).ne']
  have hsq : (y * Real.sqrt (1 + x ^ 2)) ^ 2 = (1 + x) ^ 2 := by rw [mul_pow, Real.sq_sqrt hpos.le, hkey]
  have h1 : 0 ≤ y * Real.sqrt (1 + x ^ 2) := mul_nonneg (by linarith) (Real.sqrt_nonneg _)
  exact ((sq_eq_sq₀ h1 (by linarith)).1 hsq).symm

/-- C62: for a tolerance `0 < x ≤ 1`, the tolerance that the trial computes for the radius of `compute_connection_radius` is `x`. -/
theorem C62_radius {δ x : ℝ} (hδ : 0 < δ) (hx : 0 < x) (hx1 : x ≤ 1) : lineTolerance (Bound.connectionRadius δ x) δ = some x := by
  have hpos : 0 < 1 + x ^ 2 := by positivity
  have hr : 0 < Real.sqrt (1 + x ^ 2) := Real.sqrt_pos.2 hpos
  have hy : Bound.connectionRadius δ x / 2 / δ = (1 + x) / Real.sqrt (1 + x ^ 2) := by
    unfold Bound.connectionRadius
    field_simp
    ring
  have hy2 : ((1 + x) / Real.sqrt (1 + x ^ 2)) ^ 2 = (1 + x) ^ 2 / (1 + x ^ 2) := by rw [div_pow, Real.sq_sqrt hpos.le]
  have hy4 : ((1 + x) / Real.sqrt (1 + x ^ 2)) ^ 4 = ((1 + x) ^ 2 / (1 + x ^ 2)) ^ 2 := by rw [← hy2]; ring
  have hs : 2 * ((1 + x) ^ 2 / (1 + x ^ 2)) - ((1 + x) ^ 2 / (1 + x ^ 2)) ^ 2 = ((1 - x ^ 2) / (1 + x ^ 2)) ^ 2 := by
    field_simp
    ring
  have hd : (1 + x) ^ 2 / (1 + x ^ 2) - 1 = 2 * x / (1 + x ^ 2) := by
    field_simp
    ring
  have hne : 2 * x / (1 + x ^ 2) ≠ 0 := (by positivity : 0 < 2 * x / (1 + x ^ 2)).ne'
  unfold lineTolerance
  dsimp only
  rw [hy, C62_inverts x hx hx1, hy4, hy2, hs, hd, if_neg]
  rintro (h | h)
  · exact absurd h (not_lt.2 (sq_nonneg _))
  · exact hne h

/-- C62 the other way round, partial: a radius above twice the clearance and up to `2 √2` times the clearance gets a tolerance in `(0, 1]` for
which `compute_connection_radius` gives the radius back. Missing: other radii, see `C62_small_false` and `C62_large_false`. -/
theorem C62_tolerance_partial {δ r : ℝ} (hδ : 0 < δ) (h1 : 2 * δ < r) (h2 : r ≤ 2 * Real.sqrt 2 * δ) :
    ∃ x, lineTolerance r δ = some x ∧ 0 < x ∧ x ≤ 1 ∧ Bound.connectionRadius δ x = r := by
  have hy1 : 1 < r / 2 / δ := by rw [lt_div_iff₀ hδ]; linarith
  have hy2 : r / 2 / δ ≤ Real.sqrt 2 := by rw [div_le_iff₀ hδ]; linarith
  have hsq : (r / 2 / δ) ^ 2 ≤ 2 := by
    have := pow_le_pow_left₀ (by linarith) hy2 2
    rwa [Real.sq_sqrt (by norm_num)] at this
  obtain ⟨e1, e2, e3⟩ := C62_solves _ hy1 hsq
  refine ⟨epsilonTol (r / 2 / δ), ?_, e1, e2, ?_⟩
  · unfold lineTolerance
    dsimp only
    rw [if_neg]
    rintro (h | h)
    · nlinarith [sq_nonneg (r / 2 / δ)]
    · nlinarith
  · have : Bound.connectionRadius δ (epsilonTol (r / 2 / δ)) = 2 * δ * ((1 + epsilonTol (r / 2 / δ)) / Real.sqrt (1 + epsilonTol (r / 2 / δ) ^ 2)) := by
      unfold Bound.connectionRadius
      ring
    rw [this, e3]
    field_simp

/-- C62, small radii: false that the trial checks with a tolerance. A positive radius below twice the clearance gets a negative one. -/
theorem C62_small_false {δ r : ℝ} (hδ : 0 < δ) (h0 : 0 < r) (h1 : r < 2 * δ) : ∃ x, lineTolerance r δ = some x ∧ x < 0 := by
  have hy0 : 0 < r / 2 / δ := by positivity
  have hy1 : r / 2 / δ < 1 := by rw [div_lt_iff₀ hδ]; linarith
  set y := r / 2 / δ with hy
  have hu0 : 0 < y ^ 2 := by positivity
  have hu1 : y ^ 2 < 1 := by nlinarith
  have h4 : y ^ 4 = (y ^ 2) ^ 2 := by ring
  refine ⟨epsilonTol y, ?_, ?_⟩
  · unfold lineTolerance
    dsimp only
    rw [← hy, if_neg]
    rintro (h | h)
    · rw [h4] at h; nlinarith
    · linarith
  · unfold epsilonTol
    refine div_neg_of_pos_of_neg ?_ (by linarith)
    have : Real.sqrt (2 * y ^ 2 - y ^ 4) < 1 := by
      rw [Real.sqrt_lt' one_pos, h4]
      nlinarith [sq_pos_of_pos (sub_pos.2 hu1)]
    linarith

/-- C62, large radii: with a radius above `2 √2` times the clearance the tolerance is `nan`. -/
theorem C62_large_false {δ r : ℝ} (hδ : 0 < δ) (h1 : 2 * Real.sqrt 2 * δ < r) : lineTolerance r δ = none := by
  have hy : Real.sqrt 2 < r / 2 / δ := by rw [lt_div_iff₀ hδ]; linarith
  have hsq : 2 < (r / 2 / δ) ^ 2 := by
    have := pow_lt_pow_left₀ hy (Real.sqrt_nonneg 2) (by norm_num : (2 : ℕ) ≠ 0)
    rwa [Real.sq_sqrt (by norm_num)] at this
  have h4 : (r / 2 / δ) ^ 4 = ((r / 2 / δ) ^ 2) ^ 2 := by ring
  exact if_pos (.inl (by rw [h4]; nlinarith))

/-- C62 is not vacuous. -/
theorem C62_nonvacuous : epsilonTol ((1 + 1 / 2) / Real.sqrt (1 + (1 / 2) ^ 2)) = 1 / 2 ∧
    lineTolerance (Bound.connectionRadius 3 (1 / 2)) 3 = some (1 / 2) :=
  ⟨C62_inverts (1 / 2) (by norm_num) (by norm_num), C62_radius (by norm_num) (by norm_num) (by norm_num)⟩

/-! ### C63: the k-NN trial -/

/-- C63: with an ascending schedule of positive neighbour counts none of which equals the number of samples, and a distance table with
a row of `k` entries for each of the samples, every count below the number of samples is recorded once, in order, with the smallest
distance to the neighbour of that number; nothing else is recorded. Missing: a count equal to the number of samples, see
`C63_equal_count_false`. -/
theorem C63_effective_radius_partial [LinearOrder K] (dim : ℕ) (δ : K) (seed : ℤ) (sched : List ℕ) (hsorted : sched.Pairwise (· ≤ ·))
    (hpos : ∀ nn ∈ sched, 1 ≤ nn) (s : ℕ) (hne : s ∉ sched) (hsome : ∃ nn ∈ sched, nn < s) (graph : ℕ → List (List K))
    (hgraph : ∀ k < s, (graph k).length = s ∧ ∀ r ∈ graph k, r.length = k) (bt : K) :
    ∃ k rows, k ∈ sched ∧ k < s ∧ knnRound dim δ seed sched s graph bt = .ok rows ∧
      List.Forall₂ (fun nn row => ∃ eff, row = [.int dim, .int s, .int nn, .num eff, .num bt, .num δ, .int seed] ∧
        (∀ r ∈ graph k, ∃ d, r[nn - 1]? = some d ∧ eff ≤ d) ∧ ∃ r ∈ graph k, r[nn - 1]? = some eff)
        (sched.filter fun nn => decide (nn < s)) rows := by
  have hmax : ∃ k, maxOf (sched.filter fun nn => decide (nn < s)) = .ok k ∧ k ∈ sched ∧ k < s ∧ ∀ nn ∈ sched, nn < s → nn ≤ k := by
    obtain ⟨nn0, hn0, hlt0⟩ := hsome
    cases hf : sched.filter fun nn => decide (nn < s) with
    | nil =>
      rw [List.filter_eq_nil_iff] at hf
      exact absurd (by simpa using hlt0) (hf nn0 hn0)
    | cons a l =>
      have hfold : ∀ (l : List ℕ) (a : ℕ), (l.foldl max a ∈ a :: l) ∧ ∀ b ∈ a :: l, b ≤ l.foldl max a := by
        intro l
        induction l with
        | nil => intro a; simp
        | cons b l ih =>
          intro a
          rw [List.foldl_cons]
          obtain ⟨h1, h2⟩ := ih (max a b)
          constructor
          · rw [List.mem_cons] at h1
            rcases h1 with h1 | h1
            · rw [h1]
              rcases max_choice a b with h | h <;> rw [h] <;> simp
            · simp [h1]
          · intro c hc
            rw [List.mem_cons, List.mem_cons] at hc
            rcases hc with rfl | rfl | hc
            · exact (le_max_left _ b).trans (h2 _ (by simp))
            · exact (le_max_right a _).trans (h2 _ (by simp))
            · exact h2 c (List.mem_cons_of_mem _ hc)
      obtain ⟨h1, h2⟩ := hfold l a
      rw [← hf] at h1 h2
      rw [List.mem_filter] at h1
      refine ⟨l.foldl max a, rfl, h1.1, by simpa using h1.2, ?_⟩
      intro nn hnn hlt
      exact h2 nn (List.mem_filter.2 ⟨hnn, by simpa using hlt⟩)
  obtain ⟨k, hk, hk1, hk2, hk3⟩ := hmax
  obtain ⟨hrows, hrow⟩ := hgraph k hk2
  have hcol : ∀ nn, 1 ≤ nn → nn ≤ k → ∃ col, column (graph k) ((nn : ℤ) - 1) = .ok col ∧
      List.Forall₂ (fun r d => r[nn - 1]? = some d) (graph k) col := by
    intro nn h1 h2
    unfold column
    clear hrows
    revert hrow
    generalize graph k = rows
    intro hrow
    induction rows with
    | nil => exact ⟨[], rfl, List.Forall₂.nil⟩
    | cons r rows ih =>
      obtain ⟨col, hcol, hall⟩ := ih (fun r hr => hrow r (List.mem_cons_of_mem _ hr))
      have hr : nn - 1 < r.length := by rw [hrow r (by simp)]; omega
      have hg := List.getElem?_eq_getElem hr
      have hp : pyGet r ((nn : ℤ) - 1) = .ok r[nn - 1] := by
        have : (nn : ℤ) - 1 = ((nn - 1 : ℕ) : ℤ) := by omega
        rw [this]
        exact pyGet_nat _ _ _ hg
      refine ⟨r[nn - 1] :: col, ?_, List.Forall₂.cons hg hall⟩
      rw [List.mapM_cons, hp, hcol]
      rfl
  have hmin : ∀ col : List K, col ≠ [] → ∃ eff, minOf col = .ok eff ∧ eff ∈ col ∧ ∀ d ∈ col, eff ≤ d := by
    intro col hc
    cases col with
    | nil => exact absurd rfl hc
    | cons a l =>
      have hfold : ∀ (l : List K) (a : K), (l.foldl min a ∈ a :: l) ∧ ∀ b ∈ a :: l, l.foldl min a ≤ b := by
        intro l
        induction l with
        | nil => intro a; simp
        | cons b l ih =>
          intro a
          rw [List.foldl_cons]
          obtain ⟨h1, h2⟩ := ih (min a b)
          constructor
          · rw [List.mem_cons] at h1
            rcases h1 with h1 | h1
            · rw [h1]
              rcases min_choice a b with h | h <;> rw [h] <;> simp
            · simp [h1]
          · intro c hc
            rw [List.mem_cons, List.mem_cons] at hc
            rcases hc with rfl | rfl | hc
            · exact (h2 _ (by simp)).trans (min_le_left _ b)
            · exact (h2 _ (by simp)).trans (min_le_right a _)
            · exact h2 c (List.mem_cons_of_mem _ hc)
      exact ⟨_, rfl, (hfold l a).1, (hfold l a).2⟩
  have hloop : ∀ sched' : List ℕ, sched'.Pairwise (· ≤ ·) → (∀ nn ∈ sched', nn ∈ sched) →
      ∃ rows, knnRows dim δ seed s (graph k) bt sched' = .ok rows ∧
      List.Forall₂ (fun nn row => ∃ eff, row = [.int dim, .int s, .int nn, .num eff, .num bt, .num δ, .int seed] ∧
        (∀ r ∈ graph k, ∃ d, r[nn - 1]? = some d ∧ eff ≤ d) ∧ ∃ r ∈ graph k, r[nn - 1]? = some eff)
        (sched'.filter fun nn => decide (nn < s)) rows := by
    intro sched'
    induction sched' with
    | nil => intro _ _; exact ⟨[], rfl, List.Forall₂.nil⟩
    | cons nn rest ih =>
      intro hs hin
      rw [List.pairwise_cons] at hs
      have hnn := hin nn (by simp)
      by_cases hgt : nn > s
      · refine ⟨[], by unfold knnRows; rw [if_pos hgt], ?_⟩
        rw [List.filter_eq_nil_iff.2]
        · exact List.Forall₂.nil
        · intro b hb
          rw [List.mem_cons] at hb
          rcases hb with rfl | hb
          · simp; omega
          · have := hs.1 b hb
            simp; omega
      · have hlt : nn < s := lt_of_le_of_ne (not_lt.1 hgt) (fun h => hne (h ▸ hnn))
        obtain ⟨more, hmore, hall⟩ := ih hs.2 (fun b hb => hin b (List.mem_cons_of_mem _ hb))
        obtain ⟨col, hc, hca⟩ := hcol nn (hpos nn hnn) (hk3 nn hnn hlt)
        have hcne : col ≠ [] := by
          intro h0
          have := hca.length_eq
          rw [h0, hrows] at this
          simp at this
          omega
        obtain ⟨eff, he, hmem, hle⟩ := hmin col hcne
        refine ⟨[.int dim, .int s, .int nn, .num eff, .num bt, .num δ, .int seed] :: more, ?_, ?_⟩
        · unfold knnRows
          rw [if_neg hgt, hc]
          simp only [bind, pure, Except.bind, Except.pure, he, hmore]
        · rw [List.filter_cons_of_pos (by simpa using hlt)]
          refine List.Forall₂.cons ⟨eff, rfl, ?_, ?_⟩ hall
          · clear * - hca hle
            generalize graph k = rows at *
            induction hca with
            | nil => intro r hr; simp at hr
            | @cons r d rows col h _ ih =>
              intro r' hr'
              rw [List.mem_cons] at hr'
              rcases hr' with rfl | hr'
              · exact ⟨d, h, hle d (by simp)⟩
              · exact ih (fun d hd => hle d (List.mem_cons_of_mem _ hd)) r' hr'
          · clear * - hca hmem
            generalize graph k = rows at *
            induction hca with
            | nil => simp at hmem
            | @cons r d rows col h _ ih =>
              rw [List.mem_cons] at hmem
              rcases hmem with rfl | hmem
              · exact ⟨r, by simp, h⟩
              · obtain ⟨r', hr', h'⟩ := ih hmem
                exact ⟨r', List.mem_cons_of_mem _ hr', h'⟩
  obtain ⟨rows, h1, h2⟩ := hloop sched hsorted (fun _ h => h)
  refine ⟨k, rows, hk1, hk2, ?_, h2⟩
  unfold knnRound
  rw [hk]
  exact h1

/-- C63: when the trial gets through. With an ascending schedule of positive neighbour counts and a distance table with a row of `k` entries for each of the samples, rows
are recorded exactly if no scheduled count equals the number of samples and some count is smaller; in all other cases the trial raises and everything is lost. -/
theorem C63_exact [LinearOrder K] (dim : ℕ) (δ : K) (seed : ℤ) (sched : List ℕ) (hsorted : sched.Pairwise (· ≤ ·))
    (hpos : ∀ nn ∈ sched, 1 ≤ nn) (s : ℕ) (graph : ℕ → List (List K))
    (hgraph : ∀ k < s, (graph k).length = s ∧ ∀ r ∈ graph k, r.length = k) (bt : K) :
    (∃ rows, knnRound dim δ seed sched s graph bt = .ok rows) ↔ s ∉ sched ∧ ∃ nn ∈ sched, nn < s := by
  constructor
  · rintro ⟨rows, h⟩
    have hsome : ∃ nn ∈ sched, nn < s := by
      by_contra hc
      push Not at hc
      have : sched.filter (fun nn => decide (nn < s)) = [] := by
        rw [List.filter_eq_nil_iff]
        intro a ha
        simpa using hc a ha
      unfold knnRound at h
      rw [this] at h
      cases h
    refine ⟨fun hmem => ?_, hsome⟩
    unfold knnRound at h
    cases hm : maxOf (sched.filter fun nn => decide (nn < s)) with
    | error e => rw [hm] at h; cases h
    | ok k =>
      rw [hm] at h
      replace h : knnRows dim δ seed s (graph k) bt sched = .ok rows := h
      have hk : k < s := by
        cases hf : sched.filter fun nn => decide (nn < s) with
        | nil => rw [hf] at hm; cases hm
        | cons a l =>
          rw [hf] at hm
          have hb : ∀ b ∈ a :: l, b < s := by
            intro b hb
            rw [← hf, List.mem_filter] at hb
            simpa using hb.2
          have : ∀ (l : List ℕ) (a : ℕ), (∀ b ∈ a :: l, b < s) → l.foldl max a < s := by
            intro l
            induction l with
            | nil => intro a h; exact h a (by simp)
            | cons b l ih =>
              intro a h
              rw [List.foldl_cons]
              refine ih _ fun c hc => ?_
              rcases List.mem_cons.1 hc with rfl | hc
              · exact max_lt (h a (by simp)) (h b (by simp))
              · exact h c (by simp [hc])
          have e : l.foldl max a = k := by injection hm
          rw [← e]
          exact this l a hb
      obtain ⟨hrows, hrow⟩ := hgraph k hk
      have hbad : ∃ e, column (graph k) ((s : ℤ) - 1) = .error e := by
        unfold column
        cases hg : graph k with
        | nil => rw [hg] at hrows; simp at hrows; omega
        | cons r rest =>
          have : pyGet r ((s : ℤ) - 1) = .error .index := by
            have e : (s : ℤ) - 1 = ((s - 1 : ℕ) : ℤ) := by omega
            rw [e]
            exact pyGet_none _ _ (by rw [hrow r (by rw [hg]; simp)]; omega)
          exact ⟨.index, by rw [List.mapM_cons, this]; rfl⟩
      have hloop : ∀ l : List ℕ, l.Pairwise (· ≤ ·) → s ∈ l → ∀ rows, knnRows dim δ seed s (graph k) bt l ≠ .ok rows := by
        intro l
        induction l with
        | nil => intro _ hm; simp at hm
        | cons nn rest ih =>
          intro hs hm rows hr
          rw [List.pairwise_cons] at hs
          unfold knnRows at hr
          have hle : ¬ nn > s := by
            rcases List.mem_cons.1 hm with rfl | hm
            · omega
            · have := hs.1 s hm
              omega
          rw [if_neg hle] at hr
          rcases List.mem_cons.1 hm with rfl | hm
          · obtain ⟨e, he⟩ := hbad
            rw [he] at hr
            cases hr
          · cases hc : column (graph k) ((nn : ℤ) - 1) with
            | error e => rw [hc] at hr; cases hr
            | ok col =>
              rw [hc] at hr
              cases hmin : minOf col with
              | error e => simp only [bind, Except.bind, hmin] at hr; cases hr
              | ok eff =>
                cases hmore : knnRows dim δ seed s (graph k) bt rest with
                | error e => simp only [bind, Except.bind, hmin, hmore] at hr; cases hr
                | ok more => exact ih hs.2 hm more hmore
      exact hloop sched hsorted hmem rows h
  · rintro ⟨hne, hsome⟩
    obtain ⟨_, rows, _, _, h, _⟩ := C63_effective_radius_partial dim δ seed sched hsorted hpos s hne hsome graph hgraph bt
    exact ⟨rows, h⟩

/-- C63 is false: a neighbour count equal to the number of samples passes the test of the loop but has no column: IndexError, and the
whole trial is lost. -/
theorem C63_equal_count_false (dim : ℕ) (δ : ℚ) (seed : ℤ) (bt : ℚ) (graph : ℕ → List (List ℚ))
    (hgraph : graph 2 = [[1, 2], [1, 2], [1, 2], [1, 2]]) : knnRound dim δ seed [2, 4] 4 graph bt = .error .index := by
  have h : maxOf (([2, 4] : List ℕ).filter fun nn => decide (nn < 4)) = .ok 2 := by decide
  unfold knnRound
  rw [h]
  show knnRows dim δ seed 4 (graph 2) bt [2, 4] = .error .index
  rw [hgraph]
  rfl

theorem C63_nonvacuous : knnRound 2 (1/2 : ℚ) 7 [1, 2, 8] 4 (fun k => [[1, 2, 3], [2, 3, 4], [1, 4, 5], [2, 5, 6]].map (·.take k)) 3 =
    .ok [[.int 2, .int 4, .int 1, .num 1, .num 3, .num (1/2), .int 7], [.int 2, .int 4, .int 2, .num 2, .num 3, .num (1/2), .int 7]] := by
  decide +kernel

end Verif.Props
