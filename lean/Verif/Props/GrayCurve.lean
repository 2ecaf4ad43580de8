import Mathlib.Algebra.Order.BigOperators.Group.Finset
import Mathlib.Algebra.BigOperators.Ring.Finset
import Mathlib.Algebra.Order.BigOperators.Ring.Finset
import Mathlib.Data.Rat.Floor
import Mathlib.Data.Fin.VecNotation
import Mathlib.Tactic.FinCases
import Mathlib.Tactic.NormNum
import Mathlib.Tactic.Linarith
import Mathlib.Tactic.Ring
import Verif.Lemmas.GrayEnds

/-!
Property C22: the optimal curve of `GrayCodeWalls`.
-/

set_option linter.unusedSectionVars false

namespace Verif.Props

open Verif.Gray Verif.Spec

variable {K : Type*} [Field K] [LinearOrder K] [IsStrictOrderedRing K] [FloorRing K] {n : ℕ}

theorem curve_leg {length : ℕ} {th : K} {e : GrayCodeWalls K n} (h : GrayCodeWalls.init n length th = .ok e)
    {t : K} (hend : 2 ≤ n ∨ length % 2 = 0 ∨ t * ((e.cubes.length : K) - 1) ≤ (e.cubes.length : K) - 3 / 2) (h0 : 0 ≤ t) (h1 : t ≤ 1) {k : ℕ} {c c' : Fin (n + 1) → ℤ}
    (hc : e.cubes[k]? = some c) (hc' : e.cubes[k + 1]? = some c')
    (hk : (k : K) ≤ t * ((e.cubes.length : K) - 1)) (hk' : t * ((e.cubes.length : K) - 1) ≤ (k : K) + 1) :
    curvePoint e t = .ok fun i => (c i : K) + 1 / 2 + (t * ((e.cubes.length : K) - 1) - k) * ((c' i : K) - (c i : K)) := by
  obtain ⟨hn, hlen, hcubes, -, -, -, -, -, harc⟩ := init_ok h
  obtain ⟨m, rfl⟩ : ∃ m, n = m + 1 := ⟨n - 1, by omega⟩
  obtain ⟨L, rfl⟩ : ∃ L, length = L + 1 := ⟨length - 1, by omega⟩
  have hnd : e.cubes.Nodup := by rw [hcubes]; exact order_nodup _ _
  have hNlen : e.cubes.length = (L + 1) * 2 ^ (m + 1) := by rw [hcubes, order_length]
  have harc' : e.curveArclength = (e.cubes.length : K) - 1 := by rw [harc, hNlen]
  have hkN : k + 1 < e.cubes.length := (List.getElem?_eq_some_iff.1 hc').1
  unfold curvePoint
  rw [max_eq_left h0, min_eq_left h1, harc']
  set N := e.cubes.length with hN
  set T := t * ((N : K) - 1) with hT
  -- the first half leg
  have first : T ≤ 1 / 2 → (Except.ok fun i => if i = Fin.last (m + 1) then 1 / 2 + T else 1 / 2 :
      Except PyErr (Fin (m + 1 + 1) → K)) = .ok fun i => (c i : K) + 1 / 2 + (T - k) * ((c' i : K) - (c i : K)) := by
    intro hle
    have hk0 : k = 0 := by
      have : (k : K) < 1 := lt_of_le_of_lt hk (lt_of_le_of_lt hle (by norm_num))
      have : k < 1 := by exact_mod_cast this
      omega
    subst hk0
    have e0 : c = 0 := by
      have := order_get0 (m + 1) L
      rw [← hcubes, hc] at this; injection this
    have e1 : c' = lastUnit (m + 1) := by
      have := order_get1 m L
      rw [← hcubes, hc'] at this; injection this
    congr 1
    funext i
    rw [e0, e1]
    simp only [lastUnit, Pi.zero_apply]
    split <;> simp
  by_cases hT0 : T ≤ 0
  · simp only [if_pos hT0]
    exact first (by linarith [show (0 : K) ≤ 1 / 2 by norm_num])
  · simp only [if_neg hT0]
    push Not at hT0
    have hceil : ∀ z : ℤ, ⌈T / (1 / 2)⌉ = z → ((z : K) - 1) / 2 < T ∧ T ≤ (z : K) / 2 := by
      intro z hz
      rw [Int.ceil_eq_iff] at hz
      have e : T / (1 / 2) = 2 * T := by ring
      rw [e] at hz
      constructor <;> linarith [hz.1, hz.2]
    set z := ⌈T / (1 / 2)⌉ with hz
    obtain ⟨b1, b2⟩ := hceil z rfl
    have zlo : 2 * (k : ℤ) ≤ z := by
      have : (2 * (k : ℤ) : K) ≤ (z : K) := by push_cast; linarith
      exact_mod_cast this
    have zhi : z ≤ 2 * (k : ℤ) + 2 := by
      have : (z : K) < ((2 * (k : ℤ) + 3 : ℤ) : K) := by push_cast; linarith
      have : z < 2 * (k : ℤ) + 3 := by exact_mod_cast this
      omega
    have zpos : 0 < z := by
      have : (0 : K) < (z : K) := by linarith
      exact_mod_cast this
    by_cases hz1 : z = 1
    · rw [if_pos hz1]
      apply first
      rw [hz1] at b2
      simpa using b2
    · rw [if_neg hz1]
      by_cases hzl : z = 1 + 2 * ((N : ℤ) - 2) + 1
      · rw [if_pos hzl]
        have hend' : 1 ≤ m ∨ L % 2 = 1 := by
          rcases hend with hd | hd | hd
          · exact .inl (by omega)
          · exact .inr (by omega)
          · rw [hzl] at b1
            push_cast at b1
            linarith
        obtain ⟨cl, hcl, hcl2⟩ := order_before_last m L hend'
        rw [← hcubes] at hcl hcl2
        rw [← hNlen] at hcl2
        have hkl : k + 2 = N := by omega
        have hzk : z = 2 * (k : ℤ) + 2 := by omega
        have ec' : c' = cl := by
          rw [List.getLast?_eq_getElem?, ← hN] at hcl
          have : N - 1 = k + 1 := by omega
          rw [this, hc'] at hcl; injection hcl
        have ec : c = fun i => cl i + lastUnit (m + 1) i := by
          have : N - 2 = k := by omega
          rw [this, hc] at hcl2; injection hcl2
        simp only [hcl]
        congr 1
        funext i
        rw [hzk, ec, ec']
        push_cast
        by_cases hi : i = Fin.last (m + 1)
        · simp only [lastUnit, if_pos hi]; push_cast; ring
        · simp only [lastUnit, if_neg hi]; push_cast; ring
      · rw [if_neg hzl]
        by_cases hev : z % 2 = 0
        · by_cases hzk : z = 2 * (k : ℤ) + 2
          · have hidx : (z / 2).toNat = k + 1 := by omega
            simp only [hidx, hc', if_pos hev]
            rw [predecessors_eq hnd hc', if_neg (by omega), Nat.add_sub_cancel, hc]
            simp only [Option.toList_some]
            congr 1
            funext i
            rw [hzk]; push_cast; ring
          · have hzk2 : z = 2 * (k : ℤ) := by omega
            have hidx : (z / 2).toNat = k := by omega
            have hk1 : k ≠ 0 := by omega
            have hklt : k - 1 < e.cubes.length := by omega
            simp only [hidx, hc, if_pos hev]
            rw [predecessors_eq hnd hc, if_neg hk1, List.getElem?_eq_getElem hklt]
            simp only [Option.toList_some]
            have hTk : T = k := by
              apply le_antisymm _ hk
              rw [hzk2] at b2; push_cast at b2; linarith
            congr 1
            funext i
            rw [hzk2, hTk]; push_cast; ring
        · have hzk : z = 2 * (k : ℤ) + 1 := by omega
          have hidx : (z / 2).toNat = k := by omega
          simp only [hidx, hc, if_neg hev]
          rw [successors_eq hnd hc, hc']
          simp only [Option.toList_some]
          congr 1
          funext i
          rw [hzk]; push_cast; ring

/-- Every arclength of the curve falls into a leg. -/
theorem exists_leg {l : List (Fin (n + 1) → ℤ)} (hl : 2 ≤ l.length) {T : K} (h0 : 0 ≤ T) (h1 : T ≤ (l.length : K) - 1) :
    ∃ (k : ℕ) (c c' : Fin (n + 1) → ℤ), l[k]? = some c ∧ l[k + 1]? = some c' ∧ (k : K) ≤ T ∧ T ≤ (k : K) + 1 := by
  by_cases hT : T = (l.length : K) - 1
  · refine ⟨l.length - 2, _, _, List.getElem?_eq_getElem (by omega), List.getElem?_eq_getElem (by omega), ?_, ?_⟩
    all_goals rw [hT, Nat.cast_sub hl]; push_cast; linarith
  · have hlt : T < (l.length : K) - 1 := lt_of_le_of_ne h1 hT
    have hk := Int.floor_le T
    have hk' := Int.lt_floor_add_one T
    have hnn : 0 ≤ ⌊T⌋ := Int.floor_nonneg.2 h0
    obtain ⟨k, hkk⟩ := Int.eq_ofNat_of_zero_le hnn
    rw [hkk] at hk hk'
    push_cast at hk hk'
    have : k + 1 < l.length := by
      have : ((k + 1 : ℕ) : K) < (l.length : K) := by push_cast; linarith
      exact_mod_cast this
    exact ⟨k, _, _, List.getElem?_eq_getElem (by omega), List.getElem?_eq_getElem this, hk, hk'.le⟩

theorem nodes_ge {length : ℕ} {th : K} {e : GrayCodeWalls K n} (h : GrayCodeWalls.init n length th = .ok e) :
    2 ≤ e.cubes.length := by
  obtain ⟨hn, hlen, hcubes, -⟩ := init_ok h
  rw [hcubes, order_length]
  calc 2 = 1 * 2 ^ 1 := by norm_num
    _ ≤ length * 2 ^ n := Nat.mul_le_mul hlen (Nat.pow_le_pow_right (by norm_num) hn)

/-- C22 (partial: in dimension two with odd length not within the last half unit, see `C22_curve_false`). The curve is defined for every
parameter and runs at unit speed along the segments between the centres of consecutive cubes. -/
theorem C22_curve_partial {length : ℕ} {th : K} {e : GrayCodeWalls K n} (h : GrayCodeWalls.init n length th = .ok e)
    {t : K} (hend : 2 ≤ n ∨ length % 2 = 0 ∨ t * ((e.cubes.length : K) - 1) ≤ (e.cubes.length : K) - 3 / 2) (h0 : 0 ≤ t) (h1 : t ≤ 1) :
    ∃ x, curvePoint e t = .ok x ∧ OnCentreLine e.cubes (t * ((e.cubes.length : K) - 1)) x := by
  have hN := nodes_ge h
  have hNK : (2 : K) ≤ (e.cubes.length : K) := by exact_mod_cast hN
  obtain ⟨k, c, c', hc, hc', hk, hk'⟩ := exists_leg (K := K) hN (T := t * ((e.cubes.length : K) - 1))
    (mul_nonneg h0 (by linarith)) (by nlinarith)
  refine ⟨_, curve_leg h hend h0 h1 hc hc' hk hk', ?_⟩
  intro k₂ d d' hd hd' hk₂ hk₂'
  have := (curve_leg h hend h0 h1 hc hc' hk hk').symm.trans (curve_leg h hend h0 h1 hd hd' hk₂ hk₂')
  injection this

/-- Parameters outside [0, 1] are clipped. -/
theorem C22_clip (e : GrayCodeWalls K n) (t : K) : curvePoint e t = curvePoint e (min (max t 0) 1) := by
  unfold curvePoint
  have : min (max (min (max t 0) 1) 0) 1 = min (max t 0) 1 := by
    rw [max_eq_left (le_min (le_max_right _ _) zero_le_one), min_eq_left (min_le_right _ _)]
  rw [this]

/-- C22. The curve starts at the start point and ends at the end point (in every dimension and for every length). -/
theorem C22_ends {length : ℕ} {th : K} {e : GrayCodeWalls K n} (h : GrayCodeWalls.init n length th = .ok e) :
    curvePoint e 0 = .ok (startPoint e) ∧ curvePoint e 1 = endPoint e := by
  obtain ⟨hn, hlen, hcubes, -, -, -, -, -, harc⟩ := init_ok h
  have hN := nodes_ge h
  have hNlen : e.cubes.length = length * 2 ^ n := by rw [hcubes, order_length]
  have harc' : e.curveArclength = (e.cubes.length : K) - 1 := by rw [harc, hNlen]
  have hNK : (2 : K) ≤ (e.cubes.length : K) := by exact_mod_cast hN
  constructor
  · unfold curvePoint startPoint
    simp
  · unfold curvePoint endPoint
    have e1 : min (max (1 : K) 0) 1 * e.curveArclength = (e.cubes.length : K) - 1 := by simp [harc']
    have e2 : ⌈((e.cubes.length : K) - 1) / (1 / 2)⌉ = 1 + 2 * ((e.cubes.length : ℤ) - 2) + 1 := by
      have : ((e.cubes.length : K) - 1) / (1 / 2) = ((1 + 2 * ((e.cubes.length : ℤ) - 2) + 1 : ℤ) : K) := by
        push_cast; ring
      rw [this, Int.ceil_intCast]
    simp only [e1, e2]
    rw [if_neg (show ¬ (e.cubes.length : K) - 1 ≤ 0 by linarith), if_neg (by omega), if_pos rfl]
    cases hl : e.cubes.getLast? with
    | none => simp
    | some c =>
      simp only
      congr 1
      funext i
      push_cast
      split <;> ring

/-- Sum of the absolute coordinate differences. On a segment parallel to an axis it is the Euclidean distance. -/
def l1dist (x y : Fin (n + 1) → K) : K := ∑ i, |x i - y i|

theorem l1_adj {c c' : Fin (n + 1) → ℤ} (h : CubeAdj c c') : ∑ i, |((c' i : K) - (c i : K))| = 1 := by
  obtain ⟨j, h1, h2⟩ := h
  rw [Finset.sum_eq_single j]
  · rcases h1 with h1 | h1 <;> rw [h1] <;> push_cast
    · rw [add_sub_cancel_left, abs_one]
    · rw [sub_sub_cancel_left, abs_neg, abs_one]
  · intro i _ hi; rw [h2 i hi]; simp
  · intro hj; exact absurd (Finset.mem_univ j) hj

/-- C22. Unit speed: two parameters on the same leg are mapped to points whose distance is the arclength between them. -/
theorem C22_unit_speed_partial {length : ℕ} {th : K} {e : GrayCodeWalls K n} (h : GrayCodeWalls.init n length th = .ok e)
    {s t : K} (hend : 2 ≤ n ∨ length % 2 = 0 ∨ max s t * ((e.cubes.length : K) - 1) ≤ (e.cubes.length : K) - 3 / 2)
    (hs : 0 ≤ s ∧ s ≤ 1) (ht : 0 ≤ t ∧ t ≤ 1) {k : ℕ}
    (hks : (k : K) ≤ s * ((e.cubes.length : K) - 1) ∧ s * ((e.cubes.length : K) - 1) ≤ (k : K) + 1)
    (hkt : (k : K) ≤ t * ((e.cubes.length : K) - 1) ∧ t * ((e.cubes.length : K) - 1) ≤ (k : K) + 1)
    (hk : k + 1 < e.cubes.length) :
    ∃ x y j, curvePoint e s = .ok x ∧ curvePoint e t = .ok y ∧ (∀ i, i ≠ j → x i = y i) ∧
      |x j - y j| = |s - t| * ((e.cubes.length : K) - 1) := by
  obtain ⟨-, -, hcubes, -⟩ := init_ok h
  have hc := List.getElem?_eq_getElem (l := e.cubes) (i := k) (by omega)
  have hc' := List.getElem?_eq_getElem (l := e.cubes) (i := k + 1) hk
  have hadj : CubeAdj e.cubes[k] e.cubes[k + 1] := by
    have hch : e.cubes.IsChain CubeAdj := by rw [hcubes]; exact order_chain _ _
    exact neighbour_adj hch (Or.inl ⟨k, hc, hc'⟩)
  obtain ⟨j, h1, h2⟩ := hadj
  have hA : (0 : K) ≤ (e.cubes.length : K) - 1 := by
    have : (2 : K) ≤ (e.cubes.length : K) := by exact_mod_cast nodes_ge h
    linarith
  have hes := hend.imp_right (Or.imp_right (le_trans (mul_le_mul_of_nonneg_right (le_max_left s t) hA)))
  have het := hend.imp_right (Or.imp_right (le_trans (mul_le_mul_of_nonneg_right (le_max_right s t) hA)))
  refine ⟨_, _, j, curve_leg h hes hs.1 hs.2 hc hc' hks.1 hks.2, curve_leg h het ht.1 ht.2 hc hc' hkt.1 hkt.2, ?_, ?_⟩
  · intro i hi
    simp only [h2 i hi]; ring
  · have hNK : (2 : K) ≤ (e.cubes.length : K) := by exact_mod_cast nodes_ge h
    have hpos : (0 : K) ≤ (e.cubes.length : K) - 1 := by linarith
    conv_rhs => rw [← abs_of_nonneg hpos, ← abs_mul]
    rcases h1 with h1 | h1
    · rw [h1]; push_cast; congr 1; ring
    · rw [h1]; push_cast; rw [← abs_neg]; congr 1; ring

/-- Two points of one leg. -/
theorem leg_l1 {c c' : Fin (n + 1) → ℤ} (h : CubeAdj c c') (a b : K) :
    l1dist (fun i => (c i : K) + 1 / 2 + a * ((c' i : K) - (c i : K))) (fun i => (c i : K) + 1 / 2 + b * ((c' i : K) - (c i : K)))
      = |a - b| := by
  unfold l1dist
  have : ∀ i, |((c i : K) + 1 / 2 + a * ((c' i : K) - (c i : K))) - ((c i : K) + 1 / 2 + b * ((c' i : K) - (c i : K)))|
      = |a - b| * |(c' i : K) - (c i : K)| := by
    intro i; rw [← abs_mul]; congr 1; ring
  simp only [this]
  rw [← Finset.mul_sum, l1_adj h, mul_one]

theorem l1_triangle (x y z : Fin (n + 1) → K) : l1dist x z ≤ l1dist x y + l1dist y z := by
  unfold l1dist
  rw [← Finset.sum_add_distrib]
  exact Finset.sum_le_sum fun i _ => abs_sub_le _ _ _

/-- Going from a point of leg `k` forward to the start of a later leg. -/
theorem centre_dist {l : List (Fin (n + 1) → ℤ)} (hch : l.IsChain CubeAdj) (d : ℕ) : ∀ {k : ℕ} {c c' : Fin (n + 1) → ℤ},
    l[k]? = some c → l[k + d]? = some c' →
    l1dist (fun i => (c i : K) + 1 / 2) (fun i => (c' i : K) + 1 / 2) ≤ (d : K) := by
  induction d with
  | zero =>
    intro k c c' hc hc'
    have hc' : l[k]? = some c' := hc'
    rw [hc] at hc'
    cases hc'
    simp [l1dist]
  | succ d ih =>
    intro k c c' hc hc'
    have hlt : k + d < l.length := by have := (List.getElem?_eq_some_iff.1 hc').1; omega
    have hm := List.getElem?_eq_getElem hlt
    refine (l1_triangle _ (fun i => (l[k + d] i : K) + 1 / 2) _).trans ?_
    have h1 := ih hc hm
    have hadj : CubeAdj l[k + d] c' := neighbour_adj hch (Or.inl ⟨k + d, hm, by rw [← hc']; congr 1⟩)
    have h2 := leg_l1 (K := K) hadj 0 1
    simp only [zero_mul, add_zero, one_mul, zero_sub, abs_neg, abs_one] at h2
    have e : (fun i => (c' i : K) + 1 / 2) = fun i => (l[k + d] i : K) + 1 / 2 + ((c' i : K) - (l[k + d] i : K)) := by
      funext i; ring
    push_cast
    refine add_le_add h1 ?_
    rw [e, h2]

/-- C22. The curve is continuous: it never moves further than the arclength between the two parameters. -/
theorem C22_lipschitz_partial {length : ℕ} {th : K} {e : GrayCodeWalls K n} (h : GrayCodeWalls.init n length th = .ok e)
    {s t : K} (hend : 2 ≤ n ∨ length % 2 = 0 ∨ t * ((e.cubes.length : K) - 1) ≤ (e.cubes.length : K) - 3 / 2) (hs : 0 ≤ s) (hst : s ≤ t) (ht : t ≤ 1) :
    ∃ x y, curvePoint e s = .ok x ∧ curvePoint e t = .ok y ∧ (∑ i, |x i - y i|) ≤ (t - s) * ((e.cubes.length : K) - 1) := by
  obtain ⟨-, -, hcubes, -⟩ := init_ok h
  have hch : e.cubes.IsChain CubeAdj := by rw [hcubes]; exact order_chain _ _
  have hN := nodes_ge h
  have hNK : (2 : K) ≤ (e.cubes.length : K) := by exact_mod_cast hN
  have hpos : (0 : K) ≤ (e.cubes.length : K) - 1 := by linarith
  set A := (e.cubes.length : K) - 1 with hA
  have hST : s * A ≤ t * A := mul_le_mul_of_nonneg_right hst hpos
  obtain ⟨k, c, c', hc, hc', hk, hk'⟩ := exists_leg (K := K) hN (T := s * A) (mul_nonneg hs hpos) (by nlinarith)
  obtain ⟨q, d, d', hd, hd', hq, hq'⟩ := exists_leg (K := K) hN (T := t * A) (mul_nonneg (hs.trans hst) hpos) (by nlinarith)
  have hx := curve_leg h (hend.imp_right (Or.imp_right (le_trans hST))) hs (hst.trans ht) hc hc' hk hk'
  refine ⟨_, _, hx, curve_leg h hend (hs.trans hst) ht hd hd' hq hq', ?_⟩
  have adj1 : CubeAdj c c' := neighbour_adj hch (Or.inl ⟨k, hc, hc'⟩)
  have adj2 : CubeAdj d d' := neighbour_adj hch (Or.inl ⟨q, hd, hd'⟩)
  by_cases hkq : k + 1 ≤ q
  · -- via the centres of cube k+1 and cube q
    have h1 := leg_l1 (K := K) adj1 (s * A - k) 1
    have h3 := leg_l1 (K := K) adj2 0 (t * A - q)
    have h2 := centre_dist (K := K) hch (q - (k + 1)) hc' (show e.cubes[k + 1 + (q - (k + 1))]? = some d by
      rw [← hd]; congr 1; omega)
    have ec : (fun i => (c i : K) + 1 / 2 + 1 * ((c' i : K) - (c i : K))) = fun i => (c' i : K) + 1 / 2 := by
      funext i; ring
    have ed : (fun i => (d i : K) + 1 / 2 + 0 * ((d' i : K) - (d i : K))) = fun i => (d i : K) + 1 / 2 := by
      funext i; ring
    rw [ec, abs_of_nonpos (by linarith)] at h1
    rw [ed, abs_of_nonpos (by linarith)] at h3
    have hcast : ((q - (k + 1) : ℕ) : K) = (q : K) - (k + 1) := by rw [Nat.cast_sub hkq]; push_cast; ring
    rw [hcast] at h2
    have t1 := l1_triangle (fun i => (c i : K) + 1 / 2 + (s * A - k) * ((c' i : K) - (c i : K))) (fun i => (c' i : K) + 1 / 2)
      (fun i => (d i : K) + 1 / 2 + (t * A - q) * ((d' i : K) - (d i : K)))
    have t2 := l1_triangle (fun i => (c' i : K) + 1 / 2) (fun i => (d i : K) + 1 / 2)
      (fun i => (d i : K) + 1 / 2 + (t * A - q) * ((d' i : K) - (d i : K)))
    rw [h1] at t1
    rw [h3] at t2
    have t3 : (t - s) * A = t * A - s * A := by ring
    rw [t3]
    exact t1.trans (by linarith)
  · -- the same leg up to its end point
    have hqk : q ≤ k := by omega
    have ht1 : t * A ≤ (k : K) + 1 := by
      have : (q : K) ≤ (k : K) := by exact_mod_cast hqk
      linarith
    have hy := curve_leg h hend (hs.trans hst) ht hc hc' (hk.trans hST) ht1
    have hy' := curve_leg h hend (hs.trans hst) ht hd hd' hq hq'
    have e := hy'.symm.trans hy
    injection e with e
    have h1 := leg_l1 (K := K) adj1 (s * A - k) (t * A - k)
    rw [abs_of_nonpos (by linarith)] at h1
    unfold l1dist at h1
    have e' : ∀ i, (d i : K) + 1 / 2 + (t * A - q) * ((d' i : K) - (d i : K)) =
        (c i : K) + 1 / 2 + (t * A - k) * ((c' i : K) - (c i : K)) := fun i => congrFun e i
    calc _ = ∑ i, |(c i : K) + 1 / 2 + (s * A - k) * ((c' i : K) - (c i : K)) -
          ((c i : K) + 1 / 2 + (t * A - k) * ((c' i : K) - (c i : K)))| :=
          Finset.sum_congr rfl fun i _ => by rw [← e' i]
      _ ≤ _ := by rw [h1]; linarith

/-- The last two cubes in dimension two with odd length. -/
theorem order_before_last_plane (L : ℕ) (h : L % 2 = 0) :
    (order 1 (L + 1)).getLast? = some ![(L : ℤ), 1] ∧ (order 1 (L + 1))[(L + 1) * 2 - 2]? = some ![(L : ℤ), 0] := by
  have hlen : (block 1 L).length = 2 := block_length _ _
  have hb : block 1 L = [![(L : ℤ), 0], ![(L : ℤ), 1]] := by
    unfold block prependCoord
    rw [if_pos h, show gray 1 = [![0], ![1]] by decide]
    simp only [List.map_cons, List.map_nil]
    rfl
  constructor
  · rw [order_getLast, hb]
    rfl
  · rw [order_succ, List.getElem?_append_right (by rw [order_length]; omega), order_length, hb, show (L + 1) * 2 - 2 - L * 2 ^ 1 = 0 by omega]
    rfl

/-- The last half leg of the curve in dimension two with odd length. -/
theorem curve_plane_odd {length : ℕ} (hodd : length % 2 = 1) {th : K} {e : GrayCodeWalls K 1} (h : GrayCodeWalls.init 1 length th = .ok e)
    {t : K} (h0 : (e.cubes.length : K) - 3 / 2 < t * ((e.cubes.length : K) - 1)) (h1 : t ≤ 1) :
    curvePoint e t = .ok ![(length : K) - 1 / 2, 3 / 2 + (1 - t) * ((e.cubes.length : K) - 1)] := by
  have hN := nodes_ge h
  have hNK : (2 : K) ≤ (e.cubes.length : K) := by exact_mod_cast hN
  obtain ⟨-, hlen, hcubes, -, -, -, -, -, harc⟩ := init_ok h
  have hNlen : e.cubes.length = length * 2 ^ 1 := by rw [hcubes, order_length]
  have harc' : e.curveArclength = (e.cubes.length : K) - 1 := by rw [harc, hNlen]
  obtain ⟨L, rfl⟩ : ∃ L, length = L + 1 := ⟨length - 1, by omega⟩
  have hlast : e.cubes.getLast? = some ![(L : ℤ), 1] := by rw [hcubes]; exact (order_before_last_plane L (by omega)).1
  have ht : 0 ≤ t := by
    by_contra hc
    push Not at hc
    nlinarith
  have hT1 : t * ((e.cubes.length : K) - 1) ≤ (e.cubes.length : K) - 1 := by nlinarith
  have e1 : min (max t 0) 1 = t := by rw [max_eq_left ht, min_eq_left h1]
  have hceil : ⌈t * ((e.cubes.length : K) - 1) / (1 / 2)⌉ = 1 + 2 * ((e.cubes.length : ℤ) - 2) + 1 := by
    rw [Int.ceil_eq_iff]
    have : t * ((e.cubes.length : K) - 1) / (1 / 2) = 2 * (t * ((e.cubes.length : K) - 1)) := by ring
    rw [this]
    constructor <;> push_cast <;> linarith
  unfold curvePoint
  simp only [e1, harc', hceil, hlast]
  rw [if_neg (show ¬ t * ((e.cubes.length : K) - 1) ≤ 0 by linarith), if_neg (by omega), if_pos rfl]
  congr 1
  funext i
  fin_cases i
  · simp
    ring
  · simp
    ring

/-- **C22**, exactly: the point of the curve at a parameter is the one at that arclength on the line through the centres of the cubes, except in dimension two with odd length, where all points
within half a unit of the end, but the end point, are wrong: they lie on the other side of the centre of the last cube. -/
theorem C22_exact {length : ℕ} {th : K} {e : GrayCodeWalls K n} (h : GrayCodeWalls.init n length th = .ok e) {t : K} (h0 : 0 ≤ t) (h1 : t ≤ 1) :
    (∃ x, curvePoint e t = .ok x ∧ OnCentreLine e.cubes (t * ((e.cubes.length : K) - 1)) x) ↔
      ¬ (n = 1 ∧ length % 2 = 1 ∧ (e.cubes.length : K) - 3 / 2 < t * ((e.cubes.length : K) - 1) ∧ t < 1) := by
  have hn : 1 ≤ n := (init_ok h).1
  have hN := nodes_ge h
  have hNK : (2 : K) ≤ (e.cubes.length : K) := by exact_mod_cast hN
  by_cases hend : 2 ≤ n ∨ length % 2 = 0 ∨ t * ((e.cubes.length : K) - 1) ≤ (e.cubes.length : K) - 3 / 2
  · refine iff_of_true (C22_curve_partial h hend h0 h1) ?_
    rintro ⟨a, b, c, -⟩
    rcases hend with hd | hd | hd
    · omega
    · omega
    · exact absurd hd (not_le.2 c)
  · push Not at hend
    obtain ⟨hn2, hodd, hT⟩ := hend
    obtain rfl : n = 1 := by omega
    have hodd' : length % 2 = 1 := by omega
    obtain ⟨-, hlen, hcubes, -⟩ := init_ok h
    have hNlen : e.cubes.length = length * 2 := by rw [hcubes, order_length, pow_one]
    obtain ⟨L, rfl⟩ : ∃ L, length = L + 1 := ⟨length - 1, by omega⟩
    obtain ⟨hl1, hl2⟩ := order_before_last_plane L (by omega)
    rw [← hcubes, ← hNlen] at hl2
    rw [← hcubes, List.getLast?_eq_getElem?] at hl1
    have hcast : ((e.cubes.length - 2 : ℕ) : K) = (e.cubes.length : K) - 2 := by rw [Nat.cast_sub hN]; norm_num
    have hT1 : t * ((e.cubes.length : K) - 1) ≤ (e.cubes.length : K) - 1 := by nlinarith
    rw [curve_plane_odd hodd' h hT h1]
    constructor
    · rintro ⟨x, hx, hon⟩ ⟨-, -, -, ht⟩
      obtain rfl := Except.ok.inj hx
      have h5 := congrFun (hon (e.cubes.length - 2) _ _ hl2 (by rw [show e.cubes.length - 2 + 1 = e.cubes.length - 1 by omega]; exact hl1)
        (by rw [hcast]; linarith) (by rw [hcast]; linarith)) 1
      rw [hcast] at h5
      simp at h5
      nlinarith
    · intro hne
      have ht : t = 1 := le_antisymm h1 (not_lt.1 fun hc => hne ⟨rfl, hodd', hT, hc⟩)
      subst ht
      refine ⟨_, rfl, ?_⟩
      intro k c c' hc hc' hk hk'
      have hk1 : k + 1 < e.cubes.length := (List.getElem?_eq_some_iff.1 hc').1
      have hk2 : k + 1 = e.cubes.length - 1 := by
        have : (e.cubes.length : K) ≤ ((k + 2 : ℕ) : K) := by push_cast; linarith
        have : e.cubes.length ≤ k + 2 := by exact_mod_cast this
        omega
      obtain rfl : k = e.cubes.length - 2 := by omega
      rw [hl2] at hc
      rw [hk2, hl1] at hc'
      cases hc
      cases hc'
      funext i
      fin_cases i
      · simp
        ring
      · simp [hcast]
        ring

/-- C22 is not vacuous: the curve of a corridor of dimension three and odd length. -/
example : ∃ e : GrayCodeWalls ℚ 2, GrayCodeWalls.init 2 3 (1 / 8 : ℚ) = .ok e ∧ (2 ≤ 2 ∨ 3 % 2 = 0) :=
  ⟨_, rfl, by omega⟩

/-- The second half of the curve in dimension two with length one. -/
theorem curve_two_one {e : GrayCodeWalls ℚ 1} (h : GrayCodeWalls.init 1 1 (1 / 8 : ℚ) = .ok e) {t : ℚ} (h0 : 1 / 2 < t)
    (h1 : t ≤ 1) : curvePoint e t = .ok ![1 / 2, 5 / 2 - t] := by
  obtain ⟨-, -, hcubes, -, -, -, -, -, harc⟩ := init_ok h
  have hlen : (order 1 1).length = 2 := by decide
  have hlast : (order 1 1).getLast? = some ![0, 1] := by decide
  have harc' : e.curveArclength = 1 := by rw [harc]; norm_num
  have hceil : ⌈t / (1 / 2)⌉ = 2 := by
    rw [Int.ceil_eq_iff]
    have : t / (1 / 2) = 2 * t := by ring
    rw [this]
    constructor <;> push_cast <;> linarith
  have e1 : min (max t 0) 1 = t := by
    rw [max_eq_left (by linarith), min_eq_left h1]
  unfold curvePoint
  simp only [hcubes, hlen, hlast, e1, harc', mul_one, hceil]
  rw [if_neg (show ¬ t ≤ 0 by linarith), if_neg (by norm_num), if_pos (by norm_num)]
  congr 1
  funext i
  fin_cases i
  · simp
  · simp; ring

/-- C22 fails in dimension two for odd length: shortly before the end the curve is on the wrong side of the last cube. With
length one the curve at parameter `3/4` (arclength 3/4) should be at `(1/2, 5/4)`, and is at `(1/2, 7/4)`. -/
theorem C22_curve_false : ∃ e : GrayCodeWalls ℚ 1, GrayCodeWalls.init 1 1 (1 / 8 : ℚ) = .ok e ∧
    curvePoint e (3 / 4) = .ok ![1 / 2, 7 / 4] ∧ ∀ x, OnCentreLine e.cubes (3 / 4 * ((e.cubes.length : ℚ) - 1)) x →
      x = ![1 / 2, 5 / 4] := by
  refine ⟨_, rfl, ?_, ?_⟩
  · rw [curve_two_one rfl (by norm_num) (by norm_num)]
    norm_num
  · intro x hx
    have := hx 0 ![0, 0] ![0, 1] (by decide +kernel) (by decide +kernel) (by decide +kernel) (by decide +kernel)
    rw [this]
    decide +kernel

/-- C22 fails in dimension two for odd length: the curve jumps in the middle. -/
theorem C22_continuous_false : ∃ e : GrayCodeWalls ℚ 1, GrayCodeWalls.init 1 1 (1 / 8 : ℚ) = .ok e ∧
    ∃ x, curvePoint e (1 / 2) = .ok x ∧
      ∀ ε : ℚ, 0 < ε → ε ≤ 1 / 4 → ∃ y, curvePoint e (1 / 2 + ε) = .ok y ∧ 1 / 2 ≤ |y 1 - x 1| := by
  refine ⟨_, rfl, ![1 / 2, 1], ?_, ?_⟩
  · unfold curvePoint
    have hceil : ⌈(1 / 2 : ℚ) / (1 / 2)⌉ = 1 := by norm_num
    have harc : (1 / 2 * (1 + 2 * (((order 1 1).length : ℚ) - 2) + 1) : ℚ) = 1 := by
      rw [show (order 1 1).length = 2 by decide]; norm_num
    have e1 : min (max (1 / 2 : ℚ) 0) 1 = 1 / 2 := by norm_num
    simp only [harc, e1, mul_one, hceil, ite_self, if_true]
    congr 1
    funext i
    fin_cases i
    · simp
    · simp; norm_num
  · intro ε h0 h1
    refine ⟨_, curve_two_one rfl (by linarith) (by linarith), ?_⟩
    simp only [Matrix.cons_val_one, Matrix.cons_val_zero]
    rw [abs_of_nonneg (by linarith)]
    linarith

end Verif.Props
