import Verif.Lemmas.GrayDist

/-!
The first two and the last two cubes of the corridor.
-/

set_option linter.unusedSectionVars false

namespace Verif.Gray

/-- The unit vector of the last coordinate. -/
def lastUnit (n : ℕ) : Fin (n + 1) → ℤ := fun i => if i = Fin.last n then 1 else 0

theorem cons_lastUnit (n : ℕ) (a : ℤ) : (Fin.cons a (lastUnit n) : Fin (n + 2) → ℤ) = fun i =>
    (Fin.cons a (0 : Fin (n + 1) → ℤ) : Fin (n + 2) → ℤ) i + lastUnit (n + 1) i := by
  funext i
  refine Fin.cases ?_ (fun k => ?_) i
  · simp [lastUnit, Fin.ext_iff]
  · simp [lastUnit, Fin.ext_iff]

theorem gray_get0 (n : ℕ) : (gray n)[0]? = some 0 := by rw [← List.head?_eq_getElem?]; exact gray_head n

theorem gray_get1 (n : ℕ) : (gray (n + 1))[1]? = some (lastUnit n) := by
  induction n with
  | zero => decide
  | succ n ih =>
    rw [gray, List.getElem?_append_left (by rw [List.length_map, gray_length]; exact Nat.one_lt_two_pow (by omega)),
      List.getElem?_map, ih]
    simp only [Option.map_some]
    congr 1
    rw [cons_lastUnit]
    funext i
    refine Fin.cases ?_ (fun k => ?_) i <;> simp

theorem two_le_pow (n : ℕ) : 2 ≤ 2 ^ (n + 1) := by
  have := Nat.one_lt_two_pow (n := n + 1) (by omega); omega

theorem order_get0 (n L : ℕ) : (order n (L + 1))[0]? = some 0 := by
  induction L with
  | zero =>
    rw [order_succ]
    simp only [order, List.range_zero, List.flatMap_nil, List.nil_append]
    rw [← List.head?_eq_getElem?, block_head]
    simp [gray_head]
    funext i
    refine Fin.cases ?_ (fun k => ?_) i <;> simp
  | succ L ih =>
    rw [order_succ, List.getElem?_append_left (by rw [order_length]; positivity), ih]

theorem order_get1 (n L : ℕ) : (order (n + 1) (L + 1))[1]? = some (lastUnit (n + 1)) := by
  induction L with
  | zero =>
    rw [order_succ]
    simp only [order, List.range_zero, List.flatMap_nil, List.nil_append]
    unfold block prependCoord
    simp only [Nat.zero_mod, if_true, List.getElem?_map, gray_get1]
    simp only [Option.map_some]
    congr 1
    rw [cons_lastUnit]
    funext i
    refine Fin.cases ?_ (fun k => ?_) i <;> simp
  | succ L ih =>
    rw [order_succ, List.getElem?_append_left (by rw [order_length]; have := two_le_pow n; nlinarith), ih]

/-- The cube before the last one is its neighbour along the last coordinate, unless the dimension is two and the length odd. -/
theorem order_before_last (n L : ℕ) (h : 1 ≤ n ∨ L % 2 = 1) :
    ∃ c, (order (n + 1) (L + 1)).getLast? = some c ∧
      (order (n + 1) (L + 1))[(L + 1) * 2 ^ (n + 1) - 2]? = some (fun i => c i + lastUnit (n + 1) i) := by
  have hp := two_le_pow n
  have hlen : (block (n + 1) L).length = 2 ^ (n + 1) := block_length _ _
  have key : ∀ c d, (block (n + 1) L).reverse[0]? = some c → (block (n + 1) L).reverse[1]? = some d →
      (order (n + 1) (L + 1)).getLast? = some c ∧ (order (n + 1) (L + 1))[(L + 1) * 2 ^ (n + 1) - 2]? = some d := by
    intro c d hc hd
    rw [order_getLast]
    rw [← List.head?_eq_getElem?, List.head?_reverse] at hc
    refine ⟨hc, ?_⟩
    have e : (L + 1) * 2 ^ (n + 1) = L * 2 ^ (n + 1) + 2 ^ (n + 1) := by ring
    rw [order_succ, List.getElem?_append_right (by rw [order_length]; omega), order_length]
    rw [List.getElem?_reverse (by omega)] at hd
    rw [← hd, hlen]
    congr 1
    omega
  by_cases hL : L % 2 = 0
  · obtain ⟨m, rfl⟩ : ∃ m, n = m + 1 := ⟨n - 1, by omega⟩
    refine ⟨Fin.cons (L : ℤ) (Fin.cons 1 0), ?_⟩
    apply key
    · rw [← List.head?_eq_getElem?, List.head?_reverse, block_getLast]
      simp [hL, gray_getLast]
    · unfold block prependCoord
      rw [if_pos hL, ← List.map_reverse, List.getElem?_map, gray, List.reverse_append, ← List.map_reverse, List.reverse_reverse,
        List.getElem?_append_left (by rw [List.length_map, gray_length]; exact Nat.one_lt_two_pow (by omega)),
        List.getElem?_map, gray_get1]
      simp only [Option.map_some]
      congr 1
      funext i
      refine Fin.cases ?_ (fun k => ?_) i
      · simp [lastUnit, Fin.ext_iff]
      · rw [Fin.cons_succ, Fin.cons_succ, cons_lastUnit]
        simp [lastUnit, Fin.ext_iff]
  · refine ⟨Fin.cons (L : ℤ) 0, ?_⟩
    apply key
    · rw [← List.head?_eq_getElem?, List.head?_reverse, block_getLast]
      simp [hL, gray_head]
    · unfold block prependCoord
      rw [if_neg hL, List.map_reverse, List.reverse_reverse, List.getElem?_map, gray_get1]
      simp only [Option.map_some]
      congr 1
      exact cons_lastUnit n _

end Verif.Gray
