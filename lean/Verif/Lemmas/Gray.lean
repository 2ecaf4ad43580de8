import Mathlib.Data.List.Chain
import Mathlib.Tactic.Linarith
import Mathlib.Tactic.Ring
import Verif.Model.Gray
import Verif.Spec.Gray

/-!
The Gray-code order of cubes.
-/

namespace Verif.Gray

open Verif.Spec

theorem cubeAdj_symm {d : ℕ} {c c' : Fin d → ℤ} (h : CubeAdj c c') : CubeAdj c' c := by
  obtain ⟨j, h1, h2⟩ := h
  exact ⟨j, by omega, fun i hi => (h2 i hi).symm⟩

theorem cubeAdj_cons {d : ℕ} {c c' : Fin d → ℤ} (a : ℤ) (h : CubeAdj c c') :
    CubeAdj (Fin.cons a c : Fin (d + 1) → ℤ) (Fin.cons a c') := by
  obtain ⟨j, h1, h2⟩ := h
  refine ⟨j.succ, by simpa using h1, fun i => ?_⟩
  refine Fin.cases ?_ (fun k => ?_) i
  · intro; simp
  · intro hk; simp only [Fin.cons_succ]; exact h2 k (by rintro rfl; exact hk rfl)

theorem cubeAdj_head {d : ℕ} {c : Fin d → ℤ} {a b : ℤ} (h : b = a + 1 ∨ b = a - 1) :
    CubeAdj (Fin.cons a c : Fin (d + 1) → ℤ) (Fin.cons b c) := by
  refine ⟨0, by simpa using h, fun i => ?_⟩
  refine Fin.cases ?_ (fun k => ?_) i
  · intro h; exact absurd rfl h
  · intro; simp

theorem gray_length (n : ℕ) : (gray n).length = 2 ^ n := by
  induction n with
  | zero => rfl
  | succ n ih => simp [gray, ih]; ring

theorem gray_ne_nil (n : ℕ) : gray n ≠ [] := by
  intro h
  have := gray_length n
  rw [h] at this
  have h2 : 0 < 2 ^ n := by positivity
  simp at this
  omega

theorem gray_mem (n : ℕ) (c : Fin n → ℤ) : c ∈ gray n ↔ ∀ i, c i = 0 ∨ c i = 1 := by
  induction n with
  | zero => simp [gray]; exact Subsingleton.elim _ _
  | succ n ih =>
    simp only [gray, List.mem_append, List.mem_map, List.mem_reverse]
    constructor
    · rintro (⟨d, hd, rfl⟩ | ⟨d, hd, rfl⟩) <;> intro i <;> refine Fin.cases ?_ (fun k => ?_) i
      · simp
      · simpa using (ih d).1 hd k
      · simp
      · simpa using (ih d).1 hd k
    · intro h
      rcases h 0 with h0 | h0
      · left; exact ⟨Fin.tail c, (ih _).2 fun i => h i.succ, by rw [← h0, Fin.cons_self_tail]⟩
      · right; exact ⟨Fin.tail c, (ih _).2 fun i => h i.succ, by rw [← h0, Fin.cons_self_tail]⟩

theorem cons_injective {n : ℕ} (a : ℤ) : Function.Injective (fun c : Fin n → ℤ => (Fin.cons a c : Fin (n + 1) → ℤ)) := by
  intro c d h
  ext i
  have := congrFun h i.succ
  simpa using this

theorem gray_nodup (n : ℕ) : (gray n).Nodup := by
  induction n with
  | zero => simp [gray]
  | succ n ih =>
    simp only [gray]
    rw [List.nodup_append]
    refine ⟨ih.map (cons_injective 0), (List.nodup_reverse.2 ih).map (cons_injective 1), ?_⟩
    intro a ha b hb hab
    rw [List.mem_map] at ha hb
    obtain ⟨x, -, rfl⟩ := ha
    obtain ⟨y, -, rfl⟩ := hb
    have := congrFun hab 0
    simp at this

theorem gray_head (n : ℕ) : (gray n).head? = some 0 := by
  induction n with
  | zero => simp [gray]; exact Subsingleton.elim _ _
  | succ n ih =>
    simp only [gray, List.head?_append, List.head?_map, ih]
    simp
    ext i
    refine Fin.cases ?_ (fun k => ?_) i <;> simp

theorem gray_getLast (n : ℕ) : (gray (n + 1)).getLast? = some (Fin.cons 1 0) := by
  simp only [gray, List.getLast?_append, List.getLast?_map, List.getLast?_reverse, gray_head]
  simp

theorem gray_chain (n : ℕ) : (gray n).IsChain CubeAdj := by
  induction n with
  | zero => simp [gray]
  | succ n ih =>
    simp only [gray]
    rw [List.isChain_append]
    refine ⟨?_, ?_, ?_⟩
    · rw [List.isChain_map]; exact ih.imp fun a b h => cubeAdj_cons 0 h
    · rw [List.isChain_map, List.isChain_reverse]; exact ih.imp fun a b h => cubeAdj_cons 1 (cubeAdj_symm h)
    · intro x hx y hy
      rw [List.getLast?_map] at hx
      rw [List.head?_map, List.head?_reverse] at hy
      cases hl : (gray n).getLast? with
      | none => rw [hl] at hx; simp at hx
      | some c =>
        rw [hl] at hx hy
        simp at hx hy
        subst hx hy
        exact cubeAdj_head (by omega)

/-- The cubes with first coordinate `i`. -/
def block (n i : ℕ) : List (Fin (n + 1) → ℤ) :=
  if i % 2 = 0 then prependCoord (i : ℤ) (gray n) else prependCoord (i : ℤ) (gray n).reverse

theorem order_succ (n L : ℕ) : order n (L + 1) = order n L ++ block n L := by
  unfold order block
  rw [List.range_succ, List.flatMap_append]
  simp

theorem block_ne_nil (n i : ℕ) : block n i ≠ [] := by
  unfold block prependCoord
  split <;> simp [gray_ne_nil]

theorem block_head (n i : ℕ) : (block n i).head? =
    (if i % 2 = 0 then (gray n).head? else (gray n).getLast?).map (Fin.cons (i : ℤ)) := by
  unfold block prependCoord
  split <;> simp

theorem block_getLast (n i : ℕ) : (block n i).getLast? =
    (if i % 2 = 0 then (gray n).getLast? else (gray n).head?).map (Fin.cons (i : ℤ)) := by
  unfold block prependCoord
  split <;> simp

theorem order_getLast (n L : ℕ) : (order n (L + 1)).getLast? = (block n L).getLast? := by
  rw [order_succ, List.getLast?_append]
  cases h : (block n L).getLast? with
  | none => rw [List.getLast?_eq_none_iff] at h; exact absurd h (block_ne_nil n L)
  | some c => simp

theorem block_length (n i : ℕ) : (block n i).length = 2 ^ n := by
  unfold block prependCoord
  split <;> simp [gray_length]

theorem order_length (n L : ℕ) : (order n L).length = L * 2 ^ n := by
  induction L with
  | zero => simp [order]
  | succ L ih => rw [order_succ, List.length_append, ih, block_length]; ring

theorem block_mem (n i : ℕ) (c : Fin (n + 1) → ℤ) :
    c ∈ block n i ↔ c 0 = i ∧ ∀ k : Fin n, c k.succ = 0 ∨ c k.succ = 1 := by
  have key : c ∈ (gray n).map (Fin.cons (i : ℤ)) ↔ c 0 = i ∧ ∀ k : Fin n, c k.succ = 0 ∨ c k.succ = 1 := by
    rw [List.mem_map]
    constructor
    · rintro ⟨d, hd, rfl⟩
      exact ⟨by simp, fun k => by simpa using (gray_mem n d).1 hd k⟩
    · rintro ⟨h0, h⟩
      exact ⟨Fin.tail c, (gray_mem n _).2 h, by rw [← h0, Fin.cons_self_tail]⟩
  unfold block prependCoord
  split
  · exact key
  · rw [List.map_reverse, List.mem_reverse]; exact key

theorem order_mem (n L : ℕ) (c : Fin (n + 1) → ℤ) :
    c ∈ order n L ↔ (0 ≤ c 0 ∧ c 0 < L) ∧ ∀ k : Fin n, c k.succ = 0 ∨ c k.succ = 1 := by
  induction L with
  | zero => simp [order]
  | succ L ih =>
    rw [order_succ, List.mem_append, ih, block_mem]
    push_cast
    constructor
    · rintro (⟨⟨h1, h2⟩, h3⟩ | ⟨h1, h3⟩)
      · exact ⟨⟨h1, by omega⟩, h3⟩
      · exact ⟨⟨by omega, by omega⟩, h3⟩
    · rintro ⟨⟨h1, h2⟩, h3⟩
      by_cases h : c 0 = L
      · exact Or.inr ⟨h, h3⟩
      · exact Or.inl ⟨⟨h1, by omega⟩, h3⟩

theorem block_nodup (n i : ℕ) : (block n i).Nodup := by
  unfold block prependCoord
  split
  · exact (gray_nodup n).map (cons_injective _)
  · exact (List.nodup_reverse.2 (gray_nodup n)).map (cons_injective _)

theorem order_nodup (n L : ℕ) : (order n L).Nodup := by
  induction L with
  | zero => simp [order]
  | succ L ih =>
    rw [order_succ, List.nodup_append]
    refine ⟨ih, block_nodup n L, ?_⟩
    intro a ha b hb hab
    rw [order_mem] at ha
    rw [block_mem] at hb
    subst hab
    omega

theorem block_chain (n i : ℕ) : (block n i).IsChain CubeAdj := by
  unfold block prependCoord
  split
  · rw [List.isChain_map]; exact (gray_chain n).imp fun a b h => cubeAdj_cons _ h
  · rw [List.isChain_map, List.isChain_reverse]; exact (gray_chain n).imp fun a b h => cubeAdj_cons _ (cubeAdj_symm h)

theorem order_chain (n L : ℕ) : (order n L).IsChain CubeAdj := by
  induction L with
  | zero => simp [order]
  | succ L ih =>
    rw [order_succ, List.isChain_append]
    refine ⟨ih, block_chain n L, ?_⟩
    intro x hx y hy
    cases L with
    | zero => simp [order] at hx
    | succ L =>
      rw [order_getLast, block_getLast] at hx
      rw [block_head] at hy
      have hpar : (if (L + 1) % 2 = 0 then (gray n).head? else (gray n).getLast?) =
          (if L % 2 = 0 then (gray n).getLast? else (gray n).head?) := by
        by_cases h : L % 2 = 0
        · rw [if_neg (by omega), if_pos h]
        · rw [if_pos (by omega), if_neg h]
      rw [hpar] at hy
      cases hg : (if L % 2 = 0 then (gray n).getLast? else (gray n).head?) with
      | none => rw [hg] at hx; simp at hx
      | some c =>
        rw [hg] at hx hy
        simp at hx hy
        subst hx hy
        exact cubeAdj_head (by omega)

/-! ### Predecessors and successors -/

theorem edges_cons_cons {n : ℕ} (a b : Fin (n + 1) → ℤ) (l : List (Fin (n + 1) → ℤ)) :
    edges (a :: b :: l) = (a, b) :: edges (b :: l) := rfl

theorem edges_fst_mem {n : ℕ} {l : List (Fin (n + 1) → ℤ)} {p} (h : p ∈ edges l) : p.1 ∈ l ∧ p.2 ∈ l.tail := by
  unfold edges at h
  exact List.of_mem_zip h

theorem filter_succ {n : ℕ} (l : List (Fin (n + 1) → ℤ)) (hl : l.Nodup) (k : ℕ) (c : Fin (n + 1) → ℤ)
    (hc : l[k]? = some c) :
    ((edges l).filter (·.1 = c)).map (·.2) = (l[k + 1]?).toList := by
  induction l generalizing k with
  | nil => simp at hc
  | cons a l ih =>
    cases l with
    | nil => simp [edges]
    | cons b l =>
      rw [edges_cons_cons]
      have hl' := List.nodup_cons.1 hl
      cases k with
      | zero =>
        simp at hc
        subst hc
        have : (edges (b :: l)).filter (fun p => decide (p.1 = a)) = [] := by
          rw [List.filter_eq_nil_iff]
          intro p hp
          have := (edges_fst_mem hp).1
          simp only [decide_eq_true_eq]
          rintro rfl
          exact hl'.1 this
        simp [this]
      | succ k =>
        have hne : a ≠ c := by
          rintro rfl
          exact hl'.1 (List.mem_of_getElem? (by simpa using hc))
        rw [List.filter_cons_of_neg (by simpa using hne)]
        rw [ih hl'.2 k (by simpa using hc)]
        simp

theorem filter_pred {n : ℕ} (l : List (Fin (n + 1) → ℤ)) (hl : l.Nodup) (k : ℕ) (c : Fin (n + 1) → ℤ)
    (hc : l[k]? = some c) :
    ((edges l).filter (·.2 = c)).map (·.1) = if k = 0 then [] else (l[k - 1]?).toList := by
  induction l generalizing k with
  | nil => simp at hc
  | cons a l ih =>
    have hl' := List.nodup_cons.1 hl
    cases l with
    | nil =>
      cases k with
      | zero => simp [edges]
      | succ k => simp at hc
    | cons b l =>
      rw [edges_cons_cons]
      cases k with
      | zero =>
        simp at hc
        subst hc
        have : (edges (b :: l)).filter (fun p => decide (p.2 = a)) = [] := by
          rw [List.filter_eq_nil_iff]
          intro p hp
          have := (edges_fst_mem hp).2
          simp only [decide_eq_true_eq]
          rintro rfl
          exact hl'.1 (List.mem_of_mem_tail this)
        have hba : b ≠ a := by rintro rfl; exact hl'.1 (by simp)
        simp [this, hba]
      | succ k =>
        have hc' : (b :: l)[k]? = some c := by simpa using hc
        cases k with
        | zero =>
          simp at hc'
          subst hc'
          have := ih hl'.2 0 (by simp)
          simp at this
          simp
          exact this
        | succ k =>
          have hne : b ≠ c := by
            rintro rfl
            exact (List.nodup_cons.1 hl'.2).1 (List.mem_of_getElem? (by simpa using hc'))
          rw [List.filter_cons_of_neg (by simpa using hne)]
          rw [ih hl'.2 (k + 1) hc']
          simp

theorem successors_eq {n : ℕ} {l : List (Fin (n + 1) → ℤ)} (hl : l.Nodup) {k : ℕ} {c : Fin (n + 1) → ℤ}
    (hc : l[k]? = some c) : successors l c = .ok (l[k + 1]?).toList := by
  unfold successors
  rw [if_pos (List.mem_of_getElem? hc), filter_succ l hl k c hc]

theorem predecessors_eq {n : ℕ} {l : List (Fin (n + 1) → ℤ)} (hl : l.Nodup) {k : ℕ} {c : Fin (n + 1) → ℤ}
    (hc : l[k]? = some c) : predecessors l c = .ok (if k = 0 then [] else (l[k - 1]?).toList) := by
  unfold predecessors
  rw [if_pos (List.mem_of_getElem? hc), filter_pred l hl k c hc]

end Verif.Gray
