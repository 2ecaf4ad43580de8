import Mathlib.Algebra.Order.BigOperators.Group.List
import Mathlib.Algebra.BigOperators.Ring.List
import Mathlib.Algebra.BigOperators.GroupWithZero.Action
import Mathlib.Algebra.Order.Ring.Rat
import Mathlib.Tactic.FieldSimp
import Mathlib.Tactic.Linarith
import Mathlib.Tactic.NormNum
import Mathlib.Tactic.Positivity
import Mathlib.Tactic.Ring
import Verif.Model.Sampler

/-! Polygon sampling: C43, C44. -/

namespace Verif.Props

open Verif.Sampler

/-! ### C43: lemmas on deletion and insertion -/

theorem deleteFrom_congr {α : Type*} (is js : List ℕ) (p : ℕ) (l : List α) (h : ∀ q, p ≤ q → q < p + l.length → (q ∈ is ↔ q ∈ js)) :
    deleteFrom is p l = deleteFrom js p l := by
  induction l generalizing p with
  | nil => rfl
  | cons a l ih =>
    have hp := h p (le_refl _) (by simp)
    have := ih (p + 1) (fun q h1 h2 => h q (by omega) (by rw [List.length_cons]; omega))
    unfold deleteFrom
    simp only [hp, this]

theorem deleteFrom_append {α : Type*} (is : List ℕ) (p : ℕ) (a b : List α) :
    deleteFrom is p (a ++ b) = deleteFrom is p a ++ deleteFrom is (p + a.length) b := by
  induction a generalizing p with
  | nil => rfl
  | cons x a ih =>
    have hstep : ∀ l : List α, deleteFrom is p (x :: l) = if p ∈ is then deleteFrom is (p + 1) l else x :: deleteFrom is (p + 1) l :=
      fun _ => rfl
    rw [List.cons_append, hstep, hstep, ih, List.length_cons, show p + 1 + a.length = p + (a.length + 1) by omega]
    split <;> rfl

/-- Only the last element of a block is deleted. -/
theorem deleteFrom_last {α : Type*} (is : List ℕ) (p : ℕ) (a : List α) (x : α) (hlast : p + a.length ∈ is)
    (hno : ∀ q, p ≤ q → q < p + a.length → q ∉ is) : deleteFrom is p (a ++ [x]) = a := by
  rw [deleteFrom_append]
  have h1 : deleteFrom is p a = a := by
    clear hlast
    induction a generalizing p with
    | nil => rfl
    | cons y a ih =>
      unfold deleteFrom
      rw [if_neg (hno p (le_refl _) (by simp)), ih (p + 1) (fun q h1 h2 => hno q (by omega) (by rw [List.length_cons]; omega))]
  rw [h1]
  unfold deleteFrom
  rw [if_pos hlast]
  simp [deleteFrom]

theorem insertFrom_split {α : Type*} (ins ins' : List (ℕ × α)) (p : ℕ) (a b : List α) (h1 : ∀ c ∈ ins, c.1 ≤ p + a.length)
    (h2 : ∀ c ∈ ins', p + a.length ≤ c.1) :
    insertFrom (ins ++ ins') p (a ++ b) = insertFrom ins p a ++ insertFrom ins' (p + a.length) b := by
  induction a generalizing p with
  | nil =>
    have hlater : ∀ (b : List α) (q : ℕ), p < q → insertFrom (ins ++ ins') q b = insertFrom ins' q b := by
      intro b
      induction b with
      | nil =>
        intro q hq
        unfold insertFrom
        rw [List.filter_append, List.filter_eq_nil_iff.2, List.nil_append]
        intro c hc
        have := h1 c hc
        simp only [List.length_nil, Nat.add_zero] at this
        simp only [beq_iff_eq]
        omega
      | cons y b ih =>
        intro q hq
        unfold insertFrom
        rw [ih (q + 1) (by omega), List.filter_append, (List.filter_eq_nil_iff (l := ins)).2, List.nil_append]
        intro c hc
        have := h1 c hc
        simp only [List.length_nil, Nat.add_zero] at this
        simp only [beq_iff_eq]
        omega
    rw [List.nil_append, List.length_nil, Nat.add_zero]
    cases b with
    | nil => simp [insertFrom, List.filter_append]
    | cons y b =>
      unfold insertFrom
      rw [hlater b (p + 1) (by omega), List.filter_append, List.map_append, List.append_assoc]
  | cons x a ih =>
    have hlen : p + (x :: a).length = p + 1 + a.length := by rw [List.length_cons]; omega
    rw [hlen] at h1 h2 ⊢
    rw [List.cons_append]
    have hstep : ∀ (ins : List (ℕ × α)) (l : List α), insertFrom ins p (x :: l) =
      (ins.filter fun c => c.1 == p).map (·.2) ++ x :: insertFrom ins (p + 1) l := fun _ _ => rfl
    rw [hstep, hstep, ih (p + 1) h1 h2, List.filter_append, (List.filter_eq_nil_iff (l := ins')).2, List.append_nil, List.append_assoc, List.cons_append]
    intro c hc
    have := h2 c hc
    simp only [beq_iff_eq]
    omega

/-- One insertion, at the beginning. -/
theorem insertFrom_head {α : Type*} (p : ℕ) (v : α) (l : List α) : insertFrom [(p, v)] p l = v :: l := by
  have : ∀ (l : List α) (q : ℕ), p < q → insertFrom [(p, v)] q l = l := by
    intro l
    induction l with
    | nil =>
      intro q hq
      have : (p == q) = false := by simp; omega
      simp [insertFrom, this]
    | cons a l ih =>
      intro q hq
      have h : (p == q) = false := by simp; omega
      simp [insertFrom, h, ih (q + 1) (by omega)]
  cases l with
  | nil => simp [insertFrom]
  | cons a l => simp [insertFrom, this l (p + 1) (by omega)]

/-! ### C43: the index arrays -/

/-- Positions of the last elements of blocks of the lengths `ns`, the first block starting at `s`. -/
def lastOf : ℕ → List ℕ → List ℕ
  | _, [] => []
  | s, n :: ns => (s + n - 1) :: lastOf (s + n) ns

theorem cumsum_lastOf (s : ℕ) (ns : List ℕ) (h : ∀ n ∈ ns, 1 ≤ n) : cumsum s (decHead ns) = lastOf s ns := by
  cases ns with
  | nil => rfl
  | cons n ns =>
    have hn := h n (by simp)
    have key : ∀ (ns : List ℕ) (t : ℕ), 1 ≤ t → cumsum (t - 1) ns = lastOf t ns := by
      intro ns
      induction ns with
      | nil => intro t _; rfl
      | cons m ns ih =>
        intro t ht
        have h1 : t - 1 + m = t + m - 1 := by omega
        rw [cumsum, lastOf, h1, ih (t + m) (by omega)]
    rw [decHead, cumsum, lastOf, ← key ns (s + n) (by omega)]
    rw [show s + (n - 1) = s + n - 1 by omega]

theorem mem_lastOf_ge {s : ℕ} {ns : List ℕ} (h : ∀ n ∈ ns, 1 ≤ n) {q : ℕ} (hq : q ∈ lastOf s ns) : s ≤ q := by
  induction ns generalizing s with
  | nil => simp [lastOf] at hq
  | cons n ns ih =>
    have hn := h n (by simp)
    rw [lastOf, List.mem_cons] at hq
    rcases hq with rfl | hq
    · omega
    · have := ih (fun m hm => h m (List.mem_cons_of_mem _ hm)) hq
      omega

/-- Deleting the last element of every block. -/
theorem deleteFrom_blocks {α : Type*} (s : ℕ) (blocks : List (List α)) (h : ∀ b ∈ blocks, b ≠ []) :
    deleteFrom (lastOf s (blocks.map List.length)) s blocks.flatten = (blocks.map List.dropLast).flatten := by
  induction blocks generalizing s with
  | nil => rfl
  | cons b bs ih =>
    have hb := h b (by simp)
    have hbs : ∀ b ∈ bs, b ≠ [] := fun b hb => h b (List.mem_cons_of_mem _ hb)
    have hpos : 1 ≤ b.length := List.length_pos_iff.2 hb
    have hge : ∀ q ∈ lastOf (s + b.length) (bs.map List.length), s + b.length ≤ q := fun q hq => mem_lastOf_ge (by
      intro n hn
      obtain ⟨b', hb', rfl⟩ := List.mem_map.1 hn
      exact List.length_pos_iff.2 (hbs b' hb')) hq
    rw [List.flatten_cons, List.map_cons, List.map_cons, List.flatten_cons, deleteFrom_append, lastOf]
    congr 1
    · have hlen : b.dropLast.length = b.length - 1 := List.length_dropLast
      have hdel := deleteFrom_last ((s + b.length - 1) :: lastOf (s + b.length) (bs.map List.length)) s b.dropLast (b.getLast hb)
      rw [List.dropLast_append_getLast hb] at hdel
      refine hdel ?_ ?_
      · rw [hlen, List.mem_cons]; left; omega
      · intro q h1 h2 hq
        rw [hlen] at h2
        rw [List.mem_cons] at hq
        rcases hq with hq | hq
        · omega
        · have := hge q hq; omega
    · rw [← ih (s + b.length) hbs]
      refine deleteFrom_congr _ _ _ _ ?_
      intro q h1 _
      rw [List.mem_cons]
      constructor
      · rintro (h | h)
        · omega
        · exact h
      · exact Or.inr

/-- Consecutive ranges of the lengths `ns`. -/
def blocksOf : ℕ → List ℕ → List (List ℕ)
  | _, [] => []
  | s, n :: ns => List.range' s n :: blocksOf (s + n) ns

theorem blocksOf_flatten (s : ℕ) (ns : List ℕ) : (blocksOf s ns).flatten = List.range' s ns.sum := by
  induction ns generalizing s with
  | nil => rfl
  | cons n ns ih =>
    rw [blocksOf, List.flatten_cons, ih, List.sum_cons, List.range'_append_1]

theorem blocksOf_lengths (s : ℕ) (ns : List ℕ) : (blocksOf s ns).map List.length = ns := by
  induction ns generalizing s with
  | nil => rfl
  | cons n ns ih => rw [blocksOf, List.map_cons, ih, List.length_range']

/-- Starts of the blocks after the last elements have been deleted. -/
def startsOf : ℕ → List ℕ → List ℕ
  | _, [] => []
  | s, n :: ns => s :: startsOf (s + (n - 1)) ns

theorem insertPositions_eq (ms : List ℕ) (h : ∀ m ∈ ms, 2 ≤ m) : insertPositions ms = startsOf 0 (ms.map (· - 1)) := by
  have key : ∀ (ms : List ℕ) (m s i : ℕ), (∀ m' ∈ m :: ms, 2 ≤ m') → i ≤ s →
      List.zipWith (· - ·) (cumsum s (((m :: ms).dropLast).map (· - 1))) (List.range' (i + 1) ms.length) = (startsOf (s - i) ((m :: ms).map (· - 1))).tail := by
    intro ms
    induction ms with
    | nil => intro m s i _ _; rfl
    | cons m' ms ih =>
      intro m s i hm hi
      have h1 := hm m (by simp)
      rw [List.dropLast_cons_cons, List.map_cons, cumsum, List.length_cons, List.range'_succ, List.zipWith_cons_cons,
        ih m' (s + (m - 1)) (i + 1) (fun x hx => hm x (List.mem_cons_of_mem _ hx)) (by omega), List.map_cons, List.map_cons, startsOf, List.tail_cons]
      have h2 : s + (m - 1) - (i + 1) = s - i + (m - 1 - 1) := by omega
      rw [h2, List.map_cons]
      rfl
  cases ms with
  | nil => rfl
  | cons m ms =>
    unfold insertPositions
    rw [cumsum, List.length_cons, List.range_eq_range', List.range'_succ, List.zipWith_cons_cons]
    have h1 := key ms m 0 0 h (le_refl _)
    simp only [Nat.zero_add, Nat.sub_zero] at h1 ⊢
    rw [h1]
    rfl

theorem mem_startsOf_ge {s : ℕ} {ns : List ℕ} {q : ℕ} (hq : q ∈ startsOf s ns) : s ≤ q := by
  induction ns generalizing s with
  | nil => simp [startsOf] at hq
  | cons n ns ih =>
    rw [startsOf, List.mem_cons] at hq
    rcases hq with rfl | hq
    · exact le_refl _
    · have := ih hq; omega

theorem insertFrom_blocks (s t : ℕ) (ns : List ℕ) (h : ∀ n ∈ ns, 1 ≤ n) :
    insertFrom ((startsOf s ns).zip (lastOf t ns)) s ((blocksOf t ns).map List.dropLast).flatten =
      ((blocksOf t ns).map fun b => b.getLastD 0 :: b.dropLast).flatten := by
  induction ns generalizing s t with
  | nil => rfl
  | cons n ns ih =>
    have hn := h n (by simp)
    have hlen : ((List.range' t n).dropLast).length = n - 1 := by rw [List.length_dropLast, List.length_range']
    have h1 : (startsOf s (n :: ns)).zip (lastOf t (n :: ns)) =
        [(s, t + n - 1)] ++ (startsOf (s + (n - 1)) ns).zip (lastOf (t + n) ns) := rfl
    have h2 : ((blocksOf t (n :: ns)).map List.dropLast).flatten =
        (List.range' t n).dropLast ++ ((blocksOf (t + n) ns).map List.dropLast).flatten := rfl
    rw [h1, h2, insertFrom_split, hlen, ih (s + (n - 1)) (t + n) (fun m hm => h m (List.mem_cons_of_mem _ hm)), insertFrom_head, blocksOf,
      List.map_cons, List.flatten_cons]
    · congr 2
      obtain ⟨m, rfl⟩ : ∃ m, n = m + 1 := ⟨n - 1, by omega⟩
      rw [List.range'_concat]
      simp
    · intro c hc
      rw [List.mem_singleton] at hc
      rw [hc]; simp
    · intro c hc
      rw [hlen]
      exact mem_startsOf_ge (List.of_mem_zip hc).1

theorem connTo_eq (ms : List ℕ) (h : ∀ m ∈ ms, 2 ≤ m) :
    connTo ms (ms.map (· - 1)).sum = ((blocksOf 0 (ms.map (· - 1))).map fun b => b.getLastD 0 :: b.dropLast).flatten := by
  have hpos : ∀ n ∈ ms.map (· - 1), 1 ≤ n := by
    intro n hn
    obtain ⟨m, hm, rfl⟩ := List.mem_map.1 hn
    have := h m hm
    omega
  unfold connTo
  have hroll : rollIndices ms = lastOf 0 (ms.map (· - 1)) := cumsum_lastOf 0 _ hpos
  have hdel := deleteFrom_blocks 0 (blocksOf 0 (ms.map (· - 1))) (by
    intro b hb hnil
    have h0 : b.length ∈ (blocksOf 0 (ms.map (· - 1))).map List.length := List.mem_map.2 ⟨b, hb, rfl⟩
    rw [blocksOf_lengths] at h0
    have := hpos _ h0
    rw [hnil] at this
    simp at this)
  rw [blocksOf_lengths, blocksOf_flatten] at hdel
  rw [hroll, List.range_eq_range', hdel, insertPositions_eq ms h, insertFrom_blocks 0 0 _ hpos]

/-! ### C43 -/

theorem flatten_index {α : Type*} (ls : List (List α)) (i j : ℕ) (l : List α) (hi : ls[i]? = some l) (hj : j < l.length) :
    ls.flatten[((ls.take i).map List.length).sum + j]? = l[j]? := by
  induction ls generalizing i with
  | nil => simp at hi
  | cons a ls ih =>
    cases i with
    | zero =>
      simp only [List.getElem?_cons_zero, Option.some.injEq] at hi
      subst hi
      simp [List.getElem?_append_left hj]
    | succ i =>
      rw [List.getElem?_cons_succ] at hi
      rw [List.take_succ_cons, List.map_cons, List.sum_cons, List.flatten_cons, List.getElem?_append_right (by omega), ← ih i hi]
      congr 1
      omega

/-- A closed ring as the geometry library gives it: the points, then the first one again. -/
def closed {P : Type*} (pts : List P) : List P := pts ++ pts.head?.toList

theorem closed_length {P : Type*} (pts : List P) (h : pts ≠ []) : (closed pts).length = pts.length + 1 := by
  cases pts with
  | nil => exact absurd rfl h
  | cons a l => simp [closed]

/-- C43: for any list of nonempty rings, given closed: exactly the closing points are dropped; and there is one segment per point, from
the point to its cyclic predecessor in its own ring. (`offset` counts the points of the rings before.) -/
theorem C43_segments {P : Type*} (rings : List (List P)) (hne : ∀ r ∈ rings, r ≠ []) :
    vertices (rings.map closed) = rings.flatten ∧ (segments (rings.map closed)).length = rings.flatten.length ∧
      ∀ (i j : ℕ) (r : List P), rings[i]? = some r → j < r.length →
        let offset := ((rings.take i).map List.length).sum
        (vertices (rings.map closed))[offset + j]? = r[j]? ∧
        (segments (rings.map closed))[offset + j]? = some (offset + j, offset + (j + (r.length - 1)) % r.length) := by
  have hnum : (rings.map closed).map List.length = rings.map fun r => r.length + 1 := by
    rw [List.map_map]
    apply List.map_congr_left
    intro r hr
    exact closed_length r (hne r hr)
  have hv : vertices (rings.map closed) = rings.flatten := by
    unfold vertices delVertIndices
    rw [cumsum_lastOf 0 _ (by
      rw [hnum]
      intro n hn
      obtain ⟨r, _, rfl⟩ := List.mem_map.1 hn
      omega), deleteFrom_blocks 0 (rings.map closed) (by
      intro b hb
      obtain ⟨r, hr, rfl⟩ := List.mem_map.1 hb
      rw [← List.length_pos_iff, closed_length r (hne r hr)]
      omega), List.map_map]
    congr 1
    conv_rhs => rw [← List.map_id rings]
    apply List.map_congr_left
    intro r hr
    have := hne r hr
    cases r with
    | nil => exact absurd rfl this
    | cons a l =>
      show ((a :: l) ++ [a]).dropLast = a :: l
      exact List.dropLast_concat
  have hsum : rings.flatten.length = (rings.map List.length).sum := List.length_flatten
  have hsub : ((rings.map closed).map List.length).map (· - 1) = rings.map List.length := by
    rw [hnum, List.map_map]
    rfl
  have hconn : connTo ((rings.map closed).map List.length) rings.flatten.length =
      ((blocksOf 0 (rings.map List.length)).map fun b => b.getLastD 0 :: b.dropLast).flatten := by
    have := connTo_eq ((rings.map closed).map List.length) (by
      rw [hnum]
      intro n hn
      obtain ⟨r, hr, rfl⟩ := List.mem_map.1 hn
      have := List.length_pos_iff.2 (hne r hr)
      omega)
    rw [hsub] at this
    rw [hsum, this]
  have hblocks : ∀ (ns : List ℕ) (s i n : ℕ), ns[i]? = some n → (blocksOf s ns)[i]? = some (List.range' (s + (ns.take i).sum) n) := by
    intro ns
    induction ns with
    | nil => intro s i n h; simp at h
    | cons m ns ih =>
      intro s i n h
      cases i with
      | zero =>
        simp only [List.getElem?_cons_zero, Option.some.injEq] at h
        subst h
        simp [blocksOf]
      | succ i =>
        rw [List.getElem?_cons_succ] at h
        rw [blocksOf, List.getElem?_cons_succ, ih (s + m) i n h, List.take_succ_cons, List.sum_cons, Nat.add_assoc]
  have hlens : ∀ ns : List ℕ, (∀ n ∈ ns, 1 ≤ n) → ∀ s, ((blocksOf s ns).map fun b => b.getLastD 0 :: b.dropLast).map List.length = ns := by
    intro ns
    induction ns with
    | nil => intro _ s; rfl
    | cons m ns ih =>
      intro h s
      have hm := h m (by simp)
      rw [blocksOf, List.map_cons, List.map_cons, ih (fun n hn => h n (List.mem_cons_of_mem _ hn))]
      rw [List.length_cons, List.length_dropLast, List.length_range', Nat.sub_add_cancel hm]
  have hpos : ∀ n ∈ rings.map List.length, 1 ≤ n := by
    intro n hn
    obtain ⟨r, hr, rfl⟩ := List.mem_map.1 hn
    exact List.length_pos_iff.2 (hne r hr)
  have hclen : (connTo ((rings.map closed).map List.length) rings.flatten.length).length = rings.flatten.length := by
    rw [hconn, List.length_flatten, hlens _ hpos, hsum]
  refine ⟨hv, ?_, ?_⟩
  · unfold segments
    rw [hv, List.length_zip, List.length_range, hclen, Nat.min_self]
  · intro i j r hr hj
    have hfl := flatten_index rings i j r hr hj
    refine ⟨by rw [hv]; exact hfl, ?_⟩
    unfold segments
    rw [hv, hconn]
    have hr' : (rings.map List.length)[i]? = some r.length := by rw [List.getElem?_map, hr]; rfl
    have hb := hblocks (rings.map List.length) 0 i r.length hr'
    rw [Nat.zero_add, ← List.map_take] at hb
    generalize hoff : ((rings.take i).map List.length).sum = off at *
    obtain ⟨m, hm⟩ : ∃ m, r.length = m + 1 := ⟨r.length - 1, by omega⟩
    have hidx := flatten_index ((blocksOf 0 (rings.map List.length)).map fun b => b.getLastD 0 :: b.dropLast) i j
      ((List.range' off r.length).getLastD 0 :: (List.range' off r.length).dropLast) (by rw [List.getElem?_map, hb]; rfl)
      (by rw [List.length_cons, List.length_dropLast, List.length_range']; omega)
    have hoff' : ((((blocksOf 0 (rings.map List.length)).map fun b => b.getLastD 0 :: b.dropLast).take i).map List.length).sum = off := by
      rw [List.map_take, hlens _ hpos, ← List.map_take, hoff]
    rw [hoff'] at hidx
    have hbound : off + j < rings.flatten.length := by
      by_contra hcon
      rw [List.getElem?_eq_none (by omega)] at hfl
      rw [List.getElem?_eq_getElem hj] at hfl
      cases hfl
    rw [List.getElem?_zip_eq_some]
    refine ⟨by rw [List.getElem?_range hbound], ?_⟩
    rw [hidx, hm, List.range'_concat]
    cases j with
    | zero =>
      simp only [Nat.add_sub_cancel, Nat.zero_add, List.getElem?_cons_zero, Option.some.injEq]
      rw [Nat.mod_eq_of_lt (by omega)]
      simp
    | succ j =>
      have : j + 1 + (m + 1 - 1) = j + (m + 1) := by omega
      rw [this, Nat.add_mod_right, Nat.mod_eq_of_lt (by omega), List.getElem?_cons_succ]
      simp only [List.dropLast_concat]
      rw [List.getElem?_range' (by omega)]
      simp

/-- C43, nothing else: every segment joins a point with its cyclic predecessor in its own ring. -/
theorem C43_only {P : Type*} (rings : List (List P)) (hne : ∀ r ∈ rings, r ≠ []) (v u : ℕ) (h : (v, u) ∈ segments (rings.map closed)) :
    ∃ (i j : ℕ) (r : List P), rings[i]? = some r ∧ j < r.length ∧ v = ((rings.take i).map List.length).sum + j ∧
      u = ((rings.take i).map List.length).sum + (j + (r.length - 1)) % r.length := by
  obtain ⟨k, hk⟩ := List.mem_iff_getElem?.1 h
  obtain ⟨_, hlen, hseg⟩ := C43_segments rings hne
  have hlt : k < rings.flatten.length := by
    by_contra hcon
    rw [List.getElem?_eq_none (by omega)] at hk
    cases hk
  have : ∀ (ls : List (List P)) (k : ℕ), k < ls.flatten.length → ∃ (i j : ℕ) (r : List P), ls[i]? = some r ∧ j < r.length ∧
      k = ((ls.take i).map List.length).sum + j := by
    intro ls
    induction ls with
    | nil => intro k hk; simp at hk
    | cons a ls ih =>
      intro k hk
      by_cases hka : k < a.length
      · exact ⟨0, k, a, by simp, hka, by simp⟩
      · rw [List.flatten_cons, List.length_append] at hk
        obtain ⟨i, j, r, h1, h2, h3⟩ := ih (k - a.length) (by omega)
        refine ⟨i + 1, j, r, by simpa using h1, h2, ?_⟩
        rw [List.take_succ_cons, List.map_cons, List.sum_cons]
        omega
  obtain ⟨i, j, r, h1, h2, rfl⟩ := this rings k hlt
  have h3 := (hseg i j r h1 h2).2
  rw [hk, Option.some.injEq, Prod.mk.injEq] at h3
  exact ⟨i, j, r, h1, h2, h3.1, h3.2⟩

/-- A square with a triangular hole. -/
theorem C43_nonvacuous : vertices ([[1, 2, 3, 4], [5, 6, 7]].map closed) = [1, 2, 3, 4, 5, 6, 7] ∧
    segments ([[1, 2, 3, 4], [5, 6, 7]].map closed) = [(0, 3), (1, 0), (2, 1), (3, 2), (4, 6), (5, 4), (6, 5)] := by
  decide

/-! ### C44 -/

variable {K : Type*} [Field K] [LinearOrder K] [IsStrictOrderedRing K]

/-- C44: for every draw from the unit square the returned point is a convex combination of the corners of the chosen triangle. -/
theorem C44_in_triangle (t : Triangle K) (x y : K) (hx : 0 ≤ x) (hx1 : x ≤ 1) (hy : 0 ≤ y) (hy1 : y ≤ 1) :
    ∃ a b c : K, 0 ≤ a ∧ 0 ≤ b ∧ 0 ≤ c ∧ a + b + c = 1 ∧
      pointIn t x y = (a * t.1.1 + b * t.2.1.1 + c * t.2.2.1, a * t.1.2 + b * t.2.1.2 + c * t.2.2.2) := by
  unfold pointIn affine fold
  by_cases h : x + y > 1
  · refine ⟨x + y - 1, 1 - x, 1 - y, by linarith, by linarith, by linarith, by ring, ?_⟩
    rw [if_pos h]
    ext <;> simp <;> ring
  · refine ⟨1 - x - y, x, y, by linarith, hx, hy, by ring, ?_⟩
    rw [if_neg h]
    ext <;> simp <;> ring

/-- C44: the weights are nonnegative and, if not all triangles are degenerate, sum to one; a weight is proportional to the area. -/
theorem C44_weights (ts : List (Triangle K)) :
    (weights ts).length = ts.length ∧ (∀ w ∈ weights ts, 0 ≤ w) ∧ ((∃ t ∈ ts, area t ≠ 0) → (weights ts).sum = 1 ∧
      ∀ (i j : ℕ) (s t : Triangle K) (u v : K), ts[i]? = some s → ts[j]? = some t → (weights ts)[i]? = some u → (weights ts)[j]? = some v →
        u * area t = v * area s) := by
  have hnn : ∀ t : Triangle K, 0 ≤ area t := fun t => by unfold area; positivity
  have hsum : 0 ≤ (ts.map area).sum := List.sum_nonneg (by
    intro x hx
    obtain ⟨t, _, rfl⟩ := List.mem_map.1 hx
    exact hnn t)
  refine ⟨by simp [weights], ?_, ?_⟩
  · intro w hw
    unfold weights at hw
    obtain ⟨a, ha, rfl⟩ := List.mem_map.1 hw
    obtain ⟨t, _, rfl⟩ := List.mem_map.1 ha
    exact div_nonneg (hnn t) hsum
  · rintro ⟨t, ht, hne⟩
    have hpos : 0 < (ts.map area).sum := by
      refine lt_of_lt_of_le (lt_of_le_of_ne (hnn t) (Ne.symm hne)) ?_
      refine List.single_le_sum ?_ _ (List.mem_map.2 ⟨t, ht, rfl⟩)
      intro x hx
      obtain ⟨t, _, rfl⟩ := List.mem_map.1 hx
      exact hnn t
    constructor
    · unfold weights
      have : ∀ (l : List K) (c : K), (l.map (· / c)).sum = l.sum / c := by
        intro l c
        induction l with
        | nil => simp
        | cons a l ih => rw [List.map_cons, List.sum_cons, ih, List.sum_cons, add_div]
      rw [this, div_self hpos.ne']
    · intro i j s t u v hs ht hu hv
      unfold weights at hu hv
      rw [List.getElem?_map, List.getElem?_map, hs] at hu
      rw [List.getElem?_map, List.getElem?_map, ht] at hv
      simp only [Option.map_some, Option.some.injEq] at hu hv
      rw [← hu, ← hv]
      ring

/-- C44: the weight numerator is the area of the triangle: half the absolute cross product of two sides, whichever corner comes
first. -/
theorem C44_area (t : Triangle K) :
    2 * area t = |(t.2.1.1 - t.1.1) * (t.2.2.2 - t.1.2) - (t.2.2.1 - t.1.1) * (t.2.1.2 - t.1.2)| := by
  unfold area
  rw [← mul_assoc, mul_one_div_cancel (by norm_num), one_mul]
  congr 1
  ring

/-- C44: every point of the triangle is reached by some draw. -/
theorem C44_all_reached (t : Triangle K) (a b c : K) (ha : 0 ≤ a) (hb : 0 ≤ b) (hc : 0 ≤ c) (h : a + b + c = 1) :
    ∃ x y : K, 0 ≤ x ∧ x ≤ 1 ∧ 0 ≤ y ∧ y ≤ 1 ∧
      pointIn t x y = (a * t.1.1 + b * t.2.1.1 + c * t.2.2.1, a * t.1.2 + b * t.2.1.2 + c * t.2.2.2) := by
  refine ⟨b, c, hb, by linarith, hc, by linarith, ?_⟩
  have ha' : a = 1 - b - c := by linarith
  unfold pointIn affine fold
  rw [if_neg (by linarith), ha']
  ext <;> simp <;> ring

/-- A draw that is folded, and the weights of two triangles. -/
theorem C44_nonvacuous : pointIn (((0, 0), (4, 0), (0, 4)) : Triangle ℚ) (3/4) (1/2) = (1, 2) ∧
    weights ([((0, 0), (4, 0), (0, 4)), ((0, 0), (2, 0), (0, 4))] : List (Triangle ℚ)) = [2/3, 1/3] := by
  decide +kernel

end Verif.Props
