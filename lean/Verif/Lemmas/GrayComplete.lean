import Mathlib.Topology.Order.IntermediateValue
import Mathlib.Topology.Algebra.Order.Floor
import Mathlib.Topology.Instances.Real.Lemmas
import Mathlib.Algebra.Order.Floor.Ring
import Verif.Lemmas.GrayMotion

/-!
Completeness of the motion check of `GrayCodeWalls` along direct routes: the parts of a free segment inside the cubes of the corridor
follow each other like the cubes.
-/

namespace Verif.Gray

open Verif.Spec

variable {n : ℕ}

/-- In the closed cube and clear of its walls. -/
def Inside {K : Type*} [Field K] [LinearOrder K] (l : List (Fin (n + 1) → ℤ)) (th : K) (c : Fin (n + 1) → ℤ) (x : Fin (n + 1) → K) :
    Prop := InCube c x ∧ ClearOfWalls l th c x

theorem idx_unique {α : Type*} {l : List α} (hl : l.Nodup) {c : α} {k k' : ℕ} (h : l[k]? = some c) (h' : l[k']? = some c) : k = k' := by
  rw [List.getElem?_eq_some_iff] at h h'
  obtain ⟨x, hx⟩ := h
  obtain ⟨y, hy⟩ := h'
  exact (List.Nodup.getElem_inj_iff hl).1 (hx.trans hy.symm)

theorem neighbour_idx {l : List (Fin (n + 1) → ℤ)} (hl : l.Nodup) {c c' : Fin (n + 1) → ℤ} {k k' : ℕ} (h : l[k]? = some c)
    (h' : l[k']? = some c') (hn : Neighbour l c c') : k' = k + 1 ∨ k = k' + 1 := by
  rcases hn with ⟨j, h1, h2⟩ | ⟨j, h1, h2⟩
  · have := idx_unique hl h h1; have := idx_unique hl h' h2; omega
  · have := idx_unique hl h h2; have := idx_unique hl h' h1; omega

section
variable {K : Type*} [Field K] [LinearOrder K] [IsStrictOrderedRing K]

/-- A coordinate in which two cubes with a common inside point differ: both cubes have an opening there. -/
theorem inside_differ {l : List (Fin (n + 1) → ℤ)} (hch : l.IsChain CubeAdj) {th : K} (hth : 0 < th) {c c' : Fin (n + 1) → ℤ}
    {x : Fin (n + 1) → K} (h : Inside l th c x) (h' : Inside l th c' x) {i : Fin (n + 1)} (hi : c i ≠ c' i) :
    Neighbour l c (Function.update c i (c' i)) ∧ ((c' i = c i + 1 ∧ x i = (c i : K) + 1) ∨ (c' i = c i - 1 ∧ x i = (c i : K))) := by
  have mk : ∀ nb, Neighbour l c nb → nb i = c' i → Neighbour l c (Function.update c i (c' i)) := by
    intro nb hnb hv
    obtain ⟨j, hj, hrest⟩ := neighbour_adj hch hnb
    have hij : i = j := by
      by_contra hne
      exact hi ((hrest i hne).symm.trans hv)
    subst hij
    have : nb = Function.update c i (c' i) := by
      funext r
      by_cases hr : r = i
      · subst hr; rw [Function.update_self, hv]
      · rw [Function.update_of_ne hr, hrest r hr]
    rw [← this]; exact hnb
  obtain ⟨a1, a2⟩ := h.1 i
  obtain ⟨b1, b2⟩ := h'.1 i
  rcases lt_or_gt_of_ne hi with hlt | hgt
  · have e : c' i = c i + 1 := by
      have : (c' i : K) ≤ (c i : K) + 1 := b1.trans a2
      have : c' i ≤ c i + 1 := by exact_mod_cast this
      omega
    have hx : x i = (c i : K) + 1 := le_antisymm a2 (by rw [e] at b1; push_cast at b1; exact b1)
    rcases (h.2 i).2 with hh | ⟨nb, h1, h2⟩
    · rw [hx] at hh; linarith
    · exact ⟨mk nb h1 (by omega), Or.inl ⟨e, hx⟩⟩
  · have e : c' i = c i - 1 := by
      have : (c i : K) ≤ (c' i : K) + 1 := a1.trans b2
      have : c i ≤ c' i + 1 := by exact_mod_cast this
      omega
    have hx : x i = (c i : K) := le_antisymm (by rw [e] at b2; push_cast at b2; linarith) a1
    rcases (h.2 i).1 with hh | ⟨nb, h1, h2⟩
    · rw [hx] at hh; linarith
    · exact ⟨mk nb h1 (by omega), Or.inr ⟨e, hx⟩⟩

/-- Two different cubes with a common inside point are neighbours in the corridor. -/
theorem inside_neighbour {l : List (Fin (n + 1) → ℤ)} (hl : l.Nodup) (hch : l.IsChain CubeAdj) {th : K} (hth : 0 < th)
    {c c' : Fin (n + 1) → ℤ} {x : Fin (n + 1) → K} (h : Inside l th c x) (h' : Inside l th c' x) (hne : c ≠ c') :
    Neighbour l c c' := by
  obtain ⟨i, hi⟩ := Function.ne_iff.1 hne
  obtain ⟨h1, -⟩ := inside_differ hch hth h h' hi
  by_cases hall : ∀ j, j ≠ i → c j = c' j
  · have : Function.update c i (c' i) = c' := by
      funext r
      by_cases hr : r = i
      · subst hr; rw [Function.update_self]
      · rw [Function.update_of_ne hr, hall r hr]
    rwa [this] at h1
  · push Not at hall
    obtain ⟨j, hji, hj⟩ := hall
    obtain ⟨h2, -⟩ := inside_differ hch hth h h' hj
    obtain ⟨h1', -⟩ := inside_differ hch hth h' h hi.symm
    obtain ⟨h2', -⟩ := inside_differ hch hth h' h hj.symm
    have hd : Function.update c i (c' i) ≠ Function.update c j (c' j) := by
      intro he
      have := congrFun he i
      rw [Function.update_self, Function.update_of_ne hji.symm] at this
      exact hi this.symm
    have hrest : ∀ k, k ≠ i → k ≠ j → c k = c' k := by
      intro k hki hkj
      by_contra hk
      obtain ⟨h3, -⟩ := inside_differ hch hth h h' hk
      rcases neighbours_le_two hl h1 h2 h3 with he | he | he
      · exact hd he
      · have := congrFun he i
        rw [Function.update_self, Function.update_of_ne hki.symm] at this
        exact hi this.symm
      · have := congrFun he j
        rw [Function.update_self, Function.update_of_ne hkj.symm] at this
        exact hj this.symm
    have e1 : Function.update c' i (c i) = Function.update c j (c' j) := by
      funext r
      by_cases hri : r = i
      · subst hri; rw [Function.update_self, Function.update_of_ne hji.symm]
      · rw [Function.update_of_ne hri]
        by_cases hrj : r = j
        · subst hrj; rw [Function.update_self]
        · rw [Function.update_of_ne hrj, hrest r hri hrj]
    have e2 : Function.update c' j (c j) = Function.update c i (c' i) := by
      funext r
      by_cases hrj : r = j
      · subst hrj; rw [Function.update_self, Function.update_of_ne hji]
      · rw [Function.update_of_ne hrj]
        by_cases hri : r = i
        · subst hri; rw [Function.update_self]
        · rw [Function.update_of_ne hri, hrest r hri hrj]
    rw [e1] at h1'
    rw [e2] at h2'
    exfalso
    obtain ⟨k, hk⟩ := List.getElem?_of_mem (mem_of_neighbour h1).1
    obtain ⟨k', hk'⟩ := List.getElem?_of_mem (mem_of_neighbour h1').1
    obtain ⟨p, hp⟩ := List.getElem?_of_mem (mem_of_neighbour h1).2
    obtain ⟨q, hq⟩ := List.getElem?_of_mem (mem_of_neighbour h2).2
    have a1 := neighbour_idx hl hk hp h1
    have a2 := neighbour_idx hl hk hq h2
    have a3 := neighbour_idx hl hk' hq h1'
    have a4 := neighbour_idx hl hk' hp h2'
    have hpq : p ≠ q := by rintro rfl; rw [hp] at hq; exact hd (by injection hq)
    have : k = k' := by omega
    subst this
    rw [hk] at hk'; exact hne (by injection hk')

theorem inside_idx {l : List (Fin (n + 1) → ℤ)} (hl : l.Nodup) (hch : l.IsChain CubeAdj) {th : K} (hth : 0 < th)
    {c c' : Fin (n + 1) → ℤ} {x : Fin (n + 1) → K} (h : Inside l th c x) (h' : Inside l th c' x) {k k' : ℕ} (hk : l[k]? = some c)
    (hk' : l[k']? = some c') : k' ≤ k + 1 ∧ k ≤ k' + 1 := by
  by_cases hne : c = c'
  · subst hne; have := idx_unique hl hk hk'; omega
  · have := neighbour_idx hl hk hk' (inside_neighbour hl hch hth h h' hne); omega

end

/-- The times at which a segment is inside a cube form a closed set. -/
theorem inside_closed (l : List (Fin (n + 1) → ℤ)) (th : ℝ) (c : Fin (n + 1) → ℤ) (x y : Fin (n + 1) → ℝ) :
    IsClosed {t : ℝ | Inside l th c (seg x y t)} := by
  have hc : ∀ i, Continuous fun t : ℝ => seg x y t i := by intro i; unfold seg; fun_prop
  have e : {t : ℝ | Inside l th c (seg x y t)} = (⋂ i, {t : ℝ | (c i : ℝ) ≤ seg x y t i} ∩ {t : ℝ | seg x y t i ≤ (c i : ℝ) + 1}) ∩
      ⋂ i, ({t : ℝ | (c i : ℝ) + th ≤ seg x y t i} ∪ {_t : ℝ | ∃ nb, Neighbour l c nb ∧ nb i = c i - 1}) ∩
        ({t : ℝ | seg x y t i ≤ (c i : ℝ) + 1 - th} ∪ {_t : ℝ | ∃ nb, Neighbour l c nb ∧ nb i = c i + 1}) := by
    ext t
    simp only [Inside, InCube, ClearOfWalls, Set.mem_ofPred_eq, Set.mem_inter_iff, Set.mem_iInter, Set.mem_union]
  rw [e]
  refine IsClosed.inter (isClosed_iInter fun i => ?_) (isClosed_iInter fun i => ?_)
  · exact (isClosed_le continuous_const (hc i)).inter (isClosed_le (hc i) continuous_const)
  · exact ((isClosed_le continuous_const (hc i)).union isClosed_const).inter ((isClosed_le (hc i) continuous_const).union isClosed_const)

/-- A free segment that is inside an early and inside a late cube of the corridor passes every opening between them. -/
theorem crossing {l : List (Fin (n + 1) → ℤ)} (hl : l.Nodup) (hch : l.IsChain CubeAdj) {th : ℝ} (hth : 0 < th)
    {x y : Fin (n + 1) → ℝ} (hfree : ∀ t, 0 ≤ t → t ≤ 1 → GrayFree l th (seg x y t)) {a b k : ℕ} {ca cb c c' : Fin (n + 1) → ℤ}
    (ha : l[a]? = some ca) (hb : l[b]? = some cb) (hak : a ≤ k) (hkb : k < b) (hc : l[k]? = some c) (hc' : l[k + 1]? = some c')
    {s t : ℝ} (hs0 : 0 ≤ s) (hs1 : s ≤ 1) (ht0 : 0 ≤ t) (ht1 : t ≤ 1) (hs : Inside l th ca (seg x y s))
    (ht : Inside l th cb (seg x y t)) : ∃ τ, 0 ≤ τ ∧ τ ≤ 1 ∧ Inside l th c (seg x y τ) ∧ Inside l th c' (seg x y τ) := by
  let A : Set ℝ := ⋃ i : {i : Fin l.length // (i : ℕ) ≤ k}, {τ | Inside l th l[i.1] (seg x y τ)}
  let B : Set ℝ := ⋃ i : {i : Fin l.length // k < (i : ℕ)}, {τ | Inside l th l[i.1] (seg x y τ)}
  have hA : IsClosed A := isClosed_iUnion_of_finite fun i => inside_closed _ _ _ _ _
  have hB : IsClosed B := isClosed_iUnion_of_finite fun i => inside_closed _ _ _ _ _
  obtain ⟨ha1, ha2⟩ := List.getElem?_eq_some_iff.1 ha
  obtain ⟨hb1, hb2⟩ := List.getElem?_eq_some_iff.1 hb
  have hcov : Set.Icc (0 : ℝ) 1 ⊆ A ∪ B := by
    rintro τ ⟨h0, h1⟩
    obtain ⟨d, hd, hin⟩ := hfree τ h0 h1
    obtain ⟨i, hi, rfl⟩ := List.getElem_of_mem hd
    by_cases hik : i ≤ k
    · exact Or.inl (Set.mem_iUnion.2 ⟨⟨⟨i, hi⟩, hik⟩, hin⟩)
    · exact Or.inr (Set.mem_iUnion.2 ⟨⟨⟨i, hi⟩, not_le.1 hik⟩, hin⟩)
  have hsA : s ∈ A := Set.mem_iUnion.2 ⟨⟨⟨a, ha1⟩, hak⟩, by rw [← ha2] at hs; exact hs⟩
  have htB : t ∈ B := Set.mem_iUnion.2 ⟨⟨⟨b, hb1⟩, hkb⟩, by rw [← hb2] at ht; exact ht⟩
  obtain ⟨τ, ⟨h0, h1⟩, hτA, hτB⟩ := isPreconnected_closed_iff.1 (isPreconnected_Icc (a := (0 : ℝ)) (b := 1)) A B hA hB hcov
    ⟨s, ⟨hs0, hs1⟩, hsA⟩ ⟨t, ⟨ht0, ht1⟩, htB⟩
  obtain ⟨⟨⟨i, hi⟩, hik⟩, hiA⟩ := Set.mem_iUnion.1 hτA
  obtain ⟨⟨⟨j, hj⟩, hjk⟩, hjB⟩ := Set.mem_iUnion.1 hτB
  have hii : l[i]? = some l[i] := List.getElem?_eq_getElem hi
  have hjj : l[j]? = some l[j] := List.getElem?_eq_getElem hj
  have hd := inside_idx hl hch hth hiA hjB hii hjj
  have e1 : i = k := by simp only at hik hjk; omega
  have e2 : j = k + 1 := by simp only at hik hjk; omega
  subst e1; subst e2
  rw [hc] at hii; rw [hc'] at hjj
  injection hii with hii; injection hjj with hjj
  refine ⟨τ, h0, h1, ?_, ?_⟩
  · rw [hii]; exact hiA
  · rw [hjj]; exact hjB

/-- A step of the loop that finds both points clear. -/
theorem motion_step {e : GrayCodeWalls ℝ n} (hl : e.cubes.Nodup) (hch : e.cubes.IsChain CubeAdj) {goal : Fin (n + 1) → ℝ}
    {g c nx : Fin (n + 1) → ℤ} {forward : Bool} {s : Fin (n + 1) → ℝ} {fuel : ℕ} {r : Except PyErr Bool} (hcg : c ≠ g) (hmem : c ∈ e.cubes)
    (hnext : (if forward then successors e.cubes c else predecessors e.cubes c) = .ok [nx])
    {j : Fin (n + 1)} (hj : dirIndex (fun i => nx i - c i) = .ok j) {t : ℝ}
    (hden : goal j - s j ≠ 0) (ht : (((c j : ℝ) + 1 / 2 + ((g j : ℝ) + 1 / 2)) / 2 - s j) / (goal j - s j) = t) (ht0 : 0 < t)
    (h1 : ClearOfWalls e.cubes e.thickness c s) (h2 : ClearOfWalls e.cubes e.thickness c (fun i => (goal i - s i) * t + s i))
    (h : loop (motionBody e goal g forward) fuel (some (fun i => (goal i - s i) * t + s i), nx) = some r) :
    loop (motionBody e goal g forward) (fuel + 1) (some s, c) = some r := by
  obtain ⟨d1, hd1, iff1⟩ := dist_nonneg_iff hl hch hmem s
  obtain ⟨d2, hd2, iff2⟩ := dist_nonneg_iff hl hch hmem (fun i => (goal i - s i) * t + s i)
  have n1 := distNeg_false.2 (iff1.2 h1)
  have n2 := distNeg_false.2 (iff2.2 h2)
  have hb : motionBody e goal g forward (some s, c) = .next (some (fun i => (goal i - s i) * t + s i), nx) := by
    unfold motionBody
    simp only [if_neg hcg, hnext, hj, if_neg hden, ht, if_neg (not_le.2 ht0), hd1, hd2, n1, n2]
    rfl
  rw [loop_next hb]; exact h

/-- The final test when both points are clear. -/
theorem motion_end {e : GrayCodeWalls ℝ n} {goal : Fin (n + 1) → ℝ} {g : Fin (n + 1) → ℤ} {forward : Bool}
    {s : Fin (n + 1) → ℝ} {d1 d2 : WithTop ℝ} (h1 : distanceToWall e s = .ok d1) (h2 : distanceToWall e goal = .ok d2) (p1 : 0 ≤ d1)
    (p2 : 0 ≤ d2) : loop (motionBody e goal g forward) 1 (some s, g) = some (.ok true) := by
  have hb : motionBody e goal g forward (some s, g) = .done (.ok true) := by
    unfold motionBody
    simp only [if_true, h1, h2, distNeg_false.2 p1, distNeg_false.2 p2]
    rfl
  rw [loop_done hb]

/-- The cubes that the check walks through, in order, and the openings that the segment passes. -/
structure Walk (e : GrayCodeWalls ℝ n) (forward : Bool) (start goal : Fin (n + 1) → ℝ) (m : ℕ) (q : ℕ → Fin (n + 1) → ℤ) (T : ℕ → ℝ) :
    Prop where
  first : floorCube start = q 0
  last : floorCube goal = q m
  next : ∀ p, p < m → (if forward then successors e.cubes (q p) else predecessors e.cubes (q p)) = .ok [q (p + 1)]
  nb : ∀ p, p < m → Neighbour e.cubes (q p) (q (p + 1))
  fin : ∀ p, p < m → ∀ i, q (p + 1) i ≠ q p i → q m i = q (p + 1) i
  mem : ∀ p, p ≤ m → q p ∈ e.cubes
  lo : ∀ p, p < m → 0 ≤ T p
  hi : ∀ p, p < m → T p ≤ 1
  cross : ∀ p, p < m → Inside e.cubes e.thickness (q p) (seg start goal (T p)) ∧
    Inside e.cubes e.thickness (q (p + 1)) (seg start goal (T p))
  apart : ∀ p p', p ≤ m → p' ≤ m → (∃ x, Inside e.cubes e.thickness (q p) x ∧ Inside e.cubes e.thickness (q p') x) → p' ≤ p + 1

section
variable {e : GrayCodeWalls ℝ n} {forward : Bool} {start goal : Fin (n + 1) → ℝ} {m : ℕ} {q : ℕ → Fin (n + 1) → ℤ} {T : ℕ → ℝ}

/-- At an opening the crossed coordinate has the value used by the check. -/
theorem Walk.face (W : Walk e forward start goal m q T) (hch : e.cubes.IsChain CubeAdj) {p : ℕ} (hp : p < m) {j : Fin (n + 1)}
    (hj : q (p + 1) j ≠ q p j) :
    seg start goal (T p) j = ((q p j : ℝ) + 1 / 2 + ((q m j : ℝ) + 1 / 2)) / 2 ∧ (q m j = q p j + 1 ∨ q m j = q p j - 1) ∧
      (q m j = q p j + 1 → seg start goal (T p) j = (q p j : ℝ) + 1) ∧ (q m j = q p j - 1 → seg start goal (T p) j = (q p j : ℝ)) := by
  obtain ⟨h1, h2⟩ := W.cross p hp
  have hf := W.fin p hp j hj
  obtain ⟨j', hj', hrest⟩ := neighbour_adj hch (W.nb p hp)
  have : j = j' := by by_contra hne; exact hj (hrest j hne)
  subst this
  have a := h1.1 j
  have b := h2.1 j
  rw [← hf] at b hj'
  rcases hj' with hs | hs
  · rw [hs] at b ⊢
    push_cast at b ⊢
    have hx : seg start goal (T p) j = (q p j : ℝ) + 1 := le_antisymm a.2 b.1
    exact ⟨by rw [hx]; ring, by omega, fun _ => hx, by intro; omega⟩
  · rw [hs] at b ⊢
    push_cast at b ⊢
    have hx : seg start goal (T p) j = (q p j : ℝ) := le_antisymm (by linarith [b.2]) a.1
    exact ⟨by rw [hx]; ring, by omega, by intro; omega, fun _ => hx⟩

theorem seg_eq (x y : Fin (n + 1) → ℝ) (t : ℝ) (i : Fin (n + 1)) : seg x y t i = x i + t * (y i - x i) := by
  unfold seg; ring

/-- Along a crossed coordinate the segment moves. -/
theorem Walk.moves (W : Walk e forward start goal m q T) (hch : e.cubes.IsChain CubeAdj) (hint : ∀ i, (⌊start i⌋ : ℝ) ≠ start i)
    {p : ℕ} (hp : p < m) {j : Fin (n + 1)} (hj : q (p + 1) j ≠ q p j) : goal j - start j ≠ 0 := by
  intro h0
  obtain ⟨-, hd, hu, hw⟩ := W.face hch hp hj
  have hx : seg start goal (T p) j = start j := by rw [seg_eq, h0]; ring
  rw [hx] at hu hw
  rcases hd with h | h
  · have := hu h
    refine hint j ?_
    rw [this, Int.floor_add_one, Int.floor_intCast]; push_cast; rfl
  · have := hw h
    refine hint j ?_
    rw [this, Int.floor_intCast]

/-- A time inside the cube before an opening, other than the time of the opening, is earlier. -/
theorem Walk.earlier (W : Walk e forward start goal m q T) (hch : e.cubes.IsChain CubeAdj) (hint : ∀ i, (⌊start i⌋ : ℝ) ≠ start i)
    {p : ℕ} (hp : p < m) {τ : ℝ} (h1 : τ ≤ 1) (hin : Inside e.cubes e.thickness (q p) (seg start goal τ)) : τ ≤ T p := by
  obtain ⟨j, hj, -⟩ := neighbour_adj hch (W.nb p hp)
  have hj : q (p + 1) j ≠ q p j := by omega
  have hmv := W.moves hch hint hp hj
  obtain ⟨-, hd, hu, hw⟩ := W.face hch hp hj
  have hlast : q m j = ⌊goal j⌋ := by rw [← W.last]; rfl
  have g1 := Int.floor_le (goal j)
  have g2 := Int.lt_floor_add_one (goal j)
  rw [← hlast] at g1 g2
  have ha := hin.1 j
  have hT1 := W.hi p hp
  by_contra hlt
  push Not at hlt
  rcases hd with h | h
  · have hx := hu h
    rw [h] at g1; push_cast at g1
    have hx2 := ha.2
    rw [seg_eq] at hx hx2
    -- value at T p is the face, at τ not above it, at 1 not below it
    have k1 : (τ - T p) * (goal j - start j) ≤ 0 := by linarith
    have k2 : 0 ≤ (1 - T p) * (goal j - start j) := by linarith
    rcases lt_or_gt_of_ne hmv with hn | hpz
    · nlinarith
    · nlinarith
  · have hx := hw h
    rw [h] at g2; push_cast at g2
    have hx2 := ha.1
    rw [seg_eq] at hx hx2
    have k1 : 0 ≤ (τ - T p) * (goal j - start j) := by linarith
    have k2 : (1 - T p) * (goal j - start j) < 0 := by linarith
    rcases lt_or_gt_of_ne hmv with hn | hpz
    · nlinarith
    · nlinarith

/-- The lookup of the point at the last opening finds it clear. -/
theorem Walk.lookup (W : Walk e forward start goal m q T) (hl : e.cubes.Nodup) (hch : e.cubes.IsChain CubeAdj)
    (hint : ∀ i, (⌊start i⌋ : ℝ) ≠ start i) (hm : 0 < m) :
    ∃ d, distanceToWall e (seg start goal (T (m - 1))) = .ok d ∧ 0 ≤ d := by
  have hp : m - 1 < m := by omega
  have hpm : m - 1 + 1 = m := by omega
  obtain ⟨h1, h2⟩ := W.cross (m - 1) hp
  rw [hpm] at h2
  obtain ⟨j, hj0, hrest⟩ := neighbour_adj hch (W.nb (m - 1) hp)
  have hj : q (m - 1 + 1) j ≠ q (m - 1) j := by omega
  obtain ⟨-, hd, hu, hw⟩ := W.face hch hp hj
  rw [hpm] at hrest hj hj0
  have hother : ∀ i, i ≠ j → ⌊seg start goal (T (m - 1)) i⌋ = q m i := by
    intro i hi
    refine Int.floor_eq_iff.2 ⟨(h2.1 i).1, lt_of_le_of_ne (h2.1 i).2 ?_⟩
    intro hx
    have hlast : q m i = ⌊goal i⌋ := by rw [← W.last]; rfl
    have g2 := Int.lt_floor_add_one (goal i)
    rw [← hlast] at g2
    have hT1 := W.hi _ hp
    have hT0 := W.lo _ hp
    -- the start is above
    have hs : (q m i : ℝ) + 1 ≤ start i := by
      by_contra hlt
      push Not at hlt
      have := hx
      unfold seg at this
      have k1 := mul_nonneg (sub_nonneg.2 hT1) (sub_nonneg.2 hlt.le)
      rcases hT0.eq_or_lt with h0 | h0
      · rw [← h0] at this; linarith
      · have k2 := mul_pos h0 (sub_pos.2 g2)
        linarith
    have hsf : q m i + 1 ≤ q 0 i := by
      rw [← W.first]
      exact Int.le_floor.2 (by push_cast; exact hs)
    -- the step at which the coordinate changes
    obtain ⟨p, hpm', hpc⟩ : ∃ p, p < m ∧ q (p + 1) i ≠ q p i := by
      by_contra hno
      push Not at hno
      have : ∀ p, p ≤ m → q p i = q 0 i := by
        intro p
        induction p with
        | zero => intro _; rfl
        | succ p ih => intro h; rw [hno p (by omega)]; exact ih (by omega)
      have := this m le_rfl
      omega
    obtain ⟨-, hd', hu', hw'⟩ := W.face hch hpm' hpc
    have hmv := W.moves hch hint hpm' hpc
    have hneg : goal i - start i < 0 := by linarith
    have hface : seg start goal (T p) i = (q m i : ℝ) + 1 := by
      rcases hd' with h | h
      · -- going up is impossible
        exfalso
        have hx' := hu' h
        have hxm : seg start goal (T p) i = (q m i : ℝ) := by rw [hx', h]; push_cast; ring
        -- then the point at the later or earlier opening is above; look at the coordinate before the step
        have hback : ∀ p', p' ≤ p → q p' i ≠ q m i → q 0 i = q p' i := by
          intro p' hp' hne
          induction p' with
          | zero => rfl
          | succ p' ih =>
            by_cases hc : q (p' + 1) i = q p' i
            · rw [hc] at hne ⊢; exact ih (by omega) hne
            · exact absurd (W.fin p' (by omega) i hc).symm hne
        have := hback p le_rfl (by omega)
        omega
      · have hx' := hw' h
        rw [hx', h]; push_cast; ring
    have hTT : T p = T (m - 1) := by
      have : seg start goal (T p) i = seg start goal (T (m - 1)) i := by rw [hface, hx]
      rw [seg_eq, seg_eq] at this
      have h3 : (T p - T (m - 1)) * (goal i - start i) = 0 := by linarith
      rcases mul_eq_zero.1 h3 with h4 | h4
      · linarith
      · exact absurd h4 hmv
    have hc1 := (W.cross p hpm').1
    rw [hTT] at hc1
    have hap := W.apart p m (by omega) le_rfl ⟨_, hc1, h2⟩
    have : p = m - 1 := by omega
    subst this
    rw [hpm] at hpc
    exact hi (by by_contra hne; exact hpc (hrest i hne))
  rcases hd with h | h
  · have hfl : floorCube (seg start goal (T (m - 1))) = q m := by
      funext i
      by_cases hi : i = j
      · subst hi
        have := hu h
        unfold floorCube
        rw [this, Int.floor_add_one, Int.floor_intCast, h]
      · exact hother i hi
    obtain ⟨d, hd, hiff⟩ := dist_nonneg_iff hl hch (W.mem m le_rfl) (seg start goal (T (m - 1)))
    exact ⟨d, by unfold distanceToWall; rw [hfl]; exact hd, hiff.2 h2.2⟩
  · have hfl : floorCube (seg start goal (T (m - 1))) = q (m - 1) := by
      funext i
      by_cases hi : i = j
      · subst hi
        have := hw h
        unfold floorCube
        rw [this, Int.floor_intCast]
      · rw [← hrest i hi]; exact hother i hi
    obtain ⟨d, hd, hiff⟩ := dist_nonneg_iff hl hch (W.mem (m - 1) (by omega)) (seg start goal (T (m - 1)))
    exact ⟨d, by unfold distanceToWall; rw [hfl]; exact hd, hiff.2 h1.2⟩

/-- The loop accepts from any opening on. -/
theorem Walk.accepts (W : Walk e forward start goal m q T) (hl : e.cubes.Nodup) (hch : e.cubes.IsChain CubeAdj)
    (hint : ∀ i, (⌊start i⌋ : ℝ) ≠ start i) (hgoal : Inside e.cubes e.thickness (q m) goal) :
    ∀ d p τ, p + d = m → τ ≤ 1 → Inside e.cubes e.thickness (q p) (seg start goal τ) →
      (p < m → ¬ Inside e.cubes e.thickness (q (p + 1)) (seg start goal τ)) →
      (p = m → ∃ d, distanceToWall e (seg start goal τ) = .ok d ∧ 0 ≤ d) →
      ∃ fuel, loop (motionBody e goal (q m) forward) fuel (some (seg start goal τ), q p) = some (.ok true) := by
  intro d
  induction d with
  | zero =>
    intro p τ hp h1 hin _ hlook
    have : p = m := by omega
    subst this
    obtain ⟨d1, hd1, p1⟩ := hlook rfl
    obtain ⟨d2, hd2, hiff⟩ := dist_nonneg_iff hl hch (W.mem p le_rfl) goal
    refine ⟨1, motion_end hd1 (d2 := d2) ?_ p1 (hiff.2 hgoal.2)⟩
    unfold distanceToWall; rw [W.last]; exact hd2
  | succ d ih =>
    intro p τ hp h1 hin hnot _
    have hpm : p < m := by omega
    have hle := W.earlier hch hint hpm h1 hin
    obtain ⟨hc1, hc2⟩ := W.cross p hpm
    have hlt : τ < T p := by
      refine lt_of_le_of_ne hle ?_
      rintro rfl
      exact hnot hpm hc2
    obtain ⟨j, hjd, hstep, hrest⟩ := dirIndex_adj' (neighbour_adj hch (W.nb p hpm))
    have hj : q (p + 1) j ≠ q p j := by omega
    have hmv := W.moves hch hint hpm hj
    obtain ⟨hface, -, -, -⟩ := W.face hch hpm hj
    have hcg : q p ≠ q m := by
      intro he
      exact hj (by rw [← W.fin p hpm j hj, ← he])
    have hT1 := W.hi p hpm
    have hτ1 : 0 < 1 - τ := by linarith
    have hden : goal j - seg start goal τ j = (1 - τ) * (goal j - start j) := by rw [seg_eq]; ring
    have hpt : (fun i => (goal i - seg start goal τ i) * ((T p - τ) / (1 - τ)) + seg start goal τ i) = seg start goal (T p) := by
      funext i
      rw [seg_eq, seg_eq]
      field_simp
      ring
    obtain ⟨fuel, hfuel⟩ := ih (p + 1) (T p) (by omega) hT1 hc2
      (fun hlt' hin' => by have := W.apart p (p + 1 + 1) (by omega) (by omega) ⟨_, hc1, hin'⟩; omega)
      (fun he => by
        have hm0 : 0 < m := by omega
        have := W.lookup hl hch hint hm0
        have hpe : m - 1 = p := by omega
        rw [hpe] at this; exact this)
    refine ⟨fuel + 1, motion_step hl hch hcg (W.mem p (by omega)) (W.next p hpm) hjd (t := (T p - τ) / (1 - τ)) ?_ ?_ ?_ hin.2 ?_ ?_⟩
    · rw [hden]; exact mul_ne_zero hτ1.ne' hmv
    · rw [← hface, hden, seg_eq, seg_eq]
      field_simp
      ring
    · exact div_pos (by linarith) hτ1
    · rw [hpt]; exact hc1.2
    · rw [hpt]; exact hfuel

end

end Verif.Gray
