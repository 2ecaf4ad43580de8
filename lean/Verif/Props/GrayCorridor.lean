import Verif.Lemmas.GrayDist
import Verif.Lemmas.Py

/-!
Properties C20 and C21: cube order and sampling of `GrayCodeWalls`.
-/

set_option linter.unusedSectionVars false

namespace Verif.Props

open Verif.Gray Verif.Spec

variable {K : Type*} [Field K] [LinearOrder K] [IsStrictOrderedRing K] {n : ℕ}

/-- C20. The corridor visits every cube with first coordinate below `length` and other coordinates 0 or 1 exactly once, and
passes from cube to cube through a shared face. -/
theorem C20_hamiltonian_path {length : ℕ} {th : K} {e : GrayCodeWalls K n} (h : GrayCodeWalls.init n length th = .ok e) :
    e.cubes.Nodup ∧ e.cubes.length = length * 2 ^ n ∧
    (∀ c, c ∈ e.cubes ↔ (0 ≤ c 0 ∧ c 0 < length) ∧ ∀ i : Fin n, c i.succ = 0 ∨ c i.succ = 1) ∧
    ∀ a b, Consecutive e.cubes a b → CubeAdj a b := by
  obtain ⟨-, -, hc, -⟩ := init_ok h
  rw [hc]
  exact ⟨order_nodup n length, order_length n length, order_mem n length,
    fun a b hab => neighbour_adj (order_chain n length) (Or.inl hab)⟩

/-- C20. The graph built from the order has the previous cube as only predecessor and the next one as only successor. -/
theorem C20_graph {length : ℕ} {th : K} {e : GrayCodeWalls K n} (h : GrayCodeWalls.init n length th = .ok e) {k : ℕ}
    {c : Fin (n + 1) → ℤ} (hc : e.cubes[k]? = some c) :
    successors e.cubes c = .ok (e.cubes[k + 1]?).toList ∧
    predecessors e.cubes c = .ok (if k = 0 then [] else (e.cubes[k - 1]?).toList) := by
  have hn := (C20_hamiltonian_path h).1
  exact ⟨successors_eq hn hc, predecessors_eq hn hc⟩

/-- The constructor succeeds exactly for dimension two or more and positive length. -/
theorem C20_init (length : ℕ) (th : K) : (2 ≤ n + 1 ∧ 0 < length) ↔ ∃ e, GrayCodeWalls.init n length th = .ok e := by
  unfold GrayCodeWalls.init
  by_cases h1 : 2 ≤ n + 1 <;> by_cases h2 : 0 < length <;> simp [h1, h2]

/-- C20 is not vacuous: three dimensions, length two. -/
example : (∃ e, GrayCodeWalls.init 2 2 (1 / 8 : ℚ) = .ok e) ∧
    order 2 2 = [![0, 0, 0], ![0, 0, 1], ![0, 1, 1], ![0, 1, 0], ![1, 1, 0], ![1, 1, 1], ![1, 0, 1], ![1, 0, 0]] := by
  refine ⟨(C20_init 2 (1 / 8 : ℚ)).1 (by omega), by decide +kernel⟩

/-! ### Sampling -/

section weights

theorem init_pmf {length : ℕ} {th : K} {e : GrayCodeWalls K n} (h : GrayCodeWalls.init n length th = .ok e) :
    let vc := (1 - 2 * th) ^ (n + 1)
    let vo := th * (1 - 2 * th) ^ n
    let total := (((length * 2 ^ n : ℕ) : K) - 2) * (vc + 2 * vo) + 2 * (vc + vo)
    e.cuboidPmf = [(vc + vo) / total] ++ List.replicate (length * 2 ^ n - 2) ((vc + 2 * vo) / total) ++ [(vc + vo) / total] ∧
    e.midPmf = [vo / (vc + 2 * vo), vc / (vc + 2 * vo), vo / (vc + 2 * vo)] ∧
    e.endPmf = [vc / (vc + vo), vo / (vc + vo)] := by
  unfold GrayCodeWalls.init at h
  split at h
  · cases h
  · split at h
    · cases h
    · cases h
      have e1 : ∏ _i : Fin (n + 1), (1 * (1 - 2 * th) : K) = (1 - 2 * th) ^ (n + 1) := by simp
      have e2 : ∏ i : Fin (n + 1), ((Fin.cons th fun _ => 1 * (1 - 2 * th) : Fin (n + 1) → K) i) = th * (1 - 2 * th) ^ n := by
        rw [Fin.prod_univ_succ]; simp
      simp only [e1, e2, order_length]
      exact ⟨trivial, trivial, trivial⟩

theorem two_le_nodes {length : ℕ} (hn : 1 ≤ n) (hl : 0 < length) : 2 ≤ length * 2 ^ n := by
  calc 2 = 1 * 2 ^ 1 := by norm_num
    _ ≤ length * 2 ^ n := Nat.mul_le_mul hl (Nat.pow_le_pow_right (by norm_num) hn)

/-- C21. All weights are nonnegative, each list of weights sums to one, and there is one weight per cube. -/
theorem C21_weights {length : ℕ} {th : K} (h0 : 0 ≤ th) (h1 : th < 1 / 2) {e : GrayCodeWalls K n}
    (h : GrayCodeWalls.init n length th = .ok e) :
    (∀ l ∈ [e.cuboidPmf, e.midPmf, e.endPmf], (∀ w ∈ l, 0 ≤ w) ∧ l.sum = 1) ∧ e.cuboidPmf.length = e.cubes.length ∧
    e.midPmf.length = 3 ∧ e.endPmf.length = 2 := by
  obtain ⟨hn, hlen, hcubes, -⟩ := init_ok h
  obtain ⟨p1, p2, p3⟩ := init_pmf h
  have hN := two_le_nodes hn hlen
  have hs : 0 < 1 - 2 * th := by linarith
  set vc := (1 - 2 * th) ^ (n + 1)
  set vo := th * (1 - 2 * th) ^ n
  have hvc : 0 < vc := by positivity
  have hvo : 0 ≤ vo := by positivity
  set N := length * 2 ^ n with hNdef
  have hNK : (0 : K) ≤ (N : K) - 2 := by
    have : ((2 : ℕ) : K) ≤ (N : K) := by exact_mod_cast hN
    push_cast at this; linarith
  set total := ((N : K) - 2) * (vc + 2 * vo) + 2 * (vc + vo) with htot
  have htpos : 0 < total := by positivity
  have hcast : ((N - 2 : ℕ) : K) = (N : K) - 2 := by push_cast [Nat.cast_sub hN]; ring
  refine ⟨?_, ?_, by rw [p2]; rfl, by rw [p3]; rfl⟩
  · intro l hl
    simp only [List.mem_cons, List.not_mem_nil, or_false] at hl
    rcases hl with rfl | rfl | rfl
    · rw [p1]
      constructor
      · intro w hw
        simp only [List.mem_append, List.mem_singleton, List.mem_replicate] at hw
        rcases hw with (rfl | ⟨-, rfl⟩) | rfl <;> positivity
      · simp only [List.sum_append, List.sum_replicate, List.sum_cons, List.sum_nil, nsmul_eq_mul, hcast, add_zero]
        rw [mul_div_assoc', ← add_div, ← add_div]
        rw [div_eq_one_iff_eq htpos.ne', htot]
        ring
    · rw [p2]
      constructor
      · intro w hw
        simp only [List.mem_cons, List.not_mem_nil, or_false] at hw
        rcases hw with rfl | rfl | rfl <;> positivity
      · have : vc + 2 * vo ≠ 0 := by positivity
        simp only [List.sum_cons, List.sum_nil]
        field_simp
        ring
    · rw [p3]
      constructor
      · intro w hw
        simp only [List.mem_cons, List.not_mem_nil, or_false] at hw
        rcases hw with rfl | rfl <;> positivity
      · have : vc + vo ≠ 0 := by positivity
        simp only [List.sum_cons, List.sum_nil]
        field_simp
        ring
  · rw [p1, hcubes, order_length]
    simp only [List.length_append, List.length_singleton, List.length_replicate]
    omega

end weights

theorem dirIndex_adj {c c' : Fin (n + 1) → ℤ} (h : CubeAdj c c') :
    ∃ j, dirIndex (fun i => c' i - c i) = .ok j ∧ (c' j = c j + 1 ∨ c' j = c j - 1) ∧ ∀ i, i ≠ j → c' i = c i := by
  obtain ⟨j, h1, h2⟩ := h
  refine ⟨j, ?_, h1, h2⟩
  unfold dirIndex
  have : (List.finRange (n + 1)).find? (fun i => decide (c' i - c i ≠ 0)) = some j := by
    cases hf : (List.finRange (n + 1)).find? (fun i => decide (c' i - c i ≠ 0)) with
    | none =>
      rw [List.find?_eq_none] at hf
      have := hf j (List.mem_finRange j)
      simp at this
      omega
    | some i =>
      have := List.find?_some hf
      simp at this
      congr 1
      by_contra hne
      exact this (by rw [h2 i hne]; ring)
  simp only [this]

variable [FloorRing K]

theorem floorCube_eq {c : Fin (n + 1) → ℤ} {x : Fin (n + 1) → K} (h : ∀ i, (c i : K) ≤ x i ∧ x i < (c i : K) + 1) :
    floorCube x = c := by
  funext i
  exact Int.floor_eq_iff.2 (h i)

/-- A point of the half-open cube that is clear of the walls has nonnegative wall distance and is free. -/
theorem clear_dist {length : ℕ} {th : K} {e : GrayCodeWalls K n} (h : GrayCodeWalls.init n length th = .ok e)
    {c : Fin (n + 1) → ℤ} (hc : c ∈ e.cubes) {x : Fin (n + 1) → K} (hx : ∀ i, (c i : K) ≤ x i ∧ x i < (c i : K) + 1)
    (hw : ClearOfWalls e.cubes th c x) :
    (∃ d, distanceToWall e x = .ok d ∧ 0 ≤ d) ∧ GrayFree e.cubes th x := by
  obtain ⟨hn, hlen, hcubes, hth, -⟩ := init_ok h
  obtain ⟨d, hd, hiff⟩ := dist_nonneg_iff (e := e) (by rw [hcubes]; exact order_nodup _ _)
    (by rw [hcubes]; exact order_chain _ _) hc x
  rw [hth] at hiff
  refine ⟨⟨d, ?_, hiff.2 hw⟩, c, hc, fun i => ⟨(hx i).1, (hx i).2.le⟩, hw⟩
  unfold distanceToWall
  rw [floorCube_eq hx]
  exact hd

theorem getLast?_eq_getElem?_iff {α : Type*} {l : List α} (hl : l.Nodup) {k : ℕ} {c : α} (hc : l[k]? = some c) :
    (some c = l.getLast? ↔ k + 1 = l.length) ∧ (some c = l[0]? ↔ k = 0) := by
  have idx : ∀ k', l[k']? = some c → k' = k := by
    intro k' h'
    rw [List.getElem?_eq_some_iff] at hc h'
    obtain ⟨h1, h2⟩ := hc
    obtain ⟨h3, h4⟩ := h'
    exact (List.Nodup.getElem_inj_iff hl).1 (h4.trans h2.symm)
  have hk : k < l.length := (List.getElem?_eq_some_iff.1 hc).1
  constructor
  · rw [List.getLast?_eq_getElem?]
    constructor
    · intro h; have := idx _ h.symm; omega
    · intro h; rw [← hc]; congr 1; omega
  · constructor
    · intro h; exact (idx _ h.symm).symm
    · rintro rfl; exact hc.symm

/-- C21. Whatever cuboid, region of nonzero weight and uniform sample are drawn, a sample is returned, its wall distance is
nonnegative, and it is free. -/
theorem C21_sample_free {length : ℕ} {th : K} (h0 : 0 ≤ th) (h1 : th < 1 / 2) {e : GrayCodeWalls K n}
    (h : GrayCodeWalls.init n length th = .ok e) {ix rix : ℕ} (hix : ix < e.cubes.length) {w : K}
    (hrix : (regionPmf e ix)[rix]? = some w) (hw : w ≠ 0) {u : Fin (n + 1) → K} (hu : ∀ i, 0 ≤ u i ∧ u i < 1) :
    ∃ x, sample e ix rix u = .ok x ∧ (∃ d, distanceToWall e x = .ok d ∧ 0 ≤ d) ∧ GrayFree e.cubes th x := by
  obtain ⟨hn, hlen, hcubes, hth, -, hcl, hol, -, -⟩ := init_ok h
  obtain ⟨-, p2, p3⟩ := init_pmf h
  have hnd : e.cubes.Nodup := by rw [hcubes]; exact order_nodup _ _
  have hch : e.cubes.IsChain CubeAdj := by rw [hcubes]; exact order_chain _ _
  have hN : 2 ≤ e.cubes.length := by rw [hcubes, order_length]; exact two_le_nodes hn hlen
  have hs : 0 < 1 - 2 * th := by linarith
  have hixc := List.getElem?_eq_getElem hix
  set c := e.cubes[ix] with hcdef
  have hcmem : c ∈ e.cubes := List.getElem_mem hix
  -- centre region
  have center : ∃ x, transformSample e u c .center = .ok x ∧ (∃ d, distanceToWall e x = .ok d ∧ 0 ≤ d) ∧
      GrayFree e.cubes th x := by
    refine ⟨_, rfl, ?_⟩
    have b : ∀ i, (c i : K) + th ≤ u i * e.cubeCenterLengths i - e.cubeCenterLengths i / 2 + (c i : K) + 1 / 2 ∧
        u i * e.cubeCenterLengths i - e.cubeCenterLengths i / 2 + (c i : K) + 1 / 2 < (c i : K) + 1 - th := by
      intro i
      rw [hcl]
      have := mul_nonneg (hu i).1 hs.le
      have := mul_lt_mul_of_pos_right (hu i).2 hs
      constructor <;> simp only <;> linarith
    apply clear_dist h hcmem
    · intro i; have := b i; constructor <;> linarith [this.1, this.2]
    · intro i; have := b i; exact ⟨Or.inl this.1, Or.inl this.2.le⟩
  -- passage region towards a neighbour
  have passage : ∀ (r : CubeRegion) (hr : r ≠ .center) (adj : Fin (n + 1) → ℤ), th ≠ 0 →
      ((if ix = 0 then [] else (e.cubes[ix - 1]?).toList) ++ (e.cubes[ix + 1]?).toList)[if r = .passage1 then 0 else 1]?
        = some adj →
      ∃ x, transformSample e u c r = .ok x ∧ (∃ d, distanceToWall e x = .ok d ∧ 0 ≤ d) ∧ GrayFree e.cubes th x := by
    intro r hr adj hth0 hadj
    have hthp : 0 < th := lt_of_le_of_ne h0 (Ne.symm hth0)
    have hnb : Neighbour e.cubes c adj := (neighbours_list hnd hixc adj).1 (List.mem_of_getElem? hadj)
    obtain ⟨j, hj, hstep, hrest⟩ := dirIndex_adj (neighbour_adj hch hnb)
    have hred : transformSample e u c r = .ok fun i =>
        (if i = j then u 0 * e.openWallLengths 0 else if i = 0 then u j * e.openWallLengths j else u i * e.openWallLengths i) +
        (if i = j then (if 0 < adj j - c j then 1 / 2 - e.thickness else -1 / 2) else -1 / 2 + e.thickness) +
        (c i : K) + 1 / 2 := by
      unfold transformSample
      rw [successors_eq hnd hixc, predecessors_eq hnd hixc]
      cases r with
      | center => exact absurd rfl hr
      | passage1 =>
        rw [if_pos rfl] at hadj
        simp only [if_true, hadj, hj]
      | passage2 =>
        rw [if_neg (by decide : ¬ CubeRegion.passage2 = CubeRegion.passage1)] at hadj
        simp only [reduceCtorEq, if_false, hadj, hj]
    refine ⟨_, hred, ?_⟩
    have ow0 : e.openWallLengths 0 = th := by rw [hol]; simp
    have ows : ∀ i : Fin (n + 1), i ≠ 0 → e.openWallLengths i = 1 - 2 * th := by
      intro i hi
      obtain ⟨k, rfl⟩ := Fin.exists_succ_eq.2 hi
      rw [hol]; simp
    -- the coordinates other than j keep the distance th from both walls
    have other : ∀ i, i ≠ j → (c i : K) + th ≤ ((if i = j then u 0 * e.openWallLengths 0 else
        if i = 0 then u j * e.openWallLengths j else u i * e.openWallLengths i) +
        (if i = j then (if 0 < adj j - c j then 1 / 2 - e.thickness else -1 / 2) else -1 / 2 + e.thickness) +
        (c i : K) + 1 / 2) ∧ ((if i = j then u 0 * e.openWallLengths 0 else
        if i = 0 then u j * e.openWallLengths j else u i * e.openWallLengths i) +
        (if i = j then (if 0 < adj j - c j then 1 / 2 - e.thickness else -1 / 2) else -1 / 2 + e.thickness) +
        (c i : K) + 1 / 2) < (c i : K) + 1 - th := by
      intro i hij
      rw [if_neg hij, if_neg hij, hth]
      by_cases hi0 : i = 0
      · rw [if_pos hi0, ows j (by rintro rfl; exact hij hi0)]
        have := mul_nonneg (hu j).1 hs.le
        have := mul_lt_mul_of_pos_right (hu j).2 hs
        constructor <;> linarith
      · rw [if_neg hi0, ows i hi0]
        have := mul_nonneg (hu i).1 hs.le
        have := mul_lt_mul_of_pos_right (hu i).2 hs
        constructor <;> linarith
    have a1 := mul_nonneg (hu 0).1 hthp.le
    have a2 := mul_lt_mul_of_pos_right (hu 0).2 hthp
    apply clear_dist h hcmem
    · intro i
      by_cases hij : i = j
      · subst hij
        simp only [if_true, ow0, hth]
        split <;> constructor <;> linarith
      · have := other i hij; constructor <;> linarith [this.1, this.2]
    · intro i
      by_cases hij : i = j
      · subst hij
        simp only [if_true, ow0, hth]
        rcases hstep with hstep | hstep
        · rw [if_pos (by omega)]
          refine ⟨Or.inl (by linarith), Or.inr ⟨adj, hnb, hstep⟩⟩
        · rw [if_neg (by omega)]
          refine ⟨Or.inr ⟨adj, hnb, hstep⟩, Or.inl (by linarith)⟩
      · have := other i hij
        exact ⟨Or.inl this.1, Or.inl this.2.le⟩
  obtain ⟨gl, g0⟩ := getLast?_eq_getElem?_iff hnd hixc
  unfold regionPmf at hrix
  unfold sample
  rw [hixc] at hrix ⊢
  simp only at hrix ⊢
  simp only [g0, gl] at hrix ⊢
  have v0 : th = 0 → th * (1 - 2 * th) ^ n = 0 := by rintro rfl; simp
  by_cases hend : ix = 0 ∨ ix + 1 = e.cubes.length
  · rw [if_pos hend] at hrix ⊢
    rw [p3] at hrix
    match rix, hrix with
    | 0, _ => exact center
    | 1, hrix =>
      simp at hrix
      have hth0 : th ≠ 0 := fun hz => hw (by rw [← hrix, v0 hz, zero_div])
      simp only [List.getElem?_cons_succ, List.getElem?_cons_zero]
      rcases hend with hz | hz
      · have hlt : ix + 1 < e.cubes.length := by omega
        apply passage .passage1 (by decide) e.cubes[ix + 1] hth0
        rw [if_pos hz, List.getElem?_eq_getElem hlt]
        simp
      · have hlt : ix - 1 < e.cubes.length := by omega
        apply passage .passage1 (by decide) e.cubes[ix - 1] hth0
        rw [if_neg (by omega), List.getElem?_eq_getElem hlt]
        simp
    | _ + 2, hrix => simp at hrix
  · rw [if_neg hend] at hrix ⊢
    rw [p2] at hrix
    push Not at hend
    have hlt1 : ix - 1 < e.cubes.length := by omega
    have hlt2 : ix + 1 < e.cubes.length := by omega
    match rix, hrix with
    | 0, hrix =>
      simp at hrix
      have hth0 : th ≠ 0 := fun hz => hw (by rw [← hrix, v0 hz, zero_div])
      apply passage .passage1 (by decide) e.cubes[ix - 1] hth0
      rw [if_neg hend.1, List.getElem?_eq_getElem hlt1]
      simp
    | 1, _ => exact center
    | 2, hrix =>
      simp at hrix
      have hth0 : th ≠ 0 := fun hz => hw (by rw [← hrix, v0 hz, zero_div])
      apply passage .passage2 (by decide) e.cubes[ix + 1] hth0
      rw [if_neg hend.1, List.getElem?_eq_getElem hlt1, List.getElem?_eq_getElem hlt2]
      simp
    | _ + 3, hrix => simp at hrix

/-- C21 is not vacuous: a corridor with thickness 1/8 and draws in its middle. -/
example : ∃ e : GrayCodeWalls ℚ 1, GrayCodeWalls.init 1 2 (1 / 8 : ℚ) = .ok e ∧ 1 < e.cubes.length ∧
    (regionPmf e 1).length = 3 := by
  obtain ⟨e, he⟩ := (C20_init (n := 1) 2 (1 / 8 : ℚ)).1 (by omega)
  have hp := C20_hamiltonian_path he
  refine ⟨e, he, by rw [hp.2.1]; norm_num, ?_⟩
  have h1 : 1 < e.cubes.length := by rw [hp.2.1]; norm_num
  unfold regionPmf
  rw [List.getElem?_eq_getElem h1]
  simp only [(getLast?_eq_getElem?_iff hp.1 (List.getElem?_eq_getElem h1)).1,
    (getLast?_eq_getElem?_iff hp.1 (List.getElem?_eq_getElem h1)).2]
  rw [if_neg (by rw [hp.2.1]; omega)]
  exact (C21_weights (by norm_num) (by norm_num) he).2.2.1

end Verif.Props
