import Verif.Props.GrayCorridor
import Verif.Lemmas.Uniform

/-! The pieces from which the Gray-code sampler draws. -/

namespace Verif.GrayUniform

open MeasureTheory ProbabilityTheory Verif.Gray Verif.Spec Verif.Props

variable {K : Type*} [Field K] [LinearOrder K] {n : ℕ}

/-- The cube towards which the piece number `rix` of the cube number `ix` lies: itself for the centre piece. -/
def target (cubes : List (Fin (n + 1) → ℤ)) (ix rix : ℕ) : Option (Fin (n + 1) → ℤ) :=
  if ix = 0 ∨ ix + 1 = cubes.length then
    if rix = 0 then cubes[ix]? else if rix = 1 then (if ix = 0 then cubes[ix + 1]? else cubes[ix - 1]?) else none
  else if rix = 0 then cubes[ix - 1]? else if rix = 1 then cubes[ix]? else if rix = 2 then cubes[ix + 1]? else none

/-- Lower corner of the piece of `c` towards `a`. -/
def lo (th : K) (c a : Fin (n + 1) → ℤ) (i : Fin (n + 1)) : K :=
  (c i : K) + if a i = c i then th else if c i < a i then 1 - th else 0

/-- Upper corner of the piece of `c` towards `a`. -/
def hi (th : K) (c a : Fin (n + 1) → ℤ) (i : Fin (n + 1)) : K :=
  (c i : K) + if a i = c i then 1 - th else if c i < a i then 1 else th

section list

variable {cubes : List (Fin (n + 1) → ℤ)} {ix : ℕ} {c : Fin (n + 1) → ℤ}

theorem target_nb (hc : cubes[ix]? = some c) {rix : ℕ} {a : Fin (n + 1) → ℤ}
    (h : target cubes ix rix = some a) : a = c ∨ Neighbour cubes c a := by
  have hlt := (List.getElem?_eq_some_iff.1 hc).1
  have next : cubes[ix + 1]? = some a → Neighbour cubes c a := fun h => Or.inl ⟨ix, hc, h⟩
  have prev : ix ≠ 0 → cubes[ix - 1]? = some a → Neighbour cubes c a := fun h0 h =>
    Or.inr ⟨ix - 1, h, by rw [Nat.sub_add_cancel (by omega)]; exact hc⟩
  have self : cubes[ix]? = some a → a = c := fun h => by rw [hc] at h; exact (Option.some.inj h).symm
  unfold target at h
  split_ifs at h
  · exact Or.inl (self h)
  · exact Or.inr (next h)
  · exact Or.inr (prev ‹_› h)
  · exact Or.inr (prev (by tauto) h)
  · exact Or.inl (self h)
  · exact Or.inr (next h)

theorem getElem_inj (hl : cubes.Nodup) {k k' : ℕ} {a : Fin (n + 1) → ℤ} (h : cubes[k]? = some a) (h' : cubes[k']? = some a) : k = k' := by
  rw [List.getElem?_eq_some_iff] at h h'
  obtain ⟨h1, h2⟩ := h
  obtain ⟨h3, h4⟩ := h'
  exact (List.Nodup.getElem_inj_iff hl).1 (h2.trans h4.symm)

theorem target_inj (hl : cubes.Nodup) {rix rix' : ℕ} {a : Fin (n + 1) → ℤ}
    (h : target cubes ix rix = some a) (h' : target cubes ix rix' = some a) : rix = rix' := by
  unfold target at h h'
  split_ifs at h h' <;> first | omega | (have := getElem_inj hl h h'; omega)

theorem target_self (hc : cubes[ix]? = some c) : ∃ r : Fin 3, target cubes ix r = some c := by
  by_cases h : ix = 0 ∨ ix + 1 = cubes.length
  · exact ⟨0, by unfold target; rw [if_pos h]; exact hc⟩
  · exact ⟨1, by unfold target; rw [if_neg h]; exact hc⟩

theorem target_surj (hl : cubes.Nodup) (hc : cubes[ix]? = some c) {a : Fin (n + 1) → ℤ} (h : Neighbour cubes c a) :
    ∃ r : Fin 3, target cubes ix r = some a := by
  rcases h with ⟨k, h1, h2⟩ | ⟨k, h1, h2⟩
  · have hk := getElem_inj hl h1 hc
    subst hk
    have hlt := (List.getElem?_eq_some_iff.1 h2).1
    by_cases h : k = 0 ∨ k + 1 = cubes.length
    · exact ⟨1, by unfold target; rw [if_pos h]; simp; rw [if_pos (by omega)]; exact h2⟩
    · exact ⟨2, by unfold target; rw [if_neg h]; simpa using h2⟩
  · have hk := getElem_inj hl h2 hc
    subst hk
    by_cases h : k + 1 = 0 ∨ k + 1 + 1 = cubes.length
    · exact ⟨1, by unfold target; rw [if_pos h]; simpa using h1⟩
    · exact ⟨0, by unfold target; rw [if_neg h]; simpa using h1⟩

end list

variable [IsStrictOrderedRing K]

/-- What a draw gives: a point of the piece, in coordinates that are those of the draw in another order. -/
theorem sample_piece {length : ℕ} {th : K} {e : GrayCodeWalls K n} (h : GrayCodeWalls.init n length th = .ok e) {ix : ℕ}
    {c : Fin (n + 1) → ℤ} (hc : e.cubes[ix]? = some c) {rix : ℕ} {a : Fin (n + 1) → ℤ} (ha : target e.cubes ix rix = some a) :
    ∃ σ : Equiv.Perm (Fin (n + 1)), ∀ u, sample e ix rix u = .ok fun i => lo th c a i + (hi th c a i - lo th c a i) * u (σ i) := by
  obtain ⟨hn, hlen, hcubes, hth, -, hcl, hol, -, -⟩ := init_ok h
  have hnd : e.cubes.Nodup := by rw [hcubes]; exact order_nodup _ _
  have hch : e.cubes.IsChain CubeAdj := by rw [hcubes]; exact order_chain _ _
  have hN : 2 ≤ e.cubes.length := by rw [hcubes, order_length]; exact two_le_nodes hn hlen
  have center : e.cubes[ix]? = some a → ∃ σ : Equiv.Perm (Fin (n + 1)), ∀ u, transformSample e u c .center =
      .ok fun i => lo th c a i + (hi th c a i - lo th c a i) * u (σ i) := by
    intro hca
    rw [hc] at hca
    cases hca
    refine ⟨1, fun u => ?_⟩
    unfold transformSample
    simp only [hcl, lo, hi, if_true, Equiv.Perm.one_apply]
    congr 1
    funext i
    ring
  have passage : ∀ (r : CubeRegion) (hr : r ≠ .center),
      ((if ix = 0 then [] else (e.cubes[ix - 1]?).toList) ++ (e.cubes[ix + 1]?).toList)[if r = .passage1 then 0 else 1]?
        = some a →
      ∃ σ : Equiv.Perm (Fin (n + 1)), ∀ u, transformSample e u c r =
        .ok fun i => lo th c a i + (hi th c a i - lo th c a i) * u (σ i) := by
    intro r hr hadj
    have hnb : Neighbour e.cubes c a := (neighbours_list hnd hc a).1 (List.mem_of_getElem? hadj)
    obtain ⟨j, hj, hstep, hrest⟩ := dirIndex_adj (neighbour_adj hch hnb)
    have hred : ∀ u, transformSample e u c r = .ok fun i =>
        (if i = j then u 0 * e.openWallLengths 0 else if i = 0 then u j * e.openWallLengths j else u i * e.openWallLengths i) +
        (if i = j then (if 0 < a j - c j then 1 / 2 - e.thickness else -1 / 2) else -1 / 2 + e.thickness) +
        (c i : K) + 1 / 2 := by
      intro u
      unfold transformSample
      rw [successors_eq hnd hc, predecessors_eq hnd hc]
      cases r with
      | center => exact absurd rfl hr
      | passage1 =>
        rw [if_pos rfl] at hadj
        simp only [if_true, hadj, hj]
      | passage2 =>
        rw [if_neg (by decide : ¬ CubeRegion.passage2 = CubeRegion.passage1)] at hadj
        simp only [reduceCtorEq, if_false, hadj, hj]
    have ow0 : e.openWallLengths 0 = th := by rw [hol]; simp
    have ows : ∀ i : Fin (n + 1), i ≠ 0 → e.openWallLengths i = 1 - 2 * th := by
      intro i hi
      obtain ⟨k, rfl⟩ := Fin.exists_succ_eq.2 hi
      rw [hol]; simp
    refine ⟨Equiv.swap 0 j, fun u => ?_⟩
    rw [hred]
    congr 1
    funext i
    rw [hth]
    by_cases hij : i = j
    · subst hij
      rw [if_pos rfl, if_pos rfl, Equiv.swap_apply_right, ow0]
      unfold lo hi
      rcases hstep with hs | hs
      · have e1 : ¬ a i = c i := by omega
        have e2 : c i < a i := by omega
        have e3 : 0 < a i - c i := by omega
        simp only [if_neg e1, if_pos e2, if_pos e3]; ring
      · have e1 : ¬ a i = c i := by omega
        have e2 : ¬ c i < a i := by omega
        have e3 : ¬ 0 < a i - c i := by omega
        simp only [if_neg e1, if_neg e2, if_neg e3]; ring
    · rw [if_neg hij, if_neg hij]
      unfold lo hi
      rw [if_pos (hrest i hij), if_pos (hrest i hij)]
      by_cases hi0 : i = 0
      · subst hi0
        rw [if_pos rfl, Equiv.swap_apply_left, ows j (fun h => hij h.symm)]; ring
      · rw [if_neg hi0, Equiv.swap_apply_of_ne_of_ne hi0 hij, ows i hi0]; ring
  have hlt := (List.getElem?_eq_some_iff.1 hc).1
  obtain ⟨gl, g0⟩ := getLast?_eq_getElem?_iff hnd hc
  unfold sample
  rw [hc]
  simp only [g0, gl]
  unfold target at ha
  by_cases hend : ix = 0 ∨ ix + 1 = e.cubes.length
  · rw [if_pos hend] at ha
    simp only [if_pos hend]
    split_ifs at ha with h0 h1 h2
    · subst h0; exact center ha
    · subst h1
      refine passage .passage1 (by decide) ?_
      rw [if_pos h2, ha]; simp
    · subst h1
      refine passage .passage1 (by decide) ?_
      rw [if_neg h2, ha]; simp
  · rw [if_neg hend] at ha
    simp only [if_neg hend]
    push Not at hend
    have hlt1 : ix - 1 < e.cubes.length := by omega
    split_ifs at ha with h0 h1 h2
    · subst h0
      refine passage .passage1 (by decide) ?_
      rw [if_neg hend.1, ha]; simp
    · subst h1; exact center ha
    · subst h2
      refine passage .passage2 (by decide) ?_
      rw [if_neg hend.1, List.getElem?_eq_getElem hlt1, ha]; simp

/-- The weights of the pieces. -/
theorem weight_piece {length : ℕ} {th : K} (h0 : 0 ≤ th) (h1 : th < 1 / 2) {e : GrayCodeWalls K n}
    (h : GrayCodeWalls.init n length th = .ok e) :
    ∃ total : K, 0 < total ∧ ∀ (ix rix : ℕ) (c : Fin (n + 1) → ℤ), e.cubes[ix]? = some c →
      (∀ a, target e.cubes ix rix = some a → (e.cuboidPmf[ix]?).getD 0 * ((regionPmf e ix)[rix]?).getD 0 =
        (∏ i, (hi th c a i - lo th c a i)) / total) ∧
      (target e.cubes ix rix = none → (e.cuboidPmf[ix]?).getD 0 * ((regionPmf e ix)[rix]?).getD 0 = 0) := by
  obtain ⟨hn, hlen, hcubes, hth, -, hcl, hol, -, -⟩ := init_ok h
  obtain ⟨p1, p2, p3⟩ := init_pmf h
  have hnd : e.cubes.Nodup := by rw [hcubes]; exact order_nodup _ _
  have hch : e.cubes.IsChain CubeAdj := by rw [hcubes]; exact order_chain _ _
  have hNl : e.cubes.length = length * 2 ^ n := by rw [hcubes, order_length]
  have hN := two_le_nodes hn hlen
  have hs : 0 < 1 - 2 * th := by linarith
  set vc := (1 - 2 * th) ^ (n + 1) with hvcd
  set vo := th * (1 - 2 * th) ^ n with hvod
  have hvc : 0 < vc := by positivity
  have hvo : 0 ≤ vo := by positivity
  set N := length * 2 ^ n with hNdef
  have hNK : (0 : K) ≤ (N : K) - 2 := by
    have : ((2 : ℕ) : K) ≤ (N : K) := by exact_mod_cast hN
    push_cast at this; linarith
  set total := ((N : K) - 2) * (vc + 2 * vo) + 2 * (vc + vo) with htot
  have htpos : 0 < total := by positivity
  refine ⟨total, htpos, fun ix rix c hc => ?_⟩
  have hlt := (List.getElem?_eq_some_iff.1 hc).1
  obtain ⟨gl, g0⟩ := getLast?_eq_getElem?_iff hnd hc
  -- the volumes
  have volSelf : ∏ i, (hi th c c i - lo th c c i) = vc := by
    have : ∀ i, hi th c c i - lo th c c i = 1 - 2 * th := fun i => by unfold hi lo; simp; ring
    simp only [this, Finset.prod_const, Finset.card_univ, Fintype.card_fin]
    exact hvcd.symm
  have volNb : ∀ a, Neighbour e.cubes c a → ∏ i, (hi th c a i - lo th c a i) = vo := by
    intro a hnb
    obtain ⟨j, hstep, hrest⟩ := neighbour_adj hch hnb
    rw [← Finset.mul_prod_erase Finset.univ _ (Finset.mem_univ j)]
    have e1 : hi th c a j - lo th c a j = th := by
      unfold hi lo
      rcases hstep with hs | hs
      · have e1 : ¬ a j = c j := by omega
        have e2 : c j < a j := by omega
        simp only [if_neg e1, if_pos e2]; ring
      · have e1 : ¬ a j = c j := by omega
        have e2 : ¬ c j < a j := by omega
        simp only [if_neg e1, if_neg e2]; ring
    have e2 : ∀ i ∈ Finset.univ.erase j, hi th c a i - lo th c a i = 1 - 2 * th := by
      intro i hij
      unfold hi lo
      rw [if_pos (hrest i (Finset.ne_of_mem_erase hij)), if_pos (hrest i (Finset.ne_of_mem_erase hij))]; ring
    rw [e1, Finset.prod_congr rfl e2, Finset.prod_const, Finset.card_erase_of_mem (Finset.mem_univ j), Finset.card_univ, Fintype.card_fin]
    simp [hvod]
  have next : ∀ a, e.cubes[ix + 1]? = some a → Neighbour e.cubes c a := fun a h => Or.inl ⟨ix, hc, h⟩
  have prev : ∀ a, ix ≠ 0 → e.cubes[ix - 1]? = some a → Neighbour e.cubes c a := fun a h0 h =>
    Or.inr ⟨ix - 1, h, by rw [Nat.sub_add_cancel (by omega)]; exact hc⟩
  have self : ∀ a, e.cubes[ix]? = some a → a = c := fun a h => by rw [hc] at h; exact (Option.some.inj h).symm
  have e1 : vc + vo ≠ 0 := by positivity
  have e2 : vc + 2 * vo ≠ 0 := by positivity
  have hreg : regionPmf e ix = if ix = 0 ∨ ix + 1 = e.cubes.length then e.endPmf else e.midPmf := by
    unfold regionPmf
    rw [hc]
    simp only [g0, gl]
  rw [hreg, p1]
  unfold target
  by_cases hend : ix = 0 ∨ ix + 1 = e.cubes.length
  · rw [if_pos hend, if_pos hend, p3]
    have hw : (([(vc + vo) / total] ++ List.replicate (N - 2) ((vc + 2 * vo) / total) ++ [(vc + vo) / total])[ix]?).getD 0 =
        (vc + vo) / total := by
      rcases hend with rfl | hl
      · simp
      · have : ix = ([(vc + vo) / total] ++ List.replicate (N - 2) ((vc + 2 * vo) / total)).length := by simp; omega
        rw [this, List.getElem?_append_right (le_refl _)]
        simp
    rw [hw]
    constructor
    · intro a ha
      split_ifs at ha with c0 c1 c2
      · subst c0; rw [self a ha, volSelf]; simp; field_simp
      · subst c1; rw [volNb a (next a ha)]; simp; field_simp
      · subst c1; rw [volNb a (prev a c2 ha)]; simp; field_simp
    · intro ha
      split_ifs at ha with c0 c1 c2
      · rw [hc] at ha; cases ha
      · rw [List.getElem?_eq_none_iff] at ha; omega
      · rw [List.getElem?_eq_none_iff] at ha; omega
      · have : 2 ≤ rix := by omega
        rw [List.getElem?_eq_none (by simpa using this)]
        simp
  · rw [if_neg hend, if_neg hend, p2]
    push Not at hend
    have hw : (([(vc + vo) / total] ++ List.replicate (N - 2) ((vc + 2 * vo) / total) ++ [(vc + vo) / total])[ix]?).getD 0 =
        (vc + 2 * vo) / total := by
      rw [List.getElem?_append_left (by simp; omega), List.getElem?_append_right (by simp; omega), List.getElem?_replicate]
      rw [if_pos (by simp; omega)]
      rfl
    rw [hw]
    constructor
    · intro a ha
      split_ifs at ha with c0 c1 c2
      · subst c0; rw [volNb a (prev a hend.1 ha)]; simp; field_simp
      · subst c1; rw [self a ha, volSelf]; simp; field_simp
      · subst c2; rw [volNb a (next a ha)]; simp; field_simp
    · intro ha
      split_ifs at ha with c0 c1 c2
      · rw [List.getElem?_eq_none_iff] at ha; omega
      · rw [hc] at ha; cases ha
      · rw [List.getElem?_eq_none_iff] at ha; omega
      · have : 3 ≤ rix := by omega
        rw [List.getElem?_eq_none (by simpa using this)]
        simp

end Verif.GrayUniform
