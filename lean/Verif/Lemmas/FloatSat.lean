import Verif.Lemmas.Sat2D
import Verif.Model.FloatSat

/-! The batched separating-axis test in floats, row by row. -/

namespace Verif.FloatSat

open Verif.Spec Verif.Sat2D

/-- The computed dot products with `w` separate the vertices. -/
def SeparatesR (dotR : V2 → V2 → ℝ) (va vb : List V2) (w : V2) : Prop :=
  (∀ a ∈ va, ∀ b ∈ vb, dotR a w < dotR b w) ∨ (∀ a ∈ va, ∀ b ∈ vb, dotR b w < dotR a w)

/-- The computed edges of a polygon. -/
def edgesR (rd : ℝ → ℝ) (vs : List V2) : List V2 := (verticesToEdges vs).map fun e => (rd e.1, rd e.2)

theorem rotate_edgesR (rd : ℝ → ℝ) (vs : List V2) :
    List.zipWith (fun q p : V2 => ((rd (q.1 - p.1), rd (q.2 - p.2)) : V2)) (vs.rotate 1) vs = edgesR rd vs := by
  rw [edgesR, ← rotate_edges, List.map_zipWith]

/-- The result of the overlap test on one axis, for one row. -/
noncomputable def axisTestR (dotR : V2 → V2 → ℝ) (va vb : List V2) (w : Option V2) : Bool :=
  match w with
  | none => false
  | some w => @decide (¬ SeparatesR dotR va vb w) (Classical.propDecidable _)

/-- The axis for edge `i` of a polygon. -/
noncomputable def axisAtR (rd : ℝ → ℝ) (vs : List V2) (i : ℕ) : Option V2 := ((edgesR rd vs)[i]?).bind fun e => vecNormalizeR rd (orthogonal e)

variable {rd : ℝ → ℝ} {dotR : V2 → V2 → ℝ}

/-- The extremes of the dot products with one axis. -/
noncomputable def projOfR (dotR : V2 → V2 → ℝ) (vs : List V2) (w : Option V2) : Option (ℝ × ℝ) :=
  w.bind fun w => match pyMin (vs.map fun v => dotR v w), pyMax (vs.map fun v => dotR v w) with
    | .ok lo, .ok hi => some (lo, hi)
    | _, _ => none

theorem vecProjectR_ok (vs : List V2) (axes : List (Option V2)) (h : vs ≠ []) : vecProjectR dotR vs axes = .ok (axes.map (projOfR dotR vs)) := by
  unfold vecProjectR
  apply mapM_ok
  rintro (_ | w) -
  · simp only [if_neg h]
    rfl
  · have hne : (vs.map fun v => dotR v w) ≠ [] := by simpa using h
    obtain ⟨lo, h1, -, -⟩ := pyMin_ok _ hne
    obtain ⟨hi, h2, -, -⟩ := pyMax_ok _ hne
    have : projOfR dotR vs (some w) = some (lo, hi) := by simp only [projOfR, Option.bind_some, h1, h2]
    rw [this]
    simp only [h1, h2]
    rfl

theorem vecOverlap_axisTestR (va vb : List V2) (w : Option V2) (ha : va ≠ []) (hb : vb ≠ []) :
    vecOverlap (projOfR dotR va w) (projOfR dotR vb w) = axisTestR dotR va vb w := by
  cases w with
  | none => rfl
  | some w =>
    obtain ⟨la, a1, a2, a3⟩ := pyMin_ok (va.map fun v => dotR v w) (by simpa using ha)
    obtain ⟨ua, a4, a5, a6⟩ := pyMax_ok (va.map fun v => dotR v w) (by simpa using ha)
    obtain ⟨lb, b1, b2, b3⟩ := pyMin_ok (vb.map fun v => dotR v w) (by simpa using hb)
    obtain ⟨ub, b4, b5, b6⟩ := pyMax_ok (vb.map fun v => dotR v w) (by simpa using hb)
    have ea : projOfR dotR va (some w) = some (la, ua) := by simp only [projOfR, Option.bind_some, a1, a4]
    have eb : projOfR dotR vb (some w) = some (lb, ub) := by simp only [projOfR, Option.bind_some, b1, b4]
    rw [ea, eb]
    unfold axisTestR vecOverlap
    simp only
    rw [Bool.eq_iff_iff]
    simp only [Bool.and_eq_true, decide_eq_true_eq]
    simp only [List.mem_map] at a2 a5 b2 b5
    obtain ⟨v1, m1, e1⟩ := a2
    obtain ⟨v2, m2, e2⟩ := a5
    obtain ⟨v3, m3, e3⟩ := b2
    obtain ⟨v4, m4, e4⟩ := b5
    have a3' : ∀ v ∈ va, la ≤ dotR v w := fun v hv => a3 _ (List.mem_map.2 ⟨v, hv, rfl⟩)
    have a6' : ∀ v ∈ va, dotR v w ≤ ua := fun v hv => a6 _ (List.mem_map.2 ⟨v, hv, rfl⟩)
    have b3' : ∀ v ∈ vb, lb ≤ dotR v w := fun v hv => b3 _ (List.mem_map.2 ⟨v, hv, rfl⟩)
    have b6' : ∀ v ∈ vb, dotR v w ≤ ub := fun v hv => b6 _ (List.mem_map.2 ⟨v, hv, rfl⟩)
    constructor
    · rintro ⟨h1, h2⟩ (hs | hs)
      · have := hs _ m2 _ m3
        linarith
      · have := hs _ m1 _ m4
        linarith
    · intro hs
      constructor
      · by_contra hlt
        exact hs (Or.inr fun a ha b hb => by linarith [a3' a ha, b6' b hb])
      · by_contra hlt
        exact hs (Or.inl fun a ha b hb => by linarith [a6' a ha, b3' b hb])

theorem vecAxesR_eq (pa : List (List V2)) :
    vecAxesR rd (vecVerticesToEdgesR rd pa) = pa.map fun vs => (edgesR rd vs).map fun e => vecNormalizeR rd (orthogonal e) := by
  unfold vecAxesR vecVerticesToEdgesR
  rw [List.map_map]
  apply List.map_congr_left
  intro vs _
  simp only [Function.comp, rotate_edgesR]
  rfl

theorem edgesR_length (vs : List V2) : (edgesR rd vs).length = vs.length := by simp [edgesR, verticesToEdges]

theorem vecPassR_ok (n : ℕ) (pa pb : List (List V2)) (ha : ∀ vs ∈ pa, vs.length = n) (hb : ∀ vs ∈ pb, vs.length = n)
    (R : List V2 → List V2 → Bool) (i : ℕ) (hi : i < n) :
    vecPassR dotR pa pb (vecAxesR rd (vecVerticesToEdgesR rd pa)) (vecAxesR rd (vecVerticesToEdgesR rd pb)) (List.zipWith R pa pb) i =
      .ok (List.zipWith (fun va vb => R va vb && (axisTestR dotR va vb (axisAtR rd va i) && axisTestR dotR va vb (axisAtR rd vb i))) pa pb) := by
  have hne : ∀ vs : List V2, vs.length = n → vs ≠ [] := fun vs h h0 => by rw [h0] at h; simp at h; omega
  have hcol : ∀ batch : List (List V2), (∀ vs ∈ batch, vs.length = n) →
      column (vecAxesR rd (vecVerticesToEdgesR rd batch)) i = .ok (batch.map fun vs => axisAtR rd vs i) := by
    intro batch hbatch
    rw [vecAxesR_eq, column_ok]
    · rw [List.map_map]
      congr 1
      apply List.map_congr_left
      intro vs hvs
      have : i < (edgesR rd vs).length := by rw [edgesR_length, hbatch vs hvs]; exact hi
      simp only [Function.comp, List.getElem?_map, axisAtR, List.getElem?_eq_getElem this, Option.map_some, Option.join_some, Option.bind_some]
    · intro row hrow
      obtain ⟨vs, hvs, rfl⟩ := List.mem_map.1 hrow
      rw [List.length_map, edgesR_length, hbatch vs hvs]
      exact hi
  unfold vecPassR
  simp only [hcol pa ha, hcol pb hb, ok_bind]
  have haxis : List.zipWith (fun a b => [a, b]) (pa.map fun vs => axisAtR rd vs i) (pb.map fun vs => axisAtR rd vs i)
      = List.zipWith (fun va vb => [axisAtR rd va i, axisAtR rd vb i]) pa pb := by
    rw [List.zipWith_map]
  rw [haxis]
  rw [mapM_ok (fun r : List V2 × List (Option V2) => vecProjectR dotR r.1 r.2) (fun r => r.2.map (projOfR dotR r.1)) _
    fun r hr => vecProjectR_ok r.1 r.2 (hne _ (ha _ (List.of_mem_zip hr).1))]
  rw [mapM_ok (fun r : List V2 × List (Option V2) => vecProjectR dotR r.1 r.2) (fun r => r.2.map (projOfR dotR r.1)) _
    fun r hr => vecProjectR_ok r.1 r.2 (hne _ (hb _ (List.of_mem_zip hr).1))]
  simp only [ok_bind]
  show Except.ok _ = _
  have z1 := zip_map_zipWith (fun (vs : List V2) (axes : List (Option V2)) => axes.map (projOfR dotR vs))
    (fun va vb : List V2 => [axisAtR rd va i, axisAtR rd vb i]) pa pb
  have z2 := zip_map_zipWith' (fun (vs : List V2) (axes : List (Option V2)) => axes.map (projOfR dotR vs))
    (fun va vb : List V2 => [axisAtR rd va i, axisAtR rd vb i]) pa pb
  rw [z1, z2, zipWith_zipWith, zipWith_zipWith]
  congr 1
  have key : ∀ (as bs : List (List V2)), (∀ vs ∈ as, vs.length = n) → (∀ vs ∈ bs, vs.length = n) →
      List.zipWith (fun a b => R a b && (List.zipWith vecOverlap ([axisAtR rd a i, axisAtR rd b i].map (projOfR dotR a))
        ([axisAtR rd a i, axisAtR rd b i].map (projOfR dotR b))).all id) as bs
      = List.zipWith (fun va vb => R va vb && (axisTestR dotR va vb (axisAtR rd va i) && axisTestR dotR va vb (axisAtR rd vb i))) as bs := by
    intro as bs h1 h2
    induction as generalizing bs with
    | nil => simp
    | cons a as ih =>
      cases bs with
      | nil => simp
      | cons b bs =>
        rw [List.zipWith_cons_cons, List.zipWith_cons_cons, ih bs (fun vs hvs => h1 vs (by simp [hvs])) (fun vs hvs => h2 vs (by simp [hvs]))]
        congr 1
        have na := hne a (h1 a (by simp))
        have nb := hne b (h2 b (by simp))
        simp only [List.map_cons, List.map_nil, List.zipWith_cons_cons, List.zipWith_nil_left, List.all_cons, List.all_nil, id, Bool.and_true,
          vecOverlap_axisTestR a b _ na nb]
  exact key pa pb ha hb

/-- The answer of the batched test for one row. -/
noncomputable def rowTestR (rd : ℝ → ℝ) (dotR : V2 → V2 → ℝ) (n : ℕ) (va vb : List V2) : Bool :=
  (List.range n).all fun i => axisTestR dotR va vb (axisAtR rd va i) && axisTestR dotR va vb (axisAtR rd vb i)

theorem vecSatR_ok (n : ℕ) (pa pb : List (List V2)) (hlen : pa.length = pb.length) (ha : ∀ vs ∈ pa, vs.length = n) (hb : ∀ vs ∈ pb, vs.length = n) :
    vecSatR rd dotR n pa pb = .ok (List.zipWith (rowTestR rd dotR n) pa pb) := by
  have hfold : ∀ m, m ≤ n → (List.range m).foldlM (vecPassR dotR pa pb (vecAxesR rd (vecVerticesToEdgesR rd pa)) (vecAxesR rd (vecVerticesToEdgesR rd pb)))
      (List.replicate pa.length true) = .ok (List.zipWith (rowTestR rd dotR m) pa pb) := by
    intro m
    induction m with
    | zero =>
      intro _
      have : ∀ (as bs : List (List V2)), as.length = bs.length → List.replicate as.length true = List.zipWith (rowTestR rd dotR 0) as bs := by
        intro as bs h
        induction as generalizing bs with
        | nil => simp
        | cons a as ih =>
          cases bs with
          | nil => simp at h
          | cons b bs => simpa [List.replicate_succ, rowTestR] using ih bs (by simpa using h)
      rw [← this pa pb hlen]
      rfl
    | succ m ih =>
      intro hm
      rw [List.range_succ, List.foldlM_append, ih (by omega)]
      show (vecPassR _ _ _ _ _ _ m >>= fun r => List.foldlM _ r []) = _
      rw [vecPassR_ok n pa pb ha hb _ m (by omega)]
      show Except.ok _ = _
      congr 2
      funext va vb
      simp [rowTestR, List.range_succ, List.all_append]
  unfold vecSatR
  simp only [hlen, ne_eq, not_true_eq_false, if_false]
  rw [hlen] at hfold
  exact hfold n (le_refl n)

end Verif.FloatSat
