import Verif.Props.Hallway
import Verif.Spec.BoundingBoxes

/-! Facts about parallelograms, hull orders and the flattened corners of a box, for C132. -/

namespace Verif.Bag

open Verif.Sat2D Verif.Spec Verif.Turtlebot Verif.Props

/-- The signed area spanned by two vectors. -/
def det (u v : ℝ × ℝ) : ℝ := u.1 * v.2 - u.2 * v.1

theorem notMem_hull_of_pos {p u v : ℝ × ℝ} (hd : 0 < det u v) {S : Set (ℝ × ℝ)} (hS : ∀ x ∈ S, x = p + u ∨ x = p + v ∨ x = p + u + v) : p ∉ convexHull ℝ S := by
  intro hp
  have hconv : Convex ℝ {x : ℝ × ℝ | det u v ≤ det (x - p) v + det u (x - p)} := by
    intro y hy z hz a b ha hb hab
    simp only [Set.mem_ofPred_eq, det, Prod.fst_add, Prod.snd_add, Prod.fst_sub, Prod.snd_sub, Prod.smul_fst, Prod.smul_snd, smul_eq_mul] at *
    obtain rfl : b = 1 - a := by linarith
    nlinarith [mul_le_mul_of_nonneg_left hy ha, mul_le_mul_of_nonneg_left hz hb]
  have hsub : S ⊆ {x : ℝ × ℝ | det u v ≤ det (x - p) v + det u (x - p)} := by
    intro x hx
    rcases hS x hx with rfl | rfl | rfl <;>
      simp only [Set.mem_ofPred_eq, det, Prod.fst_add, Prod.snd_add, Prod.fst_sub, Prod.snd_sub] at * <;> nlinarith
  have := convexHull_min hsub hconv hp
  simp only [Set.mem_ofPred_eq, det, sub_self, Prod.fst_zero, Prod.snd_zero] at this hd
  linarith

theorem notMem_hull {p u v : ℝ × ℝ} (hd : det u v ≠ 0) {S : Set (ℝ × ℝ)} (hS : ∀ x ∈ S, x = p + u ∨ x = p + v ∨ x = p + u + v) : p ∉ convexHull ℝ S := by
  rcases lt_or_gt_of_ne hd with h | h
  · refine notMem_hull_of_pos (u := v) (v := u) (by unfold det at *; linarith) fun x hx => ?_
    rcases hS x hx with h | h | h
    · exact .inr (.inl h)
    · exact .inl h
    · exact .inr (.inr (by rw [h]; abel))
  · exact notMem_hull_of_pos h hS

/-- The corners of a parallelogram, in the order of `flatten2d`. -/
def para (p u v : ℝ × ℝ) : List (ℝ × ℝ) := [p, p + v, p + u, p + u + v]

theorem para_extreme {p u v : ℝ × ℝ} (hd : det u v ≠ 0) : ∀ w ∈ para p u v, w ∉ convexHull ℝ {x | x ∈ para p u v ∧ x ≠ w} := by
  intro w hw
  simp only [para, List.mem_cons, List.not_mem_nil, or_false] at hw
  rcases hw with rfl | rfl | rfl | rfl
  · refine notMem_hull hd ?_
    rintro x ⟨hx, hne⟩
    simp only [para, List.mem_cons, List.not_mem_nil, or_false] at hx
    tauto
  · refine notMem_hull (u := u) (v := -v) (by simp only [det, Prod.fst_neg, Prod.snd_neg] at *; intro h; apply hd; linarith) ?_
    rintro x ⟨hx, hne⟩
    simp only [para, List.mem_cons, List.not_mem_nil, or_false] at hx
    rcases hx with rfl | rfl | rfl | rfl
    · right; left; abel
    · exact absurd rfl hne
    · right; right; abel
    · left; abel
  · refine notMem_hull (u := -u) (v := v) (by simp only [det, Prod.fst_neg, Prod.snd_neg] at *; intro h; apply hd; linarith) ?_
    rintro x ⟨hx, hne⟩
    simp only [para, List.mem_cons, List.not_mem_nil, or_false] at hx
    rcases hx with rfl | rfl | rfl | rfl
    · left; abel
    · right; right; abel
    · exact absurd rfl hne
    · right; left; rfl
  · refine notMem_hull (u := -u) (v := -v) (by simp only [det, Prod.fst_neg, Prod.snd_neg] at *; intro h; apply hd; linarith) ?_
    rintro x ⟨hx, hne⟩
    simp only [para, List.mem_cons, List.not_mem_nil, or_false] at hx
    rcases hx with rfl | rfl | rfl | rfl
    · right; right; abel
    · left; abel
    · right; left; abel
    · exact absurd rfl hne

theorem para_nodup {p u v : ℝ × ℝ} (hd : det u v ≠ 0) : (para p u v).Nodup := by
  have hu : u ≠ 0 := by rintro rfl; simp [det] at hd
  have hv : v ≠ 0 := by rintro rfl; simp [det] at hd
  have huv : u ≠ v := by rintro rfl; apply hd; unfold det; ring
  have huv' : u + v ≠ 0 := by
    intro h
    obtain rfl : u = -v := eq_neg_of_add_eq_zero_left h
    apply hd; simp only [det, Prod.fst_neg, Prod.snd_neg]; ring
  simp [para, hu, hv, huv.symm, huv', add_assoc]

theorem para_convex {p u v : ℝ × ℝ} (hd : det u v ≠ 0) : ConvexPolygon [p, p + u, p + u + v, p + v] := by
  refine ⟨⟨p, by simp, p + u, by simp, p + v, by simp, ?_⟩, ?_⟩
  · simp only [turn, det, Prod.fst_add, Prod.snd_add] at *
    intro h; apply hd; linarith
  · rcases lt_or_gt_of_ne hd with h | h
    · right
      intro a b hab r hr
      simp only [List.mem_cons, List.not_mem_nil, or_false] at hr
      rcases (isEdge_four _ _ _ _ a b).1 hab with ⟨rfl, rfl⟩ | ⟨rfl, rfl⟩ | ⟨rfl, rfl⟩ | ⟨rfl, rfl⟩ <;>
        rcases hr with rfl | rfl | rfl | rfl <;> simp only [turn, det, Prod.fst_add, Prod.snd_add] at * <;> nlinarith
    · left
      intro a b hab r hr
      simp only [List.mem_cons, List.not_mem_nil, or_false] at hr
      rcases (isEdge_four _ _ _ _ a b).1 hab with ⟨rfl, rfl⟩ | ⟨rfl, rfl⟩ | ⟨rfl, rfl⟩ | ⟨rfl, rfl⟩ <;>
        rcases hr with rfl | rfl | rfl | rfl <;> simp only [turn, det, Prod.fst_add, Prod.snd_add] at * <;> nlinarith

theorem para_order {p u v : ℝ × ℝ} (hd : det u v ≠ 0) : HullOrder (para p u v) [0, 2, 3, 1] := by
  have hperm : [p, p + u, p + u + v, p + v].Perm (para p u v) := by
    refine List.Perm.cons _ ?_
    exact (List.perm_append_comm (l₁ := [p + u, p + u + v]) (l₂ := [p + v]))
  refine ⟨[p, p + u, p + u + v, p + v], ?_, para_convex hd, hperm.nodup_iff.2 (para_nodup hd), ?_, ?_⟩
  · simp [para]
  · intro w hw
    exact para_extreme hd w (hperm.mem_iff.1 hw)
  · intro w hw
    exact subset_convexHull ℝ _ (hperm.mem_iff.2 hw)

/-- The points of a polygon with at least two different corners: neighbours differ. -/
theorem proper_of_nodup {ws : List (ℝ × ℝ)} (hn : ws.Nodup) (h2 : 2 ≤ ws.length) : ProperEdges ws := by
  refine ⟨by rintro rfl; simp at h2, ?_⟩
  rintro p q ⟨i, h1, h2'⟩ rfl
  have hi : i < ws.length := (List.getElem?_eq_some_iff.1 h1).1
  have hj : (i + 1) % ws.length < ws.length := Nat.mod_lt _ (by omega)
  have hij : i = (i + 1) % ws.length := (List.nodup_iff_getElem?_ne_getElem?.1 hn |> fun H => by
    by_contra hne
    rcases lt_or_gt_of_ne hne with h | h
    · exact H _ _ h hj (by rw [h1, h2'])
    · exact H _ _ h hi (by rw [h1, h2']))
  rcases Nat.lt_or_ge (i + 1) ws.length with h | h
  · rw [Nat.mod_eq_of_lt h] at hij; omega
  · have : i + 1 = ws.length := by omega
    rw [this, Nat.mod_self] at hij; omega

theorem mapM_forall₂ {vs : List (ℝ × ℝ)} {idx : List ℕ} {ws : List (ℝ × ℝ)} (h : List.Forall₂ (fun i w => vs[i]? = some w) idx ws) :
    (idx.mapM fun i => match vs[i]? with | some v => .ok v | none => .error .index : Except PyErr (List (ℝ × ℝ))) = .ok ws := by
  induction h with
  | nil => rfl
  | cons h _ ih => rw [List.mapM_cons, ih, h]; rfl

/-- What `hull` returns for the corners of a parallelogram. -/
theorem hull_para {order : List (ℝ × ℝ) → Except PyErr (List ℕ)} (ho : HullLibrary order) {p u v : ℝ × ℝ} (hd : det u v ≠ 0) :
    ∃ ws, hull order (para p u v) = .ok ws ∧ ws.length = 4 ∧ ConvexPolygon ws ∧ ProperEdges ws ∧ polygonHull ws = polygonHull (para p u v) := by
  obtain ⟨idx, h1, ws, h2, h3, h4, h5, h6⟩ := ho _ _ (para_order (p := p) hd)
  have hsub : ∀ w ∈ ws, w ∈ para p u v := by
    intro w hw
    obtain ⟨i, hi, hiw⟩ := List.getElem_of_mem hw
    have := h2.get (i := i) (by rw [h2.length_eq]; exact hi) hi
    simp only [List.get_eq_getElem, hiw] at this
    exact List.mem_of_getElem? this
  have hsup : ∀ w ∈ para p u v, w ∈ ws := by
    intro w hw
    by_contra hnot
    refine para_extreme hd w hw (convexHull_mono ?_ (h6 w hw))
    intro x hx
    exact ⟨hsub x hx, by rintro rfl; exact hnot hx⟩
  have hperm : ws.Perm (para p u v) := (List.perm_ext_iff_of_nodup h4 (para_nodup hd)).2 fun w => ⟨hsub w, hsup w⟩
  have hlen : ws.length = 4 := by rw [hperm.length_eq]; rfl
  refine ⟨ws, ?_, hlen, h3, proper_of_nodup h4 (by omega), ?_⟩
  · unfold hull
    rw [h1]
    exact mapM_forall₂ h2
  · unfold polygonHull
    congr 1
    ext w
    exact ⟨hsub w, hsup w⟩

theorem para_hull (p u v x : ℝ × ℝ) : x ∈ polygonHull (para p u v) ↔ ∃ a b : ℝ, 0 ≤ a ∧ a ≤ 1 ∧ 0 ≤ b ∧ b ≤ 1 ∧ x = p + a • u + b • v := by
  constructor
  · intro hx
    have hconv : Convex ℝ {x : ℝ × ℝ | ∃ a b : ℝ, 0 ≤ a ∧ a ≤ 1 ∧ 0 ≤ b ∧ b ≤ 1 ∧ x = p + a • u + b • v} := by
      rintro y ⟨a, b, h1, h2, h3, h4, rfl⟩ z ⟨a', b', h1', h2', h3', h4', rfl⟩ s t hs ht hst
      refine ⟨s * a + t * a', s * b + t * b', by positivity, by nlinarith, by positivity, by nlinarith, ?_⟩
      obtain rfl : t = 1 - s := by linarith
      ext <;> simp <;> ring
    refine convexHull_min ?_ hconv hx
    intro y hy
    simp only [Set.mem_ofPred_eq, para, List.mem_cons, List.not_mem_nil, or_false] at hy
    rcases hy with rfl | rfl | rfl | rfl
    · exact ⟨0, 0, by simp⟩
    · exact ⟨0, 1, by simp⟩
    · exact ⟨1, 0, by simp⟩
    · exact ⟨1, 1, by simp⟩
  · rintro ⟨a, b, h1, h2, h3, h4, rfl⟩
    have hc := convex_convexHull ℝ {x | x ∈ para p u v}
    have m : ∀ y ∈ para p u v, y ∈ convexHull ℝ {x | x ∈ para p u v} := fun y hy => subset_convexHull ℝ _ hy
    have e1 := hc (m p (by simp [para])) (m (p + u) (by simp [para])) (sub_nonneg.2 h2) h1 (by ring)
    have e2 := hc (m (p + v) (by simp [para])) (m (p + u + v) (by simp [para])) (sub_nonneg.2 h2) h1 (by ring)
    have e3 := hc e1 e2 (sub_nonneg.2 h4) h3 (by ring)
    unfold polygonHull
    convert e3 using 1
    ext <;> simp <;> ring

/-! ### The flattened corners of a box -/

/-- The corner, the width and the depth of the footprint of an upright box. -/
noncomputable def base (o : Oobb) : ℝ × ℝ :=
  (o.pos.1 + Real.cos o.yaw * o.aabb.lower.1 - Real.sin o.yaw * o.aabb.lower.2.1, o.pos.2.1 + Real.sin o.yaw * o.aabb.lower.1 + Real.cos o.yaw * o.aabb.lower.2.1)

noncomputable def side (o : Oobb) : ℝ × ℝ :=
  (Real.cos o.yaw * (o.aabb.upper.1 - o.aabb.lower.1), Real.sin o.yaw * (o.aabb.upper.1 - o.aabb.lower.1))

noncomputable def depth (o : Oobb) : ℝ × ℝ :=
  (-(Real.sin o.yaw * (o.aabb.upper.2.1 - o.aabb.lower.2.1)), Real.cos o.yaw * (o.aabb.upper.2.1 - o.aabb.lower.2.1))

theorem det_side (o : Oobb) : det (side o) (depth o) = (o.aabb.upper.1 - o.aabb.lower.1) * (o.aabb.upper.2.1 - o.aabb.lower.2.1) := by
  simp only [det, side, depth]
  linear_combination ((o.aabb.upper.1 - o.aabb.lower.1) * (o.aabb.upper.2.1 - o.aabb.lower.2.1)) * Real.sin_sq_add_cos_sq o.yaw

theorem wide_det {o : Oobb} (h : Wide o.aabb) : det (side o) (depth o) ≠ 0 := by
  rw [det_side]
  exact mul_ne_zero (by linarith [h.1]) (by linarith [h.2])

/-- One step of the loop. -/
noncomputable def keep (kept : List V2) (v : V2) : List V2 :=
  if kept.any (fun k => decide (√((v.1 - k.1) ^ 2 + (v.2 - k.2) ^ 2) < 1 / 1000)) then kept else kept ++ [v]

theorem flatten2d_eq (verts : List (ℝ × ℝ × ℝ)) : flatten2d verts = (verts.map fun v => (v.1, v.2.1)).foldl keep [] := by
  unfold flatten2d keep
  rw [List.foldl_map]

theorem keep_near {kept : List V2} {v k : V2} (hk : k ∈ kept) (h : √((v.1 - k.1) ^ 2 + (v.2 - k.2) ^ 2) < 1 / 1000) : keep kept v = kept :=
  if_pos (List.any_eq_true.2 ⟨k, hk, decide_eq_true h⟩)

theorem keep_same {kept : List V2} {v : V2} (hk : v ∈ kept) : keep kept v = kept := keep_near hk (by simp)

theorem keep_far {kept : List V2} {v : V2} (h : ∀ k ∈ kept, 1 / 1000 ≤ √((v.1 - k.1) ^ 2 + (v.2 - k.2) ^ 2)) : keep kept v = kept ++ [v] := by
  refine if_neg fun hany => ?_
  obtain ⟨k, hk, hd⟩ := List.any_eq_true.1 hany
  exact absurd (of_decide_eq_true hd) (not_lt.2 (h k hk))

theorem far_of_sq {a b : ℝ} (h : (1 / 1000) ^ 2 ≤ a ^ 2 + b ^ 2) : 1 / 1000 ≤ √(a ^ 2 + b ^ 2) := Real.le_sqrt_of_sq_le h

theorem flat_corners (o : Oobb) : (oobbVertices o).map (fun v => (v.1, v.2.1)) =
    [base o, base o, base o + depth o, base o + depth o, base o + side o, base o + side o, base o + side o + depth o, base o + side o + depth o] := by
  simp only [oobbVertices, aabbVertices, tformPoint, List.map_cons, List.map_nil, base, side, depth, Prod.mk_add_mk, List.cons.injEq, Prod.mk.injEq, and_true, true_and]
  refine ⟨⟨?_, ?_⟩, ⟨?_, ?_⟩, ⟨?_, ?_⟩, ⟨?_, ?_⟩, ⟨?_, ?_⟩, ⟨?_, ?_⟩⟩ <;> ring

theorem side_sq (o : Oobb) : (side o).1 ^ 2 + (side o).2 ^ 2 = (o.aabb.upper.1 - o.aabb.lower.1) ^ 2 := by
  simp only [side]
  linear_combination (o.aabb.upper.1 - o.aabb.lower.1) ^ 2 * Real.sin_sq_add_cos_sq o.yaw

theorem depth_sq (o : Oobb) : (depth o).1 ^ 2 + (depth o).2 ^ 2 = (o.aabb.upper.2.1 - o.aabb.lower.2.1) ^ 2 := by
  simp only [depth]
  linear_combination (o.aabb.upper.2.1 - o.aabb.lower.2.1) ^ 2 * Real.sin_sq_add_cos_sq o.yaw

theorem side_depth (o : Oobb) : (side o).1 * (depth o).1 + (side o).2 * (depth o).2 = 0 := by
  simp only [side, depth]
  ring

theorem sq_wide {x y : ℝ} (h : x + 1 / 1000 ≤ y) : (1 / 1000) ^ 2 ≤ (y - x) ^ 2 := by
  have : 1 / 1000 ≤ y - x := by linarith
  exact pow_le_pow_left₀ (by norm_num) this 2

theorem flat_wide {o : Oobb} (h : Wide o.aabb) : oobbFlatVertices (oobbVertices o) = .ok (para (base o) (side o) (depth o)) := by
  have s1 := side_sq o
  have s2 := depth_sq o
  have s3 := side_depth o
  have w1 := sq_wide h.1
  have w2 := sq_wide h.2
  have e : flatten2d (oobbVertices o) = para (base o) (side o) (depth o) := by
    rw [flatten2d_eq, flat_corners]
    generalize base o = p, side o = u, depth o = v at *
    simp only [List.foldl_cons, List.foldl_nil]
    rw [show keep [] p = [p] from keep_far (by simp), keep_same (kept := [p]) (v := p) (by simp), show keep [p] (p + v) = [p, p + v] from keep_far ?_, keep_same (kept := [p, p + v]) (v := p + v) (by simp),
      show keep [p, p + v] (p + u) = [p, p + v, p + u] from keep_far ?_, keep_same (kept := [p, p + v, p + u]) (v := p + u) (by simp),
      show keep [p, p + v, p + u] (p + u + v) = para p u v from keep_far ?_, keep_same (kept := para p u v) (v := p + u + v) (by simp [para])]
    all_goals
      intro k hk
      simp only [List.mem_cons, List.not_mem_nil, or_false] at hk
      rcases hk with rfl | rfl | rfl <;> refine far_of_sq ?_ <;> simp only [Prod.fst_add, Prod.snd_add] <;> nlinarith
  unfold oobbFlatVertices
  rw [e]
  rfl

theorem sqrt_lt_thin {a b : ℝ} (h : a ^ 2 + b ^ 2 < (1 / 1000) ^ 2) : √(a ^ 2 + b ^ 2) < 1 / 1000 := (Real.sqrt_lt' (by norm_num)).2 h

theorem sq_thin {x y : ℝ} (h0 : x ≤ y) (h : y < x + 1 / 1000) : (y - x) ^ 2 < (1 / 1000) ^ 2 :=
  pow_lt_pow_left₀ (by linarith) (by linarith) (by norm_num)

/-- Of a box that is thin in one direction, at most two corners are kept. -/
theorem flat_thin {o : Oobb} (h : (o.aabb.lower.1 ≤ o.aabb.upper.1 ∧ o.aabb.upper.1 < o.aabb.lower.1 + 1 / 1000) ∨
    (o.aabb.lower.2.1 ≤ o.aabb.upper.2.1 ∧ o.aabb.upper.2.1 < o.aabb.lower.2.1 + 1 / 1000)) : oobbFlatVertices (oobbVertices o) = .error .assertion := by
  have s1 := side_sq o
  have s2 := depth_sq o
  have hlen : ∀ (kept : List V2) (v : V2), (keep kept v).length = kept.length ∨ (keep kept v).length = kept.length + 1 := by
    intro kept v
    unfold keep
    split <;> simp
  have hor : ∀ (kept : List V2) (v : V2), keep kept v = kept ∨ keep kept v = kept ++ [v] := by
    intro kept v
    unfold keep
    split <;> simp
  have e : (flatten2d (oobbVertices o)).length < 4 := by
    rw [flatten2d_eq, flat_corners]
    rcases h with h | h
    · have w := sq_thin h.1 h.2
      generalize base o = p, side o = u, depth o = v at *
      simp only [List.foldl_cons, List.foldl_nil]
      rw [show keep [] p = [p] from keep_far (by simp), keep_same (kept := [p]) (v := p) (by simp)]
      by_cases hv : √(v.1 ^ 2 + v.2 ^ 2) < 1 / 1000
      · have e1 : keep [p] (p + v) = [p] := keep_near (k := p) (by simp) (by simpa using hv)
        have e2 : keep [p] (p + u) = [p] := keep_near (k := p) (by simp) (by simpa using sqrt_lt_thin (s1 ▸ w))
        rw [e1, e1, e2, e2]
        rcases hlen [p] (p + u + v) with h1 | h1 <;> rcases hlen (keep [p] (p + u + v)) (p + u + v) with h2 | h2 <;> rw [h2, h1] <;> simp
      · have e1 : keep [p] (p + v) = [p, p + v] := keep_far (by intro k hk; rw [List.mem_singleton] at hk; subst hk; simpa using hv)
        have e2 : keep [p, p + v] (p + u) = [p, p + v] := keep_near (k := p) (by simp) (by simpa using sqrt_lt_thin (s1 ▸ w))
        have e3 : keep [p, p + v] (p + u + v) = [p, p + v] :=
          keep_near (k := p + v) (by simp) (by
            have : √(u.1 ^ 2 + u.2 ^ 2) < 1 / 1000 := sqrt_lt_thin (s1 ▸ w)
            convert this using 2
            simp only [Prod.fst_add, Prod.snd_add]; ring)
        rw [e1, keep_same (kept := [p, p + v]) (v := p + v) (by simp), e2, e2, e3, e3]
        simp
    · have w := sq_thin h.1 h.2
      generalize base o = p, side o = u, depth o = v at *
      simp only [List.foldl_cons, List.foldl_nil]
      rw [show keep [] p = [p] from keep_far (by simp), keep_same (kept := [p]) (v := p) (by simp)]
      have hv : √(v.1 ^ 2 + v.2 ^ 2) < 1 / 1000 := sqrt_lt_thin (s2 ▸ w)
      have e1 : keep [p] (p + v) = [p] := keep_near (k := p) (by simp) (by simpa using hv)
      rw [e1, e1]
      rcases hor [p] (p + u) with hk | hk
      · rw [hk, hk]
        rcases hlen [p] (p + u + v) with h1 | h1 <;> rcases hlen (keep [p] (p + u + v)) (p + u + v) with h2 | h2 <;> rw [h2, h1] <;> simp
      · rw [List.singleton_append] at hk
        have e3 : keep [p, p + u] (p + u + v) = [p, p + u] := keep_near (k := p + u) (by simp) (by simpa using hv)
        rw [hk, keep_same (kept := [p, p + u]) (v := p + u) (by simp), e3, e3]
        simp
  unfold oobbFlatVertices
  rw [if_neg (by omega)]

end Verif.Bag
