import Mathlib.Analysis.LocallyConvex.Separation
import Mathlib.Analysis.Convex.Topology
import Mathlib.Tactic.Linarith
import Mathlib.Tactic.Ring
import Mathlib.Tactic.FieldSimp
import Mathlib.Tactic.LinearCombination
import Verif.Model.Sat2D
import Verif.Spec.Sat2D

/-! Lemmas on the planar separating-axis test. -/

namespace Verif.Sat2D

open Verif.Spec

theorem pyMin_ok (l : List ℝ) (h : l ≠ []) : ∃ m, pyMin l = .ok m ∧ m ∈ l ∧ ∀ x ∈ l, m ≤ x := by
  cases l with
  | nil => exact absurd rfl h
  | cons a l =>
    refine ⟨_, rfl, ?_⟩
    clear h
    induction l generalizing a with
    | nil => simp
    | cons b l ih =>
      rw [List.foldl_cons]
      obtain ⟨h1, h2⟩ := ih (min a b)
      constructor
      · rcases List.mem_cons.1 h1 with h1 | h1
        · rw [h1]
          rcases min_choice a b with h | h <;> rw [h] <;> simp
        · simp [h1]
      · intro x hx
        have h3 := h2 (min a b) (by simp)
        rcases List.mem_cons.1 hx with rfl | hx
        · exact h3.trans (min_le_left _ _)
        · rcases List.mem_cons.1 hx with rfl | hx
          · exact h3.trans (min_le_right _ _)
          · exact h2 x (by simp [hx])

theorem pyMax_ok (l : List ℝ) (h : l ≠ []) : ∃ m, pyMax l = .ok m ∧ m ∈ l ∧ ∀ x ∈ l, x ≤ m := by
  cases l with
  | nil => exact absurd rfl h
  | cons a l =>
    refine ⟨_, rfl, ?_⟩
    clear h
    induction l generalizing a with
    | nil => simp
    | cons b l ih =>
      rw [List.foldl_cons]
      obtain ⟨h1, h2⟩ := ih (max a b)
      constructor
      · rcases List.mem_cons.1 h1 with h1 | h1
        · rw [h1]
          rcases max_choice a b with h | h <;> rw [h] <;> simp
        · simp [h1]
      · intro x hx
        have h3 := h2 (max a b) (by simp)
        rcases List.mem_cons.1 hx with rfl | hx
        · exact (le_max_left _ _).trans h3
        · rcases List.mem_cons.1 hx with rfl | hx
          · exact (le_max_right _ _).trans h3
          · exact h2 x (by simp [hx])

/-- The direction `w` strictly separates the vertices. -/
def Separates (va vb : List V2) (w : V2) : Prop :=
  (∀ a ∈ va, ∀ b ∈ vb, dot a w < dot b w) ∨ (∀ a ∈ va, ∀ b ∈ vb, dot b w < dot a w)

theorem separates_smul (va vb : List V2) (w : V2) (k : ℝ) (hk : k ≠ 0) (h : Separates va vb w) :
    Separates va vb (k * w.1, k * w.2) := by
  have hd : ∀ a : V2, dot a (k * w.1, k * w.2) = k * dot a w := fun a => by simp only [dot]; ring
  unfold Separates
  simp only [hd]
  rcases lt_or_gt_of_ne hk with hk | hk
  · rcases h with h | h
    · exact .inr fun a ha b hb => mul_lt_mul_of_neg_left (h a ha b hb) hk
    · exact .inl fun a ha b hb => mul_lt_mul_of_neg_left (h a ha b hb) hk
  · rcases h with h | h
    · exact .inl fun a ha b hb => mul_lt_mul_of_pos_left (h a ha b hb) hk
    · exact .inr fun a ha b hb => mul_lt_mul_of_pos_left (h a ha b hb) hk

theorem separates_smul_iff (va vb : List V2) (w : V2) (k : ℝ) (hk : k ≠ 0) :
    Separates va vb (k * w.1, k * w.2) ↔ Separates va vb w := by
  refine ⟨fun h => ?_, separates_smul va vb w k hk⟩
  have := separates_smul va vb _ k⁻¹ (inv_ne_zero hk) h
  simpa [← mul_assoc, inv_mul_cancel₀ hk] using this

theorem project_ok (vs : List V2) (w : V2) (h : vs ≠ []) : ∃ lo hi, project vs w = .ok (lo, hi) ∧
    pyMin (vs.map fun v => dot v w) = .ok lo ∧ pyMax (vs.map fun v => dot v w) = .ok hi ∧
    (∃ v ∈ vs, dot v w = lo) ∧ (∃ v ∈ vs, dot v w = hi) ∧ ∀ v ∈ vs, lo ≤ dot v w ∧ dot v w ≤ hi := by
  have h' : (vs.map fun v => dot v w) ≠ [] := by simpa using h
  obtain ⟨lo, h1, h2, h3⟩ := pyMin_ok _ h'
  obtain ⟨hi, h4, h5, h6⟩ := pyMax_ok _ h'
  refine ⟨lo, hi, ?_, h1, h4, List.mem_map.1 h2, List.mem_map.1 h5, fun v hv => ⟨h3 _ (List.mem_map.2 ⟨v, hv, rfl⟩), h6 _ (List.mem_map.2 ⟨v, hv, rfl⟩)⟩⟩
  simp only [project, h1, h4]
  rfl

/-- One axis: the overlap test fails exactly when the axis strictly separates the vertices. -/
theorem overlap_iff (va vb : List V2) (w : V2) (ha : va ≠ []) (hb : vb ≠ []) : ∃ pa pb, project va w = .ok pa ∧ project vb w = .ok pb ∧
    (overlap pa pb = false ↔ Separates va vb w) ∧ (vecOverlap (some pa) (some pb) = overlap pa pb) := by
  obtain ⟨la, ua, h1, -, -, ⟨a1, ha1, e1⟩, ⟨a2, ha2, e2⟩, h2⟩ := project_ok va w ha
  obtain ⟨lb, ub, h3, -, -, ⟨b1, hb1, f1⟩, ⟨b2, hb2, f2⟩, h4⟩ := project_ok vb w hb
  have hla : la ≤ ua := by rw [← e1]; exact (h2 a1 ha1).2
  have hlb : lb ≤ ub := by rw [← f1]; exact (h4 b1 hb1).2
  have hmm : overlap (la, ua) (lb, ub) = (decide (la ≤ ub) && decide (lb ≤ ua)) := by
    simp only [overlap, min_eq_left hla, max_eq_right hlb, min_eq_left hlb, max_eq_right hla]
  refine ⟨_, _, h1, h3, ?_, by rw [hmm]; rfl⟩
  rw [hmm, Bool.and_eq_false_iff, decide_eq_false_iff_not, decide_eq_false_iff_not, not_le, not_le]
  constructor
  · rintro (h | h)
    · exact .inr fun a ha b hb => (h4 b hb).2.trans_lt (h.trans_le (h2 a ha).1)
    · exact .inl fun a ha b hb => (h2 a ha).2.trans_lt (h.trans_le (h4 b hb).1)
  · rintro (h | h)
    · right
      rw [← e2, ← f1]
      exact h a2 ha2 b1 hb1
    · left
      rw [← e1, ← f2]
      exact h a1 ha1 b2 hb2

theorem norm_pos (v : V2) (h : v ≠ 0) : √(v.1 ^ 2 + v.2 ^ 2) ≠ 0 := by
  intro h0
  rw [Real.sqrt_eq_zero (by positivity)] at h0
  apply h
  have h1 : v.1 = 0 := by nlinarith [sq_nonneg v.1, sq_nonneg v.2]
  have h2 : v.2 = 0 := by nlinarith [sq_nonneg v.1, sq_nonneg v.2]
  exact Prod.ext h1 h2

theorem norm_zero : √((0 : V2).1 ^ 2 + (0 : V2).2 ^ 2) = 0 := by simp

theorem orthogonal_ne (e : V2) (h : e ≠ 0) : orthogonal e ≠ 0 := by
  intro h0
  apply h
  have h1 := congrArg Prod.fst h0
  have h2 := congrArg Prod.snd h0
  simp only [orthogonal, Prod.fst_zero, Prod.snd_zero, neg_eq_zero] at h1 h2
  exact Prod.ext h2 h1

/-- The unit normal of an edge. -/
noncomputable def unitNormal (e : V2) : V2 :=
  ((√((orthogonal e).1 ^ 2 + (orthogonal e).2 ^ 2))⁻¹ * (orthogonal e).1, (√((orthogonal e).1 ^ 2 + (orthogonal e).2 ^ 2))⁻¹ * (orthogonal e).2)

theorem normalize_ok (e : V2) (h : e ≠ 0) : normalize (orthogonal e) = .ok (unitNormal e) := by
  unfold normalize unitNormal
  rw [if_neg (norm_pos _ (orthogonal_ne e h)), div_eq_inv_mul, div_eq_inv_mul]

theorem unitNormal_separates (va vb : List V2) (e : V2) (h : e ≠ 0) : Separates va vb (unitNormal e) ↔ Separates va vb (orthogonal e) :=
  separates_smul_iff va vb _ _ (inv_ne_zero (norm_pos _ (orthogonal_ne e h)))

theorem mapM_ok {α β : Type} (f : α → Except PyErr β) (g : α → β) (l : List α) (h : ∀ x ∈ l, f x = .ok (g x)) : l.mapM f = .ok (l.map g) := by
  induction l with
  | nil => rfl
  | cons a l ih =>
    rw [List.mapM_cons, h a (by simp), ih fun x hx => h x (by simp [hx])]
    rfl

theorem ok_bind {α β : Type} (a : α) (f : α → Except PyErr β) : ((Except.ok a : Except PyErr α) >>= f) = f a := rfl

theorem testAxes_ok (va vb : List V2) (ha : va ≠ []) (hb : vb ≠ []) (axes : List V2) :
    (testAxes va vb axes = .ok true ∧ ∀ w ∈ axes, ¬ Separates va vb w) ∨ (testAxes va vb axes = .ok false ∧ ∃ w ∈ axes, Separates va vb w) := by
  induction axes with
  | nil => exact .inl ⟨rfl, by simp⟩
  | cons w axes ih =>
    obtain ⟨pa, pb, h1, h2, h3, -⟩ := overlap_iff va vb w ha hb
    have hstep : testAxes va vb (w :: axes) = (if !overlap pa pb then .ok false else testAxes va vb axes) := by
      show (project va w >>= fun pa => project vb w >>= fun pb => _) = _
      rw [h1, h2]
      show (if !overlap pa pb then _ else _) = _
      cases overlap pa pb <;> rfl
    rw [hstep]
    cases ho : overlap pa pb with
    | false => exact .inr ⟨rfl, w, by simp, h3.1 ho⟩
    | true =>
      have hw : ¬ Separates va vb w := fun hs => by rw [h3.2 hs] at ho; cases ho
      rcases ih with ⟨i1, i2⟩ | ⟨i1, v, hv, i2⟩
      · refine .inl ⟨i1, fun v hv => ?_⟩
        rcases List.mem_cons.1 hv with rfl | hv
        · exact hw
        · exact i2 v hv
      · exact .inr ⟨i1, v, by simp [hv], i2⟩

theorem mem_edges (vs : List V2) (e : V2) : e ∈ verticesToEdges vs ↔ ∃ p q, IsEdge vs p q ∧ e = (q.1 - p.1, q.2 - p.2) := by
  unfold verticesToEdges IsEdge edgeDirection
  simp only [List.mem_map, List.mem_range]
  constructor
  · rintro ⟨i, hi, rfl⟩
    have hj : (i + 1) % vs.length < vs.length := Nat.mod_lt _ (by omega)
    refine ⟨vs[i], vs[(i + 1) % vs.length], ⟨i, List.getElem?_eq_getElem hi, List.getElem?_eq_getElem hj⟩, ?_⟩
    rw [List.getD_eq_getElem?_getD, List.getD_eq_getElem?_getD, List.getElem?_eq_getElem hi, List.getElem?_eq_getElem hj]
    rfl
  · rintro ⟨p, q, ⟨i, hp, hq⟩, rfl⟩
    refine ⟨i, ?_, ?_⟩
    · by_contra h
      rw [List.getElem?_eq_none (by omega)] at hp
      cases hp
    · rw [List.getD_eq_getElem?_getD, List.getD_eq_getElem?_getD, hp, hq]
      rfl

theorem edge_ne (vs : List V2) (h : ProperEdges vs) (e : V2) (he : e ∈ verticesToEdges vs) : e ≠ 0 := by
  obtain ⟨p, q, hpq, rfl⟩ := (mem_edges vs e).1 he
  intro h0
  apply h.2 p q hpq
  have h1 := congrArg Prod.fst h0
  have h2 := congrArg Prod.snd h0
  simp only [Prod.fst_zero, Prod.snd_zero, sub_eq_zero] at h1 h2
  exact (Prod.ext h1 h2).symm

/-- The scalar test on polygons with proper edges: true exactly when no edge normal strictly separates the vertices. -/
theorem sat_ok (va vb : List V2) (ha : ProperEdges va) (hb : ProperEdges vb) :
    (sat va vb = .ok true ∧ ∀ e ∈ verticesToEdges va ++ verticesToEdges vb, ¬ Separates va vb (orthogonal e)) ∨
    (sat va vb = .ok false ∧ ∃ e ∈ verticesToEdges va ++ verticesToEdges vb, Separates va vb (orthogonal e)) := by
  have hne : ∀ e ∈ verticesToEdges va ++ verticesToEdges vb, e ≠ 0 := by
    intro e he
    rcases List.mem_append.1 he with he | he
    · exact edge_ne va ha e he
    · exact edge_ne vb hb e he
  have hstep : sat va vb = testAxes va vb ((verticesToEdges va ++ verticesToEdges vb).map unitNormal) := by
    unfold sat
    simp only [mapM_ok (fun e => normalize (orthogonal e)) unitNormal _ fun e he => normalize_ok e (hne e he)]
    rfl
  rw [hstep]
  rcases testAxes_ok va vb ha.1 hb.1 ((verticesToEdges va ++ verticesToEdges vb).map unitNormal) with ⟨h1, h2⟩ | ⟨h1, w, hw, h2⟩
  · exact .inl ⟨h1, fun e he hs => h2 _ (List.mem_map.2 ⟨e, he, rfl⟩) ((unitNormal_separates va vb e (hne e he)).2 hs)⟩
  · obtain ⟨e, he, rfl⟩ := List.mem_map.1 hw
    exact .inr ⟨h1, e, he, (unitNormal_separates va vb e (hne e he)).1 h2⟩

theorem sat_true_iff (va vb : List V2) (ha : ProperEdges va) (hb : ProperEdges vb) :
    sat va vb = .ok true ↔ ∀ e ∈ verticesToEdges va ++ verticesToEdges vb, ¬ Separates va vb (orthogonal e) := by
  rcases sat_ok va vb ha hb with ⟨h1, h2⟩ | ⟨h1, e, he, h2⟩
  · exact ⟨fun _ => h2, fun _ => h1⟩
  · rw [h1]
    exact ⟨fun h => (nomatch h), fun h => absurd h2 (h e he)⟩

/-! ### A common point excludes separation -/

theorem hull_le (vs : List V2) (w : V2) (M : ℝ) (h : ∀ v ∈ vs, dot v w ≤ M) (x : V2) (hx : x ∈ polygonHull vs) : dot x w ≤ M := by
  have hconv : Convex ℝ {y : V2 | dot y w ≤ M} := by
    intro y hy z hz a b ha hb hab
    simp only [Set.mem_ofPred_eq, dot, Prod.fst_add, Prod.snd_add, Prod.smul_fst, Prod.smul_snd, smul_eq_mul] at *
    have h1 := mul_le_mul_of_nonneg_left hy ha
    have h2 := mul_le_mul_of_nonneg_left hz hb
    have h3 : a * M + b * M = M := by rw [← add_mul, hab, one_mul]
    linarith
  exact convexHull_min (t := {y : V2 | dot y w ≤ M}) (fun v hv => h v hv) hconv hx

theorem hull_ge (vs : List V2) (w : V2) (M : ℝ) (h : ∀ v ∈ vs, M ≤ dot v w) (x : V2) (hx : x ∈ polygonHull vs) : M ≤ dot x w := by
  have hn : ∀ v : V2, dot v (-w) = -dot v w := fun v => by simp only [dot, Prod.fst_neg, Prod.snd_neg]; ring
  have := hull_le vs (-w) (-M) (fun v hv => by rw [hn]; exact neg_le_neg (h v hv)) x hx
  rw [hn] at this
  linarith

theorem not_separates_of_common (va vb : List V2) (ha : va ≠ []) (hb : vb ≠ []) (w x : V2) (h1 : x ∈ polygonHull va) (h2 : x ∈ polygonHull vb) :
    ¬ Separates va vb w := by
  obtain ⟨la, ua, -, -, -, ⟨a1, ha1, e1⟩, ⟨a2, ha2, e2⟩, hA⟩ := project_ok va w ha
  obtain ⟨lb, ub, -, -, -, ⟨b1, hb1, f1⟩, ⟨b2, hb2, f2⟩, hB⟩ := project_ok vb w hb
  have x1 := hull_le va w ua (fun v hv => (hA v hv).2) x h1
  have x2 := hull_ge va w la (fun v hv => (hA v hv).1) x h1
  have x3 := hull_le vb w ub (fun v hv => (hB v hv).2) x h2
  have x4 := hull_ge vb w lb (fun v hv => (hB v hv).1) x h2
  rintro (h | h)
  · have := h a2 ha2 b1 hb1
    linarith
  · have := h a1 ha1 b2 hb2
    linarith

/-! ### Disjoint convex polygons are separated by an edge normal -/

/-- Signed orientation of the polygon. -/
def Oriented (s : ℝ) (vs : List V2) : Prop := (s = 1 ∨ s = -1) ∧ ∀ p q, IsEdge vs p q → ∀ r ∈ vs, 0 ≤ s * turn p q r

theorem oriented_of_convex (vs : List V2) (h : ConvexPolygon vs) : ∃ s, Oriented s vs := by
  rcases h.2 with h | h
  · exact ⟨1, .inl rfl, fun p q hpq r hr => by rw [one_mul]; exact h p q hpq r hr⟩
  · exact ⟨-1, .inr rfl, fun p q hpq r hr => by rw [neg_one_mul]; exact neg_nonneg.2 (h p q hpq r hr)⟩

def cross (v w : V2) : ℝ := v.1 * w.2 - v.2 * w.1

theorem mem_of_edge {vs : List V2} {p q : V2} (h : IsEdge vs p q) : p ∈ vs ∧ q ∈ vs := by
  obtain ⟨i, h1, h2⟩ := h
  exact ⟨List.mem_of_getElem? h1, List.mem_of_getElem? h2⟩

theorem exists_edges (vs : List V2) (p : V2) (hp : p ∈ vs) : (∃ q, IsEdge vs p q) ∧ ∃ o, IsEdge vs o p := by
  obtain ⟨i, hi, rfl⟩ := List.mem_iff_getElem.1 hp
  have hj : (i + 1) % vs.length < vs.length := Nat.mod_lt _ (by omega)
  refine ⟨⟨vs[(i + 1) % vs.length], i, List.getElem?_eq_getElem hi, List.getElem?_eq_getElem hj⟩, ?_⟩
  have hk : (i + (vs.length - 1)) % vs.length < vs.length := Nat.mod_lt _ (by omega)
  refine ⟨vs[(i + (vs.length - 1)) % vs.length], (i + (vs.length - 1)) % vs.length, List.getElem?_eq_getElem hk, ?_⟩
  have : ((i + (vs.length - 1)) % vs.length + 1) % vs.length = i := by
    rw [Nat.mod_add_mod, show i + (vs.length - 1) + 1 = i + vs.length by omega, Nat.add_mod_right, Nat.mod_eq_of_lt hi]
  rw [this]
  exact List.getElem?_eq_getElem hi

/-- What is needed about the polygon around one of its vertices `p`, for a direction `u` in which `p` is extreme. -/
theorem corner (vs : List V2) (hc : ConvexPolygon vs) (hp : ProperEdges vs) (u p : V2) (hpm : p ∈ vs) (hmax : ∀ r ∈ vs, dot r u ≤ dot p u) :
    (∃ e ∈ verticesToEdges vs, dot e u = 0) ∨
    ∃ s : ℝ, ∃ e1 e2 : V2, ∃ c : ℝ, e1 ∈ verticesToEdges vs ∧ (-e2.1, -e2.2) ∈ verticesToEdges vs ∧ dot e1 u < 0 ∧ dot e2 u < 0 ∧
      (s = 1 ∨ s = -1) ∧ c = s * cross e1 e2 ∧ 0 < c ∧ ∀ w, dot e1 w ≤ 0 → dot e2 w ≤ 0 → ∀ r ∈ vs, dot r w ≤ dot p w := by
  obtain ⟨s, hs, hor⟩ := oriented_of_convex vs hc
  obtain ⟨⟨q, hq⟩, ⟨o, ho⟩⟩ := exists_edges vs p hpm
  have he1 : ((q.1 - p.1, q.2 - p.2) : V2) ∈ verticesToEdges vs := (mem_edges vs _).2 ⟨p, q, hq, rfl⟩
  have he2 : ((p.1 - o.1, p.2 - o.2) : V2) ∈ verticesToEdges vs := (mem_edges vs _).2 ⟨o, p, ho, rfl⟩
  have n1 := edge_ne vs hp _ he1
  have n2 := edge_ne vs hp _ he2
  have hqm := (mem_of_edge hq).2
  have hom := (mem_of_edge ho).1
  by_cases z1 : dot (q.1 - p.1, q.2 - p.2) u = 0
  · exact .inl ⟨_, he1, z1⟩
  by_cases z2 : dot (p.1 - o.1, p.2 - o.2) u = 0
  · exact .inl ⟨_, he2, z2⟩
  right
  have m1 := hmax q hqm
  have m2 := hmax o hom
  have l1 : dot (q.1 - p.1, q.2 - p.2) u < 0 := by
    refine lt_of_le_of_ne ?_ z1
    simp only [dot] at m1 ⊢
    linarith
  have l2 : dot (o.1 - p.1, o.2 - p.2) u < 0 := by
    refine lt_of_le_of_ne ?_ ?_
    · simp only [dot] at m2 ⊢
      linarith
    · simp only [dot] at z2 ⊢
      intro h
      apply z2
      linarith
  have c0 : 0 ≤ s * cross (q.1 - p.1, q.2 - p.2) (o.1 - p.1, o.2 - p.2) := hor p q hq o hom
  have hr1 : ∀ r ∈ vs, 0 ≤ s * cross (q.1 - p.1, q.2 - p.2) (r.1 - p.1, r.2 - p.2) := fun r hr => hor p q hq r hr
  have hr2 : ∀ r ∈ vs, s * cross (o.1 - p.1, o.2 - p.2) (r.1 - p.1, r.2 - p.2) ≤ 0 := by
    intro r hr
    have := hor o p ho r hr
    simp only [turn, cross] at this ⊢
    nlinarith [this]
  have hs0 : s ≠ 0 := by rcases hs with rfl | rfl <;> norm_num
  have hcpos : 0 < s * cross (q.1 - p.1, q.2 - p.2) (o.1 - p.1, o.2 - p.2) := by
    refine lt_of_le_of_ne c0 fun hz => ?_
    -- the two edges are parallel and, as both go down, in the same direction: all vertices are on one line
    have hz' : cross (q.1 - p.1, q.2 - p.2) (o.1 - p.1, o.2 - p.2) = 0 := by
      rcases mul_eq_zero.1 hz.symm with h | h
      · exact absurd h hs0
      · exact h
    have hline : ∀ r ∈ vs, cross (q.1 - p.1, q.2 - p.2) (r.1 - p.1, r.2 - p.2) = 0 := by
      intro r hr
      have a1 := hr1 r hr
      have a2 := hr2 r hr
      -- dot e2 u * cross e1 r = dot e1 u * cross e2 r + cross e1 e2 * (...)
      have hid : dot (o.1 - p.1, o.2 - p.2) u * cross (q.1 - p.1, q.2 - p.2) (r.1 - p.1, r.2 - p.2)
          = dot (q.1 - p.1, q.2 - p.2) u * cross (o.1 - p.1, o.2 - p.2) (r.1 - p.1, r.2 - p.2) +
            cross (q.1 - p.1, q.2 - p.2) (o.1 - p.1, o.2 - p.2) * dot (r.1 - p.1, r.2 - p.2) u := by
        simp only [dot, cross]
        ring
      rw [hz', zero_mul, add_zero] at hid
      have hid' : dot (o.1 - p.1, o.2 - p.2) u * (s * cross (q.1 - p.1, q.2 - p.2) (r.1 - p.1, r.2 - p.2))
          = dot (q.1 - p.1, q.2 - p.2) u * (s * cross (o.1 - p.1, o.2 - p.2) (r.1 - p.1, r.2 - p.2)) := by
        linear_combination s * hid
      have h3 := mul_nonneg_of_nonpos_of_nonpos l1.le a2
      have h4 := mul_nonpos_of_nonpos_of_nonneg l2.le a1
      have h5 : dot (o.1 - p.1, o.2 - p.2) u * (s * cross (q.1 - p.1, q.2 - p.2) (r.1 - p.1, r.2 - p.2)) = 0 :=
        le_antisymm h4 (by rw [hid']; exact h3)
      rcases mul_eq_zero.1 h5 with h | h
      · exact absurd h l2.ne
      · rcases mul_eq_zero.1 h with h | h
        · exact absurd h hs0
        · exact h
    obtain ⟨x, hx, y, hy, z, hz, hxyz⟩ := hc.1
    apply hxyz
    have e1 := hline x hx
    have e2 := hline y hy
    have e3 := hline z hz
    -- e1 ≠ 0 so every difference is a multiple of it
    have hsq : 0 < (q.1 - p.1) ^ 2 + (q.2 - p.2) ^ 2 := by
      rcases (sq_nonneg (q.1 - p.1)).lt_or_eq with h | h
      · have := sq_nonneg (q.2 - p.2)
        linarith
      · rcases (sq_nonneg (q.2 - p.2)).lt_or_eq with h' | h'
        · linarith
        · exact absurd (Prod.ext (pow_eq_zero_iff (two_ne_zero) |>.1 h.symm) (pow_eq_zero_iff (two_ne_zero) |>.1 h'.symm)) n1
    simp only [cross] at e1 e2 e3
    have : ((q.1 - p.1) ^ 2 + (q.2 - p.2) ^ 2) * turn x y z = 0 := by
      have d1 : (q.1 - p.1) * (y.2 - x.2) = (q.2 - p.2) * (y.1 - x.1) := by linear_combination e2 - e1
      have d2 : (q.1 - p.1) * (z.2 - x.2) = (q.2 - p.2) * (z.1 - x.1) := by linear_combination e3 - e1
      simp only [turn]
      linear_combination ((q.1 - p.1) * (y.1 - x.1) + (q.2 - p.2) * (y.2 - x.2)) * d2 - ((q.1 - p.1) * (z.1 - x.1) + (q.2 - p.2) * (z.2 - x.2)) * d1
    rcases mul_eq_zero.1 this with h | h
    · exact absurd h hsq.ne'
    · exact h
  refine ⟨s, (q.1 - p.1, q.2 - p.2), (o.1 - p.1, o.2 - p.2), _, he1, ?_, l1, l2, hs, rfl, hcpos, ?_⟩
  · simpa using he2
  · intro w w1 w2 r hr
    have a1 := hr1 r hr
    have a2 := hr2 r hr
    have hid : s * cross (q.1 - p.1, q.2 - p.2) (o.1 - p.1, o.2 - p.2) * (dot p w - dot r w)
        = -(s * cross (q.1 - p.1, q.2 - p.2) (r.1 - p.1, r.2 - p.2) * dot (o.1 - p.1, o.2 - p.2) w)
          + s * cross (o.1 - p.1, o.2 - p.2) (r.1 - p.1, r.2 - p.2) * dot (q.1 - p.1, q.2 - p.2) w := by
      simp only [dot, cross]
      ring
    have h3 := mul_nonneg_of_nonpos_of_nonpos a2 w1
    have h4 := mul_nonpos_of_nonneg_of_nonpos a1 w2
    have h5 : 0 ≤ s * cross (q.1 - p.1, q.2 - p.2) (o.1 - p.1, o.2 - p.2) * (dot p w - dot r w) := by rw [hid]; linarith
    have := nonneg_of_mul_nonneg_right h5 hcpos
    linarith

/-- From `u`, walk in the direction `n` until an edge of the second polygon becomes perpendicular. -/
theorem walk (u n f1 f2 : V2) (h1 : 0 < dot f1 u) (h2 : 0 < dot f2 u) :
    (0 ≤ dot f1 n ∧ 0 ≤ dot f2 n) ∨ ∃ t : ℝ, 0 ≤ t ∧ 0 ≤ dot f1 (u.1 + t * n.1, u.2 + t * n.2) ∧ 0 ≤ dot f2 (u.1 + t * n.1, u.2 + t * n.2) ∧
      (dot f1 (u.1 + t * n.1, u.2 + t * n.2) = 0 ∨ dot f2 (u.1 + t * n.1, u.2 + t * n.2) = 0) := by
  have hd : ∀ (f : V2) (t : ℝ), dot f (u.1 + t * n.1, u.2 + t * n.2) = dot f u + t * dot f n := fun f t => by simp only [dot]; ring
  simp only [hd]
  generalize dot f1 u = x1 at *
  generalize dot f2 u = x2 at *
  generalize dot f1 n = y1 at *
  generalize dot f2 n = y2 at *
  by_cases k1 : 0 ≤ y1
  · by_cases k2 : 0 ≤ y2
    · exact .inl ⟨k1, k2⟩
    · rw [not_le] at k2
      have ht : 0 ≤ x2 / -y2 := div_nonneg h2.le (by linarith)
      have hz : x2 + x2 / -y2 * y2 = 0 := by
        rw [div_neg, neg_mul, div_mul_cancel₀ _ k2.ne]; ring
      exact .inr ⟨x2 / -y2, ht, by have := mul_nonneg ht k1; linarith, hz.ge, .inr hz⟩
  · rw [not_le] at k1
    have ht1 : 0 ≤ x1 / -y1 := div_nonneg h1.le (by linarith)
    have hz1 : x1 + x1 / -y1 * y1 = 0 := by
      rw [div_neg, neg_mul, div_mul_cancel₀ _ k1.ne]; ring
    by_cases k2 : 0 ≤ y2
    · exact .inr ⟨x1 / -y1, ht1, hz1.ge, by have := mul_nonneg ht1 k2; linarith, .inl hz1⟩
    · rw [not_le] at k2
      have ht2 : 0 ≤ x2 / -y2 := div_nonneg h2.le (by linarith)
      have hz2 : x2 + x2 / -y2 * y2 = 0 := by
        rw [div_neg, neg_mul, div_mul_cancel₀ _ k2.ne]; ring
      rcases le_total (x1 / -y1) (x2 / -y2) with h | h
      · refine .inr ⟨x1 / -y1, ht1, hz1.ge, ?_, .inl hz1⟩
        have := mul_le_mul_of_nonpos_right h k2.le
        linarith
      · refine .inr ⟨x2 / -y2, ht2, ?_, hz2.ge, .inr hz2⟩
        have := mul_le_mul_of_nonpos_right h k1.le
        linarith

/-- A direction perpendicular to an edge is a multiple of the edge's normal. -/
theorem separates_of_perp (va vb : List V2) (e w : V2) (he : e ≠ 0) (h : dot e w = 0) (hs : Separates va vb w) (hw : w ≠ 0) :
    Separates va vb (orthogonal e) := by
  have hsq : w.1 ^ 2 + w.2 ^ 2 ≠ 0 := fun h0 => norm_pos w hw (by rw [h0]; exact Real.sqrt_zero)
  have heq : orthogonal e = (dot (orthogonal e) w / (w.1 ^ 2 + w.2 ^ 2) * w.1, dot (orthogonal e) w / (w.1 ^ 2 + w.2 ^ 2) * w.2) := by
    simp only [dot, orthogonal] at h ⊢
    refine Prod.ext ?_ ?_
    · show e.2 = (e.2 * w.1 + -e.1 * w.2) / (w.1 ^ 2 + w.2 ^ 2) * w.1
      field_simp
      linear_combination w.2 * h
    · show -e.1 = (e.2 * w.1 + -e.1 * w.2) / (w.1 ^ 2 + w.2 ^ 2) * w.2
      field_simp
      linear_combination -(w.1 * h)
  have hk : dot (orthogonal e) w / (w.1 ^ 2 + w.2 ^ 2) ≠ 0 := by
    intro h0
    rw [h0, zero_mul, zero_mul] at heq
    exact orthogonal_ne e he heq
  rw [heq]
  exact separates_smul va vb w _ hk hs

theorem separates_of_supports (va vb : List V2) (p q w : V2) (h1 : ∀ r ∈ va, dot r w ≤ dot p w) (h2 : ∀ r ∈ vb, dot q w ≤ dot r w)
    (h3 : dot p w < dot q w) : Separates va vb w ∧ w ≠ 0 := by
  refine ⟨.inl fun a ha b hb => (h1 a ha).trans_lt (h3.trans_le (h2 b hb)), ?_⟩
  rintro rfl
  simp [dot] at h3

/-- **Separating axis theorem**: some edge normal strictly separates the vertices of two disjoint convex polygons. -/
theorem exists_separating_edge (va vb : List V2) (ha : ConvexPolygon va) (hb : ConvexPolygon vb) (pa : ProperEdges va) (pb : ProperEdges vb)
    (u : V2) (hu : ∀ a ∈ va, ∀ b ∈ vb, dot a u < dot b u) : ∃ e ∈ verticesToEdges va ++ verticesToEdges vb, Separates va vb (orthogonal e) := by
  obtain ⟨_, ua, -, -, -, -, ⟨p, hp, e2⟩, hA⟩ := project_ok va u pa.1
  obtain ⟨lb, _, -, -, -, ⟨q, hq, f1⟩, -, hB⟩ := project_ok vb u pb.1
  have hpm : ∀ r ∈ va, dot r u ≤ dot p u := fun r hr => by rw [e2]; exact (hA r hr).2
  have hqm : ∀ r ∈ vb, dot q u ≤ dot r u := fun r hr => by rw [f1]; exact (hB r hr).1
  have hpq := hu p hp q hq
  have hfin : ∀ e w, e ∈ verticesToEdges va ++ verticesToEdges vb → dot e w = 0 → (∀ r ∈ va, dot r w ≤ dot p w) → (∀ r ∈ vb, dot q w ≤ dot r w) →
      dot p w < dot q w → ∃ e ∈ verticesToEdges va ++ verticesToEdges vb, Separates va vb (orthogonal e) := by
    intro e w he h0 s1 s2 s3
    obtain ⟨k1, k2⟩ := separates_of_supports va vb p q w s1 s2 s3
    refine ⟨e, he, separates_of_perp va vb e w ?_ h0 k1 k2⟩
    rcases List.mem_append.1 he with he | he
    · exact edge_ne va pa e he
    · exact edge_ne vb pb e he
  have hneg : ∀ r w : V2, dot r (-w.1, -w.2) = -dot r w := fun r w => by simp only [dot]; ring
  rcases corner va ha pa u p hp hpm with ⟨e, he, h0⟩ | ⟨s, e1, e2', c, m1, m2, d1, d2, hs, hc, hcp, hsup⟩
  · exact hfin e u (List.mem_append_left _ he) h0 hpm hqm hpq
  rcases corner vb hb pb (-u.1, -u.2) q hq (fun r hr => by rw [hneg, hneg]; exact neg_le_neg (hqm r hr)) with
    ⟨e, he, h0⟩ | ⟨s', f1', f2', c', m1', m2', d1', d2', -, -, -, hsup'⟩
  · rw [hneg, neg_eq_zero] at h0
    exact hfin e u (List.mem_append_right _ he) h0 hpm hqm hpq
  rw [hneg] at d1' d2'
  have hsupB : ∀ w, 0 ≤ dot f1' w → 0 ≤ dot f2' w → ∀ r ∈ vb, dot q w ≤ dot r w := by
    intro w h1 h2 r hr
    have := hsup' (-w.1, -w.2) (by rw [hneg]; linarith) (by rw [hneg]; linarith) r hr
    rw [hneg, hneg] at this
    linarith
  -- a normal `n` of one of the two edges at `p` that increases towards `q`
  have hn : ∀ n : V2, dot e1 n ≤ 0 → dot e2' n ≤ 0 → dot p n < dot q n → (∃ e ∈ verticesToEdges va ++ verticesToEdges vb, dot e n = 0) →
      ∃ e ∈ verticesToEdges va ++ verticesToEdges vb, Separates va vb (orthogonal e) := by
    intro n n1 n2 n3 ⟨e, he, n4⟩
    rcases walk u n f1' f2' (by linarith) (by linarith) with ⟨w1, w2⟩ | ⟨t, ht, w1, w2, w3⟩
    · exact hfin e n he n4 (hsup n n1 n2) (hsupB n w1 w2) n3
    · have hd : ∀ f : V2, dot f (u.1 + t * n.1, u.2 + t * n.2) = dot f u + t * dot f n := fun f => by simp only [dot]; ring
      have k1 : dot e1 (u.1 + t * n.1, u.2 + t * n.2) ≤ 0 := by
        rw [hd]; have := mul_nonpos_of_nonneg_of_nonpos ht n1; linarith
      have k2 : dot e2' (u.1 + t * n.1, u.2 + t * n.2) ≤ 0 := by
        rw [hd]; have := mul_nonpos_of_nonneg_of_nonpos ht n2; linarith
      have k3 : dot p (u.1 + t * n.1, u.2 + t * n.2) < dot q (u.1 + t * n.1, u.2 + t * n.2) := by
        rw [hd, hd]; have := mul_le_mul_of_nonneg_left n3.le ht; linarith
      rcases w3 with w3 | w3
      · exact hfin f1' _ (List.mem_append_right _ m1') w3 (hsup _ k1 k2) (hsupB _ w1 w2) k3
      · refine hfin (-f2'.1, -f2'.2) _ (List.mem_append_right _ m2') ?_ (hsup _ k1 k2) (hsupB _ w1 w2) k3
        have : ∀ w : V2, dot (-f2'.1, -f2'.2) w = -dot f2' w := fun w => by simp only [dot]; ring
        rw [this, w3, neg_zero]
  have hs2 : s * s = 1 := by rcases hs with h | h <;> rw [h] <;> norm_num
  -- the outward normals at `p`
  have hcomb : c * (dot q u - dot p u) = -dot e2' u * (dot q (s * e1.2, -(s * e1.1)) - dot p (s * e1.2, -(s * e1.1)))
      + -dot e1 u * (dot q (-(s * e2'.2), s * e2'.1) - dot p (-(s * e2'.2), s * e2'.1)) := by
    rw [hc]
    simp only [dot, cross]
    ring
  have hpos : 0 < c * (dot q u - dot p u) := mul_pos hcp (by linarith)
  by_cases g1 : 0 < dot q (s * e1.2, -(s * e1.1)) - dot p (s * e1.2, -(s * e1.1))
  · refine hn (s * e1.2, -(s * e1.1)) ?_ ?_ (by linarith) ⟨e1, List.mem_append_left _ m1, ?_⟩
    · simp only [dot]; apply le_of_eq; ring
    · have : dot e2' (s * e1.2, -(s * e1.1)) = -c := by rw [hc]; simp only [dot, cross]; ring
      rw [this]; linarith
    · simp only [dot]; ring
  · have g2 : 0 < dot q (-(s * e2'.2), s * e2'.1) - dot p (-(s * e2'.2), s * e2'.1) := by
      by_contra g2
      have := mul_nonpos_of_nonneg_of_nonpos (by linarith : 0 ≤ -dot e2' u) (not_lt.1 g1)
      have := mul_nonpos_of_nonneg_of_nonpos (by linarith : 0 ≤ -dot e1 u) (not_lt.1 g2)
      linarith
    refine hn (-(s * e2'.2), s * e2'.1) ?_ ?_ (by linarith) ⟨(-e2'.1, -e2'.2), List.mem_append_left _ m2, ?_⟩
    · have : dot e1 (-(s * e2'.2), s * e2'.1) = -c := by rw [hc]; simp only [dot, cross]; ring
      rw [this]; linarith
    · simp only [dot]; apply le_of_eq; ring
    · simp only [dot]; ring

/-- Polygons without a common point are strictly separated by some direction. -/
theorem exists_direction (va vb : List V2) (h : polygonHull va ∩ polygonHull vb = ∅) : ∃ u : V2, ∀ a ∈ va, ∀ b ∈ vb, dot a u < dot b u := by
  have hfin : ∀ vs : List V2, {p : V2 | p ∈ vs}.Finite := fun vs => List.finite_toSet vs
  have hdisj : Disjoint (polygonHull va) (polygonHull vb) := Set.disjoint_iff_inter_eq_empty.2 h
  obtain ⟨f, c, d, h1, h2, h3⟩ := geometric_hahn_banach_compact_closed (convex_convexHull ℝ {p | p ∈ va}) ((hfin va).isCompact_convexHull ℝ)
    (convex_convexHull ℝ {p | p ∈ vb}) ((hfin vb).isCompact_convexHull ℝ).isClosed hdisj
  have hf : ∀ p : V2, f p = dot p (f (1, 0), f (0, 1)) := by
    intro p
    have : p = p.1 • ((1, 0) : V2) + p.2 • ((0, 1) : V2) := by ext <;> simp
    conv_lhs => rw [this]
    rw [map_add, map_smul, map_smul]
    rfl
  refine ⟨(f (1, 0), f (0, 1)), fun a ha b hb => ?_⟩
  rw [← hf, ← hf]
  exact (h1 a (subset_convexHull ℝ _ ha)).trans (h2.trans (h3 b (subset_convexHull ℝ _ hb)))

/-! ### Batched test -/

theorem rotate_edges (vs : List V2) : List.zipWith (fun q p : V2 => ((q.1 - p.1, q.2 - p.2) : V2)) (vs.rotate 1) vs = verticesToEdges vs := by
  apply List.ext_getElem
  · simp [verticesToEdges]
  · intro i h1 h2
    have hi : i < vs.length := by simpa [verticesToEdges] using h2
    have hj : (i + 1) % vs.length < vs.length := Nat.mod_lt _ (by omega)
    simp only [verticesToEdges, edgeDirection, List.getElem_zipWith, List.getElem_map, List.getElem_range, List.getElem_rotate,
      List.getD_eq_getElem?_getD, List.getElem?_eq_getElem hi, List.getElem?_eq_getElem hj, Option.getD_some]

/-- The result of the overlap test on one axis, for one row. -/
noncomputable def axisTest (va vb : List V2) (w : Option V2) : Bool :=
  match w with
  | none => false
  | some w => @decide (¬ Separates va vb w) (Classical.propDecidable _)

/-- The axis for edge `i` of a polygon. -/
noncomputable def axisAt (vs : List V2) (i : ℕ) : Option V2 := ((verticesToEdges vs)[i]?).bind fun e => vecNormalize (orthogonal e)

theorem vecNormalize_ok (e : V2) (h : e ≠ 0) : vecNormalize (orthogonal e) = some (unitNormal e) := by
  unfold vecNormalize unitNormal
  rw [if_neg (norm_pos _ (orthogonal_ne e h)), div_eq_inv_mul, div_eq_inv_mul]

/-- The projections that `vec_project` returns for a row. -/
noncomputable def projOf (vs : List V2) (w : Option V2) : Option (ℝ × ℝ) :=
  w.bind fun w => (project vs w).toOption

theorem vecProject_ok (vs : List V2) (axes : List (Option V2)) (h : vs ≠ []) : vecProject vs axes = .ok (axes.map (projOf vs)) := by
  unfold vecProject
  apply mapM_ok
  rintro (_ | w) -
  · simp only [if_neg h]
    rfl
  · obtain ⟨lo, hi, h1, h2, h3, -⟩ := project_ok vs w h
    have : projOf vs (some w) = some (lo, hi) := by
      simp only [projOf, Option.bind_some, h1]
      rfl
    rw [this]
    unfold dot at h2 h3
    simp only [h2, h3]
    rfl

theorem vecOverlap_axisTest (va vb : List V2) (w : Option V2) (ha : va ≠ []) (hb : vb ≠ []) :
    vecOverlap (projOf va w) (projOf vb w) = axisTest va vb w := by
  cases w with
  | none => rfl
  | some w =>
    obtain ⟨pa, pb, h1, h2, h3, h4⟩ := overlap_iff va vb w ha hb
    have ea : projOf va (some w) = some pa := by simp only [projOf, Option.bind_some, h1]; rfl
    have eb : projOf vb (some w) = some pb := by simp only [projOf, Option.bind_some, h2]; rfl
    rw [ea, eb, h4]
    unfold axisTest
    cases ho : overlap pa pb with
    | false => symm; simp only [decide_eq_false_iff_not, not_not]; exact h3.1 ho
    | true =>
      symm
      simp only [decide_eq_true_eq]
      intro hs
      rw [h3.2 hs] at ho
      cases ho

theorem column_ok (batch : List (List (Option V2))) (i : ℕ) (h : ∀ row ∈ batch, i < row.length) :
    column batch i = .ok (batch.map fun row => (row[i]?).join) := by
  apply mapM_ok
  intro row hrow
  rw [List.getElem?_eq_getElem (h row hrow)]
  rfl

theorem zip_map_zipWith {α β γ δ : Type} (f : α → γ → δ) (h : α → β → γ) (as : List α) (bs : List β) :
    (as.zip (List.zipWith h as bs)).map (fun r => f r.1 r.2) = List.zipWith (fun a b => f a (h a b)) as bs := by
  induction as generalizing bs with
  | nil => simp
  | cons a as ih =>
    cases bs with
    | nil => simp
    | cons b bs => simp [ih]

theorem zip_map_zipWith' {α β γ δ : Type} (f : β → γ → δ) (h : α → β → γ) (as : List α) (bs : List β) :
    (bs.zip (List.zipWith h as bs)).map (fun r => f r.1 r.2) = List.zipWith (fun a b => f b (h a b)) as bs := by
  induction as generalizing bs with
  | nil => simp
  | cons a as ih =>
    cases bs with
    | nil => simp
    | cons b bs => simp [ih]

theorem zipWith_zipWith {α β γ δ ε : Type} (F : γ → δ → ε) (f : α → β → γ) (g : α → β → δ) (as : List α) (bs : List β) :
    List.zipWith F (List.zipWith f as bs) (List.zipWith g as bs) = List.zipWith (fun a b => F (f a b) (g a b)) as bs := by
  induction as generalizing bs with
  | nil => simp
  | cons a as ih =>
    cases bs with
    | nil => simp
    | cons b bs => simp [ih]

theorem vecAxes_eq (pa : List (List V2)) : vecAxes (vecVerticesToEdges pa) = pa.map fun vs => (verticesToEdges vs).map fun e => vecNormalize (orthogonal e) := by
  unfold vecAxes vecVerticesToEdges
  rw [List.map_map]
  apply List.map_congr_left
  intro vs _
  simp only [Function.comp, rotate_edges]
  rfl

theorem edges_length (vs : List V2) : (verticesToEdges vs).length = vs.length := by simp [verticesToEdges]

theorem vecPass_ok (n : ℕ) (pa pb : List (List V2)) (ha : ∀ vs ∈ pa, vs.length = n) (hb : ∀ vs ∈ pb, vs.length = n)
    (R : List V2 → List V2 → Bool) (i : ℕ) (hi : i < n) :
    vecPass pa pb (vecAxes (vecVerticesToEdges pa)) (vecAxes (vecVerticesToEdges pb)) (List.zipWith R pa pb) i =
      .ok (List.zipWith (fun va vb => R va vb && (axisTest va vb (axisAt va i) && axisTest va vb (axisAt vb i))) pa pb) := by
  have hne : ∀ vs : List V2, vs.length = n → vs ≠ [] := fun vs h h0 => by rw [h0] at h; simp at h; omega
  have hcol : ∀ batch : List (List V2), (∀ vs ∈ batch, vs.length = n) → column (vecAxes (vecVerticesToEdges batch)) i = .ok (batch.map fun vs => axisAt vs i) := by
    intro batch hbatch
    rw [vecAxes_eq, column_ok]
    · rw [List.map_map]
      congr 1
      apply List.map_congr_left
      intro vs hvs
      have : i < (verticesToEdges vs).length := by rw [edges_length, hbatch vs hvs]; exact hi
      simp only [Function.comp, List.getElem?_map, axisAt, List.getElem?_eq_getElem this, Option.map_some, Option.join_some, Option.bind_some]
    · intro row hrow
      obtain ⟨vs, hvs, rfl⟩ := List.mem_map.1 hrow
      rw [List.length_map, edges_length, hbatch vs hvs]
      exact hi
  unfold vecPass
  simp only [hcol pa ha, hcol pb hb, ok_bind]
  have haxis : List.zipWith (fun a b => [a, b]) (pa.map fun vs => axisAt vs i) (pb.map fun vs => axisAt vs i)
      = List.zipWith (fun va vb => [axisAt va i, axisAt vb i]) pa pb := by
    rw [List.zipWith_map]
  rw [haxis]
  rw [mapM_ok (fun r : List V2 × List (Option V2) => vecProject r.1 r.2) (fun r => r.2.map (projOf r.1)) _
    fun r hr => vecProject_ok r.1 r.2 (hne _ (ha _ (List.of_mem_zip hr).1))]
  rw [mapM_ok (fun r : List V2 × List (Option V2) => vecProject r.1 r.2) (fun r => r.2.map (projOf r.1)) _
    fun r hr => vecProject_ok r.1 r.2 (hne _ (hb _ (List.of_mem_zip hr).1))]
  simp only [ok_bind]
  show Except.ok _ = _
  have z1 := zip_map_zipWith (fun (vs : List V2) (axes : List (Option V2)) => axes.map (projOf vs))
    (fun va vb : List V2 => [axisAt va i, axisAt vb i]) pa pb
  have z2 := zip_map_zipWith' (fun (vs : List V2) (axes : List (Option V2)) => axes.map (projOf vs))
    (fun va vb : List V2 => [axisAt va i, axisAt vb i]) pa pb
  rw [z1, z2, zipWith_zipWith, zipWith_zipWith]
  congr 1
  have key : ∀ (as bs : List (List V2)), (∀ vs ∈ as, vs.length = n) → (∀ vs ∈ bs, vs.length = n) →
      List.zipWith (fun a b => R a b && (List.zipWith vecOverlap ([axisAt a i, axisAt b i].map (projOf a)) ([axisAt a i, axisAt b i].map (projOf b))).all id) as bs
      = List.zipWith (fun va vb => R va vb && (axisTest va vb (axisAt va i) && axisTest va vb (axisAt vb i))) as bs := by
    intro as bs h1 h2
    induction as generalizing bs with
    | nil => simp
    | cons a as ih =>
      cases bs with
      | nil => simp
      | cons b bs =>
        rw [List.zipWith_cons_cons, List.zipWith_cons_cons, ih bs (fun vs hvs => h1 vs (by simp [hvs])) (fun vs hvs => h2 vs (by simp [hvs]))]
        congr 1
        have na := hne a (h1 a (by simp))
        have nb := hne b (h2 b (by simp))
        simp only [List.map_cons, List.map_nil, List.zipWith_cons_cons, List.zipWith_nil_left, List.all_cons, List.all_nil, id, Bool.and_true,
          vecOverlap_axisTest a b _ na nb]
  exact key pa pb ha hb

/-- The answer of the batched test for one row. -/
noncomputable def rowTest (n : ℕ) (va vb : List V2) : Bool :=
  (List.range n).all fun i => axisTest va vb (axisAt va i) && axisTest va vb (axisAt vb i)

theorem vecSat_ok (n : ℕ) (pa pb : List (List V2)) (hlen : pa.length = pb.length) (ha : ∀ vs ∈ pa, vs.length = n) (hb : ∀ vs ∈ pb, vs.length = n) :
    vecSat n pa pb = .ok (List.zipWith (rowTest n) pa pb) := by
  have hfold : ∀ m, m ≤ n → (List.range m).foldlM (vecPass pa pb (vecAxes (vecVerticesToEdges pa)) (vecAxes (vecVerticesToEdges pb)))
      (List.replicate pa.length true) = .ok (List.zipWith (rowTest m) pa pb) := by
    intro m
    induction m with
    | zero =>
      intro _
      have : ∀ (as bs : List (List V2)), as.length = bs.length → List.replicate as.length true = List.zipWith (rowTest 0) as bs := by
        intro as bs h
        induction as generalizing bs with
        | nil => simp
        | cons a as ih =>
          cases bs with
          | nil => simp at h
          | cons b bs => simpa [List.replicate_succ, rowTest] using ih bs (by simpa using h)
      rw [← this pa pb hlen]
      rfl
    | succ m ih =>
      intro hm
      rw [List.range_succ, List.foldlM_append, ih (by omega)]
      show (vecPass _ _ _ _ _ m >>= fun r => List.foldlM _ r []) = _
      rw [vecPass_ok n pa pb ha hb _ m (by omega)]
      show Except.ok _ = _
      congr 2
      funext va vb
      simp [rowTest, List.range_succ, List.all_append]
  unfold vecSat
  simp only [hlen, ne_eq, not_true_eq_false, if_false]
  rw [hlen] at hfold
  exact hfold n (le_refl n)

end Verif.Sat2D
