import Mathlib.Analysis.Convex.Topology
import Mathlib.Analysis.Normed.Module.Convex
import Mathlib.Data.List.Perm.Basic
import Mathlib.Data.List.Flatten
import Mathlib.Tactic.Linarith
import Mathlib.Tactic.NormNum
import Verif.Spec.Holes

/-! Hole points of the polygon sampler: C97. -/

namespace Verif.Props

open Verif.Spec Verif.Holes

variable {S P : Type*}

theorem range_getElem? (l : List S) : ∀ n, l.length ≤ n → (List.range n).flatMap (fun i => l[i]?.toList) = l := by
  induction l with
  | nil => intro n _; simp
  | cons a l ih =>
    intro n hn
    obtain ⟨m, rfl⟩ : ∃ m, n = m + 1 := ⟨n - 1, by simp at hn; omega⟩
    rw [List.range_succ_eq_map]
    simp only [List.flatMap_cons, List.flatMap_map, List.getElem?_cons_zero, Option.toList_some, List.getElem?_cons_succ]
    rw [ih m (by simpa using hn)]
    rfl

theorem rings_perm (n : ℕ) (polys : List (Poly S)) (h : ∀ p ∈ polys, p.holes.length ≤ n) :
    ((List.range n).flatMap fun i => polys.filterMap fun p => p.holes[i]?).Perm (polys.flatMap (·.holes)) := by
  induction polys with
  | nil => simp
  | cons p ps ih =>
    have e : (fun i : ℕ => (p :: ps).filterMap fun p => p.holes[i]?) = fun i => p.holes[i]?.toList ++ ps.filterMap fun p => p.holes[i]? := by
      funext i
      rw [List.filterMap_cons]
      cases p.holes[i]? <;> rfl
    rw [e, List.flatMap_cons]
    refine (List.flatMap_append_perm _ _ _).symm.trans ?_
    rw [range_getElem? _ n (h p (by simp))]
    exact (ih fun q hq => h q (by simp [hq])).append_left _

theorem le_foldl_max (l : List ℕ) : ∀ a, a ≤ l.foldl max a ∧ ∀ x ∈ l, x ≤ l.foldl max a := by
  induction l with
  | nil => intro a; simp
  | cons b l ih =>
    intro a
    obtain ⟨h1, h2⟩ := ih (max a b)
    refine ⟨(le_max_left a b).trans h1, ?_⟩
    intro x hx
    rcases List.mem_cons.1 hx with rfl | hx
    · exact (le_max_right a x).trans h1
    · exact h2 x hx

theorem interiorRings_perm (polys : List (Poly S)) : (interiorRings polys).Perm (polys.flatMap (·.holes)) := by
  apply rings_perm
  intro p hp
  exact (le_foldl_max _ 0).2 _ (List.mem_map.2 ⟨p, hp, rfl⟩)

/-- C97, rings: every ring of the argument is passed on exactly once. -/
theorem C97_rings (G : Shapely S P) (far : P) (a : Arg S) {rings : List S} {pts : List P} (h : holesEntry G far a = .ok (rings, pts)) :
    rings.Perm ((parts a).flatMap fun p => p.ext :: p.holes) := by
  cases a with
  | multi polys =>
    simp only [holesEntry, Except.ok.injEq, Prod.mk.injEq] at h
    rw [← h.1]
    refine ((interiorRings_perm polys).append_left _).trans ?_
    have := List.flatMap_append_perm polys (fun p => [p.ext]) (fun p => p.holes)
    simpa [parts, List.flatMap_singleton', List.map_eq_flatMap] using this
  | single poly =>
    simp only [holesEntry, Except.ok.injEq, Prod.mk.injEq] at h
    rw [← h.1]
    simp [parts]
  | other => simp [holesEntry] at h

/-- C97, type: anything but a polygon or multi-polygon is refused. -/
theorem C97_type (G : Shapely S P) (far : P) (a : Arg S) : (holesEntry G far a = .error .notImplemented ↔ a = .other) ∧ (a ≠ .other → ∃ r, holesEntry G far a = .ok r) := by
  cases a <;> simp [holesEntry]

variable [TopologicalSpace P]

theorem cut_sub {G : Shapely S P} {region : S → Set P} (hG : Shapes G region) (l : List S) (h : S) (hc : IsClosed (region h)) :
    region (l.foldl G.difference h) ⊆ region h ∧
      (∀ e ∈ l, Disjoint (interior (region (l.foldl G.difference h))) (interior (region e))) ∧
      ∀ x ∈ region h, (∀ e ∈ l, x ∉ region e) → x ∈ region (l.foldl G.difference h) := by
  induction l generalizing h with
  | nil => exact ⟨subset_rfl, by simp, by simp⟩
  | cons e l ih =>
    have hcl : IsClosed (region (G.difference h e)) := by rw [hG.difference]; exact isClosed_closure
    obtain ⟨i2, i3, i4⟩ := ih (G.difference h e) hcl
    have hsub : region (G.difference h e) ⊆ region h := by
      rw [hG.difference]
      exact closure_minimal Set.sdiff_subset hc
    refine ⟨i2.trans hsub, ?_, ?_⟩
    · intro e' he'
      rcases List.mem_cons.1 he' with rfl | he'
      · rw [Set.disjoint_left]
        intro x hx hx'
        have h1 : x ∈ closure (region h \ region e') := by
          rw [← hG.difference]
          exact i2 (interior_subset hx)
        rw [mem_closure_iff] at h1
        obtain ⟨y, hy1, hy2⟩ := h1 _ isOpen_interior hx'
        exact hy2.2 (interior_subset hy1)
      · exact i3 e' he'
    · intro x hx hxe
      refine i4 x ?_ fun e' he' => hxe e' (List.mem_cons_of_mem _ he')
      rw [hG.difference]
      exact subset_closure ⟨hx, hxe e List.mem_cons_self⟩

theorem not_mem_of_disjoint {A B : Set P} (hB : closure (interior B) = B) (h : Disjoint (interior A) (interior B)) {x : P} (hx : x ∈ interior A) : x ∉ B := by
  intro hxB
  rw [← hB, mem_closure_iff] at hxB
  obtain ⟨y, h1, h2⟩ := hxB _ isOpen_interior hx
  exact Set.disjoint_left.1 h h1 h2

omit [TopologicalSpace P] in
theorem pairwise_ne {α : Type*} {R : α → α → Prop} (hs : ∀ a b, R a b → R b a) {l : List α} (hl : l.Pairwise R) {a b : α} (ha : a ∈ l) (hb : b ∈ l) (hne : a ≠ b) : R a b := by
  have : Std.Symm R := ⟨hs⟩
  exact hl.forall ha hb hne

theorem cut_outside {G : Shapely S P} {region : S → Set P} (hG : Shapes G region) {polys : List (Poly S)} (hv : ValidMulti region polys) {p : Poly S} (hp : p ∈ polys) {h : S} (hh : h ∈ p.holes)
    {x : P} (hpt : x ∈ interior (region (cutOut G (polys.map (·.ext)) h))) : x ∈ interior (region h) ∧ x ∈ Outside region polys := by
  obtain ⟨hreg, hin⟩ := (hv.each p hp).holes h hh
  have hcl : IsClosed (region h) := by rw [← hreg]; exact isClosed_closure
  obtain ⟨c2, c3, -⟩ := cut_sub hG ((polys.map (·.ext)).filter (G.covers h)) h hcl
  have hx : x ∈ interior (region h) := interior_mono c2 hpt
  refine ⟨hx, ?_⟩
  have hxp : x ∈ interior (region p.ext) := interior_mono hin hx
  rintro q hq ⟨hxq, hxh⟩
  by_cases hpq : q = p
  · subst hpq
    exact hxh h hh hx
  have hap : Apart region q p := by
    refine pairwise_ne ?_ hv.apart hq hp hpq
    rintro a b (h | h | h)
    · exact .inl h.symm
    · exact .inr (.inr h)
    · exact .inr (.inl h)
  rcases hap with hd | ⟨h', hh', hsub⟩ | ⟨h', hh', hsub⟩
  · exact not_mem_of_disjoint (hv.each q hq).ext hd.symm hxp hxq
  · by_cases heq : h' = h
    · subst heq
      have hcov : q.ext ∈ (polys.map (·.ext)).filter (G.covers h') :=
        List.mem_filter.2 ⟨List.mem_map.2 ⟨q, hq, rfl⟩, (hG.covers _ _).2 hsub⟩
      exact not_mem_of_disjoint (hv.each q hq).ext (c3 _ hcov) hpt hxq
    · have hd : Disjoint (interior (region h)) (interior (region h')) :=
        pairwise_ne (fun _ _ h => h.symm) (hv.each p hp).apart hh hh' (Ne.symm heq)
      exact not_mem_of_disjoint ((hv.each p hp).holes h' hh').1 hd hx (hsub hxq)
  · exact hxh h' hh' (interior_mono hsub hxp)

/-- C97, the points: every point that marks a hole lies in none of the polygons, not even in those that lie inside the hole; apart from the far point it lies strictly inside a hole. -/
theorem C97_points {G : Shapely S P} {region : S → Set P} (hG : Shapes G region) {a : Arg S} (hv : ValidMulti region (parts a)) {far : P} (hfar : far ∈ Outside region (parts a)) {rings : List S}
    {pts : List P} (h : holesEntry G far a = .ok (rings, pts)) :
    ∀ x ∈ pts, x ∈ Outside region (parts a) ∧ (x = far ∨ ∃ p ∈ parts a, ∃ h ∈ p.holes, x ∈ interior (region h)) := by
  intro x hx
  cases a with
  | multi polys =>
    simp only [holesEntry, Except.ok.injEq, Prod.mk.injEq] at h
    rw [← h.2] at hx
    rcases List.mem_cons.1 hx with rfl | hx
    · exact ⟨hfar, .inl rfl⟩
    obtain ⟨s, hs, hsx⟩ := List.mem_filterMap.1 hx
    obtain ⟨p, hp, hsp⟩ := List.mem_flatMap.1 ((interiorRings_perm polys).mem_iff.1 hs)
    obtain ⟨h1, h2⟩ := cut_outside hG hv hp hsp (hG.point _ _ hsx)
    exact ⟨h2, .inr ⟨p, hp, s, hsp, h1⟩⟩
  | single poly =>
    simp only [holesEntry, Except.ok.injEq, Prod.mk.injEq] at h
    rw [← h.2] at hx
    rcases List.mem_cons.1 hx with rfl | hx
    · exact ⟨hfar, .inl rfl⟩
    obtain ⟨s, hs, hsx⟩ := List.mem_filterMap.1 hx
    have hin := hG.point _ _ hsx
    refine ⟨?_, .inr ⟨poly, by simp [parts], s, hs, hin⟩⟩
    intro q hq
    simp only [parts, List.mem_singleton] at hq
    subst hq
    exact fun hq => hq.2 s hs hin
  | other => simp [holesEntry] at h

/-- C97, removed: a polygon's hole is removed by the triangulation, if what is left of it without the polygons inside it is connected. Missing: holes that other polygons cut into several pieces, see
`C97_pieces_false`. -/
theorem C97_removed_partial {G : Shapely S P} {region : S → Set P} (hG : Shapes G region) {a : Arg S} (hv : ValidMulti region (parts a)) {far : P} {rings : List S}
    {pts : List P} (h : holesEntry G far a = .ok (rings, pts)) {p : Poly S} (hp : p ∈ parts a) {s : S} (hs : s ∈ p.holes)
    (hconn : IsPathConnected {x | x ∈ interior (region s) ∧ ∀ q ∈ parts a, region q.ext ⊆ region s → x ∉ region q.ext})
    {y : P} (hy : y ∈ interior (region s)) (hyq : ∀ q ∈ parts a, region q.ext ⊆ region s → y ∉ region q.ext) : y ∈ Removed region (parts a) pts := by
  have hcl : IsClosed (region s) := by rw [← ((hv.each p hp).holes s hs).1]; exact isClosed_closure
  cases a with
  | multi polys =>
    simp only [holesEntry, Except.ok.injEq, Prod.mk.injEq] at h
    obtain ⟨c2, c3, c4⟩ := cut_sub hG ((polys.map (·.ext)).filter (G.covers s)) s hcl
    have hT : {x | x ∈ interior (region s) ∧ ∀ q ∈ polys, region q.ext ⊆ region s → x ∉ region q.ext} = interior (region (cutOut G (polys.map (·.ext)) s)) := by
      apply subset_antisymm
      · apply interior_maximal
        · rintro x ⟨hx, hxq⟩
          apply c4 x (interior_subset hx)
          intro e he
          obtain ⟨he1, he2⟩ := List.mem_filter.1 he
          obtain ⟨q, hq, rfl⟩ := List.mem_map.1 he1
          exact hxq q hq ((hG.covers _ _).1 he2)
        · have e : {x | x ∈ interior (region s) ∧ ∀ q ∈ polys, region q.ext ⊆ region s → x ∉ region q.ext} =
              interior (region s) ∩ ⋂ q ∈ {q | q ∈ polys ∧ region q.ext ⊆ region s}, (region q.ext)ᶜ := by
            ext x
            simp
          rw [e]
          refine isOpen_interior.inter (Set.Finite.isOpen_biInter ((List.finite_toSet polys).subset fun q hq => hq.1) ?_)
          intro q hq
          rw [← (hv.each q hq.1).ext]
          exact isClosed_closure.isOpen_compl
      · intro x hx
        refine ⟨interior_mono c2 hx, fun q hq hsub => ?_⟩
        have hcov : q.ext ∈ (polys.map (·.ext)).filter (G.covers s) :=
          List.mem_filter.2 ⟨List.mem_map.2 ⟨q, hq, rfl⟩, (hG.covers _ _).2 hsub⟩
        exact not_mem_of_disjoint (hv.each q hq).ext (c3 _ hcov) hx
    have hmem : s ∈ interiorRings polys := (interiorRings_perm polys).mem_iff.2 (List.mem_flatMap.2 ⟨p, hp, hs⟩)
    simp only [parts] at hconn hyq
    have hyT : y ∈ interior (region (cutOut G (polys.map (·.ext)) s)) := by
      rw [← hT]
      exact ⟨hy, hyq⟩
    rw [hT] at hconn
    cases hpt : G.pointOnSurface (cutOut G (polys.map (·.ext)) s) with
    | none =>
      rw [hG.point_none _ hpt] at hyT
      exact hyT.elim
    | some x =>
      refine ⟨x, ?_, (hconn.joinedIn x (hG.point _ _ hpt) y hyT).mono fun z hz => (cut_outside hG hv hp hs hz).2⟩
      rw [← h.2]
      exact List.mem_cons_of_mem _ (List.mem_filterMap.2 ⟨s, hmem, hpt⟩)
  | single poly =>
    simp only [holesEntry, Except.ok.injEq, Prod.mk.injEq] at h
    simp only [parts, List.mem_singleton] at hp hconn hyq
    subst hp
    have hns : ¬ region p.ext ⊆ region s := fun hsub => hyq p rfl hsub (((hv.each p (by simp [parts])).holes s hs).2 (interior_subset hy))
    have hT : {x | x ∈ interior (region s) ∧ ∀ q, q = p → region q.ext ⊆ region s → x ∉ region q.ext} = interior (region s) := by
      ext x
      exact ⟨fun hx => hx.1, fun hx => ⟨hx, fun q hq hsub => absurd (hq ▸ hsub) hns⟩⟩
    rw [hT] at hconn
    cases hpt : G.pointOnSurface s with
    | none =>
      rw [hG.point_none _ hpt] at hy
      exact hy.elim
    | some x =>
      refine ⟨x, ?_, (hconn.joinedIn x (hG.point _ _ hpt) y hy).mono fun z hz => ?_⟩
      · rw [← h.2]
        exact List.mem_cons_of_mem _ (List.mem_filterMap.2 ⟨s, hs, hpt⟩)
      · intro q hq hzq
        simp only [parts, List.mem_singleton] at hq
        subst hq
        exact hzq.2 s hs hz
  | other => simp [holesEntry] at h


/-- The square with side `2 r` around the origin. -/
def sideBox (r : ℝ) : Set (ℝ × ℝ) := {z | |z.1| ≤ r ∧ |z.2| ≤ r}

/-- The square with side √2 around the origin, standing on a corner. -/
def tilted : Set (ℝ × ℝ) := {z | |z.1| + |z.2| ≤ 1}

theorem sideBox_regular (r : ℝ) (hr : 0 < r) : closure (interior (sideBox r)) = sideBox r ∧ interior (sideBox r) = {z | |z.1| < r ∧ |z.2| < r} := by
  have e : sideBox r = Set.Icc (-r) r ×ˢ Set.Icc (-r) r := by
    ext z
    simp only [sideBox, Set.mem_ofPred_eq, abs_le, Set.mem_prod, Set.mem_Icc]
  constructor
  · rw [e, interior_prod_eq, interior_Icc, closure_prod_eq, closure_Ioo (by linarith)]
  · rw [e, interior_prod_eq, interior_Icc]
    ext z
    simp [abs_lt]

theorem tilted_regular : closure (interior tilted) = tilted := by
  have hc : IsClosed tilted := isClosed_le (by fun_prop) continuous_const
  have hconv : Convex ℝ tilted := by
    rintro a ha b hb s t hs ht hst
    simp only [tilted, Set.mem_ofPred_eq, Prod.fst_add, Prod.smul_fst, Prod.snd_add, Prod.smul_snd, smul_eq_mul] at *
    have h1 := abs_add_le (s * a.1) (t * b.1)
    have h2 := abs_add_le (s * a.2) (t * b.2)
    rw [abs_mul, abs_mul, abs_of_nonneg hs, abs_of_nonneg ht] at h1 h2
    nlinarith
  have hi : (interior tilted).Nonempty := by
    refine ⟨0, interior_maximal (s := tilted) (t := {z | |z.1| + |z.2| < 1}) (fun z (hz : |z.1| + |z.2| < 1) => show |z.1| + |z.2| ≤ 1 from hz.le) ?_ (by simp)⟩
    exact isOpen_lt (by fun_prop) continuous_const
  rw [hconv.closure_interior_eq_closure_of_nonempty_interior hi, hc.closure_eq]

/-- A square with a square hole, and a square on a corner inside this hole that reaches its sides. -/
noncomputable def cutHole : List (Poly (Set (ℝ × ℝ))) := [⟨sideBox 2, [sideBox 1]⟩, ⟨tilted, []⟩]

theorem tilted_sub : tilted ⊆ sideBox 1 := by
  intro z hz
  simp only [tilted, Set.mem_ofPred_eq] at hz
  exact ⟨by linarith [abs_nonneg z.2], by linarith [abs_nonneg z.1]⟩

theorem cutHole_valid : ValidMulti id cutHole := by
  refine ⟨?_, ?_⟩
  · intro p hp
    simp only [cutHole, List.mem_cons, List.not_mem_nil, or_false] at hp
    rcases hp with rfl | rfl
    · refine ⟨(sideBox_regular 2 (by norm_num)).1, ?_, by simp⟩
      intro h hh
      simp only [List.mem_singleton] at hh
      subst hh
      refine ⟨(sideBox_regular 1 (by norm_num)).1, ?_⟩
      rintro z ⟨h1, h2⟩
      exact ⟨by linarith, by linarith⟩
    · exact ⟨tilted_regular, by simp, by simp⟩
  · simp only [cutHole, List.pairwise_cons, List.mem_singleton, forall_eq, List.not_mem_nil, false_implies, implies_true, List.Pairwise.nil, and_true]
    exact .inr (.inr ⟨sideBox 1, by simp, tilted_sub⟩)

theorem cutHole_outside {z : ℝ × ℝ} (hz : z ∈ Outside id cutHole) {σ : ℝ} (hσ : σ = 1 ∨ σ = -1) :
    (0 < σ * z.1 ∧ σ * z.1 < 1 ∧ 0 < σ * z.2 ∧ σ * z.2 < 1) ∨ (σ * z.1 < 0 ∨ σ * z.2 < 0 ∨ 1 < σ * z.1 ∨ 1 < σ * z.2) := by
  have h1 := hz ⟨sideBox 2, [sideBox 1]⟩ (by simp [cutHole])
  have h2 := hz ⟨tilted, []⟩ (by simp [cutHole])
  have a1 : |σ * z.1| = |z.1| := by rcases hσ with rfl | rfl <;> simp
  have a2 : |σ * z.2| = |z.2| := by rcases hσ with rfl | rfl <;> simp
  simp only [area, id_eq, List.not_mem_nil, false_implies, implies_true, and_true, tilted, Set.mem_ofPred_eq, not_le, List.mem_singleton, forall_eq, (sideBox_regular 1 (by norm_num)).2, not_and_or,
    ← a1, ← a2] at h1 h2
  simp only [sideBox, Set.mem_ofPred_eq, not_and_or, not_le, not_lt, ← a1, ← a2] at h1
  by_contra hcon
  simp only [not_or, not_lt] at hcon
  obtain ⟨k1, k2, k3, k4, k5⟩ := hcon
  rw [abs_of_nonneg k2, abs_of_nonneg k3] at h1 h2
  have k6 : σ * z.1 < 1 ∧ σ * z.2 < 1 := by
    by_contra hc
    rcases h1 with (h | h) | h
    · linarith
    · linarith
    · exact h (not_and_or.1 hc |>.imp not_lt.1 not_lt.1)
  exact k1 ⟨by linarith, k6.1, by linarith, k6.2⟩

theorem cutHole_apart {σ : ℝ} (hσ : σ = 1 ∨ σ = -1) {x y : ℝ × ℝ} (hy : 0 < σ * y.1 ∧ σ * y.1 < 1 ∧ 0 < σ * y.2 ∧ σ * y.2 < 1)
    (hx : ¬ (0 < σ * x.1 ∧ σ * x.1 < 1 ∧ 0 < σ * x.2 ∧ σ * x.2 < 1)) : ¬ JoinedIn (Outside id cutHole) x y := by
  rintro ⟨γ, hγ⟩
  let U : Set (ℝ × ℝ) := {z | 0 < σ * z.1 ∧ σ * z.1 < 1 ∧ 0 < σ * z.2 ∧ σ * z.2 < 1}
  let V : Set (ℝ × ℝ) := {z | σ * z.1 < 0 ∨ σ * z.2 < 0 ∨ 1 < σ * z.1 ∨ 1 < σ * z.2}
  have c1 : Continuous fun z : ℝ × ℝ => σ * z.1 := by fun_prop
  have c2 : Continuous fun z : ℝ × ℝ => σ * z.2 := by fun_prop
  have hU : IsOpen U := (isOpen_lt continuous_const c1).inter ((isOpen_lt c1 continuous_const).inter ((isOpen_lt continuous_const c2).inter (isOpen_lt c2 continuous_const)))
  have hV : IsOpen V := (isOpen_lt c1 continuous_const).union ((isOpen_lt c2 continuous_const).union ((isOpen_lt continuous_const c1).union (isOpen_lt continuous_const c2)))
  have hpre : IsPreconnected (Set.range γ) := isPreconnected_range γ.continuous
  have hsub : Set.range γ ⊆ U ∪ V := by
    rintro _ ⟨t, rfl⟩
    exact cutHole_outside (hγ t) hσ
  obtain ⟨z, -, ⟨z1, z2, z3, z4⟩, hzV⟩ := hpre U V hU hV hsub ⟨y, ⟨1, γ.target⟩, hy⟩ ⟨x, ⟨0, γ.source⟩, (hsub ⟨0, γ.source⟩).resolve_left hx⟩
  rcases hzV with h | h | h | h <;> linarith

/-- C97, pieces: false that all of a hole is removed. In the hole of a valid multi-polygon that another polygon cuts into pieces there are points that are not removed, whatever representative points are
chosen, so they are sampled although they are in none of the polygons. -/
theorem C97_pieces_false : ∃ polys : List (Poly (Set (ℝ × ℝ))), ValidMulti id polys ∧ ∀ G : Shapely (Set (ℝ × ℝ)) (ℝ × ℝ), Shapes G id →
    ∃ rings pts, holesEntry G (-100, -100) (.multi polys) = .ok (rings, pts) ∧ ∃ p ∈ polys, ∃ h ∈ p.holes, ∃ y ∈ interior h, y ∈ Outside id polys ∧ y ∉ Removed id polys pts := by
  refine ⟨cutHole, cutHole_valid, fun G hG => ⟨_, _, rfl, ⟨sideBox 2, [sideBox 1]⟩, by simp [cutHole], sideBox 1, by simp, ?_⟩⟩
  have hring : interiorRings cutHole = [sideBox 1] := by simp [interiorRings, cutHole, List.range_succ]
  have hin : ∀ c : ℝ, (c = 9 / 10 ∨ c = -(9 / 10)) → (c, c) ∈ interior (sideBox 1) ∧ (c, c) ∈ Outside id cutHole := by
    intro c hc
    have hac : |c| = 9 / 10 := by rcases hc with rfl | rfl <;> norm_num [abs_of_nonneg, abs_of_nonpos]
    have h1 : (c, c) ∈ interior (sideBox 1) := by
      rw [(sideBox_regular 1 (by norm_num)).2]
      simp only [Set.mem_ofPred_eq, hac]
      norm_num
    refine ⟨h1, ?_⟩
    intro q hq hcq
    simp only [cutHole, List.mem_cons, List.not_mem_nil, or_false] at hq
    rcases hq with rfl | rfl
    · exact hcq.2 _ (List.mem_singleton.2 rfl) h1
    · have := hcq.1
      simp only [id_eq, tilted, Set.mem_ofPred_eq, hac] at this
      norm_num at this
  simp only [multiHolePoints, hring, List.filterMap_cons, List.filterMap_nil]
  generalize G.pointOnSurface (cutOut G (cutHole.map (·.ext)) (sideBox 1)) = o
  have key : ∃ c : ℝ, ∃ σ : ℝ, (σ = 1 ∨ σ = -1) ∧ (c = 9 / 10 ∨ c = -(9 / 10)) ∧ σ * c = 9 / 10 ∧ ∀ x ∈ o, ¬ (0 < σ * x.1 ∧ σ * x.1 < 1 ∧ 0 < σ * x.2 ∧ σ * x.2 < 1) := by
    by_cases h : ∀ x ∈ o, ¬ (0 < 1 * x.1 ∧ 1 * x.1 < 1 ∧ 0 < 1 * x.2 ∧ 1 * x.2 < 1)
    · exact ⟨9 / 10, 1, .inl rfl, .inl rfl, by norm_num, h⟩
    · push Not at h
      obtain ⟨x, hx, h0, -⟩ := h
      refine ⟨-(9 / 10), -1, .inr rfl, .inr rfl, by norm_num, ?_⟩
      intro x' hx'
      rw [Option.mem_unique hx' hx]
      rintro ⟨h1, -⟩
      linarith
  obtain ⟨c, σ, hσ, hc, hσc, hx⟩ := key
  refine ⟨(c, c), (hin c hc).1, (hin c hc).2, ?_⟩
  rintro ⟨x, hxm, hj⟩
  refine cutHole_apart hσ (y := (c, c)) (by simp only [hσc]; norm_num) ?_ hj
  have hxm' : x = (-100, -100) ∨ x ∈ o := by
    cases o <;> simpa [eq_comm] using hxm
  rcases hxm' with rfl | hxo
  · rcases hσ with rfl | rfl <;> norm_num
  · exact hx x hxo

/-- A shapely over plain sets. -/
noncomputable def setShapely (P : Type*) [TopologicalSpace P] : Shapely (Set P) P :=
  open Classical in
  { covers := fun a b => decide (b ⊆ a)
    difference := fun a b => closure (a \ b)
    pointOnSurface := fun a => if h : (interior a).Nonempty then some h.some else none }

theorem setShapely_shapes (P : Type*) [TopologicalSpace P] : Shapes (setShapely P) id := by
  classical
  refine ⟨fun a b => by simp [setShapely], fun a b => rfl, ?_, ?_⟩
  · intro a x h
    simp only [setShapely] at h
    split at h
    · next hne => rw [← Option.some.inj h]; exact hne.some_mem
    · exact absurd h (by simp)
  · intro a h
    simp only [setShapely] at h
    split at h
    · exact absurd h (by simp)
    · next hne => exact Set.not_nonempty_iff_eq_empty.1 hne

/-- C97, far: false that (-100, -100) is always outside: a square around it is removed from the start. -/
theorem C97_far_false : ∃ poly : Poly (Set (ℝ × ℝ)), ValidPoly id poly ∧ ∀ G : Shapely (Set (ℝ × ℝ)) (ℝ × ℝ), ∃ rings pts, holesEntry G (-100, -100) (.single poly) = .ok (rings, pts) ∧
    ∃ x ∈ pts, x ∈ area id poly := by
  refine ⟨⟨sideBox 200, []⟩, ⟨(sideBox_regular 200 (by norm_num)).1, by simp, by simp⟩, fun G => ⟨_, _, rfl, (-100, -100), by simp, ?_⟩⟩
  refine ⟨?_, by simp⟩
  simp only [id_eq, sideBox, Set.mem_ofPred_eq, abs_neg]
  norm_num [abs_of_nonneg]

/-- C97 is not vacuous: the square with the square hole alone, whose hole is removed completely. -/
theorem C97_nonvacuous : Shapes (setShapely (ℝ × ℝ)) id ∧ ValidMulti id (parts (.multi cutHole)) ∧
    ((-100, -100) : ℝ × ℝ) ∈ Outside id (parts (.multi cutHole)) ∧ ∃ rings pts, holesEntry (setShapely (ℝ × ℝ)) (-100, -100) (.single ⟨sideBox 2, [sideBox 1]⟩) = .ok (rings, pts) ∧
    ∀ y ∈ interior (sideBox 1), y ∈ Removed id [⟨sideBox 2, [sideBox 1]⟩] pts := by
  have hv1 : ValidMulti id (parts (.single (⟨sideBox 2, [sideBox 1]⟩ : Poly (Set (ℝ × ℝ))))) :=
    ⟨fun p hp => cutHole_valid.each p (by simp [parts, cutHole] at hp ⊢; exact .inl hp), by simp [parts]⟩
  have hnot : ¬ sideBox 2 ⊆ sideBox 1 := fun h => by
    have := (h (show ((2 : ℝ), (0 : ℝ)) ∈ sideBox 2 by constructor <;> norm_num [abs_of_nonneg])).1
    norm_num [abs_of_nonneg] at this
  refine ⟨setShapely_shapes _, cutHole_valid, ?_, _, _, rfl, ?_⟩
  · intro q hq hm
    have h1 : ((-100, -100) : ℝ × ℝ) ∈ sideBox 2 := by
      simp only [parts, cutHole, List.mem_cons, List.not_mem_nil, or_false] at hq
      rcases hq with rfl | rfl
      · exact hm.1
      · have := tilted_sub hm.1
        exact ⟨this.1.trans (by norm_num), this.2.trans (by norm_num)⟩
    have := h1.1
    norm_num [abs_of_nonneg] at this
  · intro y hy
    refine C97_removed_partial (setShapely_shapes _) hv1 rfl (p := ⟨sideBox 2, [sideBox 1]⟩) (by simp [parts]) (s := sideBox 1) (by simp) ?_ hy ?_
    · have e : {x : ℝ × ℝ | x ∈ interior (id (sideBox 1)) ∧ ∀ q ∈ parts (.single (⟨sideBox 2, [sideBox 1]⟩ : Poly (Set (ℝ × ℝ)))), id q.ext ⊆ id (sideBox 1) → x ∉ id q.ext} = interior (sideBox 1) := by
        ext x
        simp only [parts, List.mem_singleton, Set.mem_ofPred_eq, id_eq, forall_eq]
        exact ⟨fun h => h.1, fun h => ⟨h, fun h' => absurd h' hnot⟩⟩
      rw [e]
      have hconv : Convex ℝ (sideBox 1) := by
        have e : sideBox 1 = Set.Icc (-1) 1 ×ˢ Set.Icc (-1) 1 := by
          ext z
          simp only [sideBox, Set.mem_ofPred_eq, abs_le, Set.mem_prod, Set.mem_Icc]
        rw [e]
        exact (convex_Icc _ _).prod (convex_Icc _ _)
      exact hconv.interior.isPathConnected ⟨y, hy⟩
    · intro q hq
      simp only [parts, List.mem_singleton] at hq
      subst hq
      exact fun h => absurd h hnot

end Verif.Props
