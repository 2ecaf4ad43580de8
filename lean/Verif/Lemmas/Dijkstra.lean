import Mathlib.Algebra.Order.Group.Defs
import Mathlib.Algebra.Order.Monoid.Defs
import Mathlib.Data.List.MinMax
import Mathlib.Data.List.Nodup
import Mathlib.Data.List.Perm.Subperm
import Verif.Lemmas.Prm

/-!
A reference shortest-path search that meets `DijkstraCorrect`: it lists all walks up to a sufficient length and takes the best one
without repeated vertices. It shows that the assumption on networkit's search can be met, and runs in examples.
-/

namespace Verif.Prm

set_option linter.unusedSectionVars false

variable {K : Type*} [LinearOrder K] [AddCommGroup K]

/-- The far end of an edge seen from `a`. -/
def Edge.other (e : Edge K) (a : ℕ) : ℕ := if e.u = a then e.v else e.u

/-- All walks from `a` to `b` with fewer than `n` inner vertices, which are all different and not in `vis`. -/
def walks (E : List (Edge K)) (b : ℕ) : ℕ → List ℕ → ℕ → List (List ℕ × K)
  | 0, _, _ => []
  | n + 1, vis, a =>
    (E.filter (·.joins a b)).map (fun e => ([], e.w)) ++
      (E.filter fun e => e.touches a && !vis.contains (e.other a)).flatMap fun e =>
        (walks E b n (e.other a :: vis) (e.other a)).map fun x => (e.other a :: x.1, e.w + x.2)

/-- Reference shortest-path search. -/
def refShortest (E : List (Edge K)) (s t : ℕ) : WithTop K × List ℕ :=
  match (walks E t (2 * E.length + 1) [s, t] s).argmin (·.2) with
  | none => (⊤, [])
  | some x => (x.2, x.1)

theorem joins_other {e : Edge K} {a : ℕ} (h : e.touches a = true) : e.joins a (e.other a) = true := by
  rw [joins_iff]
  rw [touches_iff] at h
  unfold Edge.other
  split
  · rename_i h'; exact Or.inl ⟨h', rfl⟩
  · rename_i h'; exact Or.inr ⟨rfl, h.resolve_left h'⟩

theorem other_of_joins {e : Edge K} {a c : ℕ} (h : e.joins a c = true) : e.other a = c ∧ e.touches a = true := by
  rw [joins_iff] at h
  rw [touches_iff]
  unfold Edge.other
  rcases h with ⟨h1, h2⟩ | ⟨h1, h2⟩
  · rw [if_pos h1]; exact ⟨h2, Or.inl h1⟩
  · refine ⟨?_, Or.inr h2⟩
    split
    · rename_i h3; rw [h2, ← h3, h1]
    · exact h1

theorem mem_walks {E : List (Edge K)} {b n a : ℕ} {vis p : List ℕ} {d : K} :
    (p, d) ∈ walks E b n vis a ↔ Walk E a p b d ∧ p.length < n ∧ p.Nodup ∧ ∀ x ∈ p, x ∉ vis := by
  induction n generalizing a vis p d with
  | zero => simp [walks]
  | succ n ih =>
    simp only [walks, List.mem_append, List.mem_map, List.mem_filter, List.mem_flatMap, Prod.exists, Prod.mk.injEq,
      Bool.and_eq_true, Bool.not_eq_true', List.contains_eq_mem, decide_eq_false_iff_not]
    constructor
    · rintro (⟨e, ⟨he, hj⟩, rfl, rfl⟩ | ⟨e, ⟨he, ht, hv⟩, p', d', hm, rfl, rfl⟩)
      · exact ⟨Walk.edge e he hj, by simp, by simp, by simp⟩
      · obtain ⟨hw, hl, hn, hx⟩ := ih.1 hm
        refine ⟨Walk.cons e he (joins_other ht) hw, by simpa using hl, ?_, ?_⟩
        · rw [List.nodup_cons]
          exact ⟨fun h => hx _ h (by simp), hn⟩
        · intro x hm'
          rw [List.mem_cons] at hm'
          rcases hm' with rfl | hm'
          · exact hv
          · exact fun h => hx _ hm' (List.mem_cons_of_mem _ h)
    · rintro ⟨hw, hl, hn, hx⟩
      cases hw with
      | edge e he hj => exact Or.inl ⟨e, ⟨he, hj⟩, rfl, rfl⟩
      | @cons _ c _ p' d' e he hj t =>
        right
        obtain ⟨h1, h2⟩ := other_of_joins hj
        rw [List.nodup_cons] at hn
        refine ⟨e, ⟨he, h2, by rw [h1]; exact hx c (by simp)⟩, p', d',
          ih.2 ⟨by rw [h1]; exact t, by simpa using hl, hn.2, ?_⟩, by rw [h1], rfl⟩
        intro x hm
        rw [h1, List.mem_cons, not_or]
        exact ⟨fun h => hn.1 (h ▸ hm), hx x (List.mem_cons_of_mem _ hm)⟩

theorem Walk.mem_ends {E : List (Edge K)} {a b : ℕ} {p : List ℕ} {d : K} (h : Walk E a p b d) :
    ∀ x ∈ p, x ∈ E.flatMap fun e => [e.u, e.v] := by
  induction h with
  | edge => simp
  | @cons a c b p d e he hj t ih =>
    intro x hx
    rw [List.mem_cons] at hx
    rcases hx with rfl | hx
    · rw [List.mem_flatMap]
      refine ⟨e, he, ?_⟩
      rcases (joins_iff _ _ _).1 hj with ⟨_, h⟩ | ⟨h, _⟩ <;> simp [h]
    · exact ih x hx

theorem ends_length (E : List (Edge K)) : (E.flatMap fun e => [e.u, e.v]).length = 2 * E.length := by
  induction E with
  | nil => rfl
  | cons e E ih => rw [List.flatMap_cons, List.length_append, ih]; simp; omega

theorem Walk.length_le {E : List (Edge K)} {a b : ℕ} {p : List ℕ} {d : K} (h : Walk E a p b d) (hp : p.Nodup) :
    p.length ≤ 2 * E.length := by
  rw [← ends_length]
  exact (List.subperm_of_subset hp h.mem_ends).length_le

variable [IsOrderedAddMonoid K]

theorem Walk.nonneg {E : List (Edge K)} (hE : ∀ e ∈ E, 0 ≤ e.w) {a b : ℕ} {p : List ℕ} {d : K} (h : Walk E a p b d) : 0 ≤ d := by
  induction h with
  | edge e he => exact hE e he
  | cons e he _ _ ih => exact add_nonneg (hE e he) ih

theorem Walk.suffix {E : List (Edge K)} (hE : ∀ e ∈ E, 0 ≤ e.w) {a b : ℕ} {p : List ℕ} {d : K} (h : Walk E a p b d) {x : ℕ}
    (hx : x ∈ p) : ∃ p' d', Walk E x p' b d' ∧ d' ≤ d ∧ (x :: p') <:+ p := by
  induction h with
  | edge => simp at hx
  | @cons a c b p d e he hj t ih =>
    have hle : d ≤ e.w + d := le_add_of_nonneg_left (hE e he)
    rw [List.mem_cons] at hx
    rcases hx with rfl | hx
    · exact ⟨p, d, t, hle, List.suffix_refl _⟩
    · obtain ⟨p', d', h1, h2, h3⟩ := ih hx
      exact ⟨p', d', h1, h2.trans hle, h3.trans (List.suffix_cons _ _)⟩

theorem Walk.simple {E : List (Edge K)} (hE : ∀ e ∈ E, 0 ≤ e.w) {a b : ℕ} {p : List ℕ} {d : K} (h : Walk E a p b d)
    (hab : a ≠ b) : ∃ p' d', Walk E a p' b d' ∧ d' ≤ d ∧ (a :: p' ++ [b]).Nodup := by
  induction h with
  | @edge a b e he hj => exact ⟨[], e.w, Walk.edge e he hj, le_refl _, by simpa using hab⟩
  | @cons a c b p d e he hj t ih =>
    have hle : d ≤ e.w + d := le_add_of_nonneg_left (hE e he)
    by_cases hcb : c = b
    · subst hcb
      exact ⟨[], e.w, Walk.edge e he hj, le_add_of_nonneg_right (t.nonneg hE), by simpa using hab⟩
    · obtain ⟨p', d', h1, h2, h3⟩ := ih hcb
      by_cases hac : a = c
      · subst hac
        exact ⟨p', d', h1, h2.trans hle, h3⟩
      · by_cases hap : a ∈ p'
        · obtain ⟨p'', d'', h4, h5, h6⟩ := h1.suffix hE hap
          refine ⟨p'', d'', h4, (h5.trans h2).trans hle, ?_⟩
          refine List.Nodup.sublist ?_ h3
          refine List.Sublist.append ?_ (List.Sublist.refl _)
          exact h6.sublist.trans (List.sublist_cons_self _ _)
        · refine ⟨c :: p', e.w + d', Walk.cons e he hj h1, add_le_add (le_refl _) h2, ?_⟩
          rw [List.cons_append, List.nodup_cons]
          refine ⟨?_, h3⟩
          simp only [List.cons_append, List.mem_cons, List.mem_append, List.not_mem_nil, or_false, not_or]
          exact ⟨hac, hap, hab⟩

theorem refShortest_correct : DijkstraCorrect (refShortest (K := K)) := by
  intro E s t hst hE
  have hnd : ∀ p : List ℕ, (s :: p ++ [t]).Nodup ↔ p.Nodup ∧ ∀ x ∈ p, x ∉ [s, t] := by
    intro p
    rw [List.cons_append, List.nodup_cons, List.nodup_append]
    simp only [List.mem_append, List.mem_cons, List.not_mem_nil, or_false, not_or, List.nodup_cons, not_false_eq_true,
      List.nodup_nil, and_true]
    constructor
    · rintro ⟨⟨h1, _⟩, h2, -, h3⟩
      exact ⟨h2, fun x hx => ⟨fun h => h1 (h ▸ hx), fun h => h3 x hx t rfl h⟩⟩
    · rintro ⟨h1, h2⟩
      exact ⟨⟨fun h => (h2 s h).1 rfl, hst⟩, h1, trivial, fun x hx y hy h => (h2 x hx).2 (h.trans hy)⟩
  have key : ∀ p d, Walk E s p t d → ∃ x ∈ walks E t (2 * E.length + 1) [s, t] s, x.2 ≤ d := by
    intro p d h
    obtain ⟨p', d', h1, h2, h3⟩ := h.simple hE hst
    rw [hnd] at h3
    have := h1.length_le h3.1
    exact ⟨(p', d'), mem_walks.2 ⟨h1, by omega, h3⟩, h2⟩
  unfold refShortest
  cases hm : (walks E t (2 * E.length + 1) [s, t] s).argmin (·.2) with
  | none =>
    right
    rw [List.argmin_eq_none] at hm
    refine ⟨?_, rfl⟩
    intro p d h
    obtain ⟨x, hx, _⟩ := key p d h
    rw [hm] at hx
    simp at hx
  | some x =>
    left
    have hx := mem_walks.1 (List.argmin_mem hm)
    refine ⟨x.2, rfl, hx.1, (hnd _).2 hx.2.2, ?_⟩
    intro p d h
    obtain ⟨y, hy, hyd⟩ := key p d h
    exact (List.le_of_mem_argmin hy hm).trans hyd

end Verif.Prm
