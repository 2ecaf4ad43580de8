import Verif.Lemmas.GenericPosition
import Verif.Spec.FloatWorld

/-! Chains of samples that are moved a little. -/

namespace Verif.Net

open Verif.Prm Verif.Spec

theorem isChain_moved {α β : Type*} {R : α → α → Prop} {R' : β → β → Prop} {Q : α → β → Prop}
    (h : ∀ p q p' q', R p q → Q p p' → Q q q' → R' p' q') : ∀ {l : List α} {l' : List β}, l.IsChain R → List.Forall₂ Q l l' → l'.IsChain R'
  | [], _, _, h2 => by cases h2; exact List.IsChain.nil
  | [p], _, _, h2 => by
    cases h2 with
    | cons _ h3 => cases h3; exact List.IsChain.singleton _
  | p :: q :: l, _, h1, h2 => by
    cases h2 with
    | cons hp h3 =>
      have ih := isChain_moved h (List.isChain_cons_cons.1 h1).2 h3
      cases h3 with
      | cons hq h4 => exact List.isChain_cons_cons.2 ⟨h _ _ _ _ (List.isChain_cons_cons.1 h1).1 hp hq, ih⟩

variable {dim : ℕ}

/-- The segment between two moved points stays near the segment. -/
theorem segment_moved {p q p' q' : Space dim} {e : ℝ} (hp : dist p p' ≤ e) (hq : dist q q' ≤ e) {y : Space dim} (hy : y ∈ segment ℝ p' q') :
    ∃ x ∈ segment ℝ p q, dist x y ≤ e := by
  obtain ⟨u, v, hu, hv, huv, rfl⟩ := hy
  refine ⟨u • p + v • q, ⟨u, v, hu, hv, huv, rfl⟩, ?_⟩
  have h1 : u • p + v • q - (u • p' + v • q') = u • (p - p') + v • (q - q') := by
    rw [smul_sub, smul_sub]; abel
  rw [dist_eq_norm] at hp hq ⊢
  rw [h1]
  refine (norm_add_le _ _).trans ?_
  rw [norm_smul, norm_smul, Real.norm_of_nonneg hu, Real.norm_of_nonneg hv]
  have h2 := mul_le_mul_of_nonneg_left hp hu
  have h3 := mul_le_mul_of_nonneg_left hq hv
  have h4 : u * e + v * e = e := by rw [← add_mul, huv, one_mul]
  linarith

/-- Moving the inner points of a chain by at most `e` each. -/
theorem pathLength_moved {e : ℝ} (b : Space dim) {xs qs : List (Space dim)} (h : List.Forall₂ (fun x q => dist x q ≤ e) xs qs) : ∀ y z : Space dim,
    pathLength dist (z :: qs ++ [b]) ≤ dist z y + pathLength dist (y :: xs ++ [b]) + 2 * e * xs.length := by
  induction h with
  | nil =>
    intro y z
    simp only [List.cons_append, List.nil_append, pathLength, add_zero, List.length_nil, Nat.cast_zero, mul_zero]
    exact dist_triangle z y b
  | @cons x q xs qs hxq _ ih =>
    intro y z
    have h1 : pathLength dist (y :: (x :: xs) ++ [b]) = dist y x + pathLength dist (x :: xs ++ [b]) := rfl
    have h2 : pathLength dist (z :: (q :: qs) ++ [b]) = dist z q + pathLength dist (q :: qs ++ [b]) := rfl
    rw [h1, h2]
    have h3 := ih x q
    have h4 := dist_triangle4 z y x q
    rw [dist_comm q x] at h3
    simp only [List.length_cons]
    push_cast
    linarith

/-- Path lengths with distances of relative error `κ`. -/
theorem pathLength_scaled {d : Space dim → Space dim → ℝ} {κ : ℝ} (h : ∀ p q, d p q ≤ (1 + κ) * dist p q) :
    ∀ l : List (Space dim), pathLength d l ≤ (1 + κ) * pathLength dist l
  | [] => by simp [pathLength]
  | [p] => by simp [pathLength]
  | p :: q :: l => by
    have h1 : pathLength d (p :: q :: l) = d p q + pathLength d (q :: l) := rfl
    have h2 : pathLength dist (p :: q :: l) = dist p q + pathLength dist (q :: l) := rfl
    rw [h1, h2, mul_add]
    exact add_le_add (h p q) (pathLength_scaled h (q :: l))

/-- Hops of ideal samples give a chain of moved samples, for a planner that accepts the motions between good points for which `Ok` holds. The
length of the chain is that of the ideal one up to the errors of the distances and of the samples. -/
theorem sampleChain_moved_rel {w : World (Space dim) ℝ} {F F' : Set (Space dim)} {Good : Space dim → Prop} {Ok : Space dim → Space dim → Prop}
    {r e r' κ : ℝ} (e0 : 0 ≤ e) (k0 : 0 ≤ κ) (hz : ∀ p, w.dist p p = 0) (hs : ∀ p q, w.dist p q ≤ (1 + κ) * dist p q)
    (hd : ∀ p q, dist p q < r + 2 * e → w.dist p q ≤ r')
    (hF : ∀ x ∈ F, ∀ y, dist x y ≤ e → y ∈ F')
    (hch : ∀ p q, Good p → Good q → Ok p q → segment ℝ p q ⊆ F' → w.check p q = true)
    {S pts : List (Space dim)} {S' : List (Space dim)} {a b : Space dim} (hends : ∀ p ∈ S', Ok a p ∧ Ok b p)
    (hpairs : ∀ p ∈ S', ∀ q ∈ S', p ≠ q → Ok p q) (ga : Good a) (gb : Good b)
    (hgood : ∀ p ∈ S', Good p) (hmove : ∀ p ∈ S, ∃ p' ∈ S', dist p p' ≤ e) (hne : pts ≠ []) (hS : ∀ p ∈ pts, p ∈ S)
    (hc : (a :: pts ++ [b]).IsChain fun p q => dist p q < r ∧ segment ℝ p q ⊆ F) :
    ∃ pts', w.SampleChain S' r' a b pts' ∧
      pathLength w.dist (a :: pts' ++ [b]) ≤ (1 + κ) * (pathLength dist (a :: pts ++ [b]) + 2 * e * pts.length) ∧ pts'.length ≤ pts.length := by
  have hfor : ∃ pts1 : List (Space dim), List.Forall₂ (fun p p' => dist p p' ≤ e) pts pts1 ∧ ∀ p ∈ pts1, p ∈ S' := by
    clear hc hne
    induction pts with
    | nil => exact ⟨[], List.Forall₂.nil, by simp⟩
    | cons p l ih =>
      obtain ⟨l1, h1, h2⟩ := ih fun q hq => hS q (by simp [hq])
      obtain ⟨p', hp', hd'⟩ := hmove p (hS p (by simp))
      refine ⟨p' :: l1, List.Forall₂.cons hd' h1, ?_⟩
      intro q hq
      rcases List.mem_cons.1 hq with rfl | hq
      exacts [hp', h2 q hq]
  obtain ⟨pts1, h1, h2⟩ := hfor
  have hall : List.Forall₂ (fun p p' => dist p p' ≤ e) (a :: pts ++ [b]) (a :: pts1 ++ [b]) := by
    refine List.Forall₂.cons (by simpa using e0) ?_
    exact List.rel_append h1 (List.Forall₂.cons (by simpa using e0) List.Forall₂.nil)
  have hc' : (a :: pts1 ++ [b]).IsChain fun p q => dist p q < r + 2 * e ∧ segment ℝ p q ⊆ F' := by
    refine isChain_moved ?_ hc hall
    rintro p q p' q' ⟨k1, k2⟩ kp kq
    refine ⟨?_, fun y hy => ?_⟩
    · have t1 := dist_triangle p' p q'
      have t2 := dist_triangle p q q'
      rw [dist_comm p' p] at t1
      linarith
    · obtain ⟨x, hx, hxy⟩ := segment_moved kp kq hy
      exact hF x (k2 hx) y hxy
  have hne1 : pts1 ≠ [] := by
    rintro rfl
    cases h1
    exact hne rfl
  cases pts1 with
  | nil => exact absurd rfl hne1
  | cons p l =>
    rw [List.isChain_append] at hc'
    obtain ⟨k1, -, k2⟩ := hc'
    rw [List.isChain_cons_cons] at k1
    obtain ⟨l', c1, c2, c3, c4, c5⟩ := compress (d := w.dist) hz b l p k1.2
    have hmem : ∀ q ∈ p :: l', q ∈ S' := by
      intro q hq
      rcases List.mem_cons.1 hq with rfl | hq
      · exact h2 _ (by simp)
      · exact h2 _ (by simp [c3 q hq])
    refine ⟨p :: l', ⟨by simp, hmem, ?_, ?_, ?_⟩, ?_, ?_⟩
    · intro q hq
      cases hq
      refine ⟨hd _ _ (by rw [dist_comm]; exact k1.1.1), hch _ _ ga (hgood p (hmem p (by simp))) (hends p (hmem p (by simp))).1 k1.1.2⟩
    · intro q hq
      rw [c2] at hq
      have hq' : (a :: p :: l).getLast? = some q := by rwa [List.getLast?_cons_cons]
      obtain ⟨h3, h4⟩ := k2 q hq' b (by simp)
      have hqS : q ∈ S' := h2 q (List.mem_of_getLast? hq)
      refine ⟨hd _ _ h3, hch _ _ gb (hgood q hqS) (hends q hqS).2 ?_⟩
      rw [segment_symm]
      exact h4
    · have hall : ∀ l : List (Space dim), (∀ q ∈ l, q ∈ S') →
          l.IsChain (fun a b => (dist a b < r + 2 * e ∧ segment ℝ a b ⊆ F') ∧ a ≠ b) →
          l.IsChain fun p q => w.dist p q ≤ r' ∧ w.Accepted p q := by
        intro l hl hch'
        induction l with
        | nil => exact List.IsChain.nil
        | cons x l ih =>
          cases l with
          | nil => exact List.IsChain.singleton _
          | cons y l =>
            rw [List.isChain_cons_cons] at hch' ⊢
            have hx := hl x (by simp)
            have hy := hl y (by simp)
            refine ⟨⟨hd _ _ hch'.1.1.1, Or.inl (hch _ _ (hgood x hx) (hgood y hy) ?_ hch'.1.1.2)⟩, ih (fun q hq => hl q (by simp [hq])) hch'.2⟩
            exact hpairs x hx y hy hch'.1.2
      exact hall _ hmem c1
    · have e1 : pathLength w.dist (a :: (p :: l') ++ [b]) = w.dist a p + pathLength w.dist (p :: l' ++ [b]) := rfl
      have e2 : pathLength w.dist (a :: (p :: l) ++ [b]) = w.dist a p + pathLength w.dist (p :: l ++ [b]) := rfl
      rw [e1, c4, ← e2]
      refine (pathLength_scaled hs _).trans (mul_le_mul_of_nonneg_left ?_ (by linarith))
      have := pathLength_moved b h1 a a
      rwa [dist_self, zero_add] at this
    · rw [h1.length_eq]
      simpa using c5

/-- Hops of ideal samples give a chain of moved samples, for a planner that accepts good motions between points without a common
coordinate. -/
theorem sampleChain_moved {w : World (Space dim) ℝ} {F F' : Set (Space dim)} {Good : Space dim → Prop} {r e r' κ : ℝ} (e0 : 0 ≤ e) (k0 : 0 ≤ κ)
    (hz : ∀ p, w.dist p p = 0) (hs : ∀ p q, w.dist p q ≤ (1 + κ) * dist p q)
    (hd : ∀ p q, dist p q < r + 2 * e → w.dist p q ≤ r')
    (hF : ∀ x ∈ F, ∀ y, dist x y ≤ e → y ∈ F')
    (hch : ∀ p q, Good p → Good q → (∀ i, p i ≠ q i) → segment ℝ p q ⊆ F' → w.check p q = true)
    {S pts : List (Space dim)} {S' : List (Space dim)} {a b : Space dim} (hgen : General S' a b) (ga : Good a) (gb : Good b)
    (hgood : ∀ p ∈ S', Good p) (hmove : ∀ p ∈ S, ∃ p' ∈ S', dist p p' ≤ e) (hne : pts ≠ []) (hS : ∀ p ∈ pts, p ∈ S)
    (hc : (a :: pts ++ [b]).IsChain fun p q => dist p q < r ∧ segment ℝ p q ⊆ F) :
    ∃ pts', w.SampleChain S' r' a b pts' ∧
      pathLength w.dist (a :: pts' ++ [b]) ≤ (1 + κ) * (pathLength dist (a :: pts ++ [b]) + 2 * e * pts.length) ∧ pts'.length ≤ pts.length := by
  exact sampleChain_moved_rel (Ok := fun p q => ∀ i, p i ≠ q i) e0 k0 hz hs hd hF hch (fun p hp => ⟨fun i => ((hgen.1 p hp i).1).symm, fun i => ((hgen.1 p hp i).2).symm⟩)
    hgen.2 ga gb hgood hmove hne hS hc

theorem moved_length_le {D M L t s x : ℝ} {k : ℕ} (hD : 0 < D) (hs : 0 ≤ s) (h1 : x ≤ L + t * M) (h2 : k * D ≤ M) :
    x + s * k ≤ L + (t + s / D) * M := by
  have h3 : s * k ≤ s / D * M := by
    rw [div_mul_eq_mul_div, le_div_iff₀ hD, mul_assoc]
    exact mul_le_mul_of_nonneg_left h2 hs
  rw [add_mul]
  linarith

/-- Distances with relative error `κ`. -/
theorem floatWorld_dist {dim : ℕ} {w : World (Space dim) ℝ} {κ : ℝ} {valid : (Fin dim → ℝ) → (Fin dim → ℝ) → Bool} {x : ℕ → Fin dim → ℝ}
    (hw : FloatWorld w κ valid x) : (∀ p, w.dist p p = 0) ∧ ∀ p q, w.dist p q ≤ (1 + κ) * dist p q := by
  refine ⟨fun p => ?_, fun p q => ?_⟩
  · have := hw.dist p p
    rw [dist_self, mul_zero, sub_zero] at this
    exact abs_eq_zero.1 (le_antisymm this (abs_nonneg _))
  · have := (abs_le.1 (hw.dist p q)).2
    linarith

end Verif.Net
