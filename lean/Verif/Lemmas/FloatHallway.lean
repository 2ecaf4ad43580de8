import Mathlib.Tactic.Linarith
import Mathlib.Tactic.NormNum
import Mathlib.Tactic.Ring
import Verif.Lemmas.Hallway

/-! Geometry of the two rooms with a hallway when the walls are slightly thinner and the steps slightly larger. -/

namespace Verif.Hallway

open Verif.Spec

/-- The box without a strip of width `e` along its sides. -/
def shrink (e : ℝ) (b : Box) : Box := ⟨b.x, b.y, b.w - 2 * e, b.l - 2 * e⟩

/-- No shrunken wall contains the point. -/
def ClearE (room hall e : ℝ) (p : ℝ × ℝ) : Prop := ∀ o ∈ (rooms room hall).map (shrink e), p ∉ Box.region o

/-- The house with slightly longer rooms. -/
def houseE (L h e : ℝ) : Set (ℝ × ℝ) :=
  rectangle (-3 / 2 - L - e) (-3 / 2) 0 L ∪ rectangle (-3 / 2) (3 / 2) (L / 2 - h / 2) (L / 2 + h / 2) ∪ rectangle (3 / 2) (3 / 2 + L + e) 0 L

structure ClearFactsE (L h e : ℝ) (p : ℝ × ℝ) : Prop where
  front1 : p.1 < -31/20 - L + e ∨ -29/20 - e < p.1 ∨ p.2 < -1/20 + e ∨ 1/20 - e < p.2
  back1 : p.1 < -31/20 - L + e ∨ -29/20 - e < p.1 ∨ p.2 < L - 1/20 + e ∨ L + 1/20 - e < p.2
  left : p.1 < -16/10 - L + e ∨ -3/2 - L - e < p.1 ∨ p.2 < -1/20 + e ∨ L + 1/20 - e < p.2
  up1 : p.1 < -31/20 + e ∨ -29/20 - e < p.1 ∨ p.2 < L/2 + h/2 - 1/20 + e ∨ L + 1/20 - e < p.2
  low1 : p.1 < -31/20 + e ∨ -29/20 - e < p.1 ∨ p.2 < -1/20 + e ∨ L/2 - h/2 + 1/20 - e < p.2
  front2 : 31/20 + L - e < p.1 ∨ p.1 < 29/20 + e ∨ p.2 < -1/20 + e ∨ 1/20 - e < p.2
  back2 : 31/20 + L - e < p.1 ∨ p.1 < 29/20 + e ∨ p.2 < L - 1/20 + e ∨ L + 1/20 - e < p.2
  right : 16/10 + L - e < p.1 ∨ p.1 < 3/2 + L + e ∨ p.2 < -1/20 + e ∨ L + 1/20 - e < p.2
  up2 : 31/20 - e < p.1 ∨ p.1 < 29/20 + e ∨ p.2 < L/2 + h/2 - 1/20 + e ∨ L + 1/20 - e < p.2
  low2 : 31/20 - e < p.1 ∨ p.1 < 29/20 + e ∨ p.2 < -1/20 + e ∨ L/2 - h/2 + 1/20 - e < p.2
  top : p.1 < -3/2 + e ∨ 3/2 - e < p.1 ∨ p.2 < L/2 + h/2 - 1/20 + e ∨ L/2 + h/2 + 1/20 - e < p.2
  bottom : p.1 < -3/2 + e ∨ 3/2 - e < p.1 ∨ p.2 < L/2 - h/2 - 1/20 + e ∨ L/2 - h/2 + 1/20 - e < p.2

theorem clear_factsE {L h e : ℝ} {p : ℝ × ℝ} (hc : ClearE L h e p) : ClearFactsE L h e p := by
  unfold ClearE rooms at hc
  simp only [List.mem_cons, List.not_mem_nil, or_false, forall_eq_or_imp, forall_eq, List.map_cons, List.map_nil, shrink, hallLength, thick] at hc
  obtain ⟨h1, h2, h3, h4, h5, h6, h7, h8, h9, h10, h11, h12⟩ := hc
  constructor
  · rcases not_mem_region h1 with h | h | h | h <;> simp only at h <;> [left; (right; left); (right; right; left); (right; right; right)] <;> linarith
  · rcases not_mem_region h2 with h | h | h | h <;> simp only at h <;> [left; (right; left); (right; right; left); (right; right; right)] <;> linarith
  · rcases not_mem_region h3 with h | h | h | h <;> simp only at h <;> [left; (right; left); (right; right; left); (right; right; right)] <;> linarith
  · rcases not_mem_region h4 with h | h | h | h <;> simp only at h <;> [left; (right; left); (right; right; left); (right; right; right)] <;> linarith
  · rcases not_mem_region h9 with h | h | h | h <;> simp only at h <;> [left; (right; left); (right; right; left); (right; right; right)] <;> linarith
  · rcases not_mem_region h7 with h | h | h | h <;> simp only at h <;> [(right; left); left; (right; right; left); (right; right; right)] <;> linarith
  · rcases not_mem_region h6 with h | h | h | h <;> simp only at h <;> [(right; left); left; (right; right; left); (right; right; right)] <;> linarith
  · rcases not_mem_region h8 with h | h | h | h <;> simp only at h <;> [(right; left); left; (right; right; left); (right; right; right)] <;> linarith
  · rcases not_mem_region h10 with h | h | h | h <;> simp only at h <;> [(right; left); left; (right; right; left); (right; right; right)] <;> linarith
  · rcases not_mem_region h5 with h | h | h | h <;> simp only at h <;> [(right; left); left; (right; right; left); (right; right; right)] <;> linarith
  · rcases not_mem_region h11 with h | h | h | h <;> simp only at h <;> [left; (right; left); (right; right; left); (right; right; right)] <;> linarith
  · rcases not_mem_region h12 with h | h | h | h <;> simp only at h <;> [left; (right; left); (right; right; left); (right; right; right)] <;> linarith

theorem ClearFactsE.mirror {L h e : ℝ} {p : ℝ × ℝ} (f : ClearFactsE L h e p) : ClearFactsE L h e (-p.1, p.2) := by
  constructor <;> simp only
  · rcases f.front2 with h | h | h | h <;> [left; (right; left); (right; right; left); (right; right; right)] <;> linarith
  · rcases f.back2 with h | h | h | h <;> [left; (right; left); (right; right; left); (right; right; right)] <;> linarith
  · rcases f.right with h | h | h | h <;> [left; (right; left); (right; right; left); (right; right; right)] <;> linarith
  · rcases f.up2 with h | h | h | h <;> [left; (right; left); (right; right; left); (right; right; right)] <;> linarith
  · rcases f.low2 with h | h | h | h <;> [left; (right; left); (right; right; left); (right; right; right)] <;> linarith
  · rcases f.front1 with h | h | h | h <;> [left; (right; left); (right; right; left); (right; right; right)] <;> linarith
  · rcases f.back1 with h | h | h | h <;> [left; (right; left); (right; right; left); (right; right; right)] <;> linarith
  · rcases f.left with h | h | h | h <;> [left; (right; left); (right; right; left); (right; right; right)] <;> linarith
  · rcases f.up1 with h | h | h | h <;> [left; (right; left); (right; right; left); (right; right; right)] <;> linarith
  · rcases f.low1 with h | h | h | h <;> [left; (right; left); (right; right; left); (right; right; right)] <;> linarith
  · rcases f.top with h | h | h | h <;> [(right; left); left; (right; right; left); (right; right; right)] <;> linarith
  · rcases f.bottom with h | h | h | h <;> [(right; left); left; (right; right; left); (right; right; right)] <;> linarith

theorem mirror_houseE {L h e : ℝ} {p : ℝ × ℝ} (hp : (-p.1, p.2) ∈ houseE L h e) : p ∈ houseE L h e := by
  rcases hp with (⟨h1, h2, h3, h4⟩ | ⟨h1, h2, h3, h4⟩) | ⟨h1, h2, h3, h4⟩ <;> simp only at h1 h2 h3 h4
  · right; exact ⟨by linarith, by linarith, h3, h4⟩
  · left; right; exact ⟨by linarith, by linarith, h3, h4⟩
  · left; left; exact ⟨by linarith, by linarith, h3, h4⟩

/-- In the hallway the point is away from the hallway walls. -/
theorem hall_insideE {L h e : ℝ} (h0 : 0 ≤ e) (he : e ≤ 1/200) (hL : h ≤ L) {p : ℝ × ℝ} (f : ClearFactsE L h e p) (h1 : -3/2 ≤ p.1) (h2 : p.1 ≤ 3/2)
    (h3 : L/2 - h/2 - 4/100 ≤ p.2) (h4 : p.2 ≤ L/2 + h/2 + 4/100) : L/2 - h/2 + 1/20 - e < p.2 ∧ p.2 < L/2 + h/2 - 1/20 + e := by
  by_cases c1 : p.1 < -3/2 + e
  · constructor
    · rcases f.low1 with h | h | h | h <;> linarith
    · rcases f.up1 with h | h | h | h <;> linarith
  · by_cases c2 : 3/2 - e < p.1
    · constructor
      · rcases f.low2 with h | h | h | h <;> linarith
      · rcases f.up2 with h | h | h | h <;> linarith
    · constructor
      · rcases f.bottom with h | h | h | h <;> linarith
      · rcases f.top with h | h | h | h <;> linarith

theorem step_leftE {L h e : ℝ} (h0 : 0 ≤ e) (he : e ≤ 1/200) (h2 : h ≤ L) {p q : ℝ × ℝ} (f : ClearFactsE L h e p) (g : ClearFactsE L h e q)
    (hp : p ∈ rectangle (-3 / 2 - L - e) (-3 / 2) 0 L) (hx : |q.1 - p.1| < 81/1000) (hy : |q.2 - p.2| < 81/1000) : q ∈ houseE L h e := by
  obtain ⟨a1, a2, a3, a4⟩ := hp
  rw [abs_lt] at hx hy
  have b1 : 1/20 - e < p.2 := by rcases f.front1 with h | h | h | h <;> linarith
  have b2 : p.2 < L - 1/20 + e := by rcases f.back1 with h | h | h | h <;> linarith
  have c : -3/2 - L - e < q.1 := by rcases g.left with h | h | h | h <;> linarith [hx.1, hx.2, hy.1, hy.2]
  by_cases c1 : q.1 ≤ -29/20 - e
  · have d1 : 1/20 - e < q.2 := by rcases g.front1 with h | h | h | h <;> linarith [hx.1, hx.2, hy.1, hy.2]
    have d2 : q.2 < L - 1/20 + e := by rcases g.back1 with h | h | h | h <;> linarith [hx.1, hx.2, hy.1, hy.2]
    by_cases c2 : q.1 ≤ -3/2
    · left; left; exact ⟨by linarith, c2, by linarith, by linarith⟩
    · push Not at c2
      have e1 : q.2 < L/2 + h/2 - 1/20 + e := by rcases g.up1 with h | h | h | h <;> linarith
      have e2 : L/2 - h/2 + 1/20 - e < q.2 := by rcases g.low1 with h | h | h | h <;> linarith
      left; right; exact ⟨by linarith, by linarith, by linarith, by linarith⟩
  · push Not at c1
    have e1 : p.2 < L/2 + h/2 - 1/20 + e := by rcases f.up1 with h | h | h | h <;> linarith [hx.1, hx.2]
    have e2 : L/2 - h/2 + 1/20 - e < p.2 := by rcases f.low1 with h | h | h | h <;> linarith [hx.1, hx.2]
    have := hall_insideE h0 he h2 g (by linarith) (by linarith [hx.2]) (by linarith [hy.1]) (by linarith [hy.2])
    left; right; exact ⟨by linarith, by linarith [hx.2], by linarith [this.1], by linarith [this.2]⟩

theorem step_hallE {L h e : ℝ} (h0 : 0 ≤ e) (he : e ≤ 1/200) (h2 : h ≤ L) {p q : ℝ × ℝ} (f : ClearFactsE L h e p) (g : ClearFactsE L h e q)
    (hp : p ∈ rectangle (-3 / 2) (3 / 2) (L / 2 - h / 2) (L / 2 + h / 2)) (hx : |q.1 - p.1| < 81/1000) (hy : |q.2 - p.2| < 81/1000)
    (hq : q.1 ≤ 3/2) : q ∈ houseE L h e := by
  obtain ⟨a1, a2, a3, a4⟩ := hp
  rw [abs_lt] at hx hy
  obtain ⟨b1, b2⟩ := hall_insideE h0 he h2 f (by linarith) (by linarith) (by linarith) (by linarith)
  by_cases c1 : -3/2 ≤ q.1
  · have := hall_insideE h0 he h2 g c1 hq (by linarith [hy.1]) (by linarith [hy.2])
    left; right; exact ⟨by linarith, by linarith, by linarith [this.1], by linarith [this.2]⟩
  · push Not at c1
    have c : -3/2 - L - e < q.1 := by rcases g.left with h | h | h | h <;> linarith [hx.1, hx.2, hy.1, hy.2]
    have d1 : 1/20 - e < q.2 := by rcases g.front1 with h | h | h | h <;> linarith [hx.1, hx.2, hy.1, hy.2]
    have d2 : q.2 < L - 1/20 + e := by rcases g.back1 with h | h | h | h <;> linarith [hx.1, hx.2, hy.1, hy.2]
    left; left; exact ⟨by linarith, by linarith, by linarith, by linarith⟩

/-- A step of less than 0.081 in both coordinates between two points outside the shrunken walls does not leave the house. -/
theorem step_houseE {L h e : ℝ} (h0 : 0 ≤ e) (he : e ≤ 1/200) (h2 : h ≤ L) {p q : ℝ × ℝ} (hcp : ClearE L h e p) (hcq : ClearE L h e q)
    (hp : p ∈ houseE L h e) (hx : |q.1 - p.1| < 81/1000) (hy : |q.2 - p.2| < 81/1000) : q ∈ houseE L h e := by
  have f := clear_factsE hcp
  have g := clear_factsE hcq
  have mx : |-q.1 - -p.1| < 81/1000 := by rwa [show -q.1 - -p.1 = -(q.1 - p.1) by ring, abs_neg]
  rcases hp with (hp | hp) | hp
  · exact step_leftE h0 he h2 f g hp hx hy
  · by_cases hq : q.1 ≤ 3/2
    · exact step_hallE h0 he h2 f g hp hx hy hq
    · apply mirror_houseE
      obtain ⟨a1, a2, a3, a4⟩ := hp
      exact step_hallE (p := (-p.1, p.2)) (q := (-q.1, q.2)) h0 he h2 f.mirror g.mirror ⟨by simp only; linarith, by simp only; linarith, a3, a4⟩ mx hy
        (by simp only; linarith)
  · apply mirror_houseE
    obtain ⟨a1, a2, a3, a4⟩ := hp
    exact step_leftE (p := (-p.1, p.2)) (q := (-q.1, q.2)) h0 he h2 f.mirror g.mirror ⟨by simp only; linarith, by simp only; linarith, a3, a4⟩ mx hy

theorem house_sub {L h e : ℝ} (h0 : 0 ≤ e) {p : ℝ × ℝ} (hp : p ∈ house L h) : p ∈ houseE L h e := by
  rcases hp with (⟨h1, h2, h3, h4⟩ | ⟨h1, h2, h3, h4⟩) | ⟨h1, h2, h3, h4⟩
  · left; left; exact ⟨by linarith, h2, h3, h4⟩
  · left; right; exact ⟨h1, h2, h3, h4⟩
  · right; exact ⟨h1, by linarith, h3, h4⟩

theorem nearHouse_of_houseE {L h e : ℝ} (h0 : 0 ≤ e) (hL : 0 ≤ L) {p : ℝ × ℝ} (hp : p ∈ houseE L h e) : ∃ q ∈ house L h, |p.1 - q.1| ≤ e ∧ p.2 = q.2 := by
  rcases hp with (⟨h1, h2, h3, h4⟩ | ⟨h1, h2, h3, h4⟩) | ⟨h1, h2, h3, h4⟩
  · refine ⟨(max p.1 (-3 / 2 - L), p.2), .inl (.inl ⟨le_max_right _ _, max_le h2 (by linarith), h3, h4⟩), ?_, rfl⟩
    simp only
    rcases le_total p.1 (-3 / 2 - L) with k | k
    · rw [max_eq_right k, abs_le]; constructor <;> linarith
    · rw [max_eq_left k, sub_self, abs_zero]; exact h0
  · exact ⟨p, .inl (.inr ⟨h1, h2, h3, h4⟩), by simpa using h0, rfl⟩
  · refine ⟨(min p.1 (3 / 2 + L), p.2), .inr ⟨le_min h1 (by linarith), min_le_right _ _, h3, h4⟩, ?_, rfl⟩
    simp only
    rcases le_total p.1 (3 / 2 + L) with k | k
    · rw [min_eq_left k, sub_self, abs_zero]; exact h0
    · rw [min_eq_right k, abs_le]; constructor <;> linarith

end Verif.Hallway
