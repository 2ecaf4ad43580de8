import Mathlib.Tactic.Linarith
import Mathlib.Tactic.NormNum
import Mathlib.Tactic.Ring
import Verif.Spec.Hallway

/-! Geometry of the two rooms with a hallway. -/

namespace Verif.Hallway

open Verif.Spec

theorem not_mem_region {b : Box} {p : ℝ × ℝ} (h : p ∉ Box.region b) :
    p.1 < b.x - b.w / 2 ∨ b.x + b.w / 2 < p.1 ∨ p.2 < b.y - b.l / 2 ∨ b.y + b.l / 2 < p.2 := by
  by_contra hc
  push Not at hc
  apply h
  constructor
  · rw [abs_le]; constructor <;> linarith [hc.1, hc.2.1]
  · rw [abs_le]; constructor <;> linarith [hc.2.2.1, hc.2.2.2]

/-- No wall contains the point. -/
def Clear (room hall : ℝ) (p : ℝ × ℝ) : Prop := ∀ o ∈ rooms room hall, p ∉ Box.region o

theorem clear_of_free {room hall : ℝ} {body : Set (ℝ × ℝ)} (h0 : (0, 0) ∈ body) {p : ℝ × ℝ} (h : FreeAt (rooms room hall) body p) :
    Clear room hall p := by
  intro o ho
  have := h o ho (0, 0) h0
  simpa using this

structure ClearFacts (L h : ℝ) (p : ℝ × ℝ) : Prop where
  front1 : p.1 < -31/20 - L ∨ -29/20 < p.1 ∨ p.2 < -1/20 ∨ 1/20 < p.2
  back1 : p.1 < -31/20 - L ∨ -29/20 < p.1 ∨ p.2 < L - 1/20 ∨ L + 1/20 < p.2
  left : p.1 < -16/10 - L ∨ -3/2 - L < p.1 ∨ p.2 < -1/20 ∨ L + 1/20 < p.2
  up1 : p.1 < -31/20 ∨ -29/20 < p.1 ∨ p.2 < L/2 + h/2 - 1/20 ∨ L + 1/20 < p.2
  low1 : p.1 < -31/20 ∨ -29/20 < p.1 ∨ p.2 < -1/20 ∨ L/2 - h/2 + 1/20 < p.2
  front2 : 31/20 + L < p.1 ∨ p.1 < 29/20 ∨ p.2 < -1/20 ∨ 1/20 < p.2
  back2 : 31/20 + L < p.1 ∨ p.1 < 29/20 ∨ p.2 < L - 1/20 ∨ L + 1/20 < p.2
  right : 16/10 + L < p.1 ∨ p.1 < 3/2 + L ∨ p.2 < -1/20 ∨ L + 1/20 < p.2
  up2 : 31/20 < p.1 ∨ p.1 < 29/20 ∨ p.2 < L/2 + h/2 - 1/20 ∨ L + 1/20 < p.2
  low2 : 31/20 < p.1 ∨ p.1 < 29/20 ∨ p.2 < -1/20 ∨ L/2 - h/2 + 1/20 < p.2
  top : p.1 < -3/2 ∨ 3/2 < p.1 ∨ p.2 < L/2 + h/2 - 1/20 ∨ L/2 + h/2 + 1/20 < p.2
  bottom : p.1 < -3/2 ∨ 3/2 < p.1 ∨ p.2 < L/2 - h/2 - 1/20 ∨ L/2 - h/2 + 1/20 < p.2

theorem clear_facts {L h : ℝ} {p : ℝ × ℝ} (hc : Clear L h p) : ClearFacts L h p := by
  unfold Clear rooms at hc
  simp only [List.mem_cons, List.not_mem_nil, or_false, forall_eq_or_imp, forall_eq, hallLength, thick] at hc
  obtain ⟨h1, h2, h3, h4, h5, h6, h7, h8, h9, h10, h11, h12⟩ := hc
  constructor
  · rcases not_mem_region h1 with h | h | h | h <;> simp only at h <;> [left; (right; left); (right; right; left); (right; right; right)] <;> linarith
  · rcases not_mem_region h2 with h | h | h | h <;> simp only at h <;> [left; (right; left); (right; right; left); (right; right; right)] <;> linarith
  · rcases not_mem_region h3 with h | h | h | h <;> simp only at h <;> [left; (right; left); (right; right; left); (right; right; right)] <;> linarith
  · rcases not_mem_region h4 with h | h | h | h <;> simp only at h <;> [left; (right; left); (right; right; left); (right; right; right)] <;> linarith
  · rcases not_mem_region h9 with h | h | h | h <;> simp only at h <;> [left; (right; left); (right; right; left); (right; right; right)] <;> linarith
  · rcases not_mem_region h7 with h | h | h | h <;> simp only at h <;> [(right; left); left; (right; right; left); (right; right; right)] <;> linarith
  · rcases not_mem_region h6 with h | h | h | h <;> simp only at h <;> [(right; left); left; (right; right; left); (right; right; right)] <;> linarith
  · rcases not_mem_region h8 with h | h | h | h <;> simp only at h <;> [(right; left); left; (right; right; left); (right; right; right)] <;> linarith
  · rcases not_mem_region h10 with h | h | h | h <;> simp only at h <;> [(right; left); left; (right; right; left); (right; right; right)] <;> linarith
  · rcases not_mem_region h5 with h | h | h | h <;> simp only at h <;> [(right; left); left; (right; right; left); (right; right; right)] <;> linarith
  · rcases not_mem_region h11 with h | h | h | h <;> simp only at h <;> [left; (right; left); (right; right; left); (right; right; right)] <;> linarith
  · rcases not_mem_region h12 with h | h | h | h <;> simp only at h <;> [left; (right; left); (right; right; left); (right; right; right)] <;> linarith

theorem ClearFacts.mirror {L h : ℝ} {p : ℝ × ℝ} (f : ClearFacts L h p) : ClearFacts L h (-p.1, p.2) := by
  constructor <;> simp only
  · rcases f.front2 with h | h | h | h <;> [left; (right; left); (right; right; left); (right; right; right)] <;> linarith
  · rcases f.back2 with h | h | h | h <;> [left; (right; left); (right; right; left); (right; right; right)] <;> linarith
  · rcases f.right with h | h | h | h <;> [left; (right; left); (right; right; left); (right; right; right)] <;> linarith
  · rcases f.up2 with h | h | h | h <;> [left; (right; left); (right; right; left); (right; right; right)] <;> linarith
  · rcases f.low2 with h | h | h | h <;> [left; (right; left); (right; right; left); (right; right; right)] <;> linarith
  · rcases f.front1 with h | h | h | h <;> [left; (right; left); (right; right; left); (right; right; right)] <;> linarith
  · rcases f.back1 with h | h | h | h <;> [left; (right; left); (right; right; left); (right; right; right)] <;> linarith
  · rcases f.left with h | h | h | h <;> [left; (right; left); (right; right; left); (right; right; right)] <;> linarith
  · rcases f.up1 with h | h | h | h <;> [left; (right; left); (right; right; left); (right; right; right)] <;> linarith
  · rcases f.low1 with h | h | h | h <;> [left; (right; left); (right; right; left); (right; right; right)] <;> linarith
  · rcases f.top with h | h | h | h <;> [(right; left); left; (right; right; left); (right; right; right)] <;> linarith
  · rcases f.bottom with h | h | h | h <;> [(right; left); left; (right; right; left); (right; right; right)] <;> linarith

theorem mirror_house {L h : ℝ} {p : ℝ × ℝ} (hp : (-p.1, p.2) ∈ house L h) : p ∈ house L h := by
  rcases hp with (⟨h1, h2, h3, h4⟩ | ⟨h1, h2, h3, h4⟩) | ⟨h1, h2, h3, h4⟩ <;> simp only at h1 h2 h3 h4
  · right; exact ⟨by linarith, by linarith, h3, h4⟩
  · left; right; exact ⟨by linarith, by linarith, h3, h4⟩
  · left; left; exact ⟨by linarith, by linarith, h3, h4⟩

/-- In the hallway the point is away from the hallway walls. -/
theorem hall_inside {L h : ℝ} {p : ℝ × ℝ} (f : ClearFacts L h p) (h1 : -3/2 ≤ p.1) (h2 : p.1 ≤ 3/2)
    (h3 : L/2 - h/2 - 1/20 ≤ p.2) (h4 : p.2 ≤ L/2 + h/2 + 1/20) : L/2 - h/2 + 1/20 < p.2 ∧ p.2 < L/2 + h/2 - 1/20 := by
  constructor
  · rcases f.bottom with h | h | h | h <;> linarith
  · rcases f.top with h | h | h | h <;> linarith

/-- A small step from the first room or the hallway stays in the house. -/
theorem step_left {L h : ℝ} {p q : ℝ × ℝ} (f : ClearFacts L h p) (g : ClearFacts L h q)
    (hp : p ∈ rectangle (-3 / 2 - L) (-3 / 2) 0 L) (hx : |q.1 - p.1| < 8/100) (hy : |q.2 - p.2| < 8/100) : q ∈ house L h := by
  obtain ⟨a1, a2, a3, a4⟩ := hp
  rw [abs_lt] at hx hy
  have b1 : 1/20 < p.2 := by rcases f.front1 with h | h | h | h <;> linarith
  have b2 : p.2 < L - 1/20 := by rcases f.back1 with h | h | h | h <;> linarith
  have b3 : -3/2 - L < p.1 := by rcases f.left with h | h | h | h <;> linarith
  have c : -3/2 - L < q.1 := by rcases g.left with h | h | h | h <;> linarith [hx.1, hx.2, hy.1, hy.2]
  by_cases c1 : q.1 ≤ -29/20
  · have d1 : 1/20 < q.2 := by rcases g.front1 with h | h | h | h <;> linarith [hx.1, hx.2, hy.1, hy.2]
    have d2 : q.2 < L - 1/20 := by rcases g.back1 with h | h | h | h <;> linarith [hx.1, hx.2, hy.1, hy.2]
    by_cases c2 : q.1 ≤ -3/2
    · left; left; exact ⟨by linarith, c2, by linarith, by linarith⟩
    · push Not at c2
      have e1 : q.2 < L/2 + h/2 - 1/20 := by rcases g.up1 with h | h | h | h <;> linarith
      have e2 : L/2 - h/2 + 1/20 < q.2 := by rcases g.low1 with h | h | h | h <;> linarith
      left; right; exact ⟨by linarith, by linarith, by linarith, by linarith⟩
  · push Not at c1
    have e1 : p.2 < L/2 + h/2 - 1/20 := by rcases f.up1 with h | h | h | h <;> linarith [hx.1, hx.2]
    have e2 : L/2 - h/2 + 1/20 < p.2 := by rcases f.low1 with h | h | h | h <;> linarith [hx.1, hx.2]
    have := hall_inside g (by linarith) (by linarith [hx.2]) (by linarith [hy.1]) (by linarith [hy.2])
    left; right; exact ⟨by linarith, by linarith [hx.2], by linarith [this.1], by linarith [this.2]⟩

theorem step_hall {L h : ℝ} (h2 : h ≤ L) {p q : ℝ × ℝ} (f : ClearFacts L h p) (g : ClearFacts L h q)
    (hp : p ∈ rectangle (-3 / 2) (3 / 2) (L / 2 - h / 2) (L / 2 + h / 2)) (hx : |q.1 - p.1| < 8/100) (hy : |q.2 - p.2| < 8/100)
    (hq : q.1 ≤ 3/2) : q ∈ house L h := by
  obtain ⟨a1, a2, a3, a4⟩ := hp
  rw [abs_lt] at hx hy
  obtain ⟨b1, b2⟩ := hall_inside f (by linarith) (by linarith) (by linarith) (by linarith)
  by_cases c1 : -3/2 ≤ q.1
  · have := hall_inside g c1 hq (by linarith [hy.1]) (by linarith [hy.2])
    left; right; exact ⟨by linarith, by linarith, by linarith [this.1], by linarith [this.2]⟩
  · push Not at c1
    have c : -3/2 - L < q.1 := by rcases g.left with h | h | h | h <;> linarith [hx.1, hx.2, hy.1, hy.2]
    have d1 : 1/20 < q.2 := by rcases g.front1 with h | h | h | h <;> linarith [hx.1, hx.2, hy.1, hy.2]
    have d2 : q.2 < L - 1/20 := by rcases g.back1 with h | h | h | h <;> linarith [hx.1, hx.2, hy.1, hy.2]
    left; left; exact ⟨by linarith, by linarith, by linarith, by linarith⟩

/-- A step of less than 0.08 in both coordinates between two points outside the walls does not leave the house. -/
theorem step_house {L h : ℝ} (h2 : h ≤ L) {p q : ℝ × ℝ} (hcp : Clear L h p) (hcq : Clear L h q)
    (hp : p ∈ house L h) (hx : |q.1 - p.1| < 8/100) (hy : |q.2 - p.2| < 8/100) : q ∈ house L h := by
  have f := clear_facts hcp
  have g := clear_facts hcq
  have mx : |-q.1 - -p.1| < 8/100 := by rwa [show -q.1 - -p.1 = -(q.1 - p.1) by ring, abs_neg]
  rcases hp with (hp | hp) | hp
  · exact step_left f g hp hx hy
  · by_cases hq : q.1 ≤ 3/2
    · exact step_hall h2 f g hp hx hy hq
    · apply mirror_house
      obtain ⟨a1, a2, a3, a4⟩ := hp
      exact step_hall (p := (-p.1, p.2)) (q := (-q.1, q.2)) h2 f.mirror g.mirror ⟨by simp only; linarith, by simp only; linarith, a3, a4⟩ mx hy
        (by simp only; linarith)
  · apply mirror_house
    obtain ⟨a1, a2, a3, a4⟩ := hp
    exact step_left (p := (-p.1, p.2)) (q := (-q.1, q.2)) f.mirror g.mirror ⟨by simp only; linarith, by simp only; linarith, a3, a4⟩ mx hy

end Verif.Hallway
