import Verif.Props.HallwaySampling
import Verif.Props.RoverExec
import Verif.Spec.HallwayExec

/-! Executing a plan of the turtlebot experiment in the hallway world: C122. -/

namespace Verif.Props

open Verif.Sat2D Verif.Spec Verif.Turtlebot Verif.Hallway Verif.Prm Verif.Net Verif.Strips Verif.Commands Verif.RoverExec

theorem near_left {L h : ℝ} {p z : ℝ × ℝ} (f : ClearFacts L h p) (hx : |z.1 - p.1| ≤ 4 / 100) (hy : |z.2 - p.2| ≤ 4 / 100)
    (hp : p ∈ rectangle (-3 / 2 - L) (-3 / 2) 0 L) (hz : -3 / 2 - L ≤ z.1) : z ∈ house L h := by
  obtain ⟨a1, a2, a3, a4⟩ := hp
  rw [abs_le] at hx hy
  have b1 : 1/20 < p.2 := by rcases f.front1 with h | h | h | h <;> linarith
  have b2 : p.2 < L - 1/20 := by rcases f.back1 with h | h | h | h <;> linarith
  by_cases c : z.1 ≤ -3 / 2
  · left; left; exact ⟨hz, c, by linarith [hy.1], by linarith [hy.2]⟩
  · push Not at c
    have e1 : p.2 < L/2 + h/2 - 1/20 := by rcases f.up1 with h | h | h | h <;> linarith [hx.1, hx.2]
    have e2 : L/2 - h/2 + 1/20 < p.2 := by rcases f.low1 with h | h | h | h <;> linarith [hx.1, hx.2]
    left; right; exact ⟨by linarith, by linarith [hx.2], by linarith [hy.1], by linarith [hy.2]⟩

theorem near_hall {L h : ℝ} (h0 : 0 ≤ L) (h2 : h ≤ L) {p z : ℝ × ℝ} (f : ClearFacts L h p) (hx : |z.1 - p.1| ≤ 4 / 100) (hy : |z.2 - p.2| ≤ 4 / 100)
    (hp : p ∈ rectangle (-3 / 2) (3 / 2) (L / 2 - h / 2) (L / 2 + h / 2)) (hz : -3 / 2 - L ≤ z.1) (hz' : z.1 ≤ 3 / 2 + L) : z ∈ house L h := by
  obtain ⟨a1, a2, a3, a4⟩ := hp
  rw [abs_le] at hx hy
  obtain ⟨b1, b2⟩ := hall_inside f (by linarith) (by linarith) (by linarith) (by linarith)
  by_cases c1 : z.1 < -3 / 2
  · left; left; exact ⟨hz, c1.le, by linarith [hy.1], by linarith [hy.2]⟩
  · by_cases c2 : 3 / 2 < z.1
    · right; exact ⟨c2.le, hz', by linarith [hy.1], by linarith [hy.2]⟩
    · left; right; exact ⟨by linarith, by linarith, by linarith [hy.1], by linarith [hy.2]⟩

/-- Beside a point of the house outside the walls one does not leave the house. -/
theorem near_house {L h : ℝ} (h0 : 0 ≤ L) (h2 : h ≤ L) {p z : ℝ × ℝ} (hc : Clear L h p) (hx : |z.1 - p.1| ≤ 4 / 100) (hy : |z.2 - p.2| ≤ 4 / 100)
    (hp : p ∈ house L h) (hz : -3 / 2 - L ≤ z.1) (hz' : z.1 ≤ 3 / 2 + L) : z ∈ house L h := by
  have f := clear_facts hc
  rcases hp with (hp | hp) | hp
  · exact near_left f hx hy hp hz
  · exact near_hall h0 h2 f hx hy hp hz hz'
  · apply mirror_house
    obtain ⟨a1, a2, a3, a4⟩ := hp
    exact near_left (p := (-p.1, p.2)) (z := (-z.1, z.2)) f.mirror (by simp only; rwa [show -z.1 - -p.1 = -(z.1 - p.1) by ring, abs_neg]) hy
      ⟨by simp only; linarith, by simp only; linarith, a3, a4⟩ (by simp only; linarith)

theorem house_near_left {L h : ℝ} {p z : ℝ × ℝ} (f : ClearFacts L h p) (hx : |z.1 - p.1| ≤ 4 / 100) (hy : |z.2 - p.2| ≤ 4 / 100)
    (hz : z ∈ rectangle (-3 / 2 - L) (-3 / 2) 0 L) : p ∈ house L h := by
  obtain ⟨a1, a2, a3, a4⟩ := hz
  rw [abs_le] at hx hy
  have b0 : -3 / 2 - L < p.1 := by rcases f.left with h | h | h | h <;> linarith [hx.1, hx.2, hy.1, hy.2]
  have b1 : 1/20 < p.2 := by rcases f.front1 with h | h | h | h <;> linarith [hx.1, hx.2, hy.1, hy.2]
  have b2 : p.2 < L - 1/20 := by rcases f.back1 with h | h | h | h <;> linarith [hx.1, hx.2, hy.1, hy.2]
  by_cases c : p.1 ≤ -3 / 2
  · left; left; exact ⟨b0.le, c, by linarith, by linarith⟩
  · push Not at c
    have e1 : p.2 < L/2 + h/2 - 1/20 := by rcases f.up1 with h | h | h | h <;> linarith [hx.1, hx.2]
    have e2 : L/2 - h/2 + 1/20 < p.2 := by rcases f.low1 with h | h | h | h <;> linarith [hx.1, hx.2]
    left; right; exact ⟨by linarith, by linarith [hx.1], by linarith, by linarith⟩

theorem house_near_hall {L h : ℝ} (h0 : 1 / 20 ≤ L) (h2 : h ≤ L) {p z : ℝ × ℝ} (f : ClearFacts L h p) (hx : |z.1 - p.1| ≤ 4 / 100) (hy : |z.2 - p.2| ≤ 4 / 100)
    (hz : z ∈ rectangle (-3 / 2) (3 / 2) (L / 2 - h / 2) (L / 2 + h / 2)) (hp : p.1 ≤ 3 / 2) : p ∈ house L h := by
  obtain ⟨a1, a2, a3, a4⟩ := hz
  rw [abs_le] at hx hy
  by_cases c : -3 / 2 ≤ p.1
  · obtain ⟨b1, b2⟩ := hall_inside f c hp (by linarith [hy.2]) (by linarith [hy.1])
    left; right; exact ⟨c, hp, by linarith, by linarith⟩
  · push Not at c
    have e1 : p.2 < L/2 + h/2 - 1/20 := by rcases f.up1 with h | h | h | h <;> linarith [hx.1, hx.2, hy.1, hy.2]
    have e2 : L/2 - h/2 + 1/20 < p.2 := by rcases f.low1 with h | h | h | h <;> linarith [hx.1, hx.2, hy.1, hy.2]
    left; left; exact ⟨by linarith [hx.2], c.le, by linarith, by linarith⟩

/-- A point outside the walls beside a point of the house is in the house. -/
theorem house_near {L h : ℝ} (h0 : 1 / 20 ≤ L) (h2 : h ≤ L) {p z : ℝ × ℝ} (hc : Clear L h p) (hx : |z.1 - p.1| ≤ 4 / 100) (hy : |z.2 - p.2| ≤ 4 / 100)
    (hz : z ∈ house L h) : p ∈ house L h := by
  have f := clear_facts hc
  have mx : |-z.1 - -p.1| ≤ 4 / 100 := by rwa [show -z.1 - -p.1 = -(z.1 - p.1) by ring, abs_neg]
  rcases hz with (hz | hz) | hz
  · exact house_near_left f hx hy hz
  · by_cases hp : p.1 ≤ 3 / 2
    · exact house_near_hall h0 h2 f hx hy hz hp
    · apply mirror_house
      obtain ⟨a1, a2, a3, a4⟩ := hz
      exact house_near_hall (p := (-p.1, p.2)) (z := (-z.1, z.2)) h0 h2 f.mirror mx hy ⟨by simp only; linarith, by simp only; linarith, a3, a4⟩
        (by simp only; linarith)
  · apply mirror_house
    obtain ⟨a1, a2, a3, a4⟩ := hz
    exact house_near_left (p := (-p.1, p.2)) (z := (-z.1, z.2)) f.mirror mx hy ⟨by simp only; linarith, by simp only; linarith, a3, a4⟩

/-- The checked poses of an accepted motion. -/
theorem accepted_grid {robot : List (ℝ × ℝ)} (hrob : Footprint robot) {obs : List Box} (hobs : ∀ o ∈ obs, 0 < o.w ∧ 0 < o.l) {p q : ℝ × ℝ}
    (h : Accepted robot (obs.map Box.corners) p q) : ∃ n : ℕ, 0 < n ∧ |q.1 - p.1| < 8 / 100 * n ∧ |q.2 - p.2| < 8 / 100 * n ∧
      ∀ k ≤ n, FreeAt obs (polygonHull robot) (p.1 + k / n * (q.1 - p.1), p.2 + k / n * (q.2 - p.2)) := by
  obtain ⟨motions, rs, i, h1, h2, h3⟩ := h
  have hm : motions ≠ [] := by rintro rfl; simp at h2
  obtain ⟨N, rs', hN, e, -, hall⟩ := C53_motion_poses_partial robot (obs.map Box.corners) motions ⟨hrob.1, hrob.2.1⟩ (by
    intro o ho
    obtain ⟨b, hb, rfl⟩ := List.mem_map.1 ho
    obtain ⟨w, l⟩ := hobs b hb
    refine ⟨by rw [hrob.2.2.1]; rfl, rect_convex _ _ _ _ (by linarith) (by linarith), rect_proper _ _ _ _ (by linarith) (by linarith)⟩) hm
  rw [h1] at e
  injection e with e
  subst e
  obtain ⟨a1, a2, -, -⟩ := hall i _ h2
  rw [a1] at h3
  obtain ⟨n, rfl⟩ : ∃ n, N = n + 1 := ⟨N - 1, by omega⟩
  have hn : 0 < n := by omega
  have hn' : (0 : ℝ) < n := by exact_mod_cast hn
  have ec : ((n + 1 : ℕ) : ℝ) - 1 = n := by push_cast; ring
  rw [ec] at h3 a2
  refine ⟨n, hn, ?_, ?_, ?_⟩
  · have := (a2 0).1
    simp only [poseAt, Nat.cast_zero, zero_div, zero_add, Nat.cast_one] at this
    rw [show p.1 + 1 / (n : ℝ) * (q.1 - p.1) - (p.1 + 0 * (q.1 - p.1)) = (q.1 - p.1) / n by ring, abs_div, abs_of_pos hn', div_lt_iff₀ hn'] at this
    linarith
  · have := (a2 0).2
    simp only [poseAt, Nat.cast_zero, zero_div, zero_add, Nat.cast_one] at this
    rw [show p.2 + 1 / (n : ℝ) * (q.2 - p.2) - (p.2 + 0 * (q.2 - p.2)) = (q.2 - p.2) / n by ring, abs_div, abs_of_pos hn', div_lt_iff₀ hn'] at this
    linarith
  · intro k hk o ho v hv hin
    refine h3 k (by omega) o.corners (List.mem_map.2 ⟨o, ho, rfl⟩) ⟨_, placed_hull_mem robot _ v hv, ?_⟩
    rw [region_eq_hull o (hobs o ho).1.le (hobs o ho).2.le]
    exact hin

/-- Every point of an accepted motion is beside a checked pose. -/
theorem grid_near {n : ℕ} (hn : 0 < n) {a b : ℝ} (h : |b - a| < 8 / 100 * n) {t : ℝ} {k : ℕ} (hk : |t * n - k| ≤ 1 / 2) :
    |a + t * (b - a) - (a + k / n * (b - a))| ≤ 4 / 100 := by
  have hn' : (0 : ℝ) < n := by exact_mod_cast hn
  have e : a + t * (b - a) - (a + k / n * (b - a)) = (t * n - k) * ((b - a) / n) := by field_simp; ring
  have h2 : |(b - a) / n| ≤ 8 / 100 := by rw [abs_div, abs_of_pos hn', div_le_iff₀ hn']; exact h.le
  rw [e, abs_mul]
  calc |t * n - k| * |(b - a) / n| ≤ 1 / 2 * (8 / 100) := mul_le_mul hk h2 (abs_nonneg _) (by norm_num)
    _ = 4 / 100 := by norm_num

theorem round_near {n : ℕ} {t : ℝ} (h0 : 0 ≤ t) (h1 : t ≤ 1) : ∃ k ≤ n, |t * n - k| ≤ 1 / 2 := by
  have hs : 0 ≤ t * n + 1 / 2 := by positivity
  refine ⟨⌊t * n + 1 / 2⌋₊, ?_, ?_⟩
  · have h2 : t * n ≤ n := mul_le_of_le_one_left (Nat.cast_nonneg n) h1
    have : t * n + 1 / 2 < ((n + 1 : ℕ) : ℝ) := by push_cast; linarith
    have := (Nat.floor_lt hs).2 this
    omega
  · have a := Nat.floor_le hs
    have b := Nat.lt_floor_add_one (t * n + 1 / 2)
    rw [abs_le]; constructor <;> linarith

/-- The points of an accepted motion: all in the house or none of them, and each is beside a free pose. -/
theorem accepted_house {L h : ℝ} (h0 : 1 / 20 ≤ L) (h2 : h ≤ L) {robot : List (ℝ × ℝ)} (hrob : Footprint robot) {p q : ℝ × ℝ}
    (hacc : Accepted robot ((rooms L h).map Box.corners) p q) {z : ℝ × ℝ} (hz : z ∈ segment ℝ p q) :
    (z ∈ house L h ↔ p ∈ house L h) ∧
      ∃ y, FreeAt (rooms L h) (polygonHull robot) y ∧ |z.1 - y.1| ≤ 4 / 100 ∧ |z.2 - y.2| ≤ 4 / 100 ∧ (p ∈ house L h → y ∈ house L h) := by
  have hL : 0 ≤ L := by linarith
  obtain ⟨n, hn, s1, s2, hf⟩ := accepted_grid hrob (rooms_sizes hL h2) hacc
  have hn' : (0 : ℝ) < n := by exact_mod_cast hn
  set x : ℕ → ℝ × ℝ := fun k => (p.1 + k / n * (q.1 - p.1), p.2 + k / n * (q.2 - p.2)) with hx
  have hfree : ∀ k ≤ n, FreeAt (rooms L h) (polygonHull robot) (x k) := hf
  have hclear : ∀ k ≤ n, Clear L h (x k) := fun k hk => clear_of_free hrob.2.2.2 (hfree k hk)
  have x0 : x 0 = p := by simp [hx]
  have xn : x n = q := by
    have : (n : ℝ) ≠ 0 := hn'.ne'
    ext <;> simp [hx, this]
  have step : ∀ k, |(x (k + 1)).1 - (x k).1| < 8 / 100 ∧ |(x (k + 1)).2 - (x k).2| < 8 / 100 := by
    intro k
    constructor
    · rw [show (x (k + 1)).1 - (x k).1 = (q.1 - p.1) / n by simp only [hx]; push_cast; ring, abs_div, abs_of_pos hn', div_lt_iff₀ hn']
      exact s1
    · rw [show (x (k + 1)).2 - (x k).2 = (q.2 - p.2) / n by simp only [hx]; push_cast; ring, abs_div, abs_of_pos hn', div_lt_iff₀ hn']
      exact s2
  have all : ∀ k ≤ n, (x k ∈ house L h ↔ p ∈ house L h) := by
    intro k
    induction k with
    | zero => intro _; rw [x0]
    | succ k ih =>
      intro hk
      rw [← ih (by omega)]
      constructor
      · intro hh
        exact step_house h2 (hclear _ hk) (hclear k (by omega)) hh (by rw [abs_sub_comm]; exact (step k).1) (by rw [abs_sub_comm]; exact (step k).2)
      · intro hh
        exact step_house h2 (hclear k (by omega)) (hclear _ hk) hh (step k).1 (step k).2
  obtain ⟨t, ⟨t0, t1⟩, rfl⟩ : ∃ t ∈ Set.Icc (0 : ℝ) 1, (p.1 + t * (q.1 - p.1), p.2 + t * (q.2 - p.2)) = z := by
    rw [segment_eq_image] at hz
    obtain ⟨t, ht, rfl⟩ := hz
    exact ⟨t, ht, by ext <;> simp <;> ring⟩
  obtain ⟨k, hk, hk2⟩ := round_near (n := n) t0 t1
  have n1 : |p.1 + t * (q.1 - p.1) - (x k).1| ≤ 4 / 100 := grid_near hn s1 hk2
  have n2 : |p.2 + t * (q.2 - p.2) - (x k).2| ≤ 4 / 100 := grid_near hn s2 hk2
  refine ⟨⟨fun hh => (all k hk).1 (house_near h0 h2 (hclear k hk) n1 n2 hh), fun hh => ?_⟩, x k, hfree k hk, n1, n2, fun hh => (all k hk).2 hh⟩
  have wide : ∀ y ∈ house L h, -3 / 2 - L ≤ y.1 ∧ y.1 ≤ 3 / 2 + L := by
    rintro y ((⟨a1, a2, -, -⟩ | ⟨a1, a2, -, -⟩) | ⟨a1, a2, -, -⟩) <;> constructor <;> linarith
  have w1 := wide p hh
  have w2 := wide q (xn ▸ (all n le_rfl).2 hh)
  exact near_house hL h2 (hclear k hk) n1 n2 ((all k hk).2 hh) (by simp only; nlinarith) (by simp only; nlinarith)

theorem segment_plane {a b x : Space 2} (h : x ∈ segment ℝ a b) : (x 0, x 1) ∈ segment ℝ ((a 0, a 1) : ℝ × ℝ) (b 0, b 1) := by
  obtain ⟨s, t, hs, ht, hst, rfl⟩ := h
  exact ⟨s, t, hs, ht, hst, by simp⟩

/-- The same for a movement that is part of an accepted motion. -/
theorem covered_house {L h : ℝ} (h0 : 1 / 20 ≤ L) (h2 : h ≤ L) {robot : List (ℝ × ℝ)} (hrob : Footprint robot) {w : World (Space 2) ℝ}
    (hw : TurtleChecked w robot ((rooms L h).map Box.corners)) {p q : Space 2} (hc : Covered w p q) :
    ∃ a : ℝ × ℝ, ∀ x ∈ segment ℝ p q, ((x 0, x 1) ∈ house L h ↔ a ∈ house L h) ∧
      ∃ y, FreeAt (rooms L h) (polygonHull robot) y ∧ |x 0 - y.1| ≤ 4 / 100 ∧ |x 1 - y.2| ≤ 4 / 100 ∧ (a ∈ house L h → y ∈ house L h) := by
  obtain ⟨a, b, hab, hsub⟩ := hc
  rcases hab with hab | hab
  · exact ⟨(a 0, a 1), fun x hx => accepted_house h0 h2 hrob (hw.check a b hab) (segment_plane (hsub hx))⟩
  · exact ⟨(b 0, b 1), fun x hx => accepted_house h0 h2 hrob (hw.check b a hab) (segment_plane (segment_symm ℝ a b ▸ hsub hx))⟩

variable {α : Type} [DecidableEq α]

theorem joined_inside {S : Set (Space 2)} : ∀ {legs : List (Leg α (Space 2))} {p q : Space 2}, Joined p legs q → p ∈ S →
    (∀ leg ∈ legs, leg.before.rover ∈ S → segment ℝ leg.before.rover leg.stop ⊆ S) → q ∈ S ∧ ∀ leg ∈ legs, segment ℝ leg.before.rover leg.stop ⊆ S
  | [], p, q, hj, hp, _ => ⟨(show q = p from hj) ▸ hp, by simp⟩
  | l :: legs, p, q, hj, hp, h => by
    have hl := h l (by simp) (hj.1 ▸ hp)
    obtain ⟨h1, h2⟩ := joined_inside hj.2 (hl (right_mem_segment ℝ _ _)) fun leg hm => h leg (List.mem_cons_of_mem _ hm)
    exact ⟨h1, List.forall_mem_cons.2 ⟨hl, h2⟩⟩

/-- An object that is only moved inside of `S` stays in `S`. -/
theorem drive_object {S : Set (Space 2)} {o : α} : ∀ (l : List (Space 2)) (s : Sim α (Space 2)), s.obj o ∈ S →
    (∀ leg ∈ (drive s l).1, leg.before.held = some o → leg.before.obj o = leg.before.rover ∧ (leg.before.rover ∈ S → leg.stop ∈ S)) →
    (drive s l).2.obj o ∈ S ∧ ∀ leg ∈ (drive s l).1, leg.before.obj o ∈ S
  | [], s, hs, _ => ⟨hs, by simp [drive]⟩
  | p :: l, s, hs, h => by
    have h1 := h ⟨s, p⟩ (by simp [drive])
    have h2 : (s.moveTo p).obj o ∈ S := by
      by_cases hh : s.held = some o
      · obtain ⟨e, hm⟩ := h1 hh
        simp only at e hm
        have : (s.moveTo p).obj o = p := by simp [Sim.moveTo, hh, e]
        rw [this]
        exact hm (e ▸ hs)
      · simpa [Sim.moveTo, hh] using hs
    obtain ⟨h3, h4⟩ := drive_object l (s.moveTo p) h2 fun leg hm => h leg (by simp [drive, hm])
    exact ⟨h3, by simpa [drive] using ⟨hs, h4⟩⟩

theorem execute_object {S : Set (Space 2)} {o : α} (val : Values α (Space 2)) : ∀ (l : List (RoverCommand α)) (s : Sim α (Space 2)), s.obj o ∈ S →
    (∀ leg ∈ (execute val s l).1, leg.before.held = some o → leg.before.obj o = leg.before.rover ∧ (leg.before.rover ∈ S → leg.stop ∈ S)) →
    (execute val s l).2.obj o ∈ S ∧ ∀ leg ∈ (execute val s l).1, leg.before.obj o ∈ S
  | [], s, hs, _ => ⟨hs, by simp [execute]⟩
  | c :: l, s, hs, h => by
    have h1 : (command val s c).2.obj o ∈ S ∧ ∀ leg ∈ (command val s c).1, leg.before.obj o ∈ S := by
      cases c with
      | motion t => exact drive_object _ _ hs fun leg hm => h leg (by simp only [execute, command, List.mem_append]; exact Or.inl hm)
      | attach _ _ => exact ⟨hs, by simp [command]⟩
      | detach _ _ => exact ⟨hs, by simp [command]⟩
    obtain ⟨h3, h4⟩ := execute_object val l (command val s c).2 h1.1 fun leg hm => h leg (by simp only [execute, List.mem_append]; exact Or.inr hm)
    refine ⟨h3, fun leg hm => ?_⟩
    simp only [execute, List.mem_append] at hm
    rcases hm with hm | hm
    · exact h1.2 leg hm
    · exact h4 leg hm

theorem stays_of_backed
    {scale dd : ℝ} {num : ℕ} {u : ℕ → ℝ} {P : Problem} (hP : hallwayManip scale dd num u = .ok P) (hgap : P.gap ≤ 7 / 5)
    (shape : Option α → List (ℝ × ℝ)) (hshape : ∀ o, Footprint (shape o))
    (w : Option α → World (Space 2) ℝ) (hw : ∀ o, TurtleChecked (w o) (shape o) (P.obstacles.map Box.corners))
    (p : RoverProblem α) (hn : p.targets.Nodup) (hl : p.targets.length ≤ p.initPoses.length ∧ p.targets.length ≤ p.goalPoses.length)
    (val : Values α (Space 2)) (certified : Set (RoverFact α)) (hc : ∀ f ∈ certified, Backed w val f)
    (plan : List (RoverAction α)) (s : Set (RoverFact α)) (h : Executes RoverAction.op (p.start certified) plan s) (hg : ∀ f ∈ p.goal, f ∈ s)
    (sim : Sim α (Space 2)) (hi : sim.Initial p val) (h0 : (sim.rover 0, sim.rover 1) ∈ house (3 / 2) (P.gap + 1 / 10)) :
    ∃ commands, postProcess (some (plan.map roverItem)) = .ok (some commands) ∧
      (∀ leg ∈ (execute val sim commands).1, ∀ x ∈ segment ℝ leg.before.rover leg.stop, (x 0, x 1) ∈ house (3 / 2) (P.gap + 1 / 10) ∧
        ∃ y, FreeAt P.obstacles (polygonHull (shape leg.before.held)) y ∧ |x 0 - y.1| ≤ 4 / 100 ∧ |x 1 - y.2| ≤ 4 / 100) ∧
      ∀ o, (sim.obj o 0, sim.obj o 1) ∈ house (3 / 2) (P.gap + 1 / 10) →
        (∀ leg ∈ (execute val sim commands).1, (leg.before.obj o 0, leg.before.obj o 1) ∈ house (3 / 2) (P.gap + 1 / 10)) ∧
        ((execute val sim commands).2.obj o 0, (execute val sim commands).2.obj o 1) ∈ house (3 / 2) (P.gap + 1 / 10) := by
  obtain ⟨commands, hpost, -, -, hj, hlegs, -⟩ := executed_of_backed p hn hl val w certified hc plan s h hg sim hi
  obtain ⟨-, -, -, ho, -⟩ := manip_eq hP
  rw [ho] at hw ⊢
  have hcov : ∀ leg ∈ (execute val sim commands).1, ∃ a : ℝ × ℝ, ∀ x ∈ segment ℝ leg.before.rover leg.stop, ((x 0, x 1) ∈ house (3 / 2) (P.gap + 1 / 10) ↔ a ∈ house (3 / 2) (P.gap + 1 / 10)) ∧
      ∃ y, FreeAt (rooms (3 / 2) (P.gap + 1 / 10)) (polygonHull (shape leg.before.held)) y ∧ |x 0 - y.1| ≤ 4 / 100 ∧ |x 1 - y.2| ≤ 4 / 100 ∧
        (a ∈ house (3 / 2) (P.gap + 1 / 10) → y ∈ house (3 / 2) (P.gap + 1 / 10)) :=
    fun leg hm => covered_house (by norm_num) (by linarith) (hshape _) (hw _) (hlegs leg hm).1
  set S : Set (Space 2) := {x | (x 0, x 1) ∈ house (3 / 2) (P.gap + 1 / 10)} with hS
  have hin : ∀ leg ∈ (execute val sim commands).1, leg.before.rover ∈ S → segment ℝ leg.before.rover leg.stop ⊆ S := by
    intro leg hm hb x hx
    obtain ⟨a, ha⟩ := hcov leg hm
    exact (ha x hx).1.2 ((ha _ (left_mem_segment ℝ _ _)).1.1 hb)
  obtain ⟨-, hall⟩ := joined_inside hj (S := S) (hi.1 ▸ h0) hin
  refine ⟨commands, hpost, ?_, ?_⟩
  · intro leg hm x hx
    obtain ⟨a, ha⟩ := hcov leg hm
    obtain ⟨-, y, y1, y2, y3, -⟩ := ha x hx
    exact ⟨hall leg hm hx, y, y1, y2, y3⟩
  · intro o hob
    obtain ⟨e1, e2⟩ := execute_object (S := S) (o := o) val commands sim hob fun leg hm hh =>
      ⟨((hlegs leg hm).2.1 o hh).2, fun _ => hall leg hm (right_mem_segment ℝ _ _)⟩
    exact ⟨e2, e1⟩

/-- C122: executing an executable plan of the hallway task never leaves the two rooms and the hallway. While the rover drives, at each moment it is at most 0.04 in each coordinate away from a position where the moved shape
(that of the held target, or the rover's) touches no wall. The targets, too, stay in the house. -/
theorem C122_stays {F : Type} [Field F] [LinearOrder F] [IsStrictOrderedRing F] [FloorSemiring F]
    {scale dd : ℝ} {num : ℕ} {u : ℕ → ℝ} {P : Problem} (hP : hallwayManip scale dd num u = .ok P) (hgap : P.gap ≤ 7 / 5)
    (shape : Option α → List (ℝ × ℝ)) (hshape : ∀ o, Footprint (shape o))
    (w : Option α → World (Space 2) ℝ) (hw : ∀ o, TurtleChecked (w o) (shape o) (P.obstacles.map Box.corners))
    (p : RoverProblem α) (hn : p.targets.Nodup) (hl : p.targets.length ≤ p.initPoses.length ∧ p.targets.length ≤ p.goalPoses.length)
    (val : Values α (Space 2)) (opt : Options F) (certified : Set (RoverFact α)) (hc : ∀ f ∈ certified, Streamed w opt val f)
    (plan : List (RoverAction α)) (s : Set (RoverFact α)) (h : Executes RoverAction.op (p.start certified) plan s) (hg : ∀ f ∈ p.goal, f ∈ s)
    (sim : Sim α (Space 2)) (hi : sim.Initial p val) (h0 : (sim.rover 0, sim.rover 1) ∈ house (3 / 2) (P.gap + 1 / 10)) :
    ∃ commands, postProcess (some (plan.map roverItem)) = .ok (some commands) ∧
      (∀ leg ∈ (execute val sim commands).1, ∀ x ∈ segment ℝ leg.before.rover leg.stop, (x 0, x 1) ∈ house (3 / 2) (P.gap + 1 / 10) ∧
        ∃ y, FreeAt P.obstacles (polygonHull (shape leg.before.held)) y ∧ |x 0 - y.1| ≤ 4 / 100 ∧ |x 1 - y.2| ≤ 4 / 100) ∧
      ∀ o, (sim.obj o 0, sim.obj o 1) ∈ house (3 / 2) (P.gap + 1 / 10) →
        (∀ leg ∈ (execute val sim commands).1, (leg.before.obj o 0, leg.before.obj o 1) ∈ house (3 / 2) (P.gap + 1 / 10)) ∧
        ((execute val sim commands).2.obj o 0, (execute val sim commands).2.obj o 1) ∈ house (3 / 2) (P.gap + 1 / 10) :=
  stays_of_backed hP hgap shape hshape w hw p hn hl val certified (fun f hf => streamed_backed (fun o => (hw o).sound) (hc f hf)) plan s h hg sim hi h0

theorem rect_hull {a b : ℝ} (ha : 0 < a) (hb : 0 < b) : polygonHull (rect (-a) (-b) a b) = block a b := by
  have := region_eq_hull ⟨0, 0, 2 * a, 2 * b⟩ (by simp only; linarith) (by simp only; linarith)
  unfold Box.corners Box.region at this
  simp only [zero_sub, zero_add, sub_zero, mul_div_cancel_left₀ _ (two_ne_zero : (2 : ℝ) ≠ 0)] at this
  exact this

theorem rect_footprint {a b : ℝ} (ha : 0 < a) (hb : 0 < b) : Footprint (rect (-a) (-b) a b) :=
  ⟨rect_convex _ _ _ _ (by linarith) (by linarith), rect_proper _ _ _ _ (by linarith) (by linarith), rfl, by rw [rect_hull ha hb]; exact block_zero ha.le hb.le⟩

/-- Between two points on different sides there is one on the middle line. -/
theorem crossing {p q : Space 2} (h : p 0 * q 0 ≤ 0) : ∃ x ∈ segment ℝ p q, x 0 = 0 := by
  by_cases hp : p 0 = 0
  · exact ⟨p, left_mem_segment ℝ _ _, hp⟩
  · have hne : p 0 - q 0 ≠ 0 := by
      intro e
      have : q 0 = p 0 := by linarith
      rw [this] at h
      exact hp (by nlinarith [sq_nonneg (p 0)])
    have key : 0 ≤ -q 0 / (p 0 - q 0) ∧ 0 ≤ p 0 / (p 0 - q 0) := by
      rcases lt_or_gt_of_ne hp with hp | hp
      · have : 0 ≤ q 0 := by nlinarith
        exact ⟨div_nonneg_of_nonpos (by linarith) (by linarith), div_nonneg_of_nonpos (by linarith) (by linarith)⟩
      · have : q 0 ≤ 0 := by nlinarith
        exact ⟨div_nonneg (by linarith) (by linarith), div_nonneg (by linarith) (by linarith)⟩
    refine ⟨_, ⟨_, _, key.1, key.2, ?_, rfl⟩, ?_⟩
    · field_simp
      ring
    · simp only [PiLp.add_apply, PiLp.smul_apply, smul_eq_mul]
      field_simp
      ring

omit [DecidableEq α] in
theorem initial_exists (p : RoverProblem α) (hn : p.targets.Nodup)
    (hl : p.targets.length ≤ p.initPoses.length ∧ p.targets.length ≤ p.goalPoses.length) (val : Values α (Space 2)) : ∃ sim : Sim α (Space 2), sim.Initial p val := by
  classical
  have hrow : (p.rows.map Prod.fst).Nodup := by
    unfold RoverProblem.rows
    rwa [List.map_fst_zip (by rw [List.length_zip]; exact le_min hl.1 hl.2)]
  refine ⟨⟨val.conf p.initConf, fun o => if h : ∃ r ∈ p.rows, r.1 = o then val.pose h.choose.2.1 else 0, none⟩, rfl, rfl, ?_⟩
  intro r hr
  have hex : ∃ r' ∈ p.rows, r'.1 = r.1 := ⟨r, hr, rfl⟩
  simp only [hex, dif_pos]
  rw [List.inj_on_of_nodup_map hrow hex.choose_spec.1 hr hex.choose_spec.2]

theorem unsolvable_of_backed
    {scale dd : ℝ} {num : ℕ} {u : ℕ → ℝ} {P : Problem} (hP : hallwayManip scale dd num u = .ok P) (hgap : P.gap ≤ 7 / 5)
    {a b : ℝ} (ha : 0 < a) (hb : 0 < b) (hb2 : P.gap ≤ 2 * b)
    (p : RoverProblem α) (hn : p.targets.Nodup) (hl : p.targets.length ≤ p.initPoses.length ∧ p.targets.length ≤ p.goalPoses.length)
    {o x y : α} {i : ℕ} (ho : p.targets[i]? = some o) (hx : p.initPoses[i]? = some x) (hy : p.goalPoses[i]? = some y)
    (w : Option α → World (Space 2) ℝ) (hwo : TurtleChecked (w (some o)) (rect (-a) (-b) a b) (P.obstacles.map Box.corners))
    (val : Values α (Space 2)) (certified : Set (RoverFact α)) (hc : ∀ f ∈ certified, Backed w val f)
    (hstart : (val.pose x 0, val.pose x 1) ∈ house (3 / 2) (P.gap + 1 / 10)) (hsides : val.pose x 0 * val.pose y 0 < 0) :
    ¬ ∃ (plan : List (RoverAction α)) (s : Set (RoverFact α)), Executes RoverAction.op (p.start certified) plan s ∧ ∀ f ∈ p.goal, f ∈ s := by
  rintro ⟨plan, s, h, hg⟩
  obtain ⟨sim, hi⟩ := initial_exists p hn hl val
  obtain ⟨commands, -, hgoal, -, -, hlegs, -⟩ := executed_of_backed p hn hl val w certified hc plan s h hg sim hi
  obtain ⟨-, -, -, hobs, -⟩ := manip_eq hP
  rw [hobs] at hwo
  have hini : sim.obj o = val.pose x := hi.2.2 (o, x, y) (List.mem_of_getElem? (i := i) (by simp [RoverProblem.rows, List.getElem?_zip_eq_some, ho, hx, hy]))
  have := execute_object (S := {z | (z 0, z 1) ∈ house (3 / 2) (P.gap + 1 / 10) ∧ 0 < val.pose x 0 * z 0}) (o := o) val commands sim
    ⟨by rw [hini]; exact hstart, by rw [hini]; exact mul_self_pos.2 fun e => by rw [e] at hsides; simp at hsides⟩ (by
      intro leg hm hh
      obtain ⟨hcov, hload, -⟩ := hlegs leg hm
      refine ⟨(hload o hh).2, ?_⟩
      rintro ⟨k1, k2⟩
      rw [hh] at hcov
      obtain ⟨c, hall⟩ := covered_house (by norm_num) (by linarith) (rect_footprint ha hb) hwo hcov
      have hcin := (hall _ (left_mem_segment ℝ _ _)).1.1 k1
      refine ⟨(hall _ (right_mem_segment ℝ _ _)).1.2 hcin, ?_⟩
      by_contra hneg
      obtain ⟨z, hz, hz0⟩ := crossing (p := leg.before.rover) (q := leg.stop) (by
        push Not at hneg
        by_contra hc'
        push Not at hc'
        nlinarith [mul_pos k2 hc', mul_nonneg (sq_nonneg (leg.before.rover 0)) (neg_nonneg.2 hneg)])
      obtain ⟨-, v, v1, v2, -, v4⟩ := hall z hz
      rw [rect_hull ha hb] at v1
      rw [hz0, zero_sub, abs_neg] at v2
      have := mid_free (by norm_num) (by linarith) ha.le hb.le v1 (by linarith) (v4 hcin)
      linarith [abs_nonneg (v.2 - 3 / 2 / 2)])
  have h1 := this.1.2
  rw [hgoal i o y ho hy] at h1
  linarith

/-- C122: if a target is a box at least as high as the gap and has to go to the other side of the hallway, no plan with motions from the streams solves the task. -/
theorem C122_unsolvable {F : Type} [Field F] [LinearOrder F] [IsStrictOrderedRing F] [FloorSemiring F]
    {scale dd : ℝ} {num : ℕ} {u : ℕ → ℝ} {P : Problem} (hP : hallwayManip scale dd num u = .ok P) (hgap : P.gap ≤ 7 / 5)
    {a b : ℝ} (ha : 0 < a) (hb : 0 < b) (hb2 : P.gap ≤ 2 * b)
    (p : RoverProblem α) (hn : p.targets.Nodup) (hl : p.targets.length ≤ p.initPoses.length ∧ p.targets.length ≤ p.goalPoses.length)
    {o x y : α} {i : ℕ} (ho : p.targets[i]? = some o) (hx : p.initPoses[i]? = some x) (hy : p.goalPoses[i]? = some y)
    (w : Option α → World (Space 2) ℝ) (hw : ∀ o, (w o).Sound) (hwo : TurtleChecked (w (some o)) (rect (-a) (-b) a b) (P.obstacles.map Box.corners))
    (val : Values α (Space 2)) (opt : Options F) (certified : Set (RoverFact α)) (hc : ∀ f ∈ certified, Streamed w opt val f)
    (hstart : (val.pose x 0, val.pose x 1) ∈ house (3 / 2) (P.gap + 1 / 10)) (hsides : val.pose x 0 * val.pose y 0 < 0) :
    ¬ ∃ (plan : List (RoverAction α)) (s : Set (RoverFact α)), Executes RoverAction.op (p.start certified) plan s ∧ ∀ f ∈ p.goal, f ∈ s :=
  unsolvable_of_backed hP hgap ha hb hb2 p hn hl ho hx hy w hwo val certified (fun f hf => streamed_backed hw (hc f hf)) hstart hsides

/-- C122, for the option `--delta`: when the bounding box of the largest target has half-width `a`, no plan solves the task if `delta ≤ 2 * (a - radius)`. In particular this is so for `delta ≤ 0`, since the box contains the target. -/
theorem C122_delta {F : Type} [Field F] [LinearOrder F] [IsStrictOrderedRing F] [FloorSemiring F]
    {scale dd : ℝ} {num : ℕ} {u : ℕ → ℝ} (hu : ∀ i, 0 ≤ u i ∧ u i < 1) {P : Problem} (hP : hallwayManip scale dd num u = .ok P) (hgap : P.gap ≤ 7 / 5)
    {r a : ℝ} (hr : P.sizes.head? = some r) (ha : 0 < a) (hdd : dd ≤ 2 * (a - r))
    (p : RoverProblem α) (hn : p.targets.Nodup) (hl : p.targets.length ≤ p.initPoses.length ∧ p.targets.length ≤ p.goalPoses.length)
    {o x y : α} (ho : p.targets.head? = some o) (hx : p.initPoses.head? = some x) (hy : p.goalPoses.head? = some y)
    (w : Option α → World (Space 2) ℝ) (hw : ∀ o, (w o).Sound) (hwo : TurtleChecked (w (some o)) (rect (-a) (-a) a a) (P.obstacles.map Box.corners))
    (val : Values α (Space 2)) (opt : Options F) (certified : Set (RoverFact α)) (hc : ∀ f ∈ certified, Streamed w opt val f)
    (hstart : (val.pose x 0, val.pose x 1) ∈ rectangle (3 / 2) 3 0 (3 / 2)) (hgoal : (val.pose y 0, val.pose y 1) ∈ rectangle (-3) (-3 / 2) 0 (3 / 2)) :
    ¬ ∃ (plan : List (RoverAction α)) (s : Set (RoverFact α)), Executes RoverAction.op (p.start certified) plan s ∧ ∀ f ∈ p.goal, f ∈ s := by
  obtain ⟨-, -, h1, h2⟩ := C88_sizes hu hP
  rw [hr] at h1
  cases h1
  refine C122_unsolvable hP hgap ha ha (by rw [h2]; linarith) p hn hl (i := 0) (by rwa [← List.head?_eq_getElem?]) (by rwa [← List.head?_eq_getElem?])
    (by rwa [← List.head?_eq_getElem?]) w hw hwo val opt certified hc ?_ ?_
  · obtain ⟨a1, a2, a3, a4⟩ := hstart
    right; exact ⟨a1, by linarith, a3, a4⟩
  · obtain ⟨a1, -, -, -⟩ := hstart
    obtain ⟨-, b2, -, -⟩ := hgoal
    simp only at a1 b2
    exact mul_neg_of_pos_of_neg (by linarith) (by linarith)

theorem turtleWorld_checked (robot : List (ℝ × ℝ)) (hulls : List (List (ℝ × ℝ))) (x : ℕ → ℝ × ℝ) : TurtleChecked (turtleWorld robot hulls x) robot hulls where
  sound := (turtleWorld_turtle robot hulls x).sound
  check p q h := by
    unfold turtleWorld at h
    simp only [decide_eq_true_eq] at h
    obtain ⟨rs, h1, h2⟩ := h [((p 0, p 1), (q 0, q 1))] 0 rfl
    exact ⟨_, rs, 0, h1, rfl, h2⟩

/-- In the example every other draw is the middle of the hallway. -/
noncomputable def lineDraws (i : ℕ) : ℝ × ℝ := if i % 2 = 0 then (0, 3 / 4) else (100, 100)

theorem line_stream {scale dd : ℝ} {num : ℕ} {u : ℕ → ℝ} {P : Problem} (hP : hallwayManip scale dd num u = .ok P) (hgap : P.gap ≤ 7 / 5)
    {c : ℝ} (hc : 0 < c) (hc2 : c < 3 / 4) (hc3 : 2 * c < P.gap) {x0 x1 : ℝ} (h0 : |x0| ≤ 9 / 4) (h1 : |x1| ≤ 9 / 4) :
    ∃ fuel path, motionStream (turtleWorld (rect (-c) (-c) c c) (P.obstacles.map Box.corners) lineDraws) ⟨true, 34, 34, (2 : ℝ)⟩
      (plane (x0, 3 / 4)) (plane (x1, 3 / 4)) 0 fuel = some (.ok (some path)) := by
  set w := turtleWorld (rect (-c) (-c) c c) (P.obstacles.map Box.corners) lineDraws with hw
  have hT : TurtleWorld w _ _ _ := turtleWorld_turtle _ _ _
  have hK : KnnWorld w := turtleWorld_knn _ _ _
  have hchk : ∀ x y : ℝ, |x| ≤ 9 / 4 → |y| ≤ 9 / 4 → w.check (plane (x, 3 / 4)) (plane (y, 3 / 4)) = true := by
    intro x y hx hy
    apply hT.check
    intro motions i hm
    simp only [plane, if_true, Fin.isValue, one_ne_zero, if_false] at hm
    exact C90_accepts hP hgap hc hc hc2 hc3 hm hx hy
  obtain ⟨fuel, counts, answer, hp, hnone⟩ := plan_no_path (k := 32) hT.sound hK.exact (hchk x0 x0 h0 h0) (hchk x1 x1 h1 h1) (minS := 34) (maxS := 34)
    (factor := (2 : ℝ)) (by norm_num) (by norm_num) (by norm_num) false 0 (i := 0) (by norm_num)
  cases answer with
  | some path => exact ⟨fuel, path, by simp [motionStream, hp]⟩
  | none =>
    exfalso
    obtain ⟨ops, hops, hgrow, cc, hcc⟩ := hnone rfl
    have hfl : ⌊((34 : ℕ) : ℝ) * 2 ^ 0⌋₊ = 34 := by rw [pow_zero, mul_one, Nat.floor_natCast]
    rw [hfl] at hgrow hcc
    have hE : EuclideanWorld w {x | x 1 = 3 / 4 ∧ |x 0| ≤ 9 / 4} (fun i => plane (lineDraws i)) := by
      refine ⟨hT.sound, hT.dist, hT.draw, ?_⟩
      intro p q hpq
      obtain ⟨p1, p2⟩ := hpq (left_mem_segment ℝ p q)
      obtain ⟨q1, q2⟩ := hpq (right_mem_segment ℝ p q)
      apply hT.check
      intro motions i hm
      rw [p1, q1] at hm
      exact C90_accepts hP hgap hc hc hc2 hc3 hm p2 q2
    have hd : ∀ x y : ℝ, dist (plane (x, 3 / 4)) (plane (y, 3 / 4)) = |x - y| := by
      intro x y
      rw [EuclideanSpace.dist_eq, Fin.sum_univ_two]
      simp [plane, Real.dist_eq, Real.sqrt_sq_eq_abs]
    have z0 : |(0 : ℝ)| ≤ 9 / 4 := by norm_num
    obtain ⟨len, pts, e1, e2, -⟩ := knn_answer (Ω := Unit) (X := fun i _ => plane (lineDraws i)) (ω := ()) hE hK (rs := []) (r := 5) (k := 32) (d := 0) (tr := false) hops hgrow
      (by simp) (by norm_num) (by
        rintro ⟨i, -, hi⟩
        have : neighbours (fun i (_ : Unit) => plane (lineDraws i)) (0 + 1) 34 5 () i ≤ ((Finset.range 34).filter fun j => j % 2 = i % 2).card := by
          refine Finset.card_le_card fun j hj => ?_
          rw [Finset.mem_filter] at hj ⊢
          refine ⟨hj.1, ?_⟩
          by_contra hne
          have hlt := coord_lt_of_ball (δ := 5) (Metric.mem_ball.2 hj.2.2) 0
          rcases Nat.mod_two_eq_zero_or_one j with ej | ej <;> rcases Nat.mod_two_eq_zero_or_one i with ei | ei
          · omega
          · have a1 : (0 + 1 + j) % 2 ≠ 0 := by omega
            have a2 : (0 + 1 + i) % 2 = 0 := by omega
            simp only [lineDraws, if_neg a1, if_pos a2] at hlt
            norm_num [plane, abs_lt] at hlt
          · have a1 : (0 + 1 + j) % 2 = 0 := by omega
            have a2 : (0 + 1 + i) % 2 ≠ 0 := by omega
            simp only [lineDraws, if_pos a1, if_neg a2] at hlt
            norm_num [plane, abs_lt] at hlt
          · omega
        have h17 : ((Finset.range 34).filter fun j => j % 2 = i % 2).card = 17 := by
          rcases Nat.mod_two_eq_zero_or_one i with ei | ei <;> rw [ei] <;> decide
        omega) (a := plane (x0, 3 / 4)) (b := plane (x1, 3 / 4)) (pts := [plane (0, 3 / 4)]) (by
        refine ⟨by simp, ?_, ?_, ?_, by simp⟩
        · intro p hp
          rw [List.mem_singleton] at hp
          subst hp
          refine List.mem_map.2 ⟨1, by simp, ?_⟩
          rw [hT.draw]
          rfl
        · intro p hp
          simp only [List.head?_cons, Option.some.injEq] at hp
          subst hp
          refine ⟨?_, hchk x0 0 h0 z0⟩
          rw [hT.dist, hd, zero_sub, abs_neg]
          linarith
        · intro p hp
          simp only [List.getLast?_singleton, Option.some.injEq] at hp
          subst hp
          refine ⟨?_, hchk x1 0 h1 z0⟩
          rw [hT.dist, hd, zero_sub, abs_neg]
          linarith) (by simp)
    rw [e1] at hcc
    cases hcc
    exact e2 rfl

/-- Places on the middle line in the example: the rover starts at −9/4, the targets go from 2 and 9/4 to −2 and −7/4. -/
noncomputable def lineConf (q : ℕ) : ℝ := if q = 1 then -9 / 4 else if q = 2 then 2 else if q = 3 then -2 else if q = 4 then 9 / 4 else -7 / 4

noncomputable def linePose (x : ℕ) : ℝ := if x = 20 then 2 else if x = 30 then -2 else if x = 21 then 9 / 4 else -7 / 4

theorem lineConf_le (q : ℕ) : |lineConf q| ≤ 9 / 4 := by
  unfold lineConf
  split_ifs <;> norm_num [abs_le]

/-- The hypotheses of C122 are met in the world of the experiment with two targets (hallway 0.05 wider than the largest one; bodies of half-width 0.15), where a plan carries both to the first room. -/
theorem C122_nonvacuous : ∃ P, hallwayManip (3 / 10) (5 / 100) 2 (fun _ => 1 / 2) = .ok P ∧ P.gap ≤ 7 / 5 ∧ Footprint (rect (-(3 / 20)) (-(3 / 20)) (3 / 20) (3 / 20)) ∧
    ∃ w : Option ℕ → World (Space 2) ℝ, (∀ o, TurtleChecked (w o) (rect (-(3 / 20)) (-(3 / 20)) (3 / 20) (3 / 20)) (P.obstacles.map Box.corners)) ∧
    twoTargets.targets.Nodup ∧ (twoTargets.targets.length ≤ twoTargets.initPoses.length ∧ twoTargets.targets.length ≤ twoTargets.goalPoses.length) ∧
    ∃ val : Values ℕ (Space 2), (∀ f ∈ carryCertified, Streamed w ⟨true, 34, 34, (2 : ℝ)⟩ val f) ∧
    (∃ s, Executes RoverAction.op (twoTargets.start carryCertified) carryPlan s ∧ ∀ f ∈ twoTargets.goal, f ∈ s) ∧
    ∃ sim : Sim ℕ (Space 2), sim.Initial twoTargets val ∧ (sim.rover 0, sim.rover 1) = P.start ∧ P.start ∈ house (3 / 2) (P.gap + 1 / 10) ∧
      ∀ o ∈ twoTargets.targets, (sim.obj o 0, sim.obj o 1) ∈ rectangle (3 / 2) 3 0 (3 / 2) := by
  obtain ⟨P, hP⟩ := (C88_answers (3 / 10) (5 / 100) 2 fun _ => 1 / 2).2 (by norm_num)
  obtain ⟨-, -, h1, h2⟩ := C88_sizes (fun _ => by norm_num) hP
  obtain ⟨-, -, -, -, hs⟩ := manip_eq hP
  have hgap : P.gap ≤ 7 / 5 := by rw [h2]; norm_num
  refine ⟨P, hP, hgap, rect_footprint (by norm_num) (by norm_num), fun _ => turtleWorld _ _ lineDraws, fun _ => turtleWorld_checked _ _ _, by decide, by decide, ?_⟩
  have hstr : ∀ q q' : ℕ, ∃ fuel path, motionStream (turtleWorld (rect (-(3 / 20)) (-(3 / 20)) (3 / 20) (3 / 20)) (P.obstacles.map Box.corners) lineDraws) ⟨true, 34, 34, (2 : ℝ)⟩
      (plane (lineConf q, 3 / 4)) (plane (lineConf q', 3 / 4)) 0 fuel = some (.ok (some path)) :=
    fun q q' => line_stream hP hgap (by norm_num) (by norm_num) (by rw [h2]; norm_num) (lineConf_le q) (lineConf_le q')
  choose fuel path hpath using hstr
  refine ⟨⟨fun q => plane (lineConf q, 3 / 4), fun x => plane (linePose x, 3 / 4), fun t => path (t - 4) (t - 3)⟩, ?_, C106_nonvacuous.2.2.2.2.1, ?_⟩
  · intro f hf
    simp only [carryCertified, Set.mem_insert_iff, Set.mem_singleton_iff] at hf
    rcases hf with rfl | rfl | rfl | rfl | rfl | rfl | rfl | rfl
    · exact ⟨0, _, hpath 1 2⟩
    · exact ⟨0, _, hpath 2 3⟩
    · exact ⟨0, _, hpath 3 4⟩
    · exact ⟨0, _, hpath 4 5⟩
    all_goals simp [Streamed, lineConf, linePose, ik]
  · refine ⟨⟨plane (-9 / 4, 3 / 4), fun o => plane (if o = 10 then 2 else 9 / 4, 3 / 4), none⟩, ⟨?_, rfl, ?_⟩, ?_, ?_, ?_⟩
    · simp [lineConf, twoTargets]
    · simp [linePose, twoTargets, RoverProblem.rows]
    · rw [hs]
      norm_num [plane]
    · rw [hs]
      left; left; exact ⟨by norm_num, by norm_num, by norm_num, by norm_num⟩
    · simp [twoTargets, plane, rectangle]
      norm_num

/-- The hypotheses of `C122_delta` are met when the bounding boxes of the targets have half-width 0.2 (the largest radius is 0.1537, the hallway 0.05 wider than that target); the rover can drive to a target. -/
theorem C122_delta_nonvacuous : ∃ P, hallwayManip (3 / 10) (5 / 100) 2 (fun _ => 1 / 2) = .ok P ∧ P.gap ≤ 7 / 5 ∧ P.sizes.head? = some 0.1537 ∧ (5 / 100 : ℝ) ≤ 2 * (1 / 5 - 0.1537) ∧
    ∃ w : Option ℕ → World (Space 2) ℝ, (∀ o, (w o).Sound) ∧ TurtleChecked (w (some 10)) (rect (-(1 / 5)) (-(1 / 5)) (1 / 5) (1 / 5)) (P.obstacles.map Box.corners) ∧
    twoTargets.targets.head? = some 10 ∧ twoTargets.initPoses.head? = some 20 ∧ twoTargets.goalPoses.head? = some 30 ∧
    ∃ val : Values ℕ (Space 2), (∀ f ∈ ({.motion 0 1 5 2, .kin 10 20 2, .kin 10 30 3} : Set (RoverFact ℕ)), Streamed w ⟨true, 34, 34, (2 : ℝ)⟩ val f) ∧
      (val.pose 20 0, val.pose 20 1) ∈ rectangle (3 / 2) 3 0 (3 / 2) ∧ (val.pose 30 0, val.pose 30 1) ∈ rectangle (-3) (-3 / 2) 0 (3 / 2) := by
  obtain ⟨P, hP⟩ := (C88_answers (3 / 10) (5 / 100) 2 fun _ => 1 / 2).2 (by norm_num)
  obtain ⟨-, -, h1, h2⟩ := C88_sizes (fun _ => by norm_num) hP
  have hgap : P.gap ≤ 7 / 5 := by rw [h2]; norm_num
  obtain ⟨fuel, path, hpath⟩ := line_stream hP hgap (c := 3 / 20) (by norm_num) (by norm_num) (by rw [h2]; norm_num) (lineConf_le 1) (lineConf_le 2)
  refine ⟨P, hP, hgap, by rw [h1]; norm_num, by norm_num,
    fun o => o.elim (turtleWorld (rect (-(3 / 20)) (-(3 / 20)) (3 / 20) (3 / 20)) (P.obstacles.map Box.corners) lineDraws) fun _ => turtleWorld _ _ lineDraws,
    ?_, turtleWorld_checked _ _ _, rfl, rfl, rfl, ⟨fun q => plane (lineConf q, 3 / 4), fun x => plane (linePose x, 3 / 4), fun _ => path⟩, ?_, ?_, ?_⟩
  · rintro (_ | o)
    · exact (turtleWorld_turtle _ _ _).sound
    · exact (turtleWorld_turtle _ _ _).sound
  · intro f hf
    simp only [Set.mem_insert_iff, Set.mem_singleton_iff] at hf
    rcases hf with rfl | rfl | rfl
    · exact ⟨0, _, hpath⟩
    all_goals simp [Streamed, lineConf, linePose, ik]
  · simp only [plane, linePose, rectangle]
    norm_num
  · simp only [plane, linePose, rectangle]
    norm_num

end Verif.Props
