import Verif.Lemmas.FloatHallway
import Verif.Spec.FloatHallway
import Verif.Props.FloatMotion
import Verif.Props.Hallway

/-! C138: the turtlebot worlds with the motion check in floats. -/

namespace Verif.Props

open Verif.Sat2D Verif.Spec Verif.Turtlebot Verif.Hallway Verif.FloatSat Verif.Float64

theorem forall₂_mem {α β : Type*} {r : α → β → Prop} {l : List α} {l' : List β} (h : List.Forall₂ r l l') : ∀ a ∈ l, ∃ b ∈ l', r a b := by
  induction h with
  | nil => simp
  | cons h _ ih =>
    intro a ha
    rcases List.mem_cons.1 ha with rfl | ha
    · exact ⟨_, List.mem_cons_self, h⟩
    · obtain ⟨b, hb, hr⟩ := ih a ha
      exact ⟨b, List.mem_cons_of_mem _ hb, hr⟩

theorem rooms_sizesE {L h : ℝ} (h0 : 0 ≤ L) (h2 : h ≤ L) : ∀ o ∈ rooms L h, 1 / 10 ≤ o.w ∧ 1 / 10 ≤ o.l := by
  unfold rooms
  simp only [List.mem_cons, List.not_mem_nil, or_false, forall_eq_or_imp, forall_eq, hallLength, thick]
  refine ⟨?_, ?_, ?_, ?_, ?_, ?_, ?_, ?_, ?_, ?_, ?_, ?_⟩ <;> constructor <;> linarith

/-- The distance by which rounding and inexact walls can mislead the motion check: `ε` is the error of the corners. -/
theorem slack_le {R ε : ℝ} (hR : R ≤ 1024) : 97 * ((2 : ℝ) ^ (-53 : ℤ) * R) + 2 * ε ≤ 2 * ε + 2 ^ (-30 : ℤ) := by
  have h1 : (2 : ℝ) ^ (-53 : ℤ) * R ≤ 2 ^ (-53 : ℤ) * 1024 := mul_le_mul_of_nonneg_left hR (by positivity)
  have h2 : 97 * ((2 : ℝ) ^ (-53 : ℤ) * 1024) ≤ 2 ^ (-30 : ℤ) := by norm_num
  linarith

/-- What the float motion check guarantees about an accepted motion: a chain of poses at which the robot touches no wall that is made slightly thinner. -/
theorem acceptedR_poses {dotR : ℝ × ℝ → ℝ × ℝ → ℝ} (hd : DotAccurate dotR (2 ^ (-53 : ℤ)) (2 ^ (-1075 : ℤ))) {R ε : ℝ} (hR : R ≤ 1024)
    {robot : List (ℝ × ℝ)} {hulls : List (List (ℝ × ℝ))} (hB : FloatBodies R robot hulls) {obs : List Box} (hobs : ∀ o ∈ obs, 0 ≤ o.w ∧ 0 ≤ o.l)
    (hnear : NearWalls ε obs hulls) {p q : ℝ × ℝ} (h : AcceptedR dotR R robot hulls p q) :
    ∃ (n : ℕ) (x : ℕ → ℝ × ℝ), x 0 = p ∧ x n = q ∧ (∀ k ≤ n, FreeAt (obs.map (shrink (2 * ε + 2 ^ (-30 : ℤ)))) (polygonHull robot) (x k)) ∧
      ∀ k, |(x (k + 1)).1 - (x k).1| < 81 / 1000 ∧ |(x (k + 1)).2 - (x k).2| < 81 / 1000 := by
  obtain ⟨motions, rs, i, hin, h1, h2, h3⟩ := h
  have hm : motions ≠ [] := by rintro rfl; simp at h2
  obtain ⟨sc, sc', hℓ⟩ := floatBodies_core hB
  obtain ⟨N, rs', hN, e, -, hall⟩ := motion_core fl_rounds hd sc sc' hℓ robot hulls motions hB.edges hB.box hB.obstacles hm hin
  rw [h1] at e
  injection e with e
  subst e
  obtain ⟨a1, -, a2⟩ := hall i _ h2
  have hN2 : (2 : ℝ) ≤ N := by exact_mod_cast hN
  have hR0 : 0 < R := by linarith [hB.one]
  have hsmall : 16 * ((2 : ℝ) ^ (-53 : ℤ) * R) ≤ 1 / 1000 := by
    have : (2 : ℝ) ^ (-53 : ℤ) * R ≤ 2 ^ (-53 : ℤ) * 1024 := mul_le_mul_of_nonneg_left hR (by positivity)
    have : 16 * ((2 : ℝ) ^ (-53 : ℤ) * 1024) ≤ 1 / 1000 := by norm_num
    linarith
  refine ⟨N - 1, fun k => poseAt (p, q) ((k : ℝ) / ((N : ℝ) - 1)), by simp [poseAt], ?_, ?_, fun k => ?_⟩
  · have : ((N - 1 : ℕ) : ℝ) = (N : ℝ) - 1 := by rw [Nat.cast_sub (by omega)]; simp
    simp only
    rw [this, div_self (by linarith)]
    simp [poseAt]
  · intro k hk o' ho' v hv hreg
    obtain ⟨o, ho, rfl⟩ := List.mem_map.1 ho'
    obtain ⟨vs, hvs, hc⟩ := forall₂_mem hnear o ho
    have hsep := (a1 h3 k (by omega) vs hvs).perturb (va' := placed robot (poseAt (p, q) ((k : ℝ) / ((N : ℝ) - 1)))) (vb' := o.corners) (e := 0) (e' := ε)
      (fun v hv => ⟨v, hv, by simp, by simp⟩) (by
        intro c hcm
        obtain ⟨w, hw, w1, w2⟩ := forall₂_mem hc c hcm
        exact ⟨w, hw, by rw [abs_sub_comm]; exact w1, by rw [abs_sub_comm]; exact w2⟩)
    have hε : 0 ≤ ε := by
      obtain ⟨w, -, w1, -⟩ := forall₂_mem hc _ (List.mem_cons_self (a := (o.x - o.w / 2, o.y - o.l / 2)))
      exact (abs_nonneg _).trans w1
    obtain ⟨t, t1, t2, ht⟩ := hsep.shift (by positivity) (by simpa [placed] using hB.edges.1) (by simp [Box.corners])
    rw [mul_zero, add_zero] at t1 t2
    replace t1 := abs_le.1 (t1.trans (slack_le hR))
    replace t2 := abs_le.1 (t2.trans (slack_le hR))
    obtain ⟨r1, r2⟩ := hreg
    rw [abs_le] at r1 r2
    simp only [shrink] at r1 r2
    refine ht _ (placed_hull_mem robot _ v hv) (v.1 + (poseAt (p, q) ((k : ℝ) / ((N : ℝ) - 1))).1 - t.1, v.2 + (poseAt (p, q) ((k : ℝ) / ((N : ℝ) - 1))).2 - t.2) ?_
      (by ext <;> simp)
    rw [region_eq_hull o (hobs o ho).1 (hobs o ho).2]
    generalize (2 : ℝ) ^ (-30 : ℤ) = d at *
    exact ⟨abs_le.2 ⟨by simp only; linarith [r1.1], by simp only; linarith [r1.2]⟩, abs_le.2 ⟨by simp only; linarith [r2.1], by simp only; linarith [r2.2]⟩⟩
  · obtain ⟨b1, b2⟩ := a2 k
    generalize 16 * ((2 : ℝ) ^ (-53 : ℤ) * R) = d at *
    exact ⟨lt_of_lt_of_le b1 (by linarith), lt_of_lt_of_le b2 (by linarith)⟩

theorem clearE_of_free {L h e : ℝ} {body : Set (ℝ × ℝ)} (h0 : (0, 0) ∈ body) {p : ℝ × ℝ} (hf : FreeAt ((rooms L h).map (shrink e)) body p) :
    ClearE L h e p := by
  intro o ho
  have := hf o ho (0, 0) h0
  simpa using this

section
variable {dotR : ℝ × ℝ → ℝ × ℝ → ℝ} {R ε L h : ℝ} {robot : List (ℝ × ℝ)} {hulls : List (List (ℝ × ℝ))}

theorem tol_bounds (h0 : 0 ≤ ε) (hε : ε ≤ 1 / 500) : 0 ≤ 2 * ε + (2 : ℝ) ^ (-30 : ℤ) ∧ 2 * ε + (2 : ℝ) ^ (-30 : ℤ) ≤ 1 / 200 := by
  have : (2 : ℝ) ^ (-30 : ℤ) ≤ 1 / 1000 := by norm_num
  exact ⟨by positivity, by linarith⟩

theorem houseE_of_acceptedR (hd : DotAccurate dotR (2 ^ (-53 : ℤ)) (2 ^ (-1075 : ℤ))) (hR : R ≤ 1024) (hB : FloatBodies R robot hulls) (h0 : 0 ≤ L) (h2 : h ≤ L)
    (hnear : NearWalls ε (rooms L h) hulls) (hε0 : 0 ≤ ε) (hε : ε ≤ 1 / 500) (hz : (0, 0) ∈ polygonHull robot) {p q : ℝ × ℝ}
    (hacc : AcceptedR dotR R robot hulls p q ∨ AcceptedR dotR R robot hulls q p)
    (hp : p ∈ houseE L h (2 * ε + 2 ^ (-30 : ℤ))) : ∃ (n : ℕ) (x : ℕ → ℝ × ℝ), x 0 = p ∧ x n = q ∧
      (∀ k ≤ n, FreeAt ((rooms L h).map (shrink (2 * ε + 2 ^ (-30 : ℤ)))) (polygonHull robot) (x k) ∧ x k ∈ houseE L h (2 * ε + 2 ^ (-30 : ℤ))) ∧
      ∀ k, |(x (k + 1)).1 - (x k).1| < 81 / 1000 ∧ |(x (k + 1)).2 - (x k).2| < 81 / 1000 := by
  obtain ⟨t0, t1⟩ := tol_bounds hε0 hε
  obtain ⟨n, x, x0, xn, hf, hs⟩ : ∃ (n : ℕ) (x : ℕ → ℝ × ℝ), x 0 = p ∧ x n = q ∧
      (∀ k ≤ n, FreeAt ((rooms L h).map (shrink (2 * ε + 2 ^ (-30 : ℤ)))) (polygonHull robot) (x k)) ∧
      ∀ k, |(x (k + 1)).1 - (x k).1| < 81 / 1000 ∧ |(x (k + 1)).2 - (x k).2| < 81 / 1000 := by
    have hsz : ∀ o ∈ rooms L h, 0 ≤ o.w ∧ 0 ≤ o.l := fun o ho => ⟨(rooms_sizes h0 h2 o ho).1.le, (rooms_sizes h0 h2 o ho).2.le⟩
    rcases hacc with hacc | hacc
    · exact acceptedR_poses hd hR hB hsz hnear hacc
    · obtain ⟨n, x, x0, xn, hf, hs⟩ := acceptedR_poses hd hR hB hsz hnear hacc
      refine ⟨n, fun k => x (n - k), by simpa using xn, by simpa using x0, fun k _ => hf _ (Nat.sub_le n k), ?_⟩
      intro k
      by_cases hk : k < n
      · obtain ⟨s1, s2⟩ := hs (n - (k + 1))
        rw [show n - (k + 1) + 1 = n - k by omega] at s1 s2
        rw [abs_sub_comm] at s1 s2
        exact ⟨s1, s2⟩
      · simp only [show n - (k + 1) = 0 by omega, show n - k = 0 by omega, sub_self, abs_zero]
        norm_num
  refine ⟨n, x, x0, xn, fun k hk => ⟨hf k hk, ?_⟩, hs⟩
  induction k with
  | zero => rw [x0]; exact hp
  | succ k ih => exact step_houseE t0 t1 h2 (clearE_of_free hz (hf k (by omega))) (clearE_of_free hz (hf (k + 1) hk)) (ih (by omega)) (hs k).1 (hs k).2

theorem houseE_of_chainR (hd : DotAccurate dotR (2 ^ (-53 : ℤ)) (2 ^ (-1075 : ℤ))) (hR : R ≤ 1024) (hB : FloatBodies R robot hulls) (h0 : 0 ≤ L) (h2 : h ≤ L)
    (hnear : NearWalls ε (rooms L h) hulls) (hε0 : 0 ≤ ε) (hε : ε ≤ 1 / 500) (hz : (0, 0) ∈ polygonHull robot) {p : ℝ × ℝ} {l : List (ℝ × ℝ)}
    (hl : (p :: l).IsChain fun p q => AcceptedR dotR R robot hulls p q ∨ AcceptedR dotR R robot hulls q p) (hp : p ∈ houseE L h (2 * ε + 2 ^ (-30 : ℤ))) : ∀ q ∈ l, q ∈ houseE L h (2 * ε + 2 ^ (-30 : ℤ)) := by
  induction l generalizing p with
  | nil => simp
  | cons q l ih =>
    rw [List.isChain_cons_cons] at hl
    obtain ⟨n, x, x0, xn, hf, -⟩ := houseE_of_acceptedR hd hR hB h0 h2 hnear hε0 hε hz hl.1 hp
    have hq : q ∈ houseE L h (2 * ε + 2 ^ (-30 : ℤ)) := xn ▸ (hf n le_rfl).2
    intro r hr
    rcases List.mem_cons.1 hr with rfl | hr
    · exact hq
    · exact ih hl.2 hq r hr

/-- In the middle of the hallway a block that touches no thinner wall is away from both hallway walls. -/
theorem mid_freeE {a b e : ℝ} (e0 : 0 ≤ e) (he : e ≤ 1 / 200) (h0 : 0 ≤ L) (h2 : h ≤ L) (ha : 0 ≤ a) (hb : 0 ≤ b) {p : ℝ × ℝ}
    (hf : FreeAt ((rooms L h).map (shrink e)) (block a b) p) (hx : |p.1| ≤ 1) (hp : p ∈ houseE L h e) : |p.2 - L / 2| + b < h / 2 - 1 / 20 + e := by
  rw [abs_le] at hx
  have hmid : L / 2 - h / 2 ≤ p.2 ∧ p.2 ≤ L / 2 + h / 2 := by
    rcases hp with (⟨a1, a2, a3, a4⟩ | ⟨a1, a2, a3, a4⟩) | ⟨a1, a2, a3, a4⟩
    · linarith
    · exact ⟨a3, a4⟩
    · linarith
  obtain ⟨m1, m2⟩ := hmid
  obtain ⟨i1, i2⟩ := hall_insideE e0 he h2 (clear_factsE (clearE_of_free (block_zero ha hb) hf)) (by linarith [hx.1]) (by linarith [hx.2]) (by linarith) (by linarith)
  rw [freeAt_block ha hb fun o ho => by
    obtain ⟨o', ho', rfl⟩ := List.mem_map.1 ho
    have := rooms_sizesE h0 h2 o' ho'
    simp only [shrink]
    constructor <;> linarith [this.1, this.2]] at hf
  unfold rooms at hf
  simp only [List.mem_cons, List.not_mem_nil, or_false, forall_eq_or_imp, forall_eq, List.map_cons, List.map_nil, shrink, hallLength, thick] at hf
  obtain ⟨-, -, -, -, -, -, -, -, -, -, t1, t2⟩ := hf
  have x : |p.1 - 0| ≤ 1 := by rw [sub_zero, abs_le]; exact hx
  have s1 : |p.2 - (L / 2 + h / 2)| = L / 2 + h / 2 - p.2 := by rw [abs_of_nonpos (by linarith)]; ring
  have s2 : |p.2 - (L / 2 - h / 2)| = p.2 - (L / 2 - h / 2) := abs_of_nonneg (by linarith)
  rw [s1] at t1
  rw [s2] at t2
  have u1 : (1 / 10 - 2 * e) / 2 + b < L / 2 + h / 2 - p.2 := by
    rcases t1 with t | t
    · linarith
    · exact t
  have u2 : (1 / 10 - 2 * e) / 2 + b < p.2 - (L / 2 - h / 2) := by
    rcases t2 with t | t
    · linarith
    · exact t
  rcases abs_cases (p.2 - L / 2) with ⟨e, -⟩ | ⟨e, -⟩ <;> rw [e] <;> linarith

theorem rect_hull_block {a b : ℝ} (ha : 0 ≤ a) (hb : 0 ≤ b) : polygonHull (rect (-a) (-b) a b) = block a b := by
  have := region_eq_hull ⟨0, 0, 2 * a, 2 * b⟩ (by simp only; linarith) (by simp only; linarith)
  unfold Box.corners Box.region at this
  simp only [zero_sub, zero_add, sub_zero, mul_div_cancel_left₀ _ (two_ne_zero : (2 : ℝ) ≠ 0)] at this
  exact this

theorem too_highR (hd : DotAccurate dotR (2 ^ (-53 : ℤ)) (2 ^ (-1075 : ℤ))) (hR : R ≤ 1024) {a b : ℝ} (hB : FloatBodies R (rect (-a) (-b) a b) hulls)
    (h0 : 0 ≤ L) (h2 : h ≤ L) (hnear : NearWalls ε (rooms L h) hulls) (hε0 : 0 ≤ ε) (hε : ε ≤ 1 / 500) (ha : 0 < a) (hb : 0 < b) {p q : ℝ × ℝ}
    (hacc : AcceptedR dotR R (rect (-a) (-b) a b) hulls p q ∨ AcceptedR dotR R (rect (-a) (-b) a b) hulls q p) (hp : p ∈ houseE L h (2 * ε + 2 ^ (-30 : ℤ))) (hp0 : p.1 ≤ 0) (hq0 : 0 ≤ q.1) :
    2 * b < h - 1 / 10 + 2 * (2 * ε + 2 ^ (-30 : ℤ)) := by
  obtain ⟨t0, t1⟩ := tol_bounds hε0 hε
  have hull := rect_hull_block ha.le hb.le
  obtain ⟨n, x, x0, xn, hf, hs⟩ := houseE_of_acceptedR hd hR hB h0 h2 hnear hε0 hε (by rw [hull]; exact block_zero ha.le hb.le) hacc hp
  rw [hull] at hf
  have hex : ∃ k, k ≤ n ∧ 0 ≤ (x k).1 := ⟨n, le_rfl, by rw [xn]; exact hq0⟩
  classical
  obtain ⟨hk1, hk2⟩ := Nat.find_spec hex
  have hlt : (x (Nat.find hex)).1 ≤ 1 := by
    rcases hcase : Nat.find hex with _ | k
    · rw [x0]; linarith
    · have hmin := Nat.find_min hex (m := k) (by omega)
      have hneg : (x k).1 < 0 := by
        by_contra hc
        exact hmin ⟨by omega, not_lt.1 hc⟩
      have := (abs_lt.1 (hs k).1).2
      linarith
  have := mid_freeE t0 t1 h0 h2 ha.le hb.le (hf _ hk1).1 (by rw [abs_le]; constructor <;> linarith) (hf _ hk1).2
  linarith [abs_nonneg ((x (Nat.find hex)).2 - L / 2)]

end

/-- C138, no tunnelling in floats: if the corners of the walls that the check gets are within `ε` (at most 2 mm) of the true ones, a path of motions that the float
check has accepted, in one direction or the other and in whichever batches, stays within `2ε + 2^-30` of the two rooms and the hallway. -/
theorem C138_stays {dotR : ℝ × ℝ → ℝ × ℝ → ℝ} (hd : DotAccurate dotR (2 ^ (-53 : ℤ)) (2 ^ (-1075 : ℤ))) {scale dd : ℝ} {num : ℕ} {u : ℕ → ℝ} {P : Problem}
    (h : hallwayManip scale dd num u = .ok P) (hg : P.gap ≤ 7 / 5) {R ε : ℝ} (hR : R ≤ 1024) (hε0 : 0 ≤ ε) (hε : ε ≤ 1 / 500)
    {robot : List (ℝ × ℝ)} {hulls : List (List (ℝ × ℝ))} (hB : FloatBodies R robot hulls) (hnear : NearWalls ε P.obstacles hulls) (hz : (0, 0) ∈ polygonHull robot)
    {p : ℝ × ℝ} {l : List (ℝ × ℝ)} (hl : (p :: l).IsChain fun p q => AcceptedR dotR R robot hulls p q ∨ AcceptedR dotR R robot hulls q p) (hp : p ∈ house (3 / 2) (P.gap + 1 / 10)) :
    ∀ q ∈ l, NearHouse (3 / 2) (P.gap + 1 / 10) (2 * ε + 2 ^ (-30 : ℤ)) q := by
  obtain ⟨-, -, -, ho, -⟩ := manip_eq h
  rw [ho] at hnear
  obtain ⟨t0, -⟩ := tol_bounds hε0 hε
  exact fun q hq => nearHouse_of_houseE t0 (by norm_num)
    (houseE_of_chainR hd hR hB (by norm_num) (by linarith) hnear hε0 hε hz hl (house_sub t0 hp) q hq)

/-- C138 for the world without targets. -/
theorem C138_stays_hallway {dotR : ℝ × ℝ → ℝ × ℝ → ℝ} (hd : DotAccurate dotR (2 ^ (-53 : ℤ)) (2 ^ (-1075 : ℤ))) {scale dd : ℝ} (hfit : 2 * (scale * 0.179) + dd ≤ 0.9)
    {R ε : ℝ} (hR : R ≤ 1024) (hε0 : 0 ≤ ε) (hε : ε ≤ 1 / 500) {robot : List (ℝ × ℝ)} {hulls : List (List (ℝ × ℝ))} (hB : FloatBodies R robot hulls)
    (hnear : NearWalls ε (hallway scale dd).obstacles hulls) (hz : (0, 0) ∈ polygonHull robot) {p : ℝ × ℝ} {l : List (ℝ × ℝ)}
    (hl : (p :: l).IsChain fun p q => AcceptedR dotR R robot hulls p q ∨ AcceptedR dotR R robot hulls q p) (hp : p ∈ house 1 (2 * (scale * 0.179) + dd + 0.1)) :
    ∀ q ∈ l, NearHouse 1 (2 * (scale * 0.179) + dd + 0.1) (2 * ε + 2 ^ (-30 : ℤ)) q := by
  have e2 : (hallway scale dd).obstacles = rooms 1 (2 * (scale * 0.179) + dd + 0.1) := by
    show rooms 1 (scale * botRadius * 2 + thick + dd) = _
    unfold thick botRadius
    congr 1
    norm_num
    ring
  rw [e2] at hnear
  obtain ⟨t0, -⟩ := tol_bounds hε0 hε
  exact fun q hq => nearHouse_of_houseE t0 (by norm_num)
    (houseE_of_chainR hd hR hB (by norm_num) (by norm_num at hfit ⊢; linarith) hnear hε0 hε hz hl (house_sub t0 hp) q hq)

/-- C138: a box-shaped body that is higher than the gap by at least `4ε + 2^-29` is never brought through the hallway by motions that the float check has accepted,
in one direction or the other. -/
theorem C138_blocked {dotR : ℝ × ℝ → ℝ × ℝ → ℝ} (hd : DotAccurate dotR (2 ^ (-53 : ℤ)) (2 ^ (-1075 : ℤ))) {scale dd : ℝ} {num : ℕ} {u : ℕ → ℝ} {P : Problem}
    (h : hallwayManip scale dd num u = .ok P) (hg : P.gap ≤ 7 / 5) {R ε a b : ℝ} (hR : R ≤ 1024) (hε0 : 0 ≤ ε) (hε : ε ≤ 1 / 500) (ha : 0 < a) (hb : 0 < b)
    (hb2 : P.gap + 4 * ε + 2 ^ (-29 : ℤ) ≤ 2 * b) {hulls : List (List (ℝ × ℝ))} (hB : FloatBodies R [(-a, -b), (a, -b), (a, b), (-a, b)] hulls)
    (hnear : NearWalls ε P.obstacles hulls) {p : ℝ × ℝ} {l : List (ℝ × ℝ)} (hl : (p :: l).IsChain fun p q =>
      AcceptedR dotR R [(-a, -b), (a, -b), (a, b), (-a, b)] hulls p q ∨ AcceptedR dotR R [(-a, -b), (a, -b), (a, b), (-a, b)] hulls q p)
    (hp : p ∈ house (3 / 2) (P.gap + 1 / 10)) (hp0 : p.1 < 0) : ∀ q ∈ l, q.1 < 0 := by
  obtain ⟨-, -, -, ho, -⟩ := manip_eq h
  rw [ho] at hnear
  obtain ⟨t0, -⟩ := tol_bounds hε0 hε
  have e29 : (2 : ℝ) ^ (-29 : ℤ) = 2 * 2 ^ (-30 : ℤ) := by norm_num
  replace hp := house_sub t0 hp
  have hull : ((0, 0) : ℝ × ℝ) ∈ polygonHull (rect (-a) (-b) a b) := by rw [rect_hull_block ha.le hb.le]; exact block_zero ha.le hb.le
  induction l generalizing p with
  | nil => simp
  | cons q l ih =>
    rw [List.isChain_cons_cons] at hl
    have hq0 : q.1 < 0 := by
      by_contra hc
      have := too_highR hd hR hB (by norm_num) (by linarith) hnear hε0 hε ha hb hl.1 hp hp0.le (not_lt.1 hc)
      generalize (2 : ℝ) ^ (-30 : ℤ) = d at *
      linarith
    have hq := houseE_of_chainR hd hR hB (by norm_num) (by linarith) hnear hε0 hε hull (l := [q]) (List.isChain_pair.2 hl.1) hp q (by simp)
    intro r hr
    rcases List.mem_cons.1 hr with rfl | hr
    · exact hq0
    · exact ih hl.2 hq0 hq r hr

/-- C138, the other direction: a motion of a box-shaped body that keeps a distance of `ε + 2^-30` in each coordinate from all walls is accepted in floats, in every batch. -/
theorem C138_free {dotR : ℝ × ℝ → ℝ × ℝ → ℝ} (hd : DotAccurate dotR (2 ^ (-53 : ℤ)) (2 ^ (-1075 : ℤ))) {scale dd : ℝ} {num : ℕ} {u : ℕ → ℝ} {P : Problem}
    (h : hallwayManip scale dd num u = .ok P) (hg : P.gap ≤ 7 / 5) {R ε a b : ℝ} (hR : R ≤ 1024) (hε0 : 0 ≤ ε) (ha : 0 < a) (hb : 0 < b)
    {hulls : List (List (ℝ × ℝ))} (hB : FloatBodies R [(-a, -b), (a, -b), (a, b), (-a, b)] hulls) (hnear : NearWalls ε P.obstacles hulls) (hrect : Rectangles hulls)
    {motions : List ((ℝ × ℝ) × (ℝ × ℝ))} (hin : ∀ m ∈ motions, (|m.1.1| ≤ R ∧ |m.1.2| ≤ R) ∧ |m.2.1| ≤ R ∧ |m.2.2| ≤ R) {i : ℕ} {p q : ℝ × ℝ}
    (hm : motions[i]? = some (p, q)) (hfree : ∀ x ∈ segment ℝ p q, FreeAt P.obstacles (block (a + (ε + 2 ^ (-30 : ℤ))) (b + (ε + 2 ^ (-30 : ℤ)))) x) :
    ∃ rs, isMotionValidR fl dotR [(-a, -b), (a, -b), (a, b), (-a, b)] hulls motions = .ok rs ∧ rs[i]? = some true := by
  obtain ⟨-, -, -, ho, -⟩ := manip_eq h
  have hsz : ∀ o ∈ P.obstacles, 0 ≤ o.w ∧ 0 ≤ o.l := by
    rw [ho]
    exact fun o hh => ⟨(rooms_sizes (by norm_num) (by linarith) o hh).1.le, (rooms_sizes (by norm_num) (by linarith) o hh).2.le⟩
  have hne : motions ≠ [] := by rintro rfl; simp at hm
  obtain ⟨sc, sc', hℓ⟩ := floatBodies_core hB
  obtain ⟨N, rs, hN, e, -, hall⟩ := motion_core fl_rounds hd sc sc' hℓ _ hulls motions hB.edges hB.box hB.obstacles hne hin
  refine ⟨rs, e, (hall i _ hm).2.1 ?_⟩
  intro k hk vs hvs
  have hN1 : (0 : ℝ) < (N : ℝ) - 1 := by
    have : (2 : ℝ) ≤ N := by exact_mod_cast hN
    linarith
  have t0 : 0 ≤ (k : ℝ) / ((N : ℝ) - 1) := by positivity
  have t1 : (k : ℝ) / ((N : ℝ) - 1) ≤ 1 := by
    rw [div_le_one hN1]
    have : (k : ℝ) + 1 ≤ N := by exact_mod_cast hk
    linarith
  generalize (k : ℝ) / ((N : ℝ) - 1) = t at t0 t1
  have hf := hfree (p.1 + t * (q.1 - p.1), p.2 + t * (q.2 - p.2))
    ⟨1 - t, t, by linarith, t0, by ring, by ext <;> simp <;> ring⟩
  have hd30 : (0 : ℝ) < 2 ^ (-30 : ℤ) := by positivity
  have hg301 : 301 * ((2 : ℝ) ^ (-53 : ℤ) * R) ≤ 2 ^ (-30 : ℤ) := by
    have h1 : (2 : ℝ) ^ (-53 : ℤ) * R ≤ 2 ^ (-53 : ℤ) * 1024 := mul_le_mul_of_nonneg_left hR (by positivity)
    have h2 : 301 * ((2 : ℝ) ^ (-53 : ℤ) * 1024) ≤ 2 ^ (-30 : ℤ) := by norm_num
    linarith
  generalize 301 * ((2 : ℝ) ^ (-53 : ℤ) * R) = g at hg301
  generalize (2 : ℝ) ^ (-30 : ℤ) = d at *
  rw [freeAt_block (by linarith) (by linarith) hsz] at hf
  obtain ⟨o, hoo, hc⟩ : ∃ o ∈ P.obstacles, List.Forall₂ (fun c v : ℝ × ℝ => |v.1 - c.1| ≤ ε ∧ |v.2 - c.2| ≤ ε) o.corners vs := by
    obtain ⟨o, h1, h2⟩ := forall₂_mem hnear.flip vs hvs
    exact ⟨o, h1, h2⟩
  obtain ⟨x0, y0, x1, y1, hx, hy, rfl⟩ := hrect vs hvs
  unfold Box.corners at hc
  simp only [List.forall₂_cons, List.forall₂_nil_left_iff, and_true] at hc
  obtain ⟨⟨c1, c2⟩, -, ⟨c3, c4⟩, -⟩ := hc
  rw [abs_le] at c1 c2 c3 c4
  show ∃ p q, IsEdge (rect x0 y0 x1 y1) p q ∧ GapAlong p q g _ (rect x0 y0 x1 y1)
  apply gap_rect hx hy
  have pe : poseAt (p, q) t = (p.1 + t * (q.1 - p.1), p.2 + t * (q.2 - p.2)) := rfl
  have hpl : placed [(-a, -b), (a, -b), (a, b), (-a, b)] (poseAt (p, q) t) = rect ((poseAt (p, q) t).1 - a) ((poseAt (p, q) t).2 - b) ((poseAt (p, q) t).1 + a) ((poseAt (p, q) t).2 + b) :=
    rect_placed a b _
  rw [hpl, pe]
  have hv : ∀ v ∈ rect (p.1 + t * (q.1 - p.1) - a) (p.2 + t * (q.2 - p.2) - b) (p.1 + t * (q.1 - p.1) + a) (p.2 + t * (q.2 - p.2) + b),
      |v.1 - (p.1 + t * (q.1 - p.1))| ≤ a ∧ |v.2 - (p.2 + t * (q.2 - p.2))| ≤ b := by
    intro v hv
    simp only [rect, List.mem_cons, List.not_mem_nil, or_false] at hv
    rcases hv with rfl | rfl | rfl | rfl <;> constructor <;> rw [abs_le] <;> constructor <;> simp only <;> linarith
  have hh := hf o hoo
  simp only at hh
  generalize p.1 + t * (q.1 - p.1) = x at *
  generalize p.2 + t * (q.2 - p.2) = y at *
  rcases hh with hh | hh
  · rcases lt_abs.1 hh with hh | hh
    · right; left
      intro v mv
      have := (abs_le.1 (hv v mv).1).1
      linarith [c3.2]
    · left
      intro v mv
      have := (abs_le.1 (hv v mv).1).2
      linarith [c1.1]
  · rcases lt_abs.1 hh with hh | hh
    · right; right; right
      intro v mv
      have := (abs_le.1 (hv v mv).2).1
      linarith [c4.2]
    · right; right; left
      intro v mv
      have := (abs_le.1 (hv v mv).2).2
      linarith [c2.1]

theorem fl_small {x : ℝ} (hx : |x| ≤ 8) : |fl x - x| ≤ 2 ^ (-49 : ℤ) := by
  have h1 := fl_rounds x
  have h2 : (2 : ℝ) ^ (-53 : ℤ) * |x| ≤ 2 ^ (-53 : ℤ) * 8 := mul_le_mul_of_nonneg_left hx (by positivity)
  have h3 : (2 : ℝ) ^ (-1075 : ℤ) ≤ 2 ^ (-60 : ℤ) := zpow_le_zpow_right₀ one_le_two (by norm_num)
  have h4 : (2 : ℝ) ^ (-53 : ℤ) * 8 + 2 ^ (-60 : ℤ) ≤ 2 ^ (-49 : ℤ) := by norm_num
  linarith

theorem rounded_facts {L h : ℝ} (h0 : 0 ≤ L) (h2 : h ≤ L) (hL : L ≤ 2) (hh : 0 ≤ h) :
    NearWalls (2 ^ (-49 : ℤ)) (rooms L h) (roundedWalls (rooms L h)) ∧ Rectangles (roundedWalls (rooms L h)) ∧ ∀ o ∈ roundedWalls (rooms L h), FloatRow 4 8 o := by
  have hbox : ∀ o ∈ rooms L h, -7 ≤ o.x - o.w / 2 ∧ o.x + o.w / 2 ≤ 7 ∧ -7 ≤ o.y - o.l / 2 ∧ o.y + o.l / 2 ≤ 7 := by
    unfold rooms
    simp only [List.mem_cons, List.not_mem_nil, or_false, forall_eq_or_imp, forall_eq, hallLength, thick]
    refine ⟨?_, ?_, ?_, ?_, ?_, ?_, ?_, ?_, ?_, ?_, ?_, ?_⟩ <;> refine ⟨?_, ?_, ?_, ?_⟩ <;> linarith
  have hd : (2 : ℝ) ^ (-49 : ℤ) ≤ 1 / 1000 := by norm_num
  have h400 : (2 : ℝ) ^ (-400 : ℤ) ≤ 2 ^ (-10 : ℤ) := zpow_le_zpow_right₀ one_le_two (by norm_num)
  have h10 : (2 : ℝ) ^ (-10 : ℤ) ≤ 1 / 1000 := by norm_num
  have hfl : ∀ o ∈ rooms L h, |fl (o.x - o.w / 2) - (o.x - o.w / 2)| ≤ 2 ^ (-49 : ℤ) ∧ |fl (o.x + o.w / 2) - (o.x + o.w / 2)| ≤ 2 ^ (-49 : ℤ) ∧
      |fl (o.y - o.l / 2) - (o.y - o.l / 2)| ≤ 2 ^ (-49 : ℤ) ∧ |fl (o.y + o.l / 2) - (o.y + o.l / 2)| ≤ 2 ^ (-49 : ℤ) := by
    intro o ho
    obtain ⟨b1, b2, b3, b4⟩ := hbox o ho
    obtain ⟨s1, s2⟩ := rooms_sizesE h0 h2 o ho
    exact ⟨fl_small (abs_le.2 ⟨by linarith, by linarith⟩), fl_small (abs_le.2 ⟨by linarith, by linarith⟩), fl_small (abs_le.2 ⟨by linarith, by linarith⟩),
      fl_small (abs_le.2 ⟨by linarith, by linarith⟩)⟩
  have hord : ∀ o ∈ rooms L h, fl (o.x - o.w / 2) + 1 / 20 ≤ fl (o.x + o.w / 2) ∧ fl (o.y - o.l / 2) + 1 / 20 ≤ fl (o.y + o.l / 2) := by
    intro o ho
    obtain ⟨f1, f2, f3, f4⟩ := hfl o ho
    obtain ⟨s1, s2⟩ := rooms_sizesE h0 h2 o ho
    generalize (2 : ℝ) ^ (-49 : ℤ) = d at *
    rw [abs_le] at f1 f2 f3 f4
    constructor <;> linarith [f1.2, f2.1, f3.2, f4.1]
  refine ⟨?_, ?_, ?_⟩
  · unfold NearWalls roundedWalls
    rw [List.forall₂_map_right_iff, List.forall₂_same]
    intro o ho
    obtain ⟨f1, f2, f3, f4⟩ := hfl o ho
    rw [List.forall₂_map_right_iff]
    unfold Box.corners
    simp only [List.forall₂_cons, List.Forall₂.nil, and_true]
    exact ⟨⟨f1, f3⟩, ⟨f2, f3⟩, ⟨f2, f4⟩, ⟨f1, f4⟩⟩
  · intro vs hvs
    obtain ⟨o, ho, rfl⟩ := List.mem_map.1 hvs
    obtain ⟨k1, k2⟩ := hord o ho
    exact ⟨_, _, _, _, by linarith, by linarith, rfl⟩
  · intro vs hvs
    obtain ⟨o, ho, rfl⟩ := List.mem_map.1 hvs
    obtain ⟨k1, k2⟩ := hord o ho
    obtain ⟨f1, f2, f3, f4⟩ := hfl o ho
    obtain ⟨b1, b2, b3, b4⟩ := hbox o ho
    replace f1 := abs_le.1 (f1.trans hd)
    replace f2 := abs_le.1 (f2.trans hd)
    replace f3 := abs_le.1 (f3.trans hd)
    replace f4 := abs_le.1 (f4.trans hd)
    have hs : (2 : ℝ) ^ (-400 : ℤ) ≤ 1 / 20 := h400.trans (h10.trans (by norm_num))
    exact rect_floatRow (by linarith) (by linarith) (by linarith [f1.1]) (by linarith [f2.2]) (by linarith [f3.1]) (by linarith [f4.2])

theorem rect_bodies {a b : ℝ} {hulls : List (List (ℝ × ℝ))} (ha : 1 / 100 ≤ a) (ha' : a ≤ 8) (hb : 1 / 100 ≤ b) (hb' : b ≤ 8) (h : ∀ o ∈ hulls, FloatRow 4 8 o) :
    FloatBodies 8 [(-a, -b), (a, -b), (a, b), (-a, b)] hulls := by
  have h40 : (2 : ℝ) ^ (-40 : ℤ) * 8 ≤ 1 / 100 := by norm_num
  refine ⟨by norm_num, ?_, ⟨by simp, fun p q h => ?_⟩, fun v hv => ?_, h⟩
  · calc (8 : ℝ) = 2 ^ (3 : ℤ) := by norm_num
      _ ≤ 2 ^ (1000 : ℤ) := zpow_le_zpow_right₀ one_le_two (by norm_num)
  · refine h40.trans ?_
    rcases (isEdge_four _ _ _ _ p q).1 h with ⟨rfl, rfl⟩ | ⟨rfl, rfl⟩ | ⟨rfl, rfl⟩ | ⟨rfl, rfl⟩ <;> simp only <;> apply Real.le_sqrt_of_sq_le <;> nlinarith
  · simp only [List.mem_cons, List.not_mem_nil, or_false] at hv
    rcases hv with rfl | rfl | rfl | rfl <;> refine ⟨abs_le.2 ⟨?_, ?_⟩, abs_le.2 ⟨?_, ?_⟩⟩ <;> simp only <;> linarith

/-- The hypotheses of C138 are met in the world of the experiment with rounded corners, for a body of half-height 0.2 and for one of half-height 0.15, which the float
check lets through. -/
theorem C138_nonvacuous : ∃ P, hallwayManip (3 / 10) (5 / 100) 2 (fun _ => 1 / 2) = .ok P ∧ P.gap ≤ 7 / 5 ∧ P.gap + 4 * 2 ^ (-49 : ℤ) + 2 ^ (-29 : ℤ) ≤ 2 * 0.2 ∧
    NearWalls (2 ^ (-49 : ℤ)) P.obstacles (roundedWalls P.obstacles) ∧ Rectangles (roundedWalls P.obstacles) ∧
    FloatBodies 8 [(-0.2, -0.2), (0.2, -0.2), (0.2, 0.2), (-0.2, 0.2)] (roundedWalls P.obstacles) ∧
    P.start ∈ house (3 / 2) (P.gap + 1 / 10) ∧ P.start.1 < 0 ∧
    [P.start, (9 / 4, 3 / 4)].IsChain (AcceptedR (dotPlain fl) 8 [(-0.15, -0.15), (0.15, -0.15), (0.15, 0.15), (-0.15, 0.15)] (roundedWalls P.obstacles)) := by
  obtain ⟨P, hP⟩ := (C88_answers (3 / 10) (5 / 100) 2 fun _ => 1 / 2).2 (by norm_num)
  obtain ⟨-, -, h1, h2⟩ := C88_sizes (fun _ => by norm_num) hP
  obtain ⟨-, -, -, ho, hs⟩ := manip_eq hP
  have hgap : P.gap = 3574 / 10000 := by rw [h2]; norm_num
  obtain ⟨w1, w2, w3⟩ := rounded_facts (L := 3 / 2) (h := P.gap + 1 / 10) (by norm_num) (by rw [hgap]; norm_num) (by norm_num) (by rw [hgap]; norm_num)
  rw [← ho] at w1 w2 w3
  refine ⟨P, hP, by rw [hgap]; norm_num, by rw [hgap]; norm_num, w1, w2, rect_bodies (by norm_num) (by norm_num) (by norm_num) (by norm_num) w3, ?_,
    by rw [hs]; norm_num, ?_⟩
  · rw [hs]
    left; left; exact ⟨by norm_num, by norm_num, by norm_num, by norm_num⟩
  · rw [List.isChain_pair, hs]
    obtain ⟨rs, r1, r2⟩ := C138_free (dotR := dotPlain fl) C136_dots.1 hP (by rw [hgap]; norm_num) (R := 8) (ε := 2 ^ (-49 : ℤ)) (a := 0.15) (b := 0.15) (by norm_num) (by positivity)
      (by norm_num) (by norm_num) (rect_bodies (by norm_num) (by norm_num) (by norm_num) (by norm_num) w3) w1 w2 (motions := [((-9 / 4, 3 / 4), (9 / 4, 3 / 4))]) (by
        intro m hm
        rw [List.mem_singleton] at hm
        subst hm
        norm_num [abs_le]) (i := 0) (p := (-9 / 4, 3 / 4)) (q := (9 / 4, 3 / 4)) rfl (by
        rintro x ⟨s, t, hs, ht, hst, rfl⟩
        rw [ho]
        have hsm : (2 : ℝ) ^ (-49 : ℤ) + 2 ^ (-30 : ℤ) ≤ 1 / 1000 := by norm_num
        have hpos : (0 : ℝ) ≤ 2 ^ (-49 : ℤ) + 2 ^ (-30 : ℤ) := by positivity
        generalize (2 : ℝ) ^ (-49 : ℤ) + 2 ^ (-30 : ℤ) = d at *
        apply rooms_free (by norm_num) (by rw [hgap]; norm_num) (by norm_num; linarith) (by norm_num; linarith)
        · simp only [Prod.smul_mk, Prod.mk_add_mk, smul_eq_mul]
          have : |s * (-9 / 4) + t * (9 / 4)| ≤ 9 / 4 := by
            rw [abs_le]
            constructor <;> nlinarith
          norm_num at this ⊢
          linarith
        · simp only [Prod.smul_mk, Prod.mk_add_mk, smul_eq_mul]
          rw [show s * (3 / 4) + t * (3 / 4) - 3 / 2 / 2 = (s + t - 1) * (3 / 4) by ring, hst, hgap]
          norm_num
          linarith)
    exact ⟨_, rs, 0, by
      intro m hm
      rw [List.mem_singleton] at hm
      subst hm
      norm_num [abs_le], r1, rfl, r2⟩

end Verif.Props
