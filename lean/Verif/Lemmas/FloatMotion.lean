import Verif.Lemmas.FloatSatErr

/-! Rounding errors of the turtlebot's motion check. -/

namespace Verif.FloatSat

open Verif.Spec Verif.Sat2D

variable {rd : ℝ → ℝ} {dotR : V2 → V2 → ℝ} {u τ R : ℝ}

/-- The numbers that bound the rounding errors of the motion check: relative error `u`, absolute error `τ`, coordinates at most `R`. -/
structure MScale (u τ R : ℝ) : Prop where
  u0 : 0 < u
  u1 : u ≤ 1 / 100000
  τ0 : 0 ≤ τ
  R1 : 1 ≤ R
  small : 1000 * (R * τ) ≤ u

theorem MScale.tau (sc : MScale u τ R) : 1000 * τ ≤ u := by
  have := mul_le_mul_of_nonneg_right sc.R1 sc.τ0
  linarith [sc.small]

theorem MScale.uR (sc : MScale u τ R) : u ≤ u * R := le_mul_of_one_le_right sc.u0.le sc.R1

theorem MScale.uR' (sc : MScale u τ R) : u * R ≤ 1 / 100000 * R := mul_le_mul_of_nonneg_right sc.u1 (by linarith [sc.R1])

/-- Rounding a number of size at most `k R`. -/
theorem rd_err (hrd : Rounds rd u τ) (sc : MScale u τ R) {x k : ℝ} (hx : |x| ≤ k * R) : |rd x - x| ≤ (k + 1 / 1000) * (u * R) := by
  have h1 := hrd x
  have h2 := mul_le_mul_of_nonneg_left hx sc.u0.le
  have := sc.tau
  have := sc.uR
  nlinarith

/-- A computed vertex of the robot at the start or at the goal. -/
theorem place_err (hrd : Rounds rd u τ) (sc : MScale u τ R) {v s : ℝ} (hv : |v| ≤ R) (hs : |s| ≤ R) :
    |rd (v + s) - (v + s)| ≤ 201 / 100 * (u * R) := by
  have := rd_err hrd sc (x := v + s) (k := 2) (by linarith [abs_add_le v s])
  have := sc.uR
  have := sc.u0
  linarith

/-- The computed difference of the vertices. -/
theorem diff_err (hrd : Rounds rd u τ) (sc : MScale u τ R) {v s g : ℝ} (hv : |v| ≤ R) (hs : |s| ≤ R) (hg : |g| ≤ R) :
    |rd (rd (v + g) - rd (v + s)) - (g - s)| ≤ 62 / 10 * (u * R) := by
  have h1 := place_err hrd sc hv hs
  have h2 := place_err hrd sc hv hg
  have hR := sc.R1
  have huR := sc.uR'
  have huR0 := sc.uR
  have hu := sc.u0
  set X := rd (v + s)
  set Y := rd (v + g)
  have e1 : |Y - X - (g - s)| ≤ 402 / 100 * (u * R) := by
    have := tri (z := Y - X - (g - s)) (Y - (v + g)) (-(X - (v + s)))
    rw [abs_neg] at this
    linarith
  have e0 : |g - s| ≤ 2 * R := by linarith [abs_sub g s]
  have e2 : |Y - X| ≤ 21 / 10 * R := by
    have := tri (z := Y - X) (Y - X - (g - s)) (g - s)
    nlinarith
  have e3 := rd_err hrd sc e2
  have := tri (z := rd (Y - X) - (g - s)) (rd (Y - X) - (Y - X)) (Y - X - (g - s))
  nlinarith

/-- A computed vertex of the robot at an intermediate pose. -/
theorem coord_err (hrd : Rounds rd u τ) (sc : MScale u τ R) {v s g α a : ℝ} (hv : |v| ≤ R) (hs : |s| ≤ R) (hg : |g| ≤ R) (ha : 0 ≤ a) (ha' : a ≤ 1)
    (hα : |α - a| ≤ 4 * u) : |rd (rd (v + s) + rd (α * rd (rd (v + g) - rd (v + s)))) - (v + (s + a * (g - s)))| ≤ 32 * (u * R) := by
  have h1 := place_err hrd sc hv hs
  have h2 := diff_err hrd sc hv hs hg
  have hR := sc.R1
  have huR := sc.uR'
  have huR0 := sc.uR
  have hu := sc.u0
  have hu1 := sc.u1
  set X := rd (v + s)
  set d := rd (rd (v + g) - X)
  have e0 : |g - s| ≤ 2 * R := by linarith [abs_sub g s]
  have e1 : |d| ≤ 21 / 10 * R := by
    have := tri (z := d) (d - (g - s)) (g - s)
    nlinarith
  have e2 : |α| ≤ 101 / 100 := by
    have := tri (z := α) (α - a) a
    rw [abs_of_nonneg ha] at this
    linarith
  have e3 : |α * d - a * (g - s)| ≤ 15 * (u * R) := by
    have := tri (z := α * d - a * (g - s)) (α * (d - (g - s))) ((α - a) * (g - s))
    rw [abs_mul, abs_mul] at this
    have k1 : |α| * |d - (g - s)| ≤ 101 / 100 * (62 / 10 * (u * R)) := mul_le_mul e2 h2 (abs_nonneg _) (by norm_num)
    have k2 : |α - a| * |g - s| ≤ 4 * u * (2 * R) := mul_le_mul hα e0 (abs_nonneg _) (by linarith)
    nlinarith
  have e4 : |α * d| ≤ 22 / 10 * R := by
    rw [abs_mul]
    calc |α| * |d| ≤ 101 / 100 * (21 / 10 * R) := mul_le_mul e2 e1 (abs_nonneg _) (by norm_num)
      _ ≤ _ := by linarith
  have e5 := rd_err hrd sc e4
  set P := rd (α * d)
  have hX : |X| ≤ 21 / 10 * R := by
    have := tri (z := X) (X - (v + s)) (v + s)
    have := abs_add_le v s
    nlinarith
  have e6 : |X + P| ≤ 45 / 10 * R := by
    have := tri (z := X + P) X P
    have := tri (z := P) (P - α * d) (α * d)
    nlinarith
  have e7 := rd_err hrd sc e6
  have k1 := tri (z := rd (X + P) - (v + (s + a * (g - s)))) (rd (X + P) - (X + P)) (X + P - (v + (s + a * (g - s))))
  have k2 := tri (z := X + P - (v + (s + a * (g - s)))) (X - (v + s)) (P - a * (g - s))
  have k3 := tri (z := P - a * (g - s)) (P - α * d) (α * d - a * (g - s))
  nlinarith

/-- The fractions of `np.linspace`. -/
theorem alpha_err (hrd : Rounds rd u τ) (sc : MScale u τ R) {n k : ℕ} (hn : 2 ≤ n) (hk : k + 1 ≤ n) (hτ : n * τ ≤ u) :
    |rd ((k : ℝ) * rd (1 / ((n : ℝ) - 1))) - (k : ℝ) / ((n : ℝ) - 1)| ≤ 4 * u := by
  have hM : (1 : ℝ) ≤ (n : ℝ) - 1 := by
    have : (2 : ℝ) ≤ n := by exact_mod_cast hn
    linarith
  have hkn : (k : ℝ) ≤ (n : ℝ) - 1 := by
    have : ((k + 1 : ℕ) : ℝ) ≤ n := by exact_mod_cast hk
    push_cast at this
    linarith
  have hkτ : (k : ℝ) * τ ≤ n * τ := mul_le_mul_of_nonneg_right (by linarith) sc.τ0
  have hk0 : (0 : ℝ) ≤ k := Nat.cast_nonneg k
  generalize (n : ℝ) - 1 = M at *
  have hM0 : 0 < M := by linarith
  have h1 := hrd (1 / M)
  set st := rd (1 / M)
  rw [abs_of_pos (by positivity : 0 < 1 / M)] at h1
  have hu := sc.u0
  have hu1 := sc.u1
  have ht := sc.tau
  have hf : (k : ℝ) / M ≤ 1 := by rw [div_le_one hM0]; exact hkn
  have hf0 : 0 ≤ (k : ℝ) / M := by positivity
  have e1 : |(k : ℝ) * st - (k : ℝ) / M| ≤ 2 * u := by
    have : (k : ℝ) * st - (k : ℝ) / M = k * (st - 1 / M) := by ring
    rw [this, abs_mul, abs_of_nonneg hk0]
    calc (k : ℝ) * |st - 1 / M| ≤ k * (u * (1 / M) + τ) := mul_le_mul_of_nonneg_left h1 hk0
      _ = u * ((k : ℝ) / M) + k * τ := by ring
      _ ≤ u * 1 + k * τ := by linarith [mul_le_mul_of_nonneg_left hf hu.le]
      _ ≤ 2 * u := by linarith
  have e2 : |(k : ℝ) * st| ≤ 11 / 10 := by
    have := tri (z := (k : ℝ) * st) ((k : ℝ) * st - (k : ℝ) / M) ((k : ℝ) / M)
    rw [abs_of_nonneg hf0] at this
    linarith
  have e3 := hrd ((k : ℝ) * st)
  have e4 := mul_le_mul_of_nonneg_left e2 hu.le
  have := tri (z := rd ((k : ℝ) * st) - (k : ℝ) / M) (rd ((k : ℝ) * st) - (k : ℝ) * st) ((k : ℝ) * st - (k : ℝ) / M)
  linarith

/-- The fraction number `k`: near `k/(n-1)`, and exactly 0 or 1 at the ends. -/
theorem alphasR_near (hrd : Rounds rd u τ) (sc : MScale u τ R) {n : ℕ} (hn : 2 ≤ n) (hτ : n * τ ≤ u) :
    ∃ α : ℕ → ℝ, alphasR rd n = (List.range n).map α ∧ ∀ k < n, |α k - (k : ℝ) / ((n : ℝ) - 1)| ≤ 4 * u := by
  refine ⟨fun k => if k + 1 = n then 1 else rd ((k : ℝ) * rd (1 / ((n : ℝ) - 1))), rfl, fun k hk => ?_⟩
  by_cases h : k + 1 = n
  · simp only [if_pos h]
    have : (k : ℝ) = (n : ℝ) - 1 := by rw [← h]; push_cast; ring
    have h2 : (2 : ℝ) ≤ n := by exact_mod_cast hn
    rw [this, div_self (by linarith), sub_self, abs_zero]
    linarith [sc.u0]
  · simp only [if_neg h]
    exact alpha_err hrd sc hn (by omega) hτ

/-- All coordinates of the motion are at most `R`. -/
def MotionIn (R : ℝ) (m : V2 × V2) : Prop := (|m.1.1| ≤ R ∧ |m.1.2| ≤ R) ∧ |m.2.1| ≤ R ∧ |m.2.2| ≤ R

theorem zipWith_map_map {α β γ δ : Type} (f : β → γ → δ) (g : α → β) (h : α → γ) (l : List α) :
    List.zipWith f (l.map g) (l.map h) = l.map fun x => f (g x) (h x) := by
  induction l with
  | nil => rfl
  | cons a l ih => simp [ih]

theorem intermVertsR_map (rd : ℝ → ℝ) (robot : List V2) (m : V2 × V2) (α : ℝ) : intermVertsR rd robot m α = robot.map fun v =>
    (rd (rd (v.1 + m.1.1) + rd (α * rd (rd (v.1 + m.2.1) - rd (v.1 + m.1.1)))),
      rd (rd (v.2 + m.1.2) + rd (α * rd (rd (v.2 + m.2.2) - rd (v.2 + m.1.2))))) := by
  unfold intermVertsR vertsAt
  rw [zipWith_map_map]

/-- The computed least coordinate changes of a motion. -/
theorem vertexMoveR_ok (hrd : Rounds rd u τ) (sc : MScale u τ R) (robot : List V2) (hne : robot ≠ []) (hb : InBox R robot) (m : V2 × V2) (hm : MotionIn R m) :
    ∃ x y, vertexMoveR rd robot m = .ok [x, y] ∧ |x - (|m.1.1 - m.2.1|)| ≤ 62 / 10 * (u * R) ∧ |y - (|m.1.2 - m.2.2|)| ≤ 62 / 10 * (u * R) := by
  unfold vertexMoveR vertsAt
  rw [zipWith_map_map, zipWith_map_map]
  obtain ⟨x, h1, h2, -⟩ := pyMin_ok (robot.map fun v => |rd (rd (v.1 + m.1.1) - rd (v.1 + m.2.1))|) (by simpa using hne)
  obtain ⟨y, h3, h4, -⟩ := pyMin_ok (robot.map fun v => |rd (rd (v.2 + m.1.2) - rd (v.2 + m.2.2))|) (by simpa using hne)
  refine ⟨x, y, ?_, ?_, ?_⟩
  · simp only [h1, h3, ok_bind]
    rfl
  · obtain ⟨v, hv, rfl⟩ := List.mem_map.1 h2
    exact (abs_abs_sub_abs_le _ _).trans (diff_err hrd sc (hb v hv).1 hm.2.1 hm.1.1)
  · obtain ⟨v, hv, rfl⟩ := List.mem_map.1 h4
    exact (abs_abs_sub_abs_le _ _).trans (diff_err hrd sc (hb v hv).2 hm.2.2 hm.1.2)

/-- The shared number of poses: consecutive poses are little more than 0.08 apart. -/
theorem numStepsR_ok (hrd : Rounds rd u τ) (sc : MScale u τ R) (robot : List V2) (hne : robot ≠ []) (hb : InBox R robot) (motions : List (V2 × V2))
    (hm : motions ≠ []) (hin : ∀ m ∈ motions, MotionIn R m) :
    ∃ n, numStepsR rd robot motions = .ok n ∧ 2 ≤ n ∧ n * τ ≤ u ∧
      ∀ m ∈ motions, |m.1.1 - m.2.1| < (8 / 100 + 16 * (u * R)) * ((n : ℝ) - 1) ∧ |m.1.2 - m.2.2| < (8 / 100 + 16 * (u * R)) * ((n : ℝ) - 1) := by
  classical
  have hex : ∀ m : V2 × V2, ∃ l : List ℝ, m ∈ motions → vertexMoveR rd robot m = .ok l ∧
      (∃ x ∈ l, |x - (|m.1.1 - m.2.1|)| ≤ 62 / 10 * (u * R)) ∧ (∃ y ∈ l, |y - (|m.1.2 - m.2.2|)| ≤ 62 / 10 * (u * R)) ∧ ∀ z ∈ l, z ≤ 21 / 10 * R := by
    intro m
    by_cases h : m ∈ motions
    · obtain ⟨x, y, e, h1, h2⟩ := vertexMoveR_ok hrd sc robot hne hb m (hin m h)
      refine ⟨[x, y], fun _ => ⟨e, ⟨x, by simp, h1⟩, ⟨y, by simp, h2⟩, ?_⟩⟩
      have hR := sc.R1
      have huR := sc.uR'
      obtain ⟨⟨m1, m2⟩, m3, m4⟩ := hin m h
      have g1 := abs_sub m.1.1 m.2.1
      have g2 := abs_sub m.1.2 m.2.2
      intro z hz
      simp only [List.mem_cons, List.not_mem_nil, or_false] at hz
      rcases hz with rfl | rfl
      · nlinarith [(abs_le.1 h1).2]
      · nlinarith [(abs_le.1 h2).2]
    · exact ⟨[], fun h' => absurd h' h⟩
  choose f hf using hex
  have h1 := mapM_ok (vertexMoveR rd robot) f motions fun m hm' => (hf m hm').1
  have hne' : (motions.map f).flatten ≠ [] := by
    obtain ⟨m, hm'⟩ := List.exists_mem_of_ne_nil motions hm
    obtain ⟨x, hx, -⟩ := (hf m hm').2.1
    intro h0
    have : x ∈ (motions.map f).flatten := List.mem_flatten.2 ⟨f m, List.mem_map.2 ⟨m, hm', rfl⟩, hx⟩
    rw [h0] at this
    simp at this
  obtain ⟨D, h2, h3, h4⟩ := pyMax_ok _ hne'
  have hDle : D ≤ 21 / 10 * R := by
    obtain ⟨l, hl, hD⟩ := List.mem_flatten.1 h3
    obtain ⟨m, hm', rfl⟩ := List.mem_map.1 hl
    exact (hf m hm').2.2.2 D hD
  have hDge : ∀ m ∈ motions, |m.1.1 - m.2.1| ≤ D + 62 / 10 * (u * R) ∧ |m.1.2 - m.2.2| ≤ D + 62 / 10 * (u * R) := by
    intro m hm'
    obtain ⟨-, ⟨x, hx, x1⟩, ⟨y, hy, y1⟩, -⟩ := hf m hm'
    have gx := h4 x (List.mem_flatten.2 ⟨f m, List.mem_map.2 ⟨m, hm', rfl⟩, hx⟩)
    have gy := h4 y (List.mem_flatten.2 ⟨f m, List.mem_map.2 ⟨m, hm', rfl⟩, hy⟩)
    exact ⟨by linarith [(abs_le.1 x1).1], by linarith [(abs_le.1 y1).1]⟩
  have hR := sc.R1
  have hu := sc.u0
  have hu1 := sc.u1
  have ht := sc.tau
  have hτ := sc.τ0
  have huR := sc.uR
  have huR' := sc.uR'
  have hc := hrd (8 / 100)
  rw [abs_of_pos (by norm_num : (0 : ℝ) < 8 / 100)] at hc
  set c := rd (8 / 100)
  have hc1 : c ≤ 8 / 100 + 9 / 100 * u := by linarith [(abs_le.1 hc).2]
  have hc2 : 79 / 1000 ≤ c := by linarith [(abs_le.1 hc).1]
  have hc0 : 0 < c := by linarith
  have hq := hrd (D / c)
  set q := rd (D / c)
  have hfl := Nat.lt_floor_add_one q
  refine ⟨⌊q⌋₊ + 2, ?_, by omega, ?_, ?_⟩
  · unfold numStepsR
    simp only [h1, ok_bind, h2]
    rfl
  · -- the number of poses is not astronomical
    have hq1 : |D / c| ≤ 60 * R := by
      rw [abs_div, abs_of_pos hc0, div_le_iff₀ hc0]
      have : |D| ≤ 21 / 10 * R := by
        obtain ⟨m, hm'⟩ := List.exists_mem_of_ne_nil motions hm
        have := (hDge m hm').1
        have h0 := abs_nonneg (m.1.1 - m.2.1)
        rw [abs_le]
        constructor <;> nlinarith
      nlinarith
    have hq2 := rd_err hrd sc hq1
    have hq3 : q ≤ 62 * R := by
      have a1 := (abs_le.1 hq2).2
      have a2 := (abs_le.1 hq1).2
      nlinarith
    have hfl2 : (⌊q⌋₊ : ℝ) ≤ 62 * R := by
      rcases le_or_gt 0 q with h | h
      · exact (Nat.floor_le h).trans hq3
      · rw [Nat.floor_of_nonpos h.le]
        simp
        linarith
    push_cast
    have : ((⌊q⌋₊ : ℝ) + 2) * τ ≤ (1000 * R) * τ := mul_le_mul_of_nonneg_right (by linarith) hτ
    linarith [sc.small]
  · have hN : (((⌊q⌋₊ + 2 : ℕ) : ℝ) - 1) = (⌊q⌋₊ : ℝ) + 1 := by push_cast; ring
    rw [hN]
    have hM1 : (1 : ℝ) ≤ (⌊q⌋₊ : ℝ) + 1 := by linarith [(Nat.cast_nonneg ⌊q⌋₊ : (0 : ℝ) ≤ _)]
    generalize (⌊q⌋₊ : ℝ) + 1 = M at *
    -- the largest change
    have hD : D ≤ 8 / 100 * M + 9 / 100 * (u * M) + 3 * (u * R) := by
      rcases le_or_gt D 0 with h | h
      · have : 0 ≤ u * M := by positivity
        have : 0 ≤ u * R := by positivity
        linarith
      · have hDc : 0 < D / c := by positivity
        rw [abs_of_pos hDc] at hq
        have e1 : D / c < M + u * (D / c) + τ := by linarith [(abs_le.1 hq).1]
        have e2 : D < c * M + u * D + c * τ := by
          have := mul_lt_mul_of_pos_left e1 hc0
          have e3 : c * (D / c) = D := by field_simp
          have e4 : c * (M + u * (D / c) + τ) = c * M + u * (c * (D / c)) + c * τ := by ring
          rw [e4, e3] at this
          exact this
        have e5 : c * M ≤ (8 / 100 + 9 / 100 * u) * M := mul_le_mul_of_nonneg_right hc1 (by linarith)
        have e6 : u * D ≤ u * (21 / 10 * R) := mul_le_mul_of_nonneg_left hDle hu.le
        have e7 : c * τ ≤ 1 * τ := mul_le_mul_of_nonneg_right (by linarith) hτ
        nlinarith
    have huRM : u * R ≤ u * R * M := le_mul_of_one_le_right (by positivity) hM1
    have huM : u * M ≤ u * R * M := mul_le_mul_of_nonneg_right huR (by linarith)
    have h0 : 0 < u * R := by positivity
    intro m hm'
    obtain ⟨g1, g2⟩ := hDge m hm'
    constructor <;> nlinarith

/-- All checks of one motion. -/
theorem isMotionValidR_ok (robot : List V2) (hulls : List (List V2)) (motions : List (V2 × V2)) (n : ℕ)
    (hn : numStepsR rd robot motions = .ok n) (hl : ∀ o ∈ hulls, o.length = robot.length) :
    isMotionValidR rd dotR robot hulls motions = .ok (motions.map fun m =>
      (hulls ×ˢ alphasR rd n).all fun c => !rowTestR rd dotR robot.length (intermVertsR rd robot m c.2) c.1) := by
  unfold isMotionValidR
  simp only [hn, ok_bind]
  have hfold : ∀ (cs : List (List V2 × ℝ)) (A : V2 × V2 → Bool), (∀ c ∈ cs, c.1.length = robot.length) →
      cs.foldlM (fun valids (c : List V2 × ℝ) => do
        let hits ← vecSatR rd dotR robot.length (motions.map fun m => intermVertsR rd robot m c.2) (List.replicate motions.length c.1)
        return List.zipWith (fun v h => v && !h) valids hits) (motions.map A)
      = (.ok (motions.map fun m => A m && cs.all fun c => !rowTestR rd dotR robot.length (intermVertsR rd robot m c.2) c.1) : Except PyErr _) := by
    intro cs
    induction cs with
    | nil => intro A _; simp; rfl
    | cons c cs ih =>
      intro A hcs
      rw [List.foldlM_cons]
      have hv := vecSatR_ok (rd := rd) (dotR := dotR) robot.length (motions.map fun m => intermVertsR rd robot m c.2) (List.replicate motions.length c.1) (by simp)
        (by intro vs hvs; obtain ⟨m, _, rfl⟩ := List.mem_map.1 hvs; simp [intermVertsR_map])
        (by intro vs hvs; rw [(List.mem_replicate.1 hvs).2]; exact hcs c (by simp))
      have hz : List.zipWith (rowTestR rd dotR robot.length) (motions.map fun m => intermVertsR rd robot m c.2) (List.replicate motions.length c.1)
          = motions.map fun m => rowTestR rd dotR robot.length (intermVertsR rd robot m c.2) c.1 := by
        clear hv ih hn
        induction motions with
        | nil => simp
        | cons m l ih => simp [List.replicate_succ] at ih ⊢; exact ih
      rw [hz] at hv
      simp only [hv, ok_bind]
      have hz2 : List.zipWith (fun v h => v && !h) (motions.map A) (motions.map fun m => rowTestR rd dotR robot.length (intermVertsR rd robot m c.2) c.1)
          = motions.map fun m => A m && !rowTestR rd dotR robot.length (intermVertsR rd robot m c.2) c.1 := by
        rw [List.zipWith_map, List.zipWith_self]
      rw [hz2]
      have := ih (fun m => A m && !rowTestR rd dotR robot.length (intermVertsR rd robot m c.2) c.1) fun c' h' => hcs c' (by simp [h'])
      show List.foldlM _ _ cs = _
      rw [this]
      simp [Bool.and_assoc]
  have h0 : List.replicate motions.length true = motions.map fun _ => true := by simp
  rw [h0, hfold (hulls ×ˢ alphasR rd n) (fun _ => true) ?_]
  · simp
  · intro c hc
    rw [List.mem_product] at hc
    exact hl _ hc.1

end Verif.FloatSat
