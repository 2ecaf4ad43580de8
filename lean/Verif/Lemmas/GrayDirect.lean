import Verif.Lemmas.GrayComplete

/-!
The motion check of `GrayCodeWalls` accepts free motions along direct routes, and from dimension three on the route of a free straight
motion is direct.
-/

set_option linter.unusedSectionVars false

namespace Verif.Gray

open Verif.Spec

variable {n length : ℕ}

/-- All openings between the cubes of the ends are passed. -/
theorem crossings {l : List (Fin (n + 1) → ℤ)} (hl : l.Nodup) (hch : l.IsChain CubeAdj) {th : ℝ} (hth : 0 < th)
    {x y : Fin (n + 1) → ℝ} (hfree : ∀ t, 0 ≤ t → t ≤ 1 → GrayFree l th (seg x y t)) {a b : ℕ} {ca cb : Fin (n + 1) → ℤ}
    (ha : l[a]? = some ca) (hb : l[b]? = some cb) (hx : Inside l th ca x) (hy : Inside l th cb y) {k : ℕ} {c c' : Fin (n + 1) → ℤ}
    (hk : a ≤ k ∧ k < b ∨ b ≤ k ∧ k < a) (hc : l[k]? = some c) (hc' : l[k + 1]? = some c') :
    ∃ τ, 0 ≤ τ ∧ τ ≤ 1 ∧ Inside l th c (seg x y τ) ∧ Inside l th c' (seg x y τ) := by
  have e0 : seg x y 0 = x := by funext i; simp [seg]
  have e1 : seg x y 1 = y := by funext i; simp [seg]
  rcases hk with ⟨h1, h2⟩ | ⟨h1, h2⟩
  · exact crossing hl hch hth hfree ha hb h1 h2 hc hc' le_rfl zero_le_one zero_le_one le_rfl (by rw [e0]; exact hx) (by rw [e1]; exact hy)
  · exact crossing hl hch hth hfree hb ha h1 h2 hc hc' zero_le_one le_rfl le_rfl zero_le_one (by rw [e1]; exact hy) (by rw [e0]; exact hx)

/-- Acceptance along direct routes. -/
theorem accepts_core {th : ℝ} (h0 : 0 < th) {e : GrayCodeWalls ℝ n} (h : GrayCodeWalls.init n length th = .ok e)
    {start goal : Fin (n + 1) → ℝ} {a b : ℕ} (ha : e.cubes[a]? = some (fun i => ⌊start i⌋))
    (hb : e.cubes[b]? = some (fun i => ⌊goal i⌋)) (hdir : DirectRoute e.cubes a b) (hs : ∀ i, (⌊start i⌋ : ℝ) ≠ start i)
    (hg : ClearOfWalls e.cubes th (fun i => ⌊goal i⌋) goal)
    (hfree : ∀ t, 0 ≤ t → t ≤ 1 → GrayFree e.cubes th (fun i => (1 - t) * start i + t * goal i)) :
    ∃ fuel, isMotionValid e start goal fuel = some (.ok true) := by
  obtain ⟨-, -, hcubes, hth, -⟩ := init_ok h
  have hl : e.cubes.Nodup := by rw [hcubes]; exact order_nodup _ _
  have hch : e.cubes.IsChain CubeAdj := by rw [hcubes]; exact order_chain _ _
  have hmem : floorCube start ∈ e.cubes := List.mem_of_getElem? ha
  have e0 : seg start goal 0 = start := by funext i; simp [seg]
  have hfree' : ∀ t, 0 ≤ t → t ≤ 1 → GrayFree e.cubes th (seg start goal t) := hfree
  have strict : ∀ c ∈ e.cubes, InCube c start → c = floorCube start := by
    intro c _ hc
    funext i
    refine (Int.floor_eq_iff.2 ⟨(hc i).1, lt_of_le_of_ne (hc i).2 ?_⟩).symm
    intro he
    refine hs i ?_
    rw [he, Int.floor_add_one, Int.floor_intCast]; push_cast; rfl
  have hin0 : Inside e.cubes th (floorCube start) start := by
    obtain ⟨c, hc, h1, h2⟩ := hfree' 0 le_rfl zero_le_one
    rw [e0] at h1 h2
    have := strict c hc h1
    subst this
    exact ⟨h1, h2⟩
  have hin1 : Inside e.cubes th (floorCube goal) goal := ⟨fun i => ⟨Int.floor_le _, (Int.lt_floor_add_one _).le⟩, hg⟩
  unfold isMotionValid
  simp only [not_true, hmem, if_false]
  have hfwd := forward_iff hl ha hb
  change floorCube goal ∈ (e.cubes.dropWhile (· ≠ floorCube start)).tail ↔ a < b at hfwd
  have hal : a < e.cubes.length := (List.getElem?_eq_some_iff.1 ha).1
  have hbl : b < e.cubes.length := (List.getElem?_eq_some_iff.1 hb).1
  have hmain : ∃ m q T, ∃ fwd, fwd = decide (floorCube goal ∈ (e.cubes.dropWhile (· ≠ floorCube start)).tail) ∧
      Walk e fwd start goal m q T := by
    have get : ∀ k, k < e.cubes.length → e.cubes[k]? = some (e.cubes.getD k (fun _ => 0)) := by
      intro k hk
      rw [List.getElem?_eq_getElem hk, List.getD_eq_getElem?_getD, List.getElem?_eq_getElem hk]; rfl
    by_cases hab : a < b
    · let q : ℕ → Fin (n + 1) → ℤ := fun p => e.cubes.getD (a + p) (fun _ => 0)
      have hq : ∀ p, p ≤ b - a → e.cubes[a + p]? = some (q p) := fun p hp => get _ (by omega)
      have hT : ∀ p, ∃ t : ℝ, p < b - a → 0 ≤ t ∧ t ≤ 1 ∧ Inside e.cubes th (q p) (seg start goal t) ∧
          Inside e.cubes th (q (p + 1)) (seg start goal t) := by
        intro p
        by_cases hp : p < b - a
        · obtain ⟨t, ht⟩ := crossings hl hch h0 hfree' ha hb hin0 hin1 (k := a + p) (Or.inl ⟨by omega, by omega⟩) (hq p (by omega))
            (hq (p + 1) (by omega))
          exact ⟨t, fun _ => ht⟩
        · exact ⟨0, fun h => absurd h hp⟩
      choose T hT using hT
      have hlast : floorCube goal = q (b - a) := by
        have h1 := hq (b - a) le_rfl
        have : a + (b - a) = b := by omega
        rw [this, hb] at h1
        injection h1
      refine ⟨b - a, q, T, true, (decide_eq_true (hfwd.2 hab)).symm, ?_, hlast, ?_, ?_, ?_, ?_, fun p hp => (hT p hp).1,
        fun p hp => (hT p hp).2.1, fun p hp => ?_, ?_⟩
      · have h1 := hq 0 (by omega)
        rw [show a + 0 = a from rfl, ha] at h1
        injection h1
      · intro p hp
        simp only [if_true]
        rw [successors_eq hl (hq p (by omega))]
        have := hq (p + 1) (by omega)
        rw [show a + p + 1 = a + (p + 1) by omega, this]; rfl
      · intro p hp
        exact Or.inl ⟨a + p, hq p (by omega), hq (p + 1) (by omega)⟩
      · intro p hp i hi
        rw [← hlast]
        exact (hdir (a + p) _ _ _ (hq p (by omega)) (hq (p + 1) (by omega)) hb i (Ne.symm hi)).1 (by omega) (by omega)
      · intro p hp
        exact List.mem_of_getElem? (hq p hp)
      · rw [hth]; exact (hT p hp).2.2
      · rintro p p' hp hp' ⟨x, h1, h2⟩
        rw [hth] at h1 h2
        have := inside_idx hl hch h0 h1 h2 (hq p hp) (hq p' hp')
        omega
    · let q : ℕ → Fin (n + 1) → ℤ := fun p => e.cubes.getD (a - p) (fun _ => 0)
      have hq : ∀ p, p ≤ a - b → e.cubes[a - p]? = some (q p) := fun p hp => get _ (by omega)
      have hq' : ∀ p, p < a - b → e.cubes[a - (p + 1) + 1]? = some (q p) := by
        intro p hp
        rw [show a - (p + 1) + 1 = a - p by omega]; exact hq p (by omega)
      have hT : ∀ p, ∃ t : ℝ, p < a - b → 0 ≤ t ∧ t ≤ 1 ∧ Inside e.cubes th (q p) (seg start goal t) ∧
          Inside e.cubes th (q (p + 1)) (seg start goal t) := by
        intro p
        by_cases hp : p < a - b
        · obtain ⟨t, h1, h2, h3, h4⟩ := crossings hl hch h0 hfree' ha hb hin0 hin1 (k := a - (p + 1)) (Or.inr ⟨by omega, by omega⟩)
            (hq (p + 1) (by omega)) (hq' p hp)
          exact ⟨t, fun _ => ⟨h1, h2, h4, h3⟩⟩
        · exact ⟨0, fun h => absurd h hp⟩
      choose T hT using hT
      have hlast : floorCube goal = q (a - b) := by
        have h1 := hq (a - b) le_rfl
        have : a - (a - b) = b := by omega
        rw [this, hb] at h1
        injection h1
      refine ⟨a - b, q, T, false, (decide_eq_false (fun h => hab (hfwd.1 h))).symm, ?_, hlast, ?_, ?_, ?_, ?_, fun p hp => (hT p hp).1,
        fun p hp => (hT p hp).2.1, fun p hp => ?_, ?_⟩
      · have h1 := hq 0 (by omega)
        rw [show a - 0 = a from rfl, ha] at h1
        injection h1
      · intro p hp
        simp only [Bool.false_eq_true, if_false]
        rw [predecessors_eq hl (hq p (by omega)), if_neg (by omega)]
        have := hq (p + 1) (by omega)
        rw [show a - p - 1 = a - (p + 1) by omega, this]; rfl
      · intro p hp
        exact Or.inr ⟨a - (p + 1), hq (p + 1) (by omega), hq' p hp⟩
      · intro p hp i hi
        rw [← hlast]
        exact (hdir (a - (p + 1)) _ _ _ (hq (p + 1) (by omega)) (hq' p hp) hb i hi).2 (by omega) (by omega)
      · intro p hp
        exact List.mem_of_getElem? (hq p hp)
      · rw [hth]; exact (hT p hp).2.2
      · rintro p p' hp hp' ⟨x, h1, h2⟩
        rw [hth] at h1 h2
        have := inside_idx hl hch h0 h1 h2 (hq p hp) (hq p' hp')
        omega
  obtain ⟨m, q, T, fwd, hf, W⟩ := hmain
  rw [← hf]
  rw [W.last] at hin1 ⊢
  rw [W.first] at hin0
  have hlook : ∃ d, distanceToWall e (seg start goal 0) = .ok d ∧ 0 ≤ d := by
    rw [e0]
    obtain ⟨d, hd, hiff⟩ := dist_nonneg_iff hl hch hmem start
    exact ⟨d, hd, hiff.2 (by rw [hth, W.first]; exact hin0.2)⟩
  obtain ⟨fuel, hfuel⟩ := W.accepts hl hch hs (by rw [hth]; exact hin1) m 0 0 (by omega) zero_le_one
    (by rw [e0, hth]; exact hin0)
    (fun hp hin => by
      rw [e0] at hin
      have h1 := strict _ (W.mem 1 hp) hin.1
      rw [W.first] at h1
      obtain ⟨j, hj, -⟩ := neighbour_adj hch (W.nb 0 hp)
      have := congrFun h1 j
      simp only [Nat.zero_add] at hj
      omega)
    (fun _ => hlook)
  rw [e0] at hfuel
  refine ⟨fuel, ?_⟩
  rw [W.first]
  exact hfuel

/-- Which cube is the `k`-th one. -/
theorem order_get (n L k : ℕ) (hk : k < L * 2 ^ n) : (order n L)[k]? = (block n (k / 2 ^ n))[k % 2 ^ n]? := by
  have hpos : 0 < 2 ^ n := by positivity
  induction L with
  | zero => omega
  | succ L ih =>
    rw [order_succ]
    by_cases hlt : k < L * 2 ^ n
    · rw [List.getElem?_append_left (by rw [order_length]; exact hlt)]
      exact ih hlt
    · push Not at hlt
      rw [List.getElem?_append_right (by rw [order_length]; exact hlt), order_length]
      have hq : k / 2 ^ n = L := Nat.div_eq_of_lt_le hlt hk
      have hr : k % 2 ^ n = k - L * 2 ^ n := by
        have := Nat.div_add_mod k (2 ^ n)
        rw [hq, Nat.mul_comm] at this
        omega
      rw [hq, hr]

/-- The first coordinate is the number of the block. -/
theorem order_layer {n L k : ℕ} {c : Fin (n + 1) → ℤ} (h : (order n L)[k]? = some c) : c 0 = ((k / 2 ^ n : ℕ) : ℤ) := by
  have hk : k < L * 2 ^ n := by
    rw [← order_length]; exact (List.getElem?_eq_some_iff.1 h).1
  rw [order_get n L k hk] at h
  exact ((block_mem _ _ _).1 (List.mem_of_getElem? h)).1

/-- In every block some coordinate goes up and back down, from dimension three on. -/
theorem block_returns {n : ℕ} (hn : 2 ≤ n) (u : ℕ) : ∃ (i : Fin n) (r : ℕ) (c0 c1 c2 : Fin (n + 1) → ℤ), r < 2 ^ n ∧
    (block n u)[0]? = some c0 ∧ (block n u)[r]? = some c1 ∧ (block n u)[2 ^ n - 1]? = some c2 ∧ c0 i.succ = 0 ∧ c1 i.succ = 1 ∧
    c2 i.succ = 0 := by
  obtain ⟨m, rfl⟩ : ∃ m, n = m + 1 + 1 := ⟨n - 2, by omega⟩
  have hh : (gray (m + 1 + 1)).head? = some 0 := gray_head _
  have hl : (gray (m + 1 + 1)).getLast? = some (Fin.cons 1 0) := gray_getLast _
  have hends : ∃ c0 c2 : Fin (m + 1 + 1 + 1) → ℤ, (block (m + 1 + 1) u).head? = some c0 ∧ (block (m + 1 + 1) u).getLast? = some c2 ∧
      c0 (Fin.succ 1) = 0 ∧ c2 (Fin.succ 1) = 0 := by
    rw [block_head, block_getLast]
    by_cases hu : u % 2 = 0
    · simp only [hu, if_true, hh, hl, Option.map_some]
      exact ⟨_, _, rfl, rfl, rfl, rfl⟩
    · simp only [hu, if_false, hh, hl, Option.map_some]
      exact ⟨_, _, rfl, rfl, rfl, rfl⟩
  obtain ⟨c0, c2, h1, h2, h3, h4⟩ := hends
  have hmem : (Fin.cons (u : ℤ) (fun _ => 1) : Fin (m + 1 + 1 + 1) → ℤ) ∈ block (m + 1 + 1) u :=
    (block_mem _ _ _).2 ⟨rfl, fun k => Or.inr rfl⟩
  obtain ⟨r, hr⟩ := List.getElem?_of_mem hmem
  refine ⟨1, r, c0, _, c2, ?_, ?_, hr, ?_, h3, rfl, h4⟩
  · rw [← block_length (m + 1 + 1) u]; exact (List.getElem?_eq_some_iff.1 hr).1
  · rw [← List.head?_eq_getElem?]; exact h1
  · rw [← block_length (m + 1 + 1) u, ← List.getLast?_eq_getElem?]; exact h2

/-- A straight motion does not pass the same face of the same coordinate in two openings. -/
theorem no_second_crossing {l : List (Fin (n + 1) → ℤ)} (hl : l.Nodup) (hch : l.IsChain CubeAdj) {th : ℝ} (hth : 0 < th)
    {x y : Fin (n + 1) → ℝ} (hint : ∀ i, (⌊x i⌋ : ℝ) ≠ x i) {p p' : ℕ} (hpp : p < p') {c d c' d' : Fin (n + 1) → ℤ}
    (hc : l[p]? = some c) (hd' : l[p' + 1]? = some d') {i : Fin (n + 1)}
    (hi : c i ≠ d i) (hi' : c' i ≠ d' i) (hv : max (c i) (d i) = max (c' i) (d' i)) {τ τ' : ℝ}
    (h1 : Inside l th c (seg x y τ)) (h2 : Inside l th d (seg x y τ)) (h1' : Inside l th c' (seg x y τ'))
    (h2' : Inside l th d' (seg x y τ')) : False := by
  have face : ∀ {c d : Fin (n + 1) → ℤ} {τ : ℝ}, c i ≠ d i → Inside l th c (seg x y τ) → Inside l th d (seg x y τ) →
      seg x y τ i = ((max (c i) (d i) : ℤ) : ℝ) := by
    intro c d τ hne a1 a2
    rcases (inside_differ hch hth a1 a2 hne).2 with ⟨e1, e2⟩ | ⟨e1, e2⟩
    · rw [e2, max_eq_right (by omega), e1]; push_cast; rfl
    · rw [e2, max_eq_left (by omega)]
  have f1 := face hi h1 h2
  have f2 := face hi' h1' h2'
  rw [← hv] at f2
  have hd : y i - x i ≠ 0 := by
    intro h0
    rw [seg_eq, h0, mul_zero, add_zero] at f1
    exact hint i (by rw [f1, Int.floor_intCast])
  have hτ : τ = τ' := by
    rw [seg_eq] at f1 f2
    have h3 : (τ - τ') * (y i - x i) = 0 := by linarith
    rcases mul_eq_zero.1 h3 with h4 | h4
    · linarith
    · exact absurd h4 hd
  subst hτ
  have := inside_idx hl hch hth h1 h2' hc hd'
  omega

/-- Between two entries in which a coordinate differs there is a step in which it changes. -/
theorem step_changes {l : List (Fin (n + 1) → ℤ)} {i : Fin (n + 1)} : ∀ (d p : ℕ) (c c' : Fin (n + 1) → ℤ), l[p]? = some c →
    l[p + d]? = some c' → c i ≠ c' i → ∃ k b b', p ≤ k ∧ k < p + d ∧ l[k]? = some b ∧ l[k + 1]? = some b' ∧ b i ≠ b' i := by
  intro d
  induction d with
  | zero =>
    intro p c c' h1 h2 hne
    rw [show p + 0 = p from rfl, h1] at h2
    injection h2 with h2
    exact absurd (by rw [h2]) hne
  | succ d ih =>
    intro p c c' h1 h2 hne
    have hlt : p + 1 < l.length := by have := (List.getElem?_eq_some_iff.1 h2).1; omega
    have h3 := List.getElem?_eq_getElem hlt
    by_cases hc : c i = l[p + 1] i
    · obtain ⟨k, b, b', k1, k2, k3, k4, k5⟩ := ih (p + 1) _ c' h3 (by rw [← h2]; congr 1; omega) (by rw [← hc]; exact hne)
      exact ⟨k, b, b', by omega, by omega, k3, k4, k5⟩
    · exact ⟨p, c, _, le_rfl, by omega, h1, h3, hc⟩

/-- From dimension three on the route of a free straight motion is direct. -/
theorem free_direct {th : ℝ} (h0 : 0 < th) (hn : 2 ≤ n) {e : GrayCodeWalls ℝ n} (h : GrayCodeWalls.init n length th = .ok e)
    {start goal : Fin (n + 1) → ℝ} {a b : ℕ} {ca cb : Fin (n + 1) → ℤ} (ha : e.cubes[a]? = some ca) (hb : e.cubes[b]? = some cb)
    (hs : ∀ i, (⌊start i⌋ : ℝ) ≠ start i) (hx : Inside e.cubes th ca start) (hy : Inside e.cubes th cb goal)
    (hfree : ∀ t, 0 ≤ t → t ≤ 1 → GrayFree e.cubes th (seg start goal t)) : DirectRoute e.cubes a b := by
  obtain ⟨-, -, hcubes, -, -⟩ := init_ok h
  have hl : e.cubes.Nodup := by rw [hcubes]; exact order_nodup _ _
  have hch : e.cubes.IsChain CubeAdj := by rw [hcubes]; exact order_chain _ _
  have bit : ∀ {k : ℕ} {c : Fin (n + 1) → ℤ}, e.cubes[k]? = some c → ∀ i : Fin n, c i.succ = 0 ∨ c i.succ = 1 := by
    intro k c hc i
    have := List.mem_of_getElem? hc
    rw [hcubes] at this
    exact ((order_mem _ _ _).1 this).2 i
  -- a coordinate other than the first one does not change twice on the way
  have once : ∀ (i : Fin n) (k k' : ℕ) (c d c' d' : Fin (n + 1) → ℤ), k < k' → (a ≤ k ∧ k < b ∨ b ≤ k ∧ k < a) →
      (a ≤ k' ∧ k' < b ∨ b ≤ k' ∧ k' < a) → e.cubes[k]? = some c → e.cubes[k + 1]? = some d → e.cubes[k']? = some c' →
      e.cubes[k' + 1]? = some d' → c i.succ ≠ d i.succ → c' i.succ ≠ d' i.succ → False := by
    intro i k k' c d c' d' hkk hk hk' hc hd hc' hd' hne hne'
    obtain ⟨τ, -, -, t1, t2⟩ := crossings hl hch h0 hfree ha hb hx hy hk hc hd
    obtain ⟨τ', -, -, t1', t2'⟩ := crossings hl hch h0 hfree ha hb hx hy hk' hc' hd'
    refine no_second_crossing hl hch h0 hs hkk hc hd' hne hne' ?_ t1 t2 t1' t2'
    have := bit hc i
    have := bit hd i
    have := bit hc' i
    have := bit hd' i
    omega
  -- neither does the first one
  have layer : ∀ {k : ℕ} {c : Fin (n + 1) → ℤ}, e.cubes[k]? = some c → c 0 = ((k / 2 ^ n : ℕ) : ℤ) := by
    intro k c hc
    rw [hcubes] at hc
    exact order_layer hc
  have once0 : ∀ (k k' : ℕ) (c d c' d' : Fin (n + 1) → ℤ), k < k' → (a ≤ k ∧ k' < b ∨ b ≤ k ∧ k' < a) →
      e.cubes[k]? = some c → e.cubes[k + 1]? = some d → e.cubes[k']? = some c' →
      e.cubes[k' + 1]? = some d' → c 0 ≠ d 0 → c' 0 ≠ d' 0 → False := by
    intro k k' c d c' d' hkk hk hc hd hc' hd' hne hne'
    have hpos : 0 < 2 ^ n := by positivity
    rw [layer hc, layer hd] at hne
    rw [layer hc', layer hd'] at hne'
    have hne : k / 2 ^ n ≠ (k + 1) / 2 ^ n := by exact_mod_cast hne
    have hne' : k' / 2 ^ n ≠ (k' + 1) / 2 ^ n := by exact_mod_cast hne'
    have full : ∀ k, k / 2 ^ n ≠ (k + 1) / 2 ^ n → k + 1 = (k + 1) / 2 ^ n * 2 ^ n := by
      intro k hk
      have hd : 2 ^ n ∣ k + 1 := by
        by_contra hnd
        exact hk (by rw [Nat.succ_div_of_not_dvd hnd])
      exact (Nat.div_mul_cancel hd).symm
    have q1 := full k hne
    have q2 := full k' hne'
    generalize (k + 1) / 2 ^ n = u at q1
    generalize (k' + 1) / 2 ^ n = u' at q2
    have huu : u + 1 ≤ u' := by
      by_contra hcon
      have : u' ≤ u := by omega
      have := Nat.mul_le_mul_right (2 ^ n) this
      omega
    have hmul : u * 2 ^ n + 2 ^ n ≤ u' * 2 ^ n := by
      have := Nat.mul_le_mul_right (2 ^ n) huu
      rw [Nat.add_mul, Nat.one_mul] at this
      exact this
    have hlen : k' < length * 2 ^ n := by
      have := (List.getElem?_eq_some_iff.1 hc').1
      rw [hcubes, order_length] at this
      exact this
    obtain ⟨i, r, c0, c1, c2, hr, g0, g1, g2, v0, v1, v2⟩ := block_returns hn u
    have get : ∀ r, r < 2 ^ n → e.cubes[u * 2 ^ n + r]? = (block n u)[r]? := by
      intro r hr
      rw [hcubes, order_get _ _ _ (by omega)]
      have e1 : (u * 2 ^ n + r) / 2 ^ n = u := by
        rw [Nat.mul_comm, Nat.mul_add_div hpos, Nat.div_eq_of_lt hr, Nat.add_zero]
      have e2 : (u * 2 ^ n + r) % 2 ^ n = r := by
        rw [Nat.mul_comm, Nat.mul_add_mod, Nat.mod_eq_of_lt hr]
      rw [e1, e2]
    have g0' := (get 0 hpos).trans g0
    have g1' := (get r hr).trans g1
    have g2' := (get (2 ^ n - 1) (by omega)).trans g2
    obtain ⟨p, b1, b2, p1, p2, p3, p4, p5⟩ := step_changes (i := i.succ) r (u * 2 ^ n) c0 c1 g0' g1' (by rw [v0, v1]; decide)
    obtain ⟨p', b1', b2', p1', p2', p3', p4', p5'⟩ := step_changes (i := i.succ) (2 ^ n - 1 - r) (u * 2 ^ n + r) c1 c2 g1'
      (by rw [← g2']; congr 1; omega) (by rw [v1, v2]; decide)
    exact once i p p' b1 b2 b1' b2' (by omega) (by omega) (by omega) p3 p4 p3' p4' p5 p5'
  -- hence the route is direct
  intro k c c' g hc hc' hg i hi
  have hcb : g = cb := by rw [hb] at hg; injection hg with hg; exact hg.symm
  subst hcb
  refine ⟨fun h1 h2 => ?_, fun h1 h2 => ?_⟩
  · by_contra hne
    obtain ⟨k', b1, b2, p1, p2, p3, p4, p5⟩ := step_changes (i := i) (b - (k + 1)) (k + 1) c' g hc' (by rw [← hb]; congr 1; omega)
      (Ne.symm hne)
    rcases Fin.eq_zero_or_eq_succ i with rfl | ⟨i, rfl⟩
    · exact once0 k k' c c' b1 b2 (by omega) (Or.inl ⟨h1, by omega⟩) hc hc' p3 p4 hi p5
    · exact once i k k' c c' b1 b2 (by omega) (Or.inl ⟨h1, by omega⟩) (Or.inl ⟨by omega, by omega⟩) hc hc' p3 p4 hi p5
  · by_contra hne
    obtain ⟨k', b1, b2, p1, p2, p3, p4, p5⟩ := step_changes (i := i) (k - b) b g c hg (by rw [← hc]; congr 1; omega) hne
    rcases Fin.eq_zero_or_eq_succ i with rfl | ⟨i, rfl⟩
    · exact once0 k' k b1 b2 c c' (by omega) (Or.inr ⟨by omega, by omega⟩) p3 p4 hc hc' p5 hi
    · exact once i k' k b1 b2 c c' (by omega) (Or.inr ⟨by omega, by omega⟩) (Or.inr ⟨by omega, by omega⟩) p3 p4 hc hc' p5 hi

end Verif.Gray
