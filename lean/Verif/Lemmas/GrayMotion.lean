import Mathlib.Tactic.Linarith
import Mathlib.Tactic.Ring
import Mathlib.Tactic.FieldSimp
import Verif.Lemmas.GrayDist
import Verif.Lemmas.Py

/-!
Soundness of the motion check of `GrayCodeWalls` along direct routes.
-/

set_option linter.unusedSectionVars false

namespace Verif.Gray

open Verif.Spec

variable {K : Type*} [Field K] [LinearOrder K] [IsStrictOrderedRing K] {n : ℕ}

/-- The point at parameter `t` of the segment. -/
def seg (x y : Fin (n + 1) → K) (t : K) : Fin (n + 1) → K := fun i => (1 - t) * x i + t * y i

theorem between_of {a b t : K} (h0 : 0 ≤ t) (h1 : t ≤ 1) {lo : K} (ha : lo ≤ a) (hb : lo ≤ b) : lo ≤ (1 - t) * a + t * b := by
  nlinarith [mul_nonneg (sub_nonneg.2 h1) (sub_nonneg.2 ha), mul_nonneg h0 (sub_nonneg.2 hb)]

theorem between_of' {a b t : K} (h0 : 0 ≤ t) (h1 : t ≤ 1) {hi : K} (ha : a ≤ hi) (hb : b ≤ hi) : (1 - t) * a + t * b ≤ hi := by
  nlinarith [mul_nonneg (sub_nonneg.2 h1) (sub_nonneg.2 ha), mul_nonneg h0 (sub_nonneg.2 hb)]

theorem inCube_seg {c : Fin (n + 1) → ℤ} {x y : Fin (n + 1) → K} (hx : InCube c x) (hy : InCube c y) {t : K} (h0 : 0 ≤ t)
    (h1 : t ≤ 1) : InCube c (seg x y t) := fun i =>
  ⟨between_of h0 h1 (hx i).1 (hy i).1, between_of' h0 h1 (hx i).2 (hy i).2⟩

theorem clear_seg {l : List (Fin (n + 1) → ℤ)} {th : K} {c : Fin (n + 1) → ℤ} {x y : Fin (n + 1) → K}
    (hx : ClearOfWalls l th c x) (hy : ClearOfWalls l th c y) {t : K} (h0 : 0 ≤ t) (h1 : t ≤ 1) :
    ClearOfWalls l th c (seg x y t) := by
  intro i
  refine ⟨?_, ?_⟩
  · rcases (hx i).1 with h | h
    · rcases (hy i).1 with h' | h'
      · exact Or.inl (between_of h0 h1 h h')
      · exact Or.inr h'
    · exact Or.inr h
  · rcases (hx i).2 with h | h
    · rcases (hy i).2 with h' | h'
      · exact Or.inl (between_of' h0 h1 h h')
      · exact Or.inr h'
    · exact Or.inr h

theorem neighbour_symm {l : List (Fin (n + 1) → ℤ)} {c d} (h : Neighbour l c d) : Neighbour l d c := h.symm

/-- A cube has at most two neighbours. -/
theorem neighbours_le_two {l : List (Fin (n + 1) → ℤ)} (hl : l.Nodup) {c d1 d2 d3} (h1 : Neighbour l c d1)
    (h2 : Neighbour l c d2) (h3 : Neighbour l c d3) : d1 = d2 ∨ d1 = d3 ∨ d2 = d3 := by
  have idx : ∀ {k k' : ℕ} {x}, l[k]? = some x → l[k']? = some x → k = k' := by
    intro k k' x hk hk'
    rw [List.getElem?_eq_some_iff] at hk hk'
    obtain ⟨a, b⟩ := hk
    obtain ⟨a', b'⟩ := hk'
    exact (List.Nodup.getElem_inj_iff hl).1 (b.trans b'.symm)
  have same1 : ∀ {a b}, Consecutive l c a → Consecutive l c b → a = b := by
    rintro a b ⟨k, h1, h2⟩ ⟨k', h1', h2'⟩
    have := idx h1 h1'
    subst this
    rw [h2] at h2'; injection h2'
  have same2 : ∀ {a b}, Consecutive l a c → Consecutive l b c → a = b := by
    rintro a b ⟨k, h1, h2⟩ ⟨k', h1', h2'⟩
    have := idx h2 h2'
    have : k = k' := by omega
    subst this
    rw [h1] at h1'; injection h1'
  rcases h1 with h1 | h1 <;> rcases h2 with h2 | h2 <;> rcases h3 with h3 | h3
  all_goals first
    | exact Or.inl (same1 h1 h2) | exact Or.inl (same2 h1 h2)
    | exact Or.inr (Or.inl (same1 h1 h3)) | exact Or.inr (Or.inl (same2 h1 h3))
    | exact Or.inr (Or.inr (same1 h2 h3)) | exact Or.inr (Or.inr (same2 h2 h3))

theorem distNeg_false {d : WithTop K} : distNeg d = false ↔ 0 ≤ d := by
  unfold distNeg; simp

theorem dirIndex_adj' {c c' : Fin (n + 1) → ℤ} (h : CubeAdj c c') :
    ∃ j, dirIndex (fun i => c' i - c i) = .ok j ∧ (c' j = c j + 1 ∨ c' j = c j - 1) ∧ ∀ i, i ≠ j → c' i = c i := by
  obtain ⟨j, h1, h2⟩ := h
  refine ⟨j, ?_, h1, h2⟩
  unfold dirIndex
  have : (List.finRange (n + 1)).find? (fun i => decide (c' i - c i ≠ 0)) = some j := by
    cases hf : (List.finRange (n + 1)).find? (fun i => decide (c' i - c i ≠ 0)) with
    | none =>
      rw [List.find?_eq_none] at hf
      have := hf j (List.mem_finRange j)
      simp at this
      omega
    | some i =>
      have := List.find?_some hf
      simp at this
      congr 1
      by_contra hne
      exact this (by rw [h2 i hne]; ring)
  simp only [this]

variable [FloorRing K]

/-- The cubes that the check walks through, ending in `g`; every step changes a coordinate to its final value and the last
step goes up or the walls have no thickness. -/
inductive Route (e : GrayCodeWalls K n) (forward : Bool) (g : Fin (n + 1) → ℤ) : (Fin (n + 1) → ℤ) → Prop
  | here : g ∈ e.cubes → Route e forward g g
  | go {c nx : Fin (n + 1) → ℤ} :
      (if forward then successors e.cubes c else predecessors e.cubes c) = .ok [nx] → Neighbour e.cubes c nx →
      (∀ i, nx i ≠ c i → g i = nx i) → (nx = g → e.thickness = 0 ∨ ∀ i, c i ≤ g i) → Route e forward g nx →
      Route e forward g c

/-- The current point of the check: in the closed cube in the coordinates that are final, and on the near side of the goal in
the others. -/
def OnTrack (goal : Fin (n + 1) → K) (g c : Fin (n + 1) → ℤ) (s : Fin (n + 1) → K) : Prop :=
  ∀ i, (g i = c i → (c i : K) ≤ s i ∧ s i ≤ (c i : K) + 1) ∧ (c i < g i → (c i : K) ≤ s i ∧ s i ≤ goal i) ∧
    (g i < c i → goal i ≤ s i ∧ s i ≤ (c i : K) + 1)

theorem mem_of_neighbour {l : List (Fin (n + 1) → ℤ)} {c d} (h : Neighbour l c d) : c ∈ l ∧ d ∈ l := by
  rcases h with ⟨k, h1, h2⟩ | ⟨k, h1, h2⟩
  · exact ⟨List.mem_of_getElem? h1, List.mem_of_getElem? h2⟩
  · exact ⟨List.mem_of_getElem? h2, List.mem_of_getElem? h1⟩

/-- After an upward step the entry point of the last cube is clear of that cube's walls, although the code looks it up by
rounding. -/
theorem entry_clear {e : GrayCodeWalls K n} (hl : e.cubes.Nodup) (hch : e.cubes.IsChain CubeAdj) (hth0 : 0 ≤ e.thickness)
    (hth1 : e.thickness < 1 / 2) {c g : Fin (n + 1) → ℤ} (hnb : Neighbour e.cubes c g)
    (hup : e.thickness = 0 ∨ ∀ i, c i ≤ g i) {m : Fin (n + 1) → K} (hcube : InCube g m) (hcubec : InCube c m)
    (hclear : ClearOfWalls e.cubes e.thickness c m) {d : WithTop K} (hd : distanceToWall e m = .ok d) (hd0 : 0 ≤ d) :
    ClearOfWalls e.cubes e.thickness g m := by
  by_cases hz : e.thickness = 0
  · intro i
    rw [hz]
    exact ⟨Or.inl (by linarith [(hcube i).1]), Or.inl (by linarith [(hcube i).2])⟩
  have hthp : 0 < e.thickness := lt_of_le_of_ne hth0 (Ne.symm hz)
  replace hup := hup.resolve_left hz
  obtain ⟨j, hj, hrest⟩ := neighbour_adj hch hnb
  have hj : g j = c j + 1 := by have := hup j; omega
  have hmj : m j = (g j : K) := by
    apply le_antisymm _ (hcube j).1
    have := (hcubec j).2
    rw [hj]; push_cast; exact this
  -- the cube used for the lookup
  have hfmem : floorCube m ∈ e.cubes := by
    by_contra hf
    unfold distanceToWall distanceToWallInCube predecessors at hd
    rw [if_neg hf] at hd
    simp at hd
  obtain ⟨d', hd', hiff⟩ := dist_nonneg_iff hl hch hfmem m
  have hdd : d' = d := by
    have := hd'.symm.trans hd
    injection this
  rw [hdd] at hiff
  have hclf := hiff.1 hd0
  have floor_lt : ∀ i, m i < (g i : K) + 1 → floorCube m i = g i := fun i hi =>
    Int.floor_eq_iff.2 ⟨(hcube i).1, hi⟩
  have floor_eq : ∀ i, m i = (g i : K) + 1 → floorCube m i = g i + 1 := fun i hi => by
    unfold floorCube; rw [hi]; rw [Int.floor_add_one, Int.floor_intCast]
  -- an opening of `c` in a direction other than `j`, at most one of them
  have uniq : ∀ {d1 d2}, Neighbour e.cubes c d1 → Neighbour e.cubes c d2 → d1 ≠ g → d2 ≠ g → d1 = d2 := by
    intro d1 d2 h1 h2 n1 n2
    rcases neighbours_le_two hl h1 h2 hnb with h | h | h
    · exact h
    · exact absurd h n1
    · exact absurd h n2
  have ne_g : ∀ {d1 : Fin (n + 1) → ℤ} {i}, i ≠ j → d1 i ≠ c i → d1 ≠ g := by
    rintro d1 i hi hne rfl
    exact hne (hrest i hi)
  -- if some face other than `j` is touched from below then there is an opening there
  have touch : ∀ i, i ≠ j → m i = (g i : K) + 1 → ∃ nb, Neighbour e.cubes c nb ∧ nb i = c i + 1 := by
    intro i hi hmi
    rcases (hclear i).2 with h | h
    · rw [hmi, hrest i hi] at h; linarith
    · exact h
  have only : ∀ {i l} {nb}, i ≠ j → l ≠ j → m i = (g i : K) + 1 → Neighbour e.cubes c nb → nb l ≠ c l → i = l ∧ nb i = c i + 1 := by
    intro i l nb hi hl' hmi hnb' hne
    obtain ⟨nb', h1, h2⟩ := touch i hi hmi
    have he := uniq h1 hnb' (ne_g hi (by omega)) (ne_g hl' hne)
    subst he
    obtain ⟨k, -, hk2⟩ := neighbour_adj hch h1
    have e1 : i = k := by by_contra hne'; have := hk2 i hne'; omega
    have e2 : l = k := by by_contra hne'; exact hne (hk2 l hne')
    exact ⟨e1.trans e2.symm, h2⟩
  -- if nothing is touched the lookup cube is `g`
  have lookup : (∀ i, i ≠ j → m i ≠ (g i : K) + 1) → ClearOfWalls e.cubes e.thickness g m := by
    intro h
    have : floorCube m = g := by
      funext i
      by_cases hi : i = j
      · subst hi; exact floor_lt i (by rw [hmj]; linarith)
      · exact floor_lt i (lt_of_le_of_ne (hcube i).2 (h i hi))
    rw [this] at hclf
    exact hclf
  by_cases hall : ∀ i, i ≠ j → m i ≠ (g i : K) + 1
  · exact lookup hall
  · push Not at hall
    obtain ⟨q, hq, hmq⟩ := hall
    -- the lookup cube is `g + e_q`, and its lower wall in direction `q` is open towards `g`
    have hfq := floor_eq q hmq
    have hfo : ∀ i, i ≠ q → floorCube m i = g i := by
      intro i hi
      by_cases hij : i = j
      · subst hij; exact floor_lt i (by rw [hmj]; linarith)
      · apply floor_lt i (lt_of_le_of_ne (hcube i).2 ?_)
        intro hmi
        obtain ⟨nb, h1, h2⟩ := touch i hij hmi
        exact hi ((only hq hij hmq h1 (by omega)).1).symm
    intro i
    by_cases hij : i = j
    · subst hij
      refine ⟨Or.inr ⟨c, hnb.symm, by omega⟩, Or.inl ?_⟩
      rw [hmj]; linarith
    · have hi := hclear i
      rw [hrest i hij]
      refine ⟨?_, ?_⟩
      · rcases hi.1 with h | ⟨nb, h1, h2⟩
        · exact Or.inl h
        · have := only hq hij hmq h1 (by omega)
          obtain ⟨rfl, h3⟩ := this
          omega
      · rcases hi.2 with h | ⟨nb, h1, h2⟩
        · exact Or.inl h
        · obtain ⟨rfl, -⟩ := only hq hij hmq h1 (by omega)
          right
          rcases (hclf q).1 with h | ⟨nb', h3, h4⟩
          · rw [hfq, hmq] at h; push_cast at h; linarith
          · have hg : nb' = g := by
              obtain ⟨k, -, hk2⟩ := neighbour_adj hch h3
              have hkq : q = k := by by_contra hne'; have := hk2 q hne'; omega
              subst hkq
              funext r
              by_cases hr : r = q
              · subst hr; omega
              · rw [hk2 r hr, hfo r hr]
            subst hg
            exact ⟨floorCube m, h3.symm, by rw [hfq, hrest q hij]⟩

/-- The final test of the loop. -/
theorem motion_here {e : GrayCodeWalls K n} {goal : Fin (n + 1) → K} {g : Fin (n + 1) → ℤ} {forward : Bool}
    {s : Fin (n + 1) → K} {fuel : ℕ} (h : loop (motionBody e goal g forward) fuel (some s, g) = some (.ok true)) :
    ∃ d1 d2, distanceToWall e s = .ok d1 ∧ distanceToWall e goal = .ok d2 ∧ 0 ≤ d1 ∧ 0 ≤ d2 := by
  cases fuel with
  | zero => simp [loop] at h
  | succ fuel =>
    have hb : ∃ r, motionBody e goal g forward (some s, g) = .done r ∧ (r = .ok true →
        ∃ d1 d2, distanceToWall e s = .ok d1 ∧ distanceToWall e goal = .ok d2 ∧ 0 ≤ d1 ∧ 0 ≤ d2) := by
      unfold motionBody
      simp only [if_true]
      cases h1 : distanceToWall e s with
      | error err => exact ⟨_, rfl, by intro h; cases h⟩
      | ok d1 =>
        cases h2 : distanceToWall e goal with
        | error err =>
          by_cases hn : distNeg d1 = true
          · exact ⟨_, by simp only [hn, if_true]; rfl, by intro h; cases h⟩
          · exact ⟨_, by simp only [hn]; rfl, by intro h; cases h⟩
        | ok d2 =>
          refine ⟨_, rfl, ?_⟩
          intro h
          simp at h
          exact ⟨d1, d2, rfl, rfl, distNeg_false.1 h.1, distNeg_false.1 h.2⟩
    obtain ⟨r, hr1, hr2⟩ := hb
    rw [loop_done hr1] at h
    exact hr2 (by injection h)

/-- A step of the loop that does not reject. -/
theorem motion_go {e : GrayCodeWalls K n} {goal : Fin (n + 1) → K} {g c nx : Fin (n + 1) → ℤ} {forward : Bool}
    {s : Fin (n + 1) → K} {fuel : ℕ} (hcg : c ≠ g)
    (hnext : (if forward then successors e.cubes c else predecessors e.cubes c) = .ok [nx])
    {j : Fin (n + 1)} (hj : dirIndex (fun i => nx i - c i) = .ok j)
    (h : loop (motionBody e goal g forward) fuel (some s, c) = some (.ok true)) :
    let between : K := ((c j : K) + 1 / 2 + ((g j : K) + 1 / 2)) / 2
    let t := (between - s j) / (goal j - s j)
    goal j - s j ≠ 0 ∧ 0 < t ∧
    ∃ d1 d2 fuel', distanceToWallInCube e c s = .ok d1 ∧
      distanceToWallInCube e c (fun i => (goal i - s i) * t + s i) = .ok d2 ∧ 0 ≤ d1 ∧ 0 ≤ d2 ∧
      loop (motionBody e goal g forward) fuel' (some (fun i => (goal i - s i) * t + s i), nx) = some (.ok true) := by
  intro between t
  cases fuel with
  | zero => simp [loop] at h
  | succ fuel =>
    have stuck : ∀ fuel, loop (motionBody e goal g forward) fuel (none, nx) ≠ some (.ok true) := by
      intro fuel hf
      cases fuel with
      | zero => simp [loop] at hf
      | succ fuel =>
        have : ∃ r, motionBody e goal g forward (none, nx) = .done r ∧ r ≠ .ok true := by
          unfold motionBody
          simp only
          split
          · exact ⟨_, rfl, by simp⟩
          · split
            · exact ⟨_, rfl, by simp⟩
            · exact ⟨_, rfl, by simp⟩
            · split
              · exact ⟨_, rfl, by simp⟩
              · exact ⟨_, rfl, by simp⟩
        obtain ⟨r, h1, h2⟩ := this
        rw [loop_done h1] at hf
        exact h2 (by injection hf)
    have key : (∃ r, motionBody e goal g forward (some s, c) = .done r ∧ r ≠ .ok true) ∨
        motionBody e goal g forward (some s, c) = .next (none, nx) ∨
        (goal j - s j ≠ 0 ∧ 0 < t ∧ ∃ d1 d2, distanceToWallInCube e c s = .ok d1 ∧
          distanceToWallInCube e c (fun i => (goal i - s i) * t + s i) = .ok d2 ∧ 0 ≤ d1 ∧ 0 ≤ d2 ∧
          motionBody e goal g forward (some s, c) = .next (some (fun i => (goal i - s i) * t + s i), nx)) := by
      unfold motionBody
      simp only [if_neg hcg, hnext, hj]
      by_cases hden : goal j - s j = 0
      · rw [if_pos hden]
        split
        · exact Or.inl ⟨_, rfl, by simp⟩
        · split
          · exact Or.inl ⟨_, rfl, by simp⟩
          · split
            · exact Or.inl ⟨_, rfl, by simp⟩
            · exact Or.inr (Or.inl rfl)
      · rw [if_neg hden]
        by_cases ht : t ≤ 0
        · rw [if_pos ht]
          exact Or.inl ⟨_, rfl, by simp⟩
        · rw [if_neg ht]
          cases h1 : distanceToWallInCube e c s with
          | error err => exact Or.inl ⟨_, rfl, by simp⟩
          | ok d1 =>
            change (∃ r, (match (Except.ok d1 : Except PyErr (WithTop K)), distanceToWallInCube e c
              (fun i => (goal i - s i) * t + s i) with
              | .ok d1, .ok d2 => if distNeg d1 || distNeg d2 then .done (.ok false) else
                  .next (some (fun i => (goal i - s i) * t + s i), nx)
              | .error err, _ => .done (.error err)
              | .ok d1, .error err => if distNeg d1 then .done (.ok false) else .done (.error err) :
              Step (Option (Fin (n + 1) → K) × (Fin (n + 1) → ℤ)) (Except PyErr Bool)) = .done r ∧ r ≠ .ok true) ∨ _
            cases h2 : distanceToWallInCube e c (fun i => (goal i - s i) * t + s i) with
            | error err =>
              left
              by_cases hn : distNeg d1 = true
              · exact ⟨_, by simp only [hn, if_true]; rfl, by simp⟩
              · exact ⟨_, by simp only [hn]; rfl, by simp⟩
            | ok d2 =>
              by_cases hn : (distNeg d1 || distNeg d2) = true
              · left; exact ⟨_, by simp only [hn, if_true]; rfl, by simp⟩
              · right; right
                refine ⟨hden, not_le.1 ht, d1, d2, rfl, rfl, ?_, ?_, ?_⟩
                · simp at hn; exact distNeg_false.1 hn.1
                · simp at hn; exact distNeg_false.1 hn.2
                · simp only [hn]
                  rfl
    rcases key with ⟨r, h1, h2⟩ | h1 | ⟨hden, ht, d1, d2, e1, e2, p1, p2, h1⟩
    · rw [loop_done h1] at h
      exact absurd (by injection h) h2
    · rw [loop_next h1] at h
      exact absurd h (stuck fuel)
    · rw [loop_next h1] at h
      exact ⟨hden, ht, d1, d2, fuel, e1, e2, p1, p2, h⟩

theorem seg_seg {x y : Fin (n + 1) → K} (r : K) (t : K) : seg x (seg x y r) t = seg x y (t * r) := by
  funext i; simp only [seg]; ring

theorem seg_seg' {x y : Fin (n + 1) → K} (r : K) (t : K) : seg (seg x y r) y t = seg x y (r + t * (1 - r)) := by
  funext i; simp only [seg]; ring

/-- Soundness of the check from any intermediate state. -/
theorem route_sound {e : GrayCodeWalls K n} (hl : e.cubes.Nodup) (hch : e.cubes.IsChain CubeAdj) (hth0 : 0 ≤ e.thickness)
    (hth1 : e.thickness < 1 / 2) {goal : Fin (n + 1) → K} {g : Fin (n + 1) → ℤ} (hg : floorCube goal = g) {forward : Bool}
    {c : Fin (n + 1) → ℤ} (hr : Route e forward g c) : ∀ {s : Fin (n + 1) → K} {fuel : ℕ}, OnTrack goal g c s →
    -- what is known about the entry point when the last cube is reached
    (c = g → ∀ d, distanceToWall e s = .ok d → 0 ≤ d → InCube g s → ClearOfWalls e.cubes e.thickness g s) →
    loop (motionBody e goal g forward) fuel (some s, c) = some (.ok true) →
    InCube c s ∧ ∀ t, 0 ≤ t → t ≤ 1 → GrayFree e.cubes e.thickness (seg s goal t) := by
  have goal_lo : ∀ i, (g i : K) ≤ goal i := fun i => by rw [← hg]; exact Int.floor_le _
  have goal_hi : ∀ i, goal i < (g i : K) + 1 := fun i => by rw [← hg]; exact Int.lt_floor_add_one _
  induction hr with
  | here hmem =>
    intro s fuel htr hentry hloop
    obtain ⟨d1, d2, h1, h2, p1, p2⟩ := motion_here hloop
    have hcube : InCube g s := fun i => (htr i).1 rfl
    have hclear := hentry rfl d1 h1 p1 hcube
    have hcubeg : InCube g goal := fun i => ⟨goal_lo i, (goal_hi i).le⟩
    have hclearg : ClearOfWalls e.cubes e.thickness g goal := by
      obtain ⟨d, hd, hiff⟩ := dist_nonneg_iff hl hch hmem goal
      unfold distanceToWall at h2
      rw [hg, hd] at h2
      injection h2 with h2
      exact hiff.1 (by rw [h2]; exact p2)
    exact ⟨hcube, fun t h0 h1 => ⟨g, hmem, inCube_seg hcube hcubeg h0 h1, clear_seg hclear hclearg h0 h1⟩⟩
  | @go c nx hnext hnb hfin hup _ ih =>
    intro s fuel htr _ hloop
    have hcmem := (mem_of_neighbour hnb).1
    obtain ⟨j, hj, hstep, hrest⟩ := dirIndex_adj' (neighbour_adj hch hnb)
    have hgj : g j = nx j := hfin j (by omega)
    have hcg : c ≠ g := by rintro rfl; omega
    obtain ⟨hden, ht, d1, d2, fuel', e1, e2, p1, p2, hloop'⟩ := motion_go hcg hnext hj hloop
    -- the wall crossed by this step
    obtain ⟨w, hw, hwlo, hwhi⟩ : ∃ w : K, ((c j : K) + 1 / 2 + ((g j : K) + 1 / 2)) / 2 = w ∧
        (g j = c j + 1 → w = (c j : K) + 1) ∧ (g j = c j - 1 → w = (c j : K)) := by
      refine ⟨_, rfl, ?_, ?_⟩
      · intro h; rw [h]; push_cast; ring
      · intro h; rw [h]; push_cast; ring
    rw [hw] at ht e2 hloop'
    set r := (w - s j) / (goal j - s j) with hrdef
    have hrw : r * (goal j - s j) = w - s j := div_mul_cancel₀ _ hden
    have hm : (fun i => (goal i - s i) * r + s i) = seg s goal r := by
      funext i; simp only [seg]; ring
    rw [hm] at e2 hloop'
    have hmj : seg s goal r j = w := by simp only [seg]; linarith
    -- position of the point before the wall
    have hsj : (c j : K) ≤ s j ∧ s j ≤ (c j : K) + 1 ∧ r ≤ 1 := by
      rcases hstep with hs | hs
      · have hup' : c j < g j := by omega
        obtain ⟨b1, b2⟩ := (htr j).2.1 hup'
        have hw' := hwlo (by omega)
        have hgl := goal_lo j
        have : (g j : K) = (c j : K) + 1 := by rw [hgj, hs]; push_cast; ring
        have dpos : 0 < goal j - s j := lt_of_le_of_ne (by linarith) (Ne.symm hden)
        have := mul_pos ht dpos
        refine ⟨b1, by linarith, ?_⟩
        by_contra hcon
        have := mul_lt_mul_of_pos_right (not_le.1 hcon) dpos
        linarith
      · have hdn : g j < c j := by omega
        obtain ⟨b1, b2⟩ := (htr j).2.2 hdn
        have hw' := hwhi (by omega)
        have hgl := goal_hi j
        have : (g j : K) = (c j : K) - 1 := by rw [hgj, hs]; push_cast; ring
        have dneg : goal j - s j < 0 := lt_of_le_of_ne (by linarith) hden
        have := mul_neg_of_pos_of_neg ht dneg
        refine ⟨by linarith, b2, ?_⟩
        by_contra hcon
        have := mul_lt_mul_of_neg_right (not_le.1 hcon) dneg
        linarith
    obtain ⟨hsj1, hsj2, hr1⟩ := hsj
    have hr0 : 0 ≤ r := ht.le
    -- the entry point of the next cube is on track
    have htr' : OnTrack goal g nx (seg s goal r) := by
      intro i
      by_cases hij : i = j
      · subst hij
        refine ⟨fun _ => ?_, fun h => absurd h (by omega), fun h => absurd h (by omega)⟩
        rw [hmj]
        rcases hstep with hs | hs
        · rw [hwlo (by omega), hs]; push_cast; constructor <;> linarith
        · rw [hwhi (by omega), hs]; push_cast; constructor <;> linarith
      · rw [hrest i hij]
        refine ⟨fun h => ?_, fun h => ?_, fun h => ?_⟩
        · have hs := (htr i).1 h
          have h1 := goal_lo i
          have h2 := goal_hi i
          rw [h] at h1 h2
          exact ⟨between_of hr0 hr1 hs.1 h1, between_of' hr0 hr1 hs.2 h2.le⟩
        · have hs := (htr i).2.1 h
          exact ⟨between_of hr0 hr1 hs.1 (hs.1.trans hs.2), between_of' hr0 hr1 hs.2 le_rfl⟩
        · have hs := (htr i).2.2 h
          exact ⟨between_of hr0 hr1 hs.1 le_rfl, between_of' hr0 hr1 hs.2 (hs.1.trans hs.2)⟩
    obtain ⟨d1', hd1, iff1⟩ := dist_nonneg_iff hl hch hcmem s
    obtain ⟨d2', hd2, iff2⟩ := dist_nonneg_iff hl hch hcmem (seg s goal r)
    have hclear_s : ClearOfWalls e.cubes e.thickness c s := iff1.1 (by
      have := hd1.symm.trans e1; injection this with this; rw [this]; exact p1)
    have hclear_m : ClearOfWalls e.cubes e.thickness c (seg s goal r) := iff2.1 (by
      have := hd2.symm.trans e2; injection this with this; rw [this]; exact p2)
    have cube_of_next : InCube nx (seg s goal r) → InCube c (seg s goal r) := by
      intro h i
      by_cases hij : i = j
      · subst hij
        rw [hmj]
        rcases hstep with hs | hs
        · rw [hwlo (by omega)]; constructor <;> linarith
        · rw [hwhi (by omega)]; constructor <;> linarith
      · rw [← hrest i hij]; exact h i
    have hentry' : nx = g → ∀ d, distanceToWall e (seg s goal r) = .ok d → 0 ≤ d → InCube g (seg s goal r) →
        ClearOfWalls e.cubes e.thickness g (seg s goal r) := by
      intro hng d hd hd0 hin
      subst hng
      exact entry_clear hl hch hth0 hth1 hnb (hup rfl) hin (cube_of_next hin) hclear_m hd hd0
    obtain ⟨hin', hfree⟩ := ih htr' hentry' hloop'
    have hinc := cube_of_next hin'
    have hins : InCube c s := by
      intro i
      by_cases hij : i = j
      · subst hij; exact ⟨hsj1, hsj2⟩
      · rcases lt_trichotomy (g i) (c i) with h | h | h
        · have hs := (htr i).2.2 h
          refine ⟨?_, hs.2⟩
          refine (hinc i).1.trans ?_
          exact between_of' hr0 hr1 le_rfl hs.1
        · exact (htr i).1 h
        · have hs := (htr i).2.1 h
          refine ⟨hs.1, ?_⟩
          refine le_trans ?_ (hinc i).2
          exact between_of hr0 hr1 le_rfl hs.2
    refine ⟨hins, ?_⟩
    intro t h0 h1
    by_cases htr : t ≤ r
    · have : seg s goal t = seg s (seg s goal r) (t / r) := by
        rw [seg_seg, div_mul_cancel₀ _ ht.ne']
      rw [this]
      have q0 : 0 ≤ t / r := div_nonneg h0 hr0
      have q1 : t / r ≤ 1 := (div_le_one ht).2 htr
      exact ⟨c, hcmem, inCube_seg hins hinc q0 q1, clear_seg hclear_s hclear_m q0 q1⟩
    · push Not at htr
      have hr1' : 0 < 1 - r := by linarith
      have : seg s goal t = seg (seg s goal r) goal ((t - r) / (1 - r)) := by
        rw [seg_seg', div_mul_cancel₀ _ hr1'.ne']; congr 1; ring
      rw [this]
      exact hfree _ (div_nonneg (by linarith) hr1'.le) ((div_le_one hr1').2 (by linarith))

/-- Direct routes in index form. -/
theorem route_forward {e : GrayCodeWalls K n} (hl : e.cubes.Nodup) {b : ℕ} {g : Fin (n + 1) → ℤ} (hg : e.cubes[b]? = some g)
    {a : ℕ} (hdir : DirectRoute e.cubes a b) (hlast : e.thickness = 0 ∨ LastStepUp e.cubes a b) :
    ∀ d k c, a ≤ k → k + d = b → e.cubes[k]? = some c → Route e true g c := by
  intro d
  induction d with
  | zero =>
    intro k c _ hk hc
    have : k = b := by omega
    subst this
    rw [hg] at hc; injection hc with hc; subst hc
    exact .here (List.mem_of_getElem? hg)
  | succ d ih =>
    intro k c hak hk hc
    have hb : b < e.cubes.length := (List.getElem?_eq_some_iff.1 hg).1
    have hlt : k + 1 < e.cubes.length := by omega
    have hnx := List.getElem?_eq_getElem hlt
    refine .go (nx := e.cubes[k + 1]) ?_ (Or.inl ⟨k, hc, hnx⟩) ?_ ?_ (ih (k + 1) _ (by omega) (by omega) hnx)
    · simp only [if_true]
      rw [successors_eq hl hc, hnx]; rfl
    · intro i hi
      exact (hdir k _ _ _ hc hnx hg i (Ne.symm hi)).1 hak (by omega)
    · intro hnxg
      have : k + 1 = b := by
        rw [hnxg] at hnx
        rw [List.getElem?_eq_some_iff] at hnx hg
        obtain ⟨x, hx⟩ := hnx
        obtain ⟨y, hy⟩ := hg
        exact (List.Nodup.getElem_inj_iff hl).1 (hx.trans hy.symm)
      rcases hlast with h | h
      · exact Or.inl h
      · exact Or.inr (h c g hg (Or.inl ⟨by omega, by rw [← this]; exact hc⟩))

theorem route_backward {e : GrayCodeWalls K n} (hl : e.cubes.Nodup) {b : ℕ} {g : Fin (n + 1) → ℤ} (hg : e.cubes[b]? = some g)
    {a : ℕ} (hdir : DirectRoute e.cubes a b) (hlast : e.thickness = 0 ∨ LastStepUp e.cubes a b) :
    ∀ d k c, k ≤ a → b + d = k → e.cubes[k]? = some c → Route e false g c := by
  intro d
  induction d with
  | zero =>
    intro k c _ hk hc
    have : k = b := by omega
    subst this
    rw [hg] at hc; injection hc with hc; subst hc
    exact .here (List.mem_of_getElem? hg)
  | succ d ih =>
    intro k c hak hk hc
    have hkl : k < e.cubes.length := (List.getElem?_eq_some_iff.1 hc).1
    have hlt : k - 1 < e.cubes.length := by omega
    have hnx := List.getElem?_eq_getElem hlt
    have hc' : e.cubes[k - 1 + 1]? = some c := by rw [← hc]; congr 1; omega
    refine .go (nx := e.cubes[k - 1]) ?_ (Or.inr ⟨k - 1, hnx, hc'⟩) ?_ ?_ (ih (k - 1) _ (by omega) (by omega) hnx)
    · simp only [Bool.false_eq_true, if_false]
      rw [predecessors_eq hl hc, if_neg (by omega), hnx]; rfl
    · intro i hi
      exact (hdir (k - 1) _ _ _ hnx hc' hg i hi).2 (by omega) (by omega)
    · intro hnxg
      have : k - 1 = b := by
        rw [hnxg] at hnx
        rw [List.getElem?_eq_some_iff] at hnx hg
        obtain ⟨x, hx⟩ := hnx
        obtain ⟨y, hy⟩ := hg
        exact (List.Nodup.getElem_inj_iff hl).1 (hx.trans hy.symm)
      rcases hlast with h | h
      · exact Or.inl h
      · exact Or.inr (h c g hg (Or.inr ⟨by omega, by rw [← hc]; congr 1; omega⟩))

/-- The search direction of the code is the order of the indices. -/
theorem forward_iff {l : List (Fin (n + 1) → ℤ)} (hl : l.Nodup) {a b : ℕ} {c g} (hc : l[a]? = some c) (hg : l[b]? = some g) :
    g ∈ (l.dropWhile (· ≠ c)).tail ↔ a < b := by
  have hdrop : ∀ (l : List (Fin (n + 1) → ℤ)) (a : ℕ), l.Nodup → l[a]? = some c → l.dropWhile (· ≠ c) = l.drop a := by
    intro l
    induction l with
    | nil => intro a _ h; simp at h
    | cons x l ih =>
      intro a hnd h
      rw [List.nodup_cons] at hnd
      cases a with
      | zero =>
        simp at h; subst h
        simp [List.dropWhile]
      | succ a =>
        simp at h
        have : x ≠ c := by rintro rfl; exact hnd.1 (List.mem_of_getElem? h)
        rw [List.dropWhile_cons, if_pos (by simpa using this), ih a hnd.2 h]
        rfl
  rw [hdrop l a hl hc, List.tail_drop]
  constructor
  · intro h
    obtain ⟨k, hk⟩ := List.getElem?_of_mem h
    rw [List.getElem?_drop] at hk
    rw [List.getElem?_eq_some_iff] at hk hg
    obtain ⟨x, hx⟩ := hk
    obtain ⟨y, hy⟩ := hg
    have := (List.Nodup.getElem_inj_iff hl).1 (hx.trans hy.symm)
    omega
  · intro h
    apply List.mem_of_getElem? (i := b - (a + 1))
    rw [List.getElem?_drop, ← hg]
    congr 1; omega

end Verif.Gray
