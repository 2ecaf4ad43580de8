import Mathlib.Data.Rat.Floor
import Mathlib.Data.Fin.VecNotation
import Mathlib.Tactic.FinCases
import Mathlib.Tactic.NormNum
import Verif.Lemmas.GrayMotion

/-!
Property C23: motion checking in `GrayCodeWalls`.
-/

set_option linter.unusedSectionVars false
set_option linter.unnecessarySeqFocus false

namespace Verif.Props

open Verif.Gray Verif.Spec

/-- C23 (partial). If the start lies in the `a`-th and the goal in the `b`-th cube of the corridor, no coordinate changes twice
between these cubes, and the last step goes up (or the walls have no thickness), then an accepted motion is free everywhere.
Missing: all other pairs of cubes, where the code accepts motions through walls (`C23_crosses_wall_false`,
`C23_cuts_corner_false`). -/
theorem C23_accepted_free_partial {K : Type*} [Field K] [LinearOrder K] [IsStrictOrderedRing K] [FloorRing K] {n length : ℕ}
    {th : K} (h0 : 0 ≤ th) (h1 : th < 1 / 2) {e : GrayCodeWalls K n} (h : GrayCodeWalls.init n length th = .ok e)
    {start goal : Fin (n + 1) → K} {a b : ℕ} (ha : e.cubes[a]? = some (fun i => ⌊start i⌋))
    (hb : e.cubes[b]? = some (fun i => ⌊goal i⌋)) (hdir : DirectRoute e.cubes a b)
    (hlast : th = 0 ∨ LastStepUp e.cubes a b) {fuel : ℕ} (hacc : isMotionValid e start goal fuel = some (.ok true)) :
    ∀ t, 0 ≤ t → t ≤ 1 → GrayFree e.cubes th (fun i => (1 - t) * start i + t * goal i) := by
  obtain ⟨-, -, hcubes, hth, -⟩ := init_ok h
  have hl : e.cubes.Nodup := by rw [hcubes]; exact order_nodup _ _
  have hch : e.cubes.IsChain CubeAdj := by rw [hcubes]; exact order_chain _ _
  have hmem : floorCube start ∈ e.cubes := List.mem_of_getElem? ha
  unfold isMotionValid at hacc
  simp only [not_true, hmem, if_false] at hacc
  have hfwd := forward_iff hl ha hb
  change floorCube goal ∈ (e.cubes.dropWhile (· ≠ floorCube start)).tail ↔ a < b at hfwd
  rw [← hth] at h0 h1 hlast ⊢
  have track : OnTrack goal (floorCube goal) (floorCube start) start := by
    intro i
    refine ⟨fun _ => ⟨Int.floor_le _, (Int.lt_floor_add_one _).le⟩, fun h => ⟨Int.floor_le _, ?_⟩,
      fun h => ⟨?_, (Int.lt_floor_add_one _).le⟩⟩
    · by_contra hc
      exact absurd (Int.floor_le_floor (not_le.1 hc).le) (not_le.2 h)
    · by_contra hc
      exact absurd (Int.floor_le_floor (not_le.1 hc).le) (not_le.2 h)
  have entry : floorCube start = floorCube goal → ∀ d, distanceToWall e start = .ok d → 0 ≤ d →
      InCube (floorCube goal) start → ClearOfWalls e.cubes e.thickness (floorCube goal) start := by
    intro heq d hd hd0 _
    obtain ⟨d', hd', hiff⟩ := dist_nonneg_iff hl hch hmem start
    have hdd : d' = d := by have := hd'.symm.trans hd; injection this
    rw [← heq]
    exact hiff.1 (by rw [hdd]; exact hd0)
  by_cases hab : a < b
  · rw [decide_eq_true (hfwd.2 hab)] at hacc
    exact (route_sound hl hch h0 h1 rfl (route_forward hl hb hdir hlast (b - a) a _ le_rfl (by omega) ha) track entry hacc).2
  · rw [decide_eq_false (fun h => hab (hfwd.1 h))] at hacc
    exact (route_sound hl hch h0 h1 rfl (route_backward hl hb hdir hlast (a - b) a _ le_rfl (by omega) ha) track entry hacc).2

/-- C23. The check always stops, with an answer or an exception. -/
theorem C23_check_stops {K : Type*} [Field K] [LinearOrder K] [IsStrictOrderedRing K] [FloorRing K] {n length : ℕ}
    {th : K} {e : GrayCodeWalls K n} (h : GrayCodeWalls.init n length th = .ok e) (start goal : Fin (n + 1) → K) :
    ∃ fuel r, isMotionValid e start goal fuel = some r := by
  obtain ⟨-, -, hcubes, -⟩ := init_ok h
  have hl : e.cubes.Nodup := by rw [hcubes]; exact order_nodup _ _
  unfold isMotionValid
  by_cases hmem : floorCube start ∈ e.cubes
  swap
  · exact ⟨0, .error .key, by simp only [hmem, not_false_iff, if_true]⟩
  simp only [hmem, not_true, if_false]
  obtain ⟨a, ha⟩ := List.getElem?_of_mem hmem
  generalize decide (floorCube goal ∈ (e.cubes.dropWhile (· ≠ floorCube start)).tail) = forward
  -- a step either stops or goes to the next cube of the list
  have step : ∀ s c, (∃ r, motionBody e goal (floorCube goal) forward (s, c) = .done r) ∨
      ∃ s' c' tl, motionBody e goal (floorCube goal) forward (s, c) = .next (s', c') ∧
        (if forward then successors e.cubes c else predecessors e.cubes c) = .ok (c' :: tl) := by
    intro s c
    unfold motionBody
    simp only
    generalize (if forward then successors e.cubes c else predecessors e.cubes c) = N
    repeat' split
    all_goals first | exact Or.inl ⟨_, rfl⟩ | exact Or.inr ⟨_, _, _, rfl, rfl⟩
  have run : ∀ d k c s, e.cubes[k]? = some c → (if forward then e.cubes.length - k else k) ≤ d →
      ∃ r, loop (motionBody e goal (floorCube goal) forward) (d + 1) (s, c) = some r := by
    intro d
    induction d with
    | zero =>
      intro k c s hc hd
      rcases step s c with ⟨r, hr⟩ | ⟨s', c', tl, hr, hn⟩
      · exact ⟨r, loop_done hr 0⟩
      · exfalso
        have hk := (List.getElem?_eq_some_iff.1 hc).1
        cases forward with
        | true => simp at hd; omega
        | false =>
          simp only [Bool.false_eq_true, if_false] at hn hd
          rw [predecessors_eq hl hc, if_pos (by omega)] at hn
          simp at hn
    | succ d ih =>
      intro k c s hc hd
      rcases step s c with ⟨r, hr⟩ | ⟨s', c', tl, hr, hn⟩
      · exact ⟨r, loop_done hr _⟩
      · rw [loop_next hr]
        cases forward with
        | true =>
          simp only [if_true] at hn hd
          rw [successors_eq hl hc] at hn
          cases hk : e.cubes[k + 1]? with
          | none => rw [hk] at hn; simp at hn
          | some c'' =>
            rw [hk] at hn
            simp at hn
            refine ih (k + 1) c' s' (by rw [hk, hn.1]) ?_
            simp only [if_true]; omega
        | false =>
          simp only [Bool.false_eq_true, if_false] at hn hd
          by_cases hk0 : k = 0
          · rw [predecessors_eq hl hc, if_pos hk0] at hn; simp at hn
          · rw [predecessors_eq hl hc, if_neg hk0] at hn
            cases hk : e.cubes[k - 1]? with
            | none => rw [hk] at hn; simp at hn
            | some c'' =>
              rw [hk] at hn
              simp at hn
              refine ih (k - 1) c' s' (by rw [hk, hn.1]) ?_
              simp only [Bool.false_eq_true, if_false]; omega
  exact ⟨_, run _ a _ (some start) ha le_rfl⟩

/-- Same cube: every accepted motion is free. -/
theorem C23_same_cube {K : Type*} [Field K] [LinearOrder K] [IsStrictOrderedRing K] [FloorRing K] {n length : ℕ}
    {th : K} (h0 : 0 ≤ th) (h1 : th < 1 / 2) {e : GrayCodeWalls K n} (h : GrayCodeWalls.init n length th = .ok e)
    {start goal : Fin (n + 1) → K} (hs : ∀ i, ⌊start i⌋ = ⌊goal i⌋) {fuel : ℕ}
    (hacc : isMotionValid e start goal fuel = some (.ok true)) :
    ∀ t, 0 ≤ t → t ≤ 1 → GrayFree e.cubes th (fun i => (1 - t) * start i + t * goal i) := by
  have hmem : floorCube start ∈ e.cubes := by
    by_contra hc
    unfold isMotionValid at hacc
    simp [hc] at hacc
  obtain ⟨a, ha⟩ := List.getElem?_of_mem hmem
  have hb : e.cubes[a]? = some (fun i => ⌊goal i⌋) := by
    rw [ha]; congr 1; funext i; exact hs i
  refine C23_accepted_free_partial h0 h1 h ha hb ?_ (Or.inr ?_) hacc
  · intro k c c' g _ _ _ i _
    exact ⟨fun _ _ => by omega, fun _ _ => by omega⟩
  · intro p g _ hh
    rcases hh with ⟨hh, -⟩ | ⟨hh, -⟩ <;> omega

/-- C23 is not vacuous: a motion through two openings in dimension three, with thick walls. -/
theorem C23_nonvacuous : ∃ e : GrayCodeWalls ℚ 2, GrayCodeWalls.init 2 2 (1 / 8 : ℚ) = .ok e ∧
    isMotionValid e ![1 / 2, 13 / 20, 17 / 20] ![1 / 2, 6 / 5, 7 / 5] 4 = some (.ok true) ∧
    e.cubes[0]? = some (fun i => ⌊(![1 / 2, 13 / 20, 17 / 20] : Fin 3 → ℚ) i⌋) ∧
    e.cubes[2]? = some (fun i => ⌊(![1 / 2, 6 / 5, 7 / 5] : Fin 3 → ℚ) i⌋) ∧
    DirectRoute e.cubes 0 2 ∧ LastStepUp e.cubes 0 2 := by
  refine ⟨_, rfl, by decide +kernel, by decide +kernel, by decide +kernel, ?_, ?_⟩
  · have h0 : (order 2 2)[0]? = some ![0, 0, 0] := by decide +kernel
    have h1 : (order 2 2)[1]? = some ![0, 0, 1] := by decide +kernel
    have h2 : (order 2 2)[2]? = some ![0, 1, 1] := by decide +kernel
    intro k c c' g hc hc' hg i hi
    refine ⟨fun _ hk => ?_, fun hk hk' => absurd hk' (by omega)⟩
    change (order 2 2)[2]? = some g at hg
    rw [h2] at hg; injection hg with hg; subst hg
    match k, hk, hc, hc' with
    | 0, _, hc, hc' =>
      change (order 2 2)[0]? = some c at hc
      change (order 2 2)[1]? = some c' at hc'
      rw [h0] at hc; rw [h1] at hc'
      injection hc with hc; injection hc' with hc'; subst hc; subst hc'
      revert i; decide
    | 1, _, hc, hc' =>
      change (order 2 2)[1]? = some c at hc
      change (order 2 2)[2]? = some c' at hc'
      rw [h1] at hc; rw [h2] at hc'
      injection hc with hc; injection hc' with hc'; subst hc; subst hc'
      revert i; decide
  · have h1 : (order 2 2)[1]? = some ![0, 0, 1] := by decide +kernel
    have h2 : (order 2 2)[2]? = some ![0, 1, 1] := by decide +kernel
    intro p g hg hp
    rcases hp with ⟨-, hp⟩ | ⟨hp, -⟩
    · change (order 2 2)[1]? = some p at hp
      change (order 2 2)[2]? = some g at hg
      rw [h2] at hg; rw [h1] at hp
      injection hg with hg; injection hp with hp; subst hg; subst hp
      decide
    · omega

/-- C23 fails: the motion crosses the wall between two cubes that are not neighbours in the corridor. The corridor visits
(0,0), (0,1), (1,1), (1,0); the motion goes from the first cube straight through the wall at `x = 1` into the last one. Both ends
are free, the motion is accepted, and its point at parameter 5/7 (on the wall) is not free. -/
theorem C23_crosses_wall_false : ∃ e : GrayCodeWalls ℚ 1, GrayCodeWalls.init 1 2 (1 / 8 : ℚ) = .ok e ∧
    GrayFree e.cubes (1 / 8) (![1 / 2, 9 / 20] : Fin 2 → ℚ) ∧ GrayFree e.cubes (1 / 8) (![6 / 5, 9 / 10] : Fin 2 → ℚ) ∧
    isMotionValid e ![1 / 2, 9 / 20] ![6 / 5, 9 / 10] 4 = some (.ok true) ∧
    ¬ GrayFree e.cubes (1 / 8) (fun i => (1 - 5 / 7) * (![1 / 2, 9 / 20] : Fin 2 → ℚ) i + 5 / 7 * (![6 / 5, 9 / 10] : Fin 2 → ℚ) i) := by
  have hord : order 1 2 = [![0, 0], ![0, 1], ![1, 1], ![1, 0]] := by decide +kernel
  have nb : ∀ c d, Neighbour (order 1 2) c d → (c, d) ∈ [(![0, 0], ![0, 1]), (![0, 1], ![1, 1]), (![1, 1], ![1, 0]),
      (![0, 1], ![0, 0]), (![1, 1], ![0, 1]), ((![1, 0] : Fin 2 → ℤ), (![1, 1] : Fin 2 → ℤ))] := by
    intro c d hnb
    rw [hord] at hnb
    rcases hnb with ⟨k, h1, h2⟩ | ⟨k, h1, h2⟩
    all_goals
      match k, h1, h2 with
      | 0, h1, h2 => simp at h1 h2; subst h1; subst h2; decide
      | 1, h1, h2 => simp at h1 h2; subst h1; subst h2; decide
      | 2, h1, h2 => simp at h1 h2; subst h1; subst h2; decide
      | k + 3, h1, h2 => simp at h2
  have mem : ∀ c ∈ order 1 2, c ∈ [![0, 0], ![0, 1], ![1, 1], (![1, 0] : Fin 2 → ℤ)] := by rw [hord]; exact fun c h => h
  refine ⟨_, rfl, ?_, ?_, by decide +kernel, ?_⟩
  · refine ⟨![0, 0], by decide +kernel, by intro i; fin_cases i <;> simp <;> norm_num, ?_⟩
    intro i; fin_cases i
    · exact ⟨Or.inl (by norm_num), Or.inl (by norm_num)⟩
    · exact ⟨Or.inl (by norm_num), Or.inl (by norm_num)⟩
  · refine ⟨![1, 0], by decide +kernel, by intro i; fin_cases i <;> simp <;> norm_num, ?_⟩
    intro i; fin_cases i
    · exact ⟨Or.inl (by norm_num), Or.inl (by norm_num)⟩
    · exact ⟨Or.inl (by norm_num), Or.inr ⟨![1, 1], Or.inr ⟨2, by decide +kernel, by decide +kernel⟩, by decide⟩⟩
  · rintro ⟨c, hc, hin, hclear⟩
    have hc' := mem c hc
    simp only [List.mem_cons, List.not_mem_nil, or_false] at hc'
    rcases hc' with rfl | rfl | rfl | rfl
    · rcases (hclear 0).2 with h | ⟨d, h1, h2⟩
      · norm_num at h
      · have := nb _ _ h1
        simp at this
        rcases this with this | this | this <;> simp_all
    · have := (hin 1).1; norm_num at this
    · have := (hin 1).1; norm_num at this
    · rcases (hclear 0).1 with h | ⟨d, h1, h2⟩
      · norm_num at h
      · have := nb _ _ h1
        simp at this
        rcases this with this | this | this <;> simp_all

/-- C23 fails also between neighbouring cubes when the step goes down: the entry point of the last cube is looked up in the
cube before, so a corner can be cut. -/
theorem C23_cuts_corner_false : ∃ e : GrayCodeWalls ℚ 1, GrayCodeWalls.init 1 2 (1 / 8 : ℚ) = .ok e ∧
    GrayFree e.cubes (1 / 8) (![101 / 100, 3 / 2] : Fin 2 → ℚ) ∧ GrayFree e.cubes (1 / 8) (![23 / 20, 1 / 2] : Fin 2 → ℚ) ∧
    isMotionValid e ![101 / 100, 3 / 2] ![23 / 20, 1 / 2] 4 = some (.ok true) ∧
    ¬ GrayFree e.cubes (1 / 8) (fun i => (1 - 51 / 100) * (![101 / 100, 3 / 2] : Fin 2 → ℚ) i + 51 / 100 * (![23 / 20, 1 / 2] : Fin 2 → ℚ) i) := by
  have hord : order 1 2 = [![0, 0], ![0, 1], ![1, 1], ![1, 0]] := by decide +kernel
  have nb : ∀ c d, Neighbour (order 1 2) c d → (c, d) ∈ [(![0, 0], ![0, 1]), (![0, 1], ![1, 1]), (![1, 1], ![1, 0]),
      (![0, 1], ![0, 0]), (![1, 1], ![0, 1]), ((![1, 0] : Fin 2 → ℤ), (![1, 1] : Fin 2 → ℤ))] := by
    intro c d hnb
    rw [hord] at hnb
    rcases hnb with ⟨k, h1, h2⟩ | ⟨k, h1, h2⟩
    all_goals
      match k, h1, h2 with
      | 0, h1, h2 => simp at h1 h2; subst h1; subst h2; decide
      | 1, h1, h2 => simp at h1 h2; subst h1; subst h2; decide
      | 2, h1, h2 => simp at h1 h2; subst h1; subst h2; decide
      | k + 3, h1, h2 => simp at h2
  have mem : ∀ c ∈ order 1 2, c ∈ [![0, 0], ![0, 1], ![1, 1], (![1, 0] : Fin 2 → ℤ)] := by rw [hord]; exact fun c h => h
  refine ⟨_, rfl, ?_, ?_, by decide +kernel, ?_⟩
  · refine ⟨![1, 1], by decide +kernel, by intro i; fin_cases i <;> simp <;> norm_num, ?_⟩
    intro i; fin_cases i
    · exact ⟨Or.inr ⟨![0, 1], Or.inr ⟨1, by decide +kernel, by decide +kernel⟩, by decide⟩, Or.inl (by norm_num)⟩
    · exact ⟨Or.inl (by norm_num), Or.inl (by norm_num)⟩
  · refine ⟨![1, 0], by decide +kernel, by intro i; fin_cases i <;> simp <;> norm_num, ?_⟩
    intro i; fin_cases i
    · exact ⟨Or.inl (by norm_num), Or.inl (by norm_num)⟩
    · exact ⟨Or.inl (by norm_num), Or.inl (by norm_num)⟩
  · rintro ⟨c, hc, hin, hclear⟩
    have hc' := mem c hc
    simp only [List.mem_cons, List.not_mem_nil, or_false] at hc'
    rcases hc' with rfl | rfl | rfl | rfl
    · have := (hin 0).2; norm_num at this
    · have := (hin 1).1; norm_num at this
    · have := (hin 1).1; norm_num at this
    · rcases (hclear 0).1 with h | ⟨d, h1, h2⟩
      · norm_num at h
      · have := nb _ _ h1
        simp at this
        rcases this with this | this | this <;> simp_all

end Verif.Props
