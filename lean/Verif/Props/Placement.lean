import Verif.Lemmas.Py
import Verif.Spec.Placement
import Mathlib.Tactic.Linarith
import Mathlib.Tactic.Ring
import Mathlib.Tactic.NormNum

/-! Placement of objects: C94. -/

namespace Verif.Props

open Verif.Spec Verif.Placement

variable {β : Type*} [DecidableEq β]

theorem onAABB_none (s : Scene β) {b surface : β} (hf : ¬ Fits s b surface) (u : ℝ × ℝ) (n : ℕ) (pos : β → P3) :
    onAABB s b (s.aabb surface) 1 (1 / 1000) u (n + 1) pos = (Function.update pos b 0, none) := by
  have hc : (s.aabb surface).2 0 - 1 * s.extent b 0 / 2 < (s.aabb surface).1 0 + 1 * s.extent b 0 / 2 ∨
      (s.aabb surface).2 1 - 1 * s.extent b 1 / 2 < (s.aabb surface).1 1 + 1 * s.extent b 1 / 2 := by
    by_contra hc
    push Not at hc
    apply hf
    intro i hi
    fin_cases i
    · simp only [Fin.zero_eta]; linarith [hc.1]
    · simp only [Fin.mk_one]; linarith [hc.2]
    · exact absurd rfl hi
  induction n generalizing pos with
  | zero => simp only [onAABB, if_pos hc]
  | succ n ih =>
    rw [onAABB]
    simp only [if_pos hc]
    rw [ih, Function.update_idem]

theorem onAABB_some (s : Scene β) {b surface : β} (hf : Fits s b surface) (u : ℝ × ℝ) (n : ℕ) (pos : β → P3) :
    onAABB s b (s.aabb surface) 1 (1 / 1000) u (n + 1) pos = (Function.update pos b (placeOf s b surface u), some (placeOf s b surface u)) := by
  have f0 := hf 0 (by decide)
  have f1 := hf 1 (by decide)
  have hc : ¬ ((s.aabb surface).2 0 - 1 * s.extent b 0 / 2 < (s.aabb surface).1 0 + 1 * s.extent b 0 / 2 ∨
      (s.aabb surface).2 1 - 1 * s.extent b 1 / 2 < (s.aabb surface).1 1 + 1 * s.extent b 1 / 2) := by
    push Not
    constructor <;> linarith
  have he : ![(s.aabb surface).1 0 + 1 * s.extent b 0 / 2 + ((s.aabb surface).2 0 - 1 * s.extent b 0 / 2 - ((s.aabb surface).1 0 + 1 * s.extent b 0 / 2)) * u.1,
      (s.aabb surface).1 1 + 1 * s.extent b 1 / 2 + ((s.aabb surface).2 1 - 1 * s.extent b 1 / 2 - ((s.aabb surface).1 1 + 1 * s.extent b 1 / 2)) * u.2,
      (s.aabb surface).2 2 + s.extent b 2 / 2 + 1 / 1000] + (0 - s.center b) = placeOf s b surface u := by
    funext i
    fin_cases i <;> simp [placeOf] <;> ring
  rw [onAABB]
  simp only [if_neg hc, Function.update_idem, he]

omit [DecidableEq β] in
theorem placeOf_on (s : Scene β) {b surface : β} (hf : Fits s b surface) {u : ℝ × ℝ} (hu : 0 ≤ u.1 ∧ u.1 ≤ 1 ∧ 0 ≤ u.2 ∧ u.2 ≤ 1) :
    OnSurface s b surface (placeOf s b surface u) := by
  have f0 := hf 0 (by decide)
  have f1 := hf 1 (by decide)
  refine ⟨?_, ?_⟩
  · intro i hi
    fin_cases i
    · simp [placeOf]
      constructor <;> nlinarith [hu.1, hu.2.1]
    · simp [placeOf]
      constructor <;> nlinarith [hu.2.2.1, hu.2.2.2]
    · exact absurd rfl hi
  · simp [placeOf]
    ring

/-- One body: what holds after its loop. -/
theorem attempt_loop {s : Scene β} {u : ℕ → ℝ × ℝ} (hu : Draws2 u) {b surface : β} {d : ℝ} {obstacles : List β} {fuel : ℕ} {st : State β} {r : Bool × State β}
    (h : loop (attempt s u b surface d obstacles) fuel st = some r) :
    (∀ o ≠ b, r.2.pos o = st.pos o) ∧ (r.1 = false → ¬ Fits s b surface ∧ r.2.pos b = 0) ∧
      (r.1 = true → Fits s b surface ∧ OnSurface s b surface (r.2.pos b) ∧
        ∀ o ∈ obstacles, o ≠ b → o ≠ surface → s.near b (r.2.pos b) o (r.2.pos o) d = false) := by
  induction fuel generalizing st with
  | zero => cases h
  | succ fuel ih =>
    rw [loop] at h
    by_cases hf : Fits s b surface
    · have hp := onAABB_some s hf (u st.drawn) 49 st.pos
      have hon := placeOf_on s hf (hu st.drawn)
      unfold attempt at h
      rw [hp] at h
      simp only at h
      split at h
      · rename_i b' heq
        split at heq
        · cases heq
        · rename_i hany
          cases heq
          cases h
          refine ⟨fun o ho => Function.update_of_ne ho _ _, fun h => (Bool.noConfusion h), fun _ => ⟨hf, ?_, ?_⟩⟩
          · simpa using hon
          · intro o ho h1 h2
            by_contra hn
            apply hany
            rw [List.any_eq_true]
            refine ⟨o, List.mem_filter.2 ⟨ho, by simp [h1, h2]⟩, by simpa using hn⟩
      · rename_i st' heq
        split at heq
        · cases heq
          obtain ⟨h1, h2, h3⟩ := ih h
          exact ⟨fun o ho => (h1 o ho).trans (Function.update_of_ne ho _ _), h2, h3⟩
        · cases heq
    · unfold attempt at h
      rw [onAABB_none s hf] at h
      cases h
      exact ⟨fun o ho => Function.update_of_ne ho _ _, fun _ => ⟨hf, by simp⟩, fun h => Bool.noConfusion h⟩

/-- C94. If `sample_placements` answers True, then every body lies on its surface, is more than its distance apart from every obstacle that was given, and from every body
placed before it; nothing else has moved. (Only the body's own surface is exempt.) -/
theorem C94_placed {s : Scene β} {u : ℕ → ℝ × ℝ} (hu : Draws2 u) {minDistance : β → ℝ} {fuel : ℕ} {items : List (β × β)} {obstacles : List β} {st st' : State β}
    (hnd : (items.map Prod.fst).Nodup) (h : samplePlacements s u minDistance fuel items obstacles st = some (true, st')) :
    (∀ x ∈ items, OnSurface s x.1 x.2 (st'.pos x.1)) ∧
    (∀ x ∈ items, ∀ o ∈ obstacles, o ∉ items.map Prod.fst → o ≠ x.2 → s.near x.1 (st'.pos x.1) o (st'.pos o) (minDistance x.1) = false) ∧
    (items.Pairwise fun x y => x.1 ≠ y.2 → s.near y.1 (st'.pos y.1) x.1 (st'.pos x.1) (minDistance y.1) = false) ∧
    (∀ o, o ∉ items.map Prod.fst → st'.pos o = st.pos o) := by
  induction items generalizing obstacles st with
  | nil =>
    cases h
    simp
  | cons x items ih =>
    obtain ⟨b, surface⟩ := x
    rw [samplePlacements] at h
    cases hl : loop (attempt s u b surface (minDistance b) obstacles) fuel st with
    | none => rw [hl] at h; cases h
    | some r =>
      obtain ⟨ok, st1⟩ := r
      rw [hl] at h
      cases ok with
      | false => cases h
      | true =>
        simp only at h
        rw [List.map_cons, List.nodup_cons] at hnd
        obtain ⟨a1, -, a2⟩ := attempt_loop hu hl
        obtain ⟨-, a3, a4⟩ := a2 rfl
        obtain ⟨i1, i2, i3, i4⟩ := ih hnd.2 h
        simp only at a1 a3 a4
        have hb : st'.pos b = st1.pos b := i4 b hnd.1
        refine ⟨?_, ?_, ?_, ?_⟩
        · rintro x hx
          rcases List.mem_cons.1 hx with rfl | hx
          · simp only [hb]; exact a3
          · exact i1 x hx
        · rintro x hx o ho hno hos
          simp only [List.map_cons, List.mem_cons, not_or] at hno
          rcases List.mem_cons.1 hx with rfl | hx
          · simp only [hb, i4 o hno.2]
            exact a4 o ho hno.1 hos
          · exact i2 x hx o (List.mem_append_left _ ho) hno.2 hos
        · rw [List.pairwise_cons]
          refine ⟨fun y hy hby => i2 y hy b (List.mem_append_right _ (by simp)) hnd.1 hby, i3⟩
        · intro o ho
          simp only [List.map_cons, List.mem_cons, not_or] at ho
          rw [i4 o ho.2, a1 o ho.1]

/-- C94, answer False: only if some body is wider than its surface; it is left at the origin. And if some body is wider than its surface, the answer is never True. -/
theorem C94_refused {s : Scene β} {u : ℕ → ℝ × ℝ} (hu : Draws2 u) {minDistance : β → ℝ} {fuel : ℕ} {items : List (β × β)} {obstacles : List β} {st st' : State β}
    {answer : Bool} (h : samplePlacements s u minDistance fuel items obstacles st = some (answer, st')) :
    (answer = false → ∃ x ∈ items, ¬ Fits s x.1 x.2 ∧ st'.pos x.1 = 0) ∧ (answer = true → ∀ x ∈ items, Fits s x.1 x.2) := by
  induction items generalizing obstacles st with
  | nil =>
    cases h
    simp
  | cons x items ih =>
    obtain ⟨b, surface⟩ := x
    rw [samplePlacements] at h
    cases hl : loop (attempt s u b surface (minDistance b) obstacles) fuel st with
    | none => rw [hl] at h; cases h
    | some r =>
      obtain ⟨ok, st1⟩ := r
      rw [hl] at h
      obtain ⟨-, a1, a2⟩ := attempt_loop hu hl
      cases ok with
      | false =>
        cases h
        exact ⟨fun _ => ⟨(b, surface), by simp, a1 rfl⟩, fun h => Bool.noConfusion h⟩
      | true =>
        obtain ⟨i1, i2⟩ := ih h
        refine ⟨fun hf => ?_, fun ht x hx => ?_⟩
        · obtain ⟨x, hx, h1⟩ := i1 hf
          exact ⟨x, by simp [hx], h1⟩
        · rcases List.mem_cons.1 hx with rfl | hx
          · exact (a2 rfl).1
          · exact i2 ht x hx

/-- C94, answering (part): a body that fits gets the first place among those the draws select that is not too near to an obstacle. Missing: there is no limit on the number of draws
(`C94_loops_false`). -/
theorem C94_first_partial {s : Scene β} {u : ℕ → ℝ × ℝ} {b surface : β} (hf : Fits s b surface) {d : ℝ} {obstacles : List β} {st : State β} {n fuel : ℕ} (hfuel : n < fuel)
    (hbad : ∀ m < n, ∃ o ∈ obstacles, o ≠ b ∧ o ≠ surface ∧ s.near b (placeOf s b surface (u (st.drawn + m))) o (st.pos o) d = true)
    (hn : ∀ o ∈ obstacles, o ≠ b → o ≠ surface → s.near b (placeOf s b surface (u (st.drawn + n))) o (st.pos o) d = false) :
    loop (attempt s u b surface d obstacles) fuel st = some (true, ⟨Function.update st.pos b (placeOf s b surface (u (st.drawn + n))), st.drawn + n + 1⟩) := by
  induction n generalizing st fuel with
  | zero =>
    obtain ⟨fuel, rfl⟩ : ∃ k, fuel = k + 1 := ⟨fuel - 1, by omega⟩
    rw [loop]
    unfold attempt
    rw [onAABB_some s hf]
    simp only
    rw [if_neg ?_]
    · rfl
    · rw [List.any_eq_true]
      rintro ⟨o, ho, hnear⟩
      obtain ⟨ho1, ho2⟩ := List.mem_filter.1 ho
      simp only [Bool.not_eq_true', decide_eq_false_iff_not, not_or] at ho2
      have := hn o ho1 ho2.1 ho2.2
      simp only [Function.update_self, Function.update_of_ne ho2.1] at hnear
      rw [add_zero] at this
      rw [this] at hnear
      cases hnear
  | succ n ih =>
    obtain ⟨fuel, rfl⟩ : ∃ k, fuel = k + 1 := ⟨fuel - 1, by omega⟩
    rw [loop]
    unfold attempt
    rw [onAABB_some s hf]
    simp only
    rw [if_pos ?_]
    · show loop (attempt s u b surface d obstacles) fuel ⟨_, _⟩ = _
      rw [ih (st := ⟨Function.update st.pos b (placeOf s b surface (u st.drawn)), st.drawn + 1⟩) (by omega)]
      · simp only [Function.update_idem]
        rw [show st.drawn + 1 + n = st.drawn + (n + 1) by omega]
      · intro m hm
        obtain ⟨o, ho, h1, h2, h3⟩ := hbad (m + 1) (by omega)
        refine ⟨o, ho, h1, h2, ?_⟩
        simp only [Function.update_of_ne h1]
        rw [show st.drawn + 1 + m = st.drawn + (m + 1) by omega, h3]
      · intro o ho h1 h2
        simp only [Function.update_of_ne h1]
        rw [show st.drawn + 1 + n = st.drawn + (n + 1) by omega]
        exact hn o ho h1 h2
    · rw [List.any_eq_true]
      obtain ⟨o, ho, h1, h2, h3⟩ := hbad 0 (by omega)
      refine ⟨o, List.mem_filter.2 ⟨ho, by simp [h1, h2]⟩, ?_⟩
      simp only [Function.update_self, Function.update_of_ne h1]
      rwa [add_zero] at h3

/-- C94 fails: `sample_placements` need not answer. If a body fits on its surface but is too near to some obstacle wherever it is put, the loop never ends. -/
theorem C94_loops_false {s : Scene β} {u : ℕ → ℝ × ℝ} (hu : Draws2 u) {minDistance : β → ℝ} {b surface : β} (items : List (β × β)) {obstacles : List β} {st : State β}
    (hf : Fits s b surface)
    (hn : ∀ p, OnSurface s b surface p → ∃ o ∈ obstacles, o ≠ b ∧ o ≠ surface ∧ s.near b p o (st.pos o) (minDistance b) = true) (fuel : ℕ) :
    samplePlacements s u minDistance fuel ((b, surface) :: items) obstacles st = none := by
  rw [samplePlacements]
  have : loop (attempt s u b surface (minDistance b) obstacles) fuel st = none := by
    cases hl : loop (attempt s u b surface (minDistance b) obstacles) fuel st with
    | none => rfl
    | some r =>
      obtain ⟨a1, a2, a3⟩ := attempt_loop hu hl
      cases hr : r.1 with
      | false => exact absurd hf (a2 hr).1
      | true =>
        obtain ⟨-, h1, h2⟩ := a3 hr
        obtain ⟨o, ho, hob, hos, hnear⟩ := hn _ h1
        have := h2 o ho hob hos
        rw [a1 o hob, hnear] at this
        cases this
  rw [this]

/-- Two bodies of width 1/2 on a table of length 2 and width 1; body 3 is near to everything. -/
noncomputable def tableScene : Scene ℕ where
  center := fun _ => 0
  extent := fun _ _ => 1 / 2
  aabb := fun _ => (![0, 0, 0], ![2, 1, 0])
  near := fun _ p o q d => open Classical in decide (o = 3 ∨ |p 0 - q 0| ≤ 1 / 2 + d)

/-- The draws for the table: the second one is too near to the first. -/
noncomputable def tableDraws (n : ℕ) : ℝ × ℝ := if n = 0 then (0, 0) else if n = 1 then (1 / 10, 0) else (1, 0)

/-- The hypotheses of C94 are met: on the table, both bodies are placed, the second one with its second draw. With body 3 as an obstacle, the loop does not end. -/
theorem C94_nonvacuous : Draws2 tableDraws ∧ (∃ st', samplePlacements tableScene tableDraws (fun _ => 1 / 100) 2 [(0, 2), (1, 2)] [] ⟨fun _ => 0, 0⟩ = some (true, st') ∧
      st'.drawn = 3 ∧ st'.pos 0 0 = 1 / 4 ∧ st'.pos 1 0 = 7 / 4) ∧
    Fits tableScene 0 2 ∧ ∀ p, OnSurface tableScene 0 2 p → ∃ o ∈ [3], o ≠ 0 ∧ o ≠ 2 ∧ tableScene.near 0 p o 0 (1 / 100) = true := by
  have hf : ∀ b, Fits tableScene b 2 := by
    intro b i hi
    fin_cases i
    · simp [tableScene]; norm_num
    · simp [tableScene]; norm_num
    · exact absurd rfl hi
  refine ⟨?_, ?_, hf 0, ?_⟩
  · intro n
    unfold tableDraws
    split_ifs <;> norm_num
  · rw [samplePlacements, C94_first_partial (n := 0) (hf 0) (by omega) (by simp) (by simp)]
    simp only [List.nil_append]
    rw [samplePlacements, C94_first_partial (n := 1) (hf 1) (by omega) ?_ ?_]
    · refine ⟨_, rfl, rfl, ?_, ?_⟩
      · simp [placeOf, tableScene, tableDraws]; norm_num
      · simp [placeOf, tableScene, tableDraws]; norm_num
    · intro m hm
      obtain rfl : m = 0 := by omega
      refine ⟨0, by simp, by simp, by simp, ?_⟩
      simp [placeOf, tableScene, tableDraws]
      norm_num [abs_of_nonneg]
    · intro o ho _ _
      rw [List.mem_singleton] at ho
      subst ho
      simp [placeOf, tableScene, tableDraws]
      norm_num [abs_of_nonneg]
  · intro p _
    exact ⟨3, by simp, by simp, by simp, by simp [tableScene]⟩

end Verif.Props
