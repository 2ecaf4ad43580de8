import Mathlib.Data.Rat.Floor
import Mathlib.Data.Fin.VecNotation
import Mathlib.Tactic.FinCases
import Mathlib.Tactic.NormNum
import Verif.Lemmas.GrayDirect
import Verif.Props.GrayMotion

/-!
Property C121: the motion check of `GrayCodeWalls` accepts free motions.
-/

set_option linter.unusedSectionVars false
set_option linter.unnecessarySeqFocus false

namespace Verif.Props

open Verif.Gray Verif.Spec

variable {n length : ℕ}

/-- C121 (partial). From dimension three on, with walls of positive thickness, a motion that is free everywhere is accepted if no
coordinate of its ends is an integer. Missing: motions that start on an opening (`C121_face_false`) and some motions in the plane
(`C121_plane_false`), which the code rejects. -/
theorem C121_accepts_partial {th : ℝ} (h0 : 0 < th) (hn : 3 ≤ n + 1) {e : GrayCodeWalls ℝ n}
    (h : GrayCodeWalls.init n length th = .ok e) {start goal : Fin (n + 1) → ℝ} (hs : ∀ i, (⌊start i⌋ : ℝ) ≠ start i)
    (hg : ∀ i, (⌊goal i⌋ : ℝ) ≠ goal i)
    (hfree : ∀ t, 0 ≤ t → t ≤ 1 → GrayFree e.cubes th (fun i => (1 - t) * start i + t * goal i)) :
    ∃ fuel, isMotionValid e start goal fuel = some (.ok true) := by
  have own : ∀ x : Fin (n + 1) → ℝ, (∀ i, (⌊x i⌋ : ℝ) ≠ x i) → GrayFree e.cubes th x →
      floorCube x ∈ e.cubes ∧ Inside e.cubes th (floorCube x) x := by
    rintro x hx ⟨c, hc, h1, h2⟩
    have : c = floorCube x := by
      funext i
      refine (Int.floor_eq_iff.2 ⟨(h1 i).1, lt_of_le_of_ne (h1 i).2 ?_⟩).symm
      intro he
      refine hx i ?_
      rw [he, Int.floor_add_one, Int.floor_intCast]; push_cast; rfl
    subst this
    exact ⟨hc, h1, h2⟩
  have f0 := hfree 0 le_rfl zero_le_one
  have f1 := hfree 1 zero_le_one le_rfl
  simp only [sub_zero, one_mul, zero_mul, add_zero] at f0
  simp only [sub_self, one_mul, zero_mul, zero_add] at f1
  obtain ⟨m0, i0⟩ := own start hs f0
  obtain ⟨m1, i1⟩ := own goal hg f1
  obtain ⟨a, ha⟩ := List.getElem?_of_mem m0
  obtain ⟨b, hb⟩ := List.getElem?_of_mem m1
  exact accepts_core h0 h ha hb (free_direct h0 (by omega) h ha hb hs i0 i1 hfree) hs i1.2 hfree

/-- C121 (partial), in every dimension: a free motion between two cubes of the corridor is accepted if no coordinate changes twice between
these cubes, no coordinate of the start is an integer and the goal is clear of the walls of its own cube. -/
theorem C121_direct_partial {th : ℝ} (h0 : 0 < th) {e : GrayCodeWalls ℝ n} (h : GrayCodeWalls.init n length th = .ok e)
    {start goal : Fin (n + 1) → ℝ} {a b : ℕ} (ha : e.cubes[a]? = some (fun i => ⌊start i⌋))
    (hb : e.cubes[b]? = some (fun i => ⌊goal i⌋)) (hdir : DirectRoute e.cubes a b) (hs : ∀ i, (⌊start i⌋ : ℝ) ≠ start i)
    (hg : ClearOfWalls e.cubes th (fun i => ⌊goal i⌋) goal)
    (hfree : ∀ t, 0 ≤ t → t ≤ 1 → GrayFree e.cubes th (fun i => (1 - t) * start i + t * goal i)) :
    ∃ fuel, isMotionValid e start goal fuel = some (.ok true) := accepts_core h0 h ha hb hdir hs hg hfree

/-- C121 and C23 together: along direct routes whose last step goes up, a motion between points without integer coordinates is accepted
exactly if it is free everywhere. -/
theorem C121_exact_partial {th : ℝ} (h0 : 0 < th) (h1 : th < 1 / 2) {e : GrayCodeWalls ℝ n}
    (h : GrayCodeWalls.init n length th = .ok e) {start goal : Fin (n + 1) → ℝ} {a b : ℕ}
    (ha : e.cubes[a]? = some (fun i => ⌊start i⌋)) (hb : e.cubes[b]? = some (fun i => ⌊goal i⌋)) (hdir : DirectRoute e.cubes a b)
    (hlast : LastStepUp e.cubes a b) (hs : ∀ i, (⌊start i⌋ : ℝ) ≠ start i) (hg : ∀ i, (⌊goal i⌋ : ℝ) ≠ goal i) :
    (∃ fuel, isMotionValid e start goal fuel = some (.ok true)) ↔
      ∀ t, 0 ≤ t → t ≤ 1 → GrayFree e.cubes th (fun i => (1 - t) * start i + t * goal i) := by
  constructor
  · rintro ⟨fuel, hacc⟩
    exact C23_accepted_free_partial h0.le h1 h ha hb hdir (Or.inr hlast) hacc
  · intro hfree
    refine accepts_core h0 h ha hb hdir hs ?_ hfree
    have f1 := hfree 1 zero_le_one le_rfl
    simp only [sub_self, one_mul, zero_mul, zero_add] at f1
    obtain ⟨c, -, h2, h3⟩ := f1
    have : c = fun i => ⌊goal i⌋ := by
      funext i
      refine (Int.floor_eq_iff.2 ⟨(h2 i).1, lt_of_le_of_ne (h2 i).2 ?_⟩).symm
      intro he
      change goal i = _ at he
      refine hg i ?_
      rw [he, Int.floor_add_one, Int.floor_intCast]; push_cast; rfl
    rw [← this]; exact h3

/-- C121 fails for motions that start exactly on an opening and leave through it: in the planar corridor of two layers, the motion from
the opening between the last two cubes down to the centre of the last cube is free and is rejected. -/
theorem C121_face_false : ∃ e : GrayCodeWalls ℚ 1, GrayCodeWalls.init 1 2 (1 / 8 : ℚ) = .ok e ∧
    (∀ t : ℚ, 0 ≤ t → t ≤ 1 →
      GrayFree e.cubes (1 / 8) (fun i => (1 - t) * (![3 / 2, 1] : Fin 2 → ℚ) i + t * (![3 / 2, 1 / 2] : Fin 2 → ℚ) i)) ∧
    isMotionValid e ![3 / 2, 1] ![3 / 2, 1 / 2] 4 = some (.ok false) := by
  refine ⟨_, rfl, ?_, by decide +kernel⟩
  intro t h0 h1
  refine ⟨![1, 0], by decide +kernel, ?_, ?_⟩
  · intro i; fin_cases i
    · simp; constructor <;> linarith
    · simp; constructor <;> linarith
  · intro i; fin_cases i
    · refine ⟨Or.inl ?_, Or.inl ?_⟩ <;> simp <;> linarith
    · refine ⟨Or.inl ?_, Or.inr ⟨![1, 1], Or.inr ⟨2, by decide +kernel, by decide +kernel⟩, by decide⟩⟩
      simp; linarith

/-- C121 fails in the plane for motions through four cubes: the motion runs through the cubes (0,1), (1,1), (1,0), (2,0) of the corridor
of three layers, is free everywhere and is rejected, although no coordinate of its ends is an integer. -/
theorem C121_plane_false : ∃ e : GrayCodeWalls ℚ 1, GrayCodeWalls.init 1 3 (1 / 8 : ℚ) = .ok e ∧
    (∀ t : ℚ, 0 ≤ t → t ≤ 1 →
      GrayFree e.cubes (1 / 8) (fun i => (1 - t) * (![9 / 10, 5 / 4] : Fin 2 → ℚ) i + t * (![21 / 10, 7 / 10] : Fin 2 → ℚ) i)) ∧
    isMotionValid e ![9 / 10, 5 / 4] ![21 / 10, 7 / 10] 6 = some (.ok false) := by
  refine ⟨_, rfl, ?_, by decide +kernel⟩
  intro t h0 h1
  by_cases ht1 : t ≤ 1 / 12
  · refine ⟨![0, 1], by decide +kernel, ?_, ?_⟩
    · intro i; fin_cases i <;> simp <;> constructor <;> linarith
    · intro i; fin_cases i
      · exact ⟨Or.inl (by simp; linarith), Or.inr ⟨![1, 1], Or.inl ⟨1, by decide +kernel, by decide +kernel⟩, by decide⟩⟩
      · exact ⟨Or.inl (by simp; linarith), Or.inl (by simp; linarith)⟩
  push Not at ht1
  by_cases ht2 : t ≤ 5 / 11
  · refine ⟨![1, 1], by decide +kernel, ?_, ?_⟩
    · intro i; fin_cases i <;> simp <;> constructor <;> linarith
    · intro i; fin_cases i
      · exact ⟨Or.inr ⟨![0, 1], Or.inr ⟨1, by decide +kernel, by decide +kernel⟩, by decide⟩, Or.inl (by simp; linarith)⟩
      · exact ⟨Or.inr ⟨![1, 0], Or.inl ⟨2, by decide +kernel, by decide +kernel⟩, by decide⟩, Or.inl (by simp; linarith)⟩
  push Not at ht2
  by_cases ht3 : t ≤ 11 / 12
  · refine ⟨![1, 0], by decide +kernel, ?_, ?_⟩
    · intro i; fin_cases i <;> simp <;> constructor <;> linarith
    · intro i; fin_cases i
      · exact ⟨Or.inl (by simp; linarith), Or.inr ⟨![2, 0], Or.inl ⟨3, by decide +kernel, by decide +kernel⟩, by decide⟩⟩
      · exact ⟨Or.inl (by simp; linarith), Or.inr ⟨![1, 1], Or.inr ⟨2, by decide +kernel, by decide +kernel⟩, by decide⟩⟩
  push Not at ht3
  refine ⟨![2, 0], by decide +kernel, ?_, ?_⟩
  · intro i; fin_cases i <;> simp <;> constructor <;> linarith
  · intro i; fin_cases i
    · exact ⟨Or.inr ⟨![1, 0], Or.inr ⟨3, by decide +kernel, by decide +kernel⟩, by decide⟩, Or.inl (by simp; linarith)⟩
    · exact ⟨Or.inl (by simp; linarith), Or.inl (by simp; linarith)⟩

/-- The hypotheses of C121 are met by a motion through two openings in dimension three, with thick walls. -/
theorem C121_nonvacuous : ∃ e : GrayCodeWalls ℝ 2, GrayCodeWalls.init 2 2 (1 / 8 : ℝ) = .ok e ∧
    (∀ i, (⌊(![1 / 2, 13 / 20, 17 / 20] : Fin 3 → ℝ) i⌋ : ℝ) ≠ (![1 / 2, 13 / 20, 17 / 20] : Fin 3 → ℝ) i) ∧
    (∀ i, (⌊(![1 / 2, 6 / 5, 7 / 5] : Fin 3 → ℝ) i⌋ : ℝ) ≠ (![1 / 2, 6 / 5, 7 / 5] : Fin 3 → ℝ) i) ∧
    (∀ t : ℝ, 0 ≤ t → t ≤ 1 → GrayFree e.cubes (1 / 8)
      (fun i => (1 - t) * (![1 / 2, 13 / 20, 17 / 20] : Fin 3 → ℝ) i + t * (![1 / 2, 6 / 5, 7 / 5] : Fin 3 → ℝ) i)) ∧
    ∃ fuel, isMotionValid e ![1 / 2, 13 / 20, 17 / 20] ![1 / 2, 6 / 5, 7 / 5] fuel = some (.ok true) := by
  have hs : ∀ i, (⌊(![1 / 2, 13 / 20, 17 / 20] : Fin 3 → ℝ) i⌋ : ℝ) ≠ (![1 / 2, 13 / 20, 17 / 20] : Fin 3 → ℝ) i := by
    have e1 : ⌊(1 / 2 : ℝ)⌋ = 0 := Int.floor_eq_iff.2 (by norm_num)
    have e2 : ⌊(13 / 20 : ℝ)⌋ = 0 := Int.floor_eq_iff.2 (by norm_num)
    have e3 : ⌊(17 / 20 : ℝ)⌋ = 0 := Int.floor_eq_iff.2 (by norm_num)
    intro i; fin_cases i
    · show (⌊(1 / 2 : ℝ)⌋ : ℝ) ≠ 1 / 2
      rw [e1]; norm_num
    · show (⌊(13 / 20 : ℝ)⌋ : ℝ) ≠ 13 / 20
      rw [e2]; norm_num
    · show (⌊(17 / 20 : ℝ)⌋ : ℝ) ≠ 17 / 20
      rw [e3]; norm_num
  have hg : ∀ i, (⌊(![1 / 2, 6 / 5, 7 / 5] : Fin 3 → ℝ) i⌋ : ℝ) ≠ (![1 / 2, 6 / 5, 7 / 5] : Fin 3 → ℝ) i := by
    have e1 : ⌊(1 / 2 : ℝ)⌋ = 0 := Int.floor_eq_iff.2 (by norm_num)
    have e2 : ⌊(6 / 5 : ℝ)⌋ = 1 := Int.floor_eq_iff.2 (by norm_num)
    have e3 : ⌊(7 / 5 : ℝ)⌋ = 1 := Int.floor_eq_iff.2 (by norm_num)
    intro i; fin_cases i
    · show (⌊(1 / 2 : ℝ)⌋ : ℝ) ≠ 1 / 2
      rw [e1]; norm_num
    · show (⌊(6 / 5 : ℝ)⌋ : ℝ) ≠ 6 / 5
      rw [e2]; norm_num
    · show (⌊(7 / 5 : ℝ)⌋ : ℝ) ≠ 7 / 5
      rw [e3]; norm_num
  have hinit : ∃ e : GrayCodeWalls ℝ 2, GrayCodeWalls.init 2 2 (1 / 8 : ℝ) = .ok e := ⟨_, rfl⟩
  obtain ⟨e, he⟩ := hinit
  have hcubes : e.cubes = order 2 2 := (init_ok he).2.2.1
  have hfree : ∀ t : ℝ, 0 ≤ t → t ≤ 1 → GrayFree e.cubes (1 / 8)
      (fun i => (1 - t) * (![1 / 2, 13 / 20, 17 / 20] : Fin 3 → ℝ) i + t * (![1 / 2, 6 / 5, 7 / 5] : Fin 3 → ℝ) i) := by
    rw [hcubes]
    intro t h0 h1
    by_cases ht1 : t ≤ 3 / 11
    · refine ⟨![0, 0, 0], by decide +kernel, ?_, ?_⟩
      · intro i; fin_cases i <;> simp <;> constructor <;> linarith
      · intro i; fin_cases i
        · exact ⟨Or.inl (by simp; linarith), Or.inl (by simp; linarith)⟩
        · exact ⟨Or.inl (by simp; linarith), Or.inl (by simp; linarith)⟩
        · exact ⟨Or.inl (by simp; linarith), Or.inr ⟨![0, 0, 1], Or.inl ⟨0, by decide +kernel, by decide +kernel⟩, by decide⟩⟩
    push Not at ht1
    by_cases ht2 : t ≤ 7 / 11
    · refine ⟨![0, 0, 1], by decide +kernel, ?_, ?_⟩
      · intro i; fin_cases i <;> simp <;> constructor <;> linarith
      · intro i; fin_cases i
        · exact ⟨Or.inl (by simp; linarith), Or.inl (by simp; linarith)⟩
        · exact ⟨Or.inl (by simp; linarith), Or.inr ⟨![0, 1, 1], Or.inl ⟨1, by decide +kernel, by decide +kernel⟩, by decide⟩⟩
        · exact ⟨Or.inr ⟨![0, 0, 0], Or.inr ⟨0, by decide +kernel, by decide +kernel⟩, by decide⟩, Or.inl (by simp; linarith)⟩
    push Not at ht2
    refine ⟨![0, 1, 1], by decide +kernel, ?_, ?_⟩
    · intro i; fin_cases i <;> simp <;> constructor <;> linarith
    · intro i; fin_cases i
      · exact ⟨Or.inl (by simp; linarith), Or.inl (by simp; linarith)⟩
      · exact ⟨Or.inr ⟨![0, 0, 1], Or.inr ⟨1, by decide +kernel, by decide +kernel⟩, by decide⟩, Or.inl (by simp; linarith)⟩
      · exact ⟨Or.inl (by simp; linarith), Or.inl (by simp; linarith)⟩
  exact ⟨e, he, hs, hg, hfree, C121_accepts_partial (by norm_num) (by norm_num) he hs hg hfree⟩

end Verif.Props
