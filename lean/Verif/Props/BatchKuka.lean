import Verif.Props.Batch
import Verif.Props.Sat3D

/-! The arm's motion checker, which judges whole batches, in the roadmap: C131, continued. -/

namespace Verif.Props

open Verif.Prm Verif.Sat3D

/-- The arm's checker accepts the motion in every batch. -/
noncomputable def carriedAlways {P : Type*} (conf : P → Conf) (interp : Conf → Conf → ℕ → List Pose) (lower upper : V3) (obstacles : List Oobb) (p q : P) : Bool := by
  classical exact decide (∀ (rows : List (Conf × Conf)) (i : ℕ), rows[i]? = some (conf p, conf q) →
    ∃ rs, isMotionValid interp lower upper obstacles rows = .ok rs ∧ rs[i]? = some true)

/-- The arm's checker accepts the motion in some batch. -/
noncomputable def carriedOnce {P : Type*} (conf : P → Conf) (interp : Conf → Conf → ℕ → List Pose) (lower upper : V3) (obstacles : List Oobb) (p q : P) : Bool := by
  classical exact decide (∃ (rows : List (Conf × Conf)) (rs : List Bool) (i : ℕ),
    isMotionValid interp lower upper obstacles rows = .ok rs ∧ rows[i]? = some (conf p, conf q) ∧ rs[i]? = some true)

theorem kuka_total {interp : Conf → Conf → ℕ → List Pose} (hlen : ∀ s g s' g' m, (interp s g m).length = (interp s' g' m).length) (lower upper : V3)
    (obstacles : List Oobb) {rows : List (Conf × Conf)} (h : rows ≠ []) :
    ∃ rs, isMotionValid interp lower upper obstacles rows = .ok rs ∧ rs.length = rows.length := by
  obtain ⟨m, ⟨r0, hr0, _⟩, h2, h3⟩ := numSteps_ok rows h
  exact ⟨_, isMotionValid_ok interp lower upper obstacles rows h h3 (interp r0.1 r0.2 _).length (fun r hr => hlen _ _ _ _ _), by simp⟩

/-- C131 for the arm: if the interpolation gives equally many poses for all motions, its checker accepts the motions that are accepted in every batch, no others than those
accepted in some batch, and it raises ValueError for the empty batch. -/
theorem C131_kuka {P : Type*} (conf : P → Conf) {interp : Conf → Conf → ℕ → List Pose} (hlen : ∀ s g s' g' m, (interp s g m).length = (interp s' g' m).length)
    (lower upper : V3) (obstacles : List Oobb) :
    (batch conf interp lower upper obstacles).Between (carriedAlways conf interp lower upper obstacles) (carriedOnce conf interp lower upper obstacles) ∧
      batch conf interp lower upper obstacles [] = .error .value := by
  refine ⟨⟨?_, ?_, ?_, ?_⟩, C68_empty_batch interp lower upper obstacles⟩
  · intro ms hms
    obtain ⟨rs, h, -⟩ := kuka_total hlen lower upper obstacles (rows := ms.map fun m => (conf m.1, conf m.2)) (by simpa using hms)
    exact ⟨rs, h⟩
  · intro ms rs h
    have hms : ms ≠ [] := by
      rintro rfl
      cases (C68_empty_batch interp lower upper obstacles).symm.trans h
    obtain ⟨rs', h', hl⟩ := kuka_total hlen lower upper obstacles (rows := ms.map fun m => (conf m.1, conf m.2)) (by simpa using hms)
    cases h'.symm.trans h
    rw [hl, List.length_map]
  · classical
    intro ms rs i p q h hi hlo
    unfold carriedAlways at hlo
    obtain ⟨rs', h', h1⟩ := of_decide_eq_true hlo (ms.map fun m => (conf m.1, conf m.2)) i (by rw [List.getElem?_map, hi]; rfl)
    cases h'.symm.trans h
    exact h1
  · classical
    intro ms rs i p q h hi hr
    unfold carriedOnce
    exact decide_eq_true ⟨_, rs, i, h, by rw [List.getElem?_map, hi]; rfl, hr⟩

/-- The hypothesis of `C131_kuka` is met, and the two sets of motions differ: in the world of C68_batch_false. -/
theorem C131_kuka_nonvacuous : ∃ (interp : Conf → Conf → ℕ → List Pose) (lower upper : V3) (obstacles : List Oobb) (p q : Conf),
    (∀ s g s' g' m, (interp s g m).length = (interp s' g' m).length) ∧ carriedOnce id interp lower upper obstacles p q = true ∧
      carriedAlways id interp lower upper obstacles p q = false := by
  classical
  obtain ⟨interp, lower, upper, obstacles, r, r', vs, hlen, -, h1, h2, h3⟩ := C68_batch_false
  refine ⟨interp, lower, upper, obstacles, r.1, r.2, fun s g s' g' m => by rw [hlen, hlen], ?_, ?_⟩
  · unfold carriedOnce
    exact decide_eq_true ⟨[r], [true], 0, h1, rfl, rfl⟩
  · unfold carriedAlways
    apply decide_eq_false
    intro h
    obtain ⟨rs, h4, h5⟩ := h [r, r'] 0 rfl
    cases h4.symm.trans h2
    rw [h3] at h5
    cases h5

end Verif.Props
