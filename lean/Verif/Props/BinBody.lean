import Verif.Model.BinBody
import Verif.Props.Bin

/-! C112: the containers in the simulator are those that the planner checks. -/

namespace Verif.Props

open Verif Verif.Bin Verif.Spec

variable {G S : Type*} [Group G]

theorem frames_flat (base : G) (l : List (G × S)) :
    (⟨base, l.map fun x => ⟨0, x.1, x.2⟩⟩ : MultiBody G S).frames = base :: l.map fun x => base * x.1 := by
  have key : ∀ (l : List (G × S)) (acc : List G), (l.map fun x => (⟨0, x.1, x.2⟩ : LinkSpec G S)).foldl
      (fun fs l => fs ++ [fs[l.parent]?.getD base * l.rel]) (base :: acc) = base :: acc ++ l.map fun x => base * x.1 := by
    intro l
    induction l with
    | nil => simp
    | cons x l ih =>
      intro acc
      rw [List.map_cons, List.foldl_cons]
      simp only [List.getElem?_cons_zero, Option.getD_some, List.cons_append]
      rw [ih]
      simp
  have := key l []
  simpa [MultiBody.frames] using this

/-- C112: link by link, the body that the simulator gets has the shapes and poses of the boxes that are used for planning. -/
theorem C112_walls (shapes : List (S × G)) (h : shapes ≠ []) (pose : G) :
    ∃ b boxes, loadBin shapes pose = .ok (b, boxes) ∧ b.base = pose ∧ b.links.length = shapes.length ∧ boxes.length = shapes.length ∧
      ∀ i, b.link i = boxes[i]? ∧ boxes[i]? = shapes[i]?.map fun x => (x.1, pose * x.2) := by
  obtain ⟨x, xs, rfl⟩ := List.exists_cons_of_ne_nil h
  have hz : ((x :: xs).map Prod.fst).zip ((x :: xs).map Prod.snd) = x :: xs := by
    rw [List.zip_map']
    exact List.map_id _
  refine ⟨⟨pose, (x :: xs).map fun x => ⟨0, x.2, x.1⟩⟩, (x :: xs).map fun x => (x.1, pose * x.2), ?_, rfl, by simp, by simp, fun i => ⟨?_, List.getElem?_map ..⟩⟩
  · unfold loadBin createHollow createLinkBody
    simp only [List.length_map, if_true, hz]
  · have hf := frames_flat pose ((x :: xs).map Prod.swap)
    rw [List.map_map, List.map_map] at hf
    change (⟨pose, (x :: xs).map fun x => ⟨0, x.2, x.1⟩⟩ : MultiBody G S).frames = _ at hf
    unfold MultiBody.link
    rw [hf]
    simp only [List.getElem?_map, List.getElem?_cons_succ]
    cases (x :: xs)[i]? <;> rfl

variable {K : Type*} [Field K] [LinearOrder K] [IsStrictOrderedRing K]

/-- The points of the container of the given size that stands at `p`: the outer block without the inner space, which is open above. -/
def ContainerAt (dims : Fin 3 → K) (t : K) (p x : Fin 3 → K) : Prop :=
  Block dims (x - p) ∧ ¬ (-dims 0 / 2 + t < x 0 - p 0 ∧ x 0 - p 0 < dims 0 / 2 - t ∧ -dims 1 / 2 + t < x 1 - p 1 ∧ x 1 - p 1 < dims 1 / 2 - t ∧
    t < x 2 - p 2)

theorem covers_moved (c h p x : Fin 3 → K) : Covers ⟨p + c, h⟩ x ↔ Covers ⟨c, h⟩ (x - p) := by
  unfold Covers
  simp only [Pi.add_apply, Pi.sub_apply]
  refine forall_congr' fun j => and_congr ?_ ?_
  · constructor <;> intro h <;> linarith
  · constructor <;> intro h <;> linarith

/-- C112: all containers of the grid are created; the body of each consists of the points of a container at its place in the grid, its
boxes are its links, and the link on which objects are put is its floor. -/
theorem C112_world (nx ny : ℕ) (dims : Fin 3 → K) (cx cy t : K) (ht : ∀ i, t ≤ dims i) :
    ∃ bins, loadBins (shapesOf (hollowShapes Bin.bin dims t)) ((binPositions nx ny (dims 0) (dims 1) cx cy).map .ofAdd) = .ok bins ∧
      bins.length = nx * ny ∧
      ∀ (k : ℕ) (b : MultiBody (Multiplicative (Fin 3 → K)) (Fin 3 → K)) (boxes : List ((Fin 3 → K) × Multiplicative (Fin 3 → K))),
        bins[k]? = some (b, boxes) → ∃ p, (binPositions nx ny (dims 0) (dims 1) cx cy)[k]? = some p ∧
          (∀ x, (∃ i s g, b.link i = some (s, g) ∧ Covers ⟨g.toAdd, s⟩ x) ↔ ContainerAt dims t p x) ∧
          (∀ i, boxes[i]? = b.link i) ∧
          ∀ n : String, ∃ i s g, placementLink ("sink_" ++ n) = some i ∧ b.link i = some (s, g) ∧
            ∀ x, Covers ⟨g.toAdd, s⟩ x ↔ Block dims (x - p) ∧ x 2 - p 2 ≤ t := by
  have hne : shapesOf (hollowShapes Bin.bin dims t) ≠ [] := by
    obtain ⟨l, hl, -⟩ := C75_floor dims t ht
    intro h
    unfold shapesOf at h
    rw [List.map_eq_nil_iff.1 h] at hl
    cases hl
  choose! b boxes h1 h2 h3 h4 h5 using fun pose => C112_walls (shapesOf (hollowShapes Bin.bin dims t)) hne pose
  have hm : ∀ ps : List (Multiplicative (Fin 3 → K)), ps.mapM (loadBin (shapesOf (hollowShapes Bin.bin dims t))) =
      .ok (ps.map fun q => (b q, boxes q)) := by
    intro ps
    induction ps with
    | nil => rfl
    | cons q ps ih =>
      rw [List.mapM_cons, h1 q, ih]
      rfl
  refine ⟨_, hm _, by simp [C76_count], ?_⟩
  intro k b' boxes' hk
  rw [List.getElem?_map, List.getElem?_map] at hk
  cases hp : (binPositions nx ny (dims 0) (dims 1) cx cy)[k]? with
  | none => rw [hp] at hk; cases hk
  | some p =>
    rw [hp] at hk
    simp only [Option.map_some, Option.some.injEq, Prod.mk.injEq] at hk
    obtain ⟨rfl, rfl⟩ := hk
    have hlink : ∀ i, (b (.ofAdd p)).link i = (hollowShapes Bin.bin dims t)[i]?.map fun l => (l.half, .ofAdd (p + l.center)) := by
      intro i
      rw [(h5 (.ofAdd p) i).1, (h5 (.ofAdd p) i).2]
      unfold shapesOf
      rw [List.getElem?_map, Option.map_map]
      rfl
    refine ⟨p, rfl, fun x => ?_, fun i => ((h5 _ i).1).symm, fun n => ?_⟩
    · unfold ContainerAt
      have := C75_bin dims t ht (x - p)
      simp only [Pi.sub_apply] at this
      rw [← this]
      constructor
      · rintro ⟨i, s, g, hi, hc⟩
        rw [hlink] at hi
        obtain ⟨l, hl, hi⟩ := Option.map_eq_some_iff.1 hi
        cases hi
        exact ⟨l, List.mem_of_getElem? hl, (covers_moved l.center l.half p x).1 hc⟩
      · rintro ⟨l, hl, hc⟩
        obtain ⟨i, hi⟩ := List.mem_iff_getElem?.1 hl
        exact ⟨i, l.half, .ofAdd (p + l.center), by rw [hlink, hi]; rfl, (covers_moved l.center l.half p x).2 hc⟩
    · obtain ⟨l, hl, hc⟩ := C75_floor dims t ht
      refine ⟨bottomLink, l.half, .ofAdd (p + l.center), ?_, by rw [hlink, hl]; rfl, fun x => ?_⟩
      · unfold placementLink
        rw [isSinkName_bin, if_pos rfl]
      · have := hc (x - p)
        rw [Pi.sub_apply] at this
        rw [← this]
        exact covers_moved l.center l.half p x

/-- C112 is not vacuous: the eight containers of `load_world` with a gap of 4 cm; and with an empty shape the body cannot be created. -/
theorem C112_nonvacuous : (∀ i : Fin 3, (wallThickness : ℚ) ≤ (![10 / 100, 10 / 100, 15 / 100] : Fin 3 → ℚ) i) ∧
    (binPositions 2 4 (containerWidth (4 / 100 : ℚ)) (containerWidth (4 / 100)) (binCenter 4 (containerWidth (4 / 100 : ℚ))).1
      (binCenter 4 (containerWidth (4 / 100 : ℚ))).2).length = 8 ∧
    createHollow ([] : List (ℕ × Multiplicative ℤ)) = .error .value := by
  refine ⟨?_, rfl, rfl⟩
  intro i
  rcases axis_cases i with rfl | rfl | rfl <;> norm_num [wallThickness, Matrix.cons_val_two]

end Verif.Props
