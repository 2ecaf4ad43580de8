import Verif.Model.CollisionTest
import Mathlib.Algebra.Group.TypeTags.Basic
import Mathlib.Algebra.Group.Int.Defs

/-! Properties of the collision test of commands with movable objects: C117. -/

namespace Verif.Props

open Verif.Commands Verif.KukaExec Verif.CollisionTest

variable {α P C J L : Type} [DecidableEq α] [Group P]

/-- What is in motion at a step of a command: the body of the path and everything attached to it. -/
def movers (v : Visit α P C J) : List α := v.1 :: v.2.2.2.map Prod.fst

/-- The scenes that one sees while the command is executed, with the step that led to each of them. -/
def scenes (fk : C → P) : Scene α P C → List (Visit α P C J) → List (Visit α P C J × Scene α P C)
  | _, [] => []
  | s, v :: rest => (v, s.visit fk v) :: scenes fk (s.visit fk v) rest

theorem scenes_append (fk : C → P) (s : Scene α P C) (l l' : List (Visit α P C J)) :
    scenes fk s (l ++ l') = scenes fk s l ++ scenes fk (l.foldl (Scene.visit fk) s) l' := by
  induction l generalizing s with
  | nil => rfl
  | cons v l ih => simp [scenes, ih]

omit [DecidableEq α] [Group P] in
theorem visits_movers (i : Item α C J P L) (v : Visit α P C J) (h : v ∈ i.visits) : movers v = i.bodies := by
  cases i with
  | path p =>
    simp only [Item.visits, List.mem_map] at h
    obtain ⟨c, _, rfl⟩ := h
    rfl
  | attach => simp [Item.visits] at h
  | detach => simp [Item.visits] at h

theorem walk_exact (fk : C → P) (touch : Scene α P C → α → α → Bool) (moving : List α) (body : α) (s : Scene α P C) (l : List (Visit α P C J))
    (hl : ∀ v ∈ l, movers v = moving) :
    ((walk fk touch moving body s l).1 = true ↔ ∃ x ∈ scenes fk s l, ∃ m ∈ movers x.1, touch x.2 m body = true) ∧
    ((walk fk touch moving body s l).1 = false → (walk fk touch moving body s l).2 = l.foldl (Scene.visit fk) s) := by
  induction l generalizing s with
  | nil => simp [walk, scenes]
  | cons v l ih =>
    have hv := hl v (by simp)
    have ih := ih (s.visit fk v) fun w hw => hl w (by simp [hw])
    rw [walk]
    split
    · rename_i hc
      refine ⟨⟨fun _ => ?_, fun _ => rfl⟩, fun h => by simp at h⟩
      simp only [List.any_eq_true] at hc
      obtain ⟨m, hm, ht⟩ := hc
      exact ⟨_, List.mem_cons_self, m, by simpa [hv] using hm, ht⟩
    · rename_i hc
      refine ⟨ih.1.trans ?_, ih.2⟩
      simp only [List.any_eq_true, not_exists, not_and] at hc
      constructor
      · rintro ⟨x, hx, h⟩
        exact ⟨x, List.mem_cons_of_mem _ hx, h⟩
      · rintro ⟨x, hx, m, hm, ht⟩
        rcases List.mem_cons.1 hx with rfl | hx
        · exact absurd ht (hc m (by simpa [hv] using hm))
        · exact ⟨x, hx, m, hm, ht⟩

theorem overPaths_exact (fk : C → P) (touch : Scene α P C → α → α → Bool) (body : α) (s : Scene α P C) (command : List (Item α C J P L)) (hb : body ∉ bodies command) :
    ((overPaths fk touch body s command).1 = true ↔ ∃ x ∈ scenes fk s (visits command), ∃ m ∈ movers x.1, touch x.2 m body = true) ∧
    ((overPaths fk touch body s command).1 = false → (overPaths fk touch body s command).2 = execute fk s command) := by
  induction command generalizing s with
  | nil => simp [overPaths, visits, scenes, execute]
  | cons i rest ih =>
    simp only [bodies, List.flatMap_cons, List.mem_append, not_or] at hb
    have hw := walk_exact fk touch i.bodies body s i.visits fun v hv => visits_movers i v hv
    have hvis : visits (i :: rest) = i.visits ++ visits rest := rfl
    rw [overPaths, if_neg hb.1, hvis, scenes_append]
    simp only [execute, hvis, List.foldl_append]
    cases hr : (walk fk touch i.bodies body s i.visits).1 with
    | true =>
      simp only [hr, if_true]
      refine ⟨⟨fun _ => ?_, fun _ => trivial⟩, fun h => by simp at h⟩
      obtain ⟨x, hx, h⟩ := hw.1.1 hr
      exact ⟨x, List.mem_append_left _ hx, h⟩
    | false =>
      rw [if_neg (by simp), hw.2 hr]
      have ih := ih (i.visits.foldl (Scene.visit fk) s) hb.2
      refine ⟨ih.1.trans ?_, ih.2⟩
      have hno := mt hw.1.2 (by simp [hr])
      constructor
      · rintro ⟨x, hx, h⟩
        exact ⟨x, List.mem_append_right _ hx, h⟩
      · rintro ⟨x, hx, h⟩
        rcases List.mem_append.1 hx with hx | hx
        · exact absurd ⟨x, hx, h⟩ hno
        · exact ⟨x, hx, h⟩

/-- C117. For a body that the command does not move, the test answers True exactly if, while the command is executed with the body at its pose, something in motion touches the body in one of the scenes
that are shown; if it answers False, the world is left as after an execution of the command. -/
theorem C117_exact (fk : C → P) (touch : Scene α P C → α → α → Bool) (s : Scene α P C) (command : List (Item α C J P L)) (body : α) (pose : P) (hb : body ∉ bodies command) :
    let s0 : Scene α P C := { s with pose := Function.update s.pose body pose }
    ((movableTest fk touch s command body pose).1 = true ↔ ∃ x ∈ scenes fk s0 (visits command), ∃ m ∈ movers x.1, touch x.2 m body = true) ∧
    ((movableTest fk touch s command body pose).1 = false → (movableTest fk touch s command body pose).2 = execute fk s0 command) := by
  intro s0
  have h := overPaths_exact fk touch body s0 command hb
  rw [movableTest, if_neg hb]
  exact h

theorem visit_pose_of_not_mem (fk : C → P) (s : Scene α P C) (v : Visit α P C J) (b : α) (h : b ∉ v.2.2.2.map Prod.fst) : (s.visit fk v).pose b = s.pose b := by
  simp only [Scene.visit]
  generalize v.2.2.2 = l at h ⊢
  generalize s.pose = f
  induction l generalizing f with
  | nil => rfl
  | cons a l ih =>
    simp only [List.map_cons, List.mem_cons, not_or] at h
    rw [List.foldl_cons, ih h.2, Function.update_of_ne h.1]

theorem visit_pose_of_mem (fk : C → P) (s s' : Scene α P C) (v : Visit α P C J) (b : α) (h : b ∈ v.2.2.2.map Prod.fst) : (s.visit fk v).pose b = (s'.visit fk v).pose b := by
  simp only [Scene.visit]
  generalize v.2.2.2 = l at h ⊢
  generalize s.pose = f
  generalize s'.pose = f'
  induction l generalizing f f' with
  | nil => simp at h
  | cons a l ih =>
    rw [List.foldl_cons, List.foldl_cons]
    by_cases hl : b ∈ l.map Prod.fst
    · exact ih hl _ _
    · have hba : b = a.1 := by simpa [hl] using h
      have := visit_pose_of_not_mem fk (⟨v.2.2.1, Function.update f a.1 (fk v.2.2.1 * a.2)⟩ : Scene α P C) (v.1, v.2.1, v.2.2.1, l) b hl
      have h2 := visit_pose_of_not_mem fk (⟨v.2.2.1, Function.update f' a.1 (fk v.2.2.1 * a.2)⟩ : Scene α P C) (v.1, v.2.1, v.2.2.1, l) b hl
      simp only [Scene.visit] at this h2
      rw [this, h2, hba]
      simp

theorem scenes_pose (fk : C → P) (s : Scene α P C) (l : List (Visit α P C J)) (b : α) (h : ∀ v ∈ l, b ∉ v.2.2.2.map Prod.fst) : ∀ x ∈ scenes fk s l, x.2.pose b = s.pose b := by
  induction l generalizing s with
  | nil => simp [scenes]
  | cons v l ih =>
    intro x hx
    have hv := visit_pose_of_not_mem fk s v b (h v (by simp))
    rcases List.mem_cons.1 hx with rfl | hx
    · exact hv
    · exact (ih _ (fun w hw => h w (by simp [hw])) x hx).trans hv

theorem mem_scenes (fk : C → P) (s : Scene α P C) (l : List (Visit α P C J)) (x : Visit α P C J × Scene α P C) (h : x ∈ scenes fk s l) : x.1 ∈ l ∧ ∃ s' : Scene α P C, x.2 = s'.visit fk x.1 := by
  induction l generalizing s with
  | nil => simp [scenes] at h
  | cons v l ih =>
    rcases List.mem_cons.1 h with rfl | h
    · exact ⟨by simp, s, rfl⟩
    · obtain ⟨h1, h2⟩ := ih _ h
      exact ⟨by simp [h1], h2⟩

theorem scenes_of_mem (fk : C → P) (s : Scene α P C) (l : List (Visit α P C J)) (v : Visit α P C J) (h : v ∈ l) : ∃ s', (v, s') ∈ scenes fk s l := by
  induction l generalizing s with
  | nil => simp at h
  | cons w l ih =>
    rcases List.mem_cons.1 h with rfl | h
    · exact ⟨_, List.mem_cons_self⟩
    · obtain ⟨s', hs⟩ := ih (s.visit fk w) h
      exact ⟨s', List.mem_cons_of_mem _ hs⟩

/-- Bodies that are attached somewhere in the command. -/
def attachedIn (command : List (Item α C J P L)) : List α := (visits command).flatMap fun v => v.2.2.2.map Prod.fst

omit [DecidableEq α] [Group P] in
theorem attachedIn_sub (command : List (Item α C J P L)) {b : α} (h : b ∈ attachedIn command) : b ∈ bodies command := by
  simp only [attachedIn, List.mem_flatMap] at h
  obtain ⟨v, hv, h⟩ := h
  simp only [visits, List.mem_flatMap] at hv
  obtain ⟨i, hi, hv⟩ := hv
  refine List.mem_flatMap.2 ⟨i, hi, ?_⟩
  rw [← visits_movers i v hv]
  exact List.mem_cons_of_mem _ h

/-- The answer of the collision check between two bodies depends on the joints of the robot and on the poses of the two bodies. -/
def LocalTouch (touch : Scene α P C → α → α → Bool) : Prop :=
  ∀ s s' a b, s.conf = s'.conf → s.pose a = s'.pose a → s.pose b = s'.pose b → touch s a b = touch s' a b

/-- C117. The tested body is at the given pose in all scenes, and the answer depends only on which steps the command consists of, not on their order: it is the same for the reversed command. (The bodies of the paths are
robots: they are not attached to anything.) -/
theorem C117_steps (fk : C → P) (touch : Scene α P C → α → α → Bool) (ht : LocalTouch touch) (s : Scene α P C) (command : List (Item α C J P L)) (body : α) (pose : P)
    (hb : body ∉ bodies command) (hr : ∀ v ∈ visits command, v.1 ∉ attachedIn command) :
    let s0 : Scene α P C := { s with pose := Function.update s.pose body pose }
    (∀ x ∈ scenes fk s0 (visits command), x.2.pose body = pose) ∧
    ((movableTest fk touch s command body pose).1 = true ↔ ∃ v ∈ visits command, ∃ m ∈ movers v, touch (s0.visit fk v) m body = true) := by
  intro s0
  have hstay : ∀ b, b ∉ attachedIn command → ∀ x ∈ scenes fk s0 (visits command), x.2.pose b = s0.pose b := by
    intro b hb'
    refine scenes_pose fk s0 _ b fun v hv hv' => hb' (List.mem_flatMap.2 ⟨v, hv, hv'⟩)
  have hbody : ∀ x ∈ scenes fk s0 (visits command), x.2.pose body = pose := fun x hx => by
    rw [hstay body (fun h => hb (attachedIn_sub command h)) x hx]
    simp [s0]
  have hsame : ∀ x ∈ scenes fk s0 (visits command), ∀ m ∈ movers x.1, touch x.2 m body = touch (s0.visit fk x.1) m body := by
    intro x hx m hm
    obtain ⟨hv, s', hs'⟩ := mem_scenes fk s0 _ x hx
    refine ht _ _ _ _ (by rw [hs']; rfl) ?_ ?_
    · by_cases hma : m ∈ x.1.2.2.2.map Prod.fst
      · rw [hs']
        exact visit_pose_of_mem fk s' s0 x.1 m hma
      · have hm1 : m = x.1.1 := by simpa [movers, hma] using hm
        rw [visit_pose_of_not_mem fk s0 x.1 m hma]
        exact hstay m (hm1 ▸ hr x.1 hv) x hx
    · rw [hbody x hx, visit_pose_of_not_mem fk s0 x.1 body fun h => hb (attachedIn_sub command (List.mem_flatMap.2 ⟨x.1, hv, h⟩))]
      simp [s0]
  refine ⟨hbody, (C117_exact fk touch s command body pose hb).1.trans ⟨?_, ?_⟩⟩
  · rintro ⟨x, hx, m, hm, h⟩
    exact ⟨x.1, (mem_scenes fk s0 _ x hx).1, m, hm, by rw [← hsame x hx m hm]; exact h⟩
  · rintro ⟨v, hv, m, hm, h⟩
    obtain ⟨s', hs'⟩ := scenes_of_mem fk s0 (visits command) v hv
    exact ⟨_, hs', m, hm, by rw [hsame _ hs' m hm]; exact h⟩

omit [DecidableEq α] [Group P] in
theorem mem_visits_reverse (command : List (Item α C J P L)) (v : Visit α P C J) : v ∈ visits (reverse command) ↔ v ∈ visits command := by
  have hi : ∀ i : Item α C J P L, v ∈ i.reverse.visits ↔ v ∈ i.visits := by
    intro i
    cases i <;> simp [Item.reverse, Item.visits, BodyPath.reverse]
  simp only [visits, reverse, List.mem_flatMap, List.mem_map, List.mem_reverse]
  constructor
  · rintro ⟨_, ⟨i, h, rfl⟩, hv⟩
    exact ⟨i, h, (hi i).1 hv⟩
  · rintro ⟨i, h, hv⟩
    exact ⟨_, ⟨i, h, rfl⟩, (hi i).2 hv⟩

omit [DecidableEq α] [Group P] in
theorem mem_bodies_reverse (command : List (Item α C J P L)) (b : α) : b ∈ bodies (reverse command) ↔ b ∈ bodies command := by
  have hi : ∀ i : Item α C J P L, b ∈ i.reverse.bodies ↔ b ∈ i.bodies := by
    intro i
    cases i <;> simp [Item.reverse, Item.bodies, BodyPath.reverse]
  simp only [bodies, reverse, List.mem_flatMap, List.mem_map, List.mem_reverse]
  constructor
  · rintro ⟨_, ⟨i, h, rfl⟩, hv⟩
    exact ⟨i, h, (hi i).1 hv⟩
  · rintro ⟨i, h, hv⟩
    exact ⟨_, ⟨i, h, rfl⟩, (hi i).2 hv⟩

/-- C117: the answer for the reversed command is the same. -/
theorem C117_reverse (fk : C → P) (touch : Scene α P C → α → α → Bool) (ht : LocalTouch touch) (s : Scene α P C) (command : List (Item α C J P L)) (body : α) (pose : P)
    (hr : ∀ v ∈ visits command, v.1 ∉ attachedIn command) :
    (movableTest fk touch s (reverse command) body pose).1 = (movableTest fk touch s command body pose).1 := by
  by_cases hb : body ∈ bodies command
  · rw [movableTest, movableTest, if_pos hb, if_pos ((mem_bodies_reverse command body).2 hb)]
  · have hr' : ∀ v ∈ visits (reverse command), v.1 ∉ attachedIn (reverse command) := by
      intro v hv h
      refine hr v ((mem_visits_reverse command v).1 hv) ?_
      simp only [attachedIn, List.mem_flatMap] at h ⊢
      obtain ⟨w, hw, h⟩ := h
      exact ⟨w, (mem_visits_reverse command w).1 hw, h⟩
    have h1 := (C117_steps fk touch ht s command body pose hb hr).2
    have h2 := (C117_steps fk touch ht s (reverse command) body pose (fun h => hb ((mem_bodies_reverse command body).1 h)) hr').2
    rw [Bool.eq_iff_iff, h1, h2]
    simp only [mem_visits_reverse]

/-- The robot (body 0) drives along a line; a configuration is where the tool is, and the robot touches what is in the same place. -/
def lineTouch : Scene ℕ (Multiplicative ℤ) ℤ → ℕ → ℕ → Bool :=
  fun s a b => decide ((if a = 0 then .ofAdd s.conf else s.pose a) = s.pose b)

/-- From 0 to 3, attach body 1 at 3, then on to 5 with it. -/
def lineCommand : List (Item ℕ ℤ Unit (Multiplicative ℤ) Unit) :=
  [.path ⟨0, [0, 1, 2, 3], (), []⟩, .attach 1 0 (), .path ⟨0, [3, 4, 5], (), [(1, .ofAdd 0)]⟩]

/-- C117 fails for a body that the command moves: the answer is False although the robot has driven into the body before it was attached (body 1 is at 2). -/
theorem C117_moved_false : ∃ s : Scene ℕ (Multiplicative ℤ) ℤ,
    (movableTest Multiplicative.ofAdd lineTouch s lineCommand 1 (.ofAdd 2)).1 = false ∧
    ∃ x ∈ scenes Multiplicative.ofAdd ({ s with pose := Function.update s.pose 1 (.ofAdd 2) } : Scene ℕ (Multiplicative ℤ) ℤ) (visits lineCommand), x.1.2.2.2 = [] ∧ ∃ m ∈ movers x.1, lineTouch x.2 m 1 = true := by
  refine ⟨⟨0, fun _ => 1⟩, by decide, ?_⟩
  refine ⟨((0, (), 2, []), _), List.mem_cons_of_mem _ (List.mem_cons_of_mem _ List.mem_cons_self), rfl, 0, by simp [movers], by decide⟩

/-- The hypotheses of C117 are met: body 2 at 4 is touched by the robot and its load on their way, at 7 it is not. -/
theorem C117_nonvacuous : LocalTouch lineTouch ∧ 2 ∉ bodies lineCommand ∧ (∀ v ∈ visits lineCommand, v.1 ∉ attachedIn lineCommand) ∧
    (movableTest Multiplicative.ofAdd lineTouch ⟨0, fun _ => 1⟩ lineCommand 2 (.ofAdd 4)).1 = true ∧
    (movableTest Multiplicative.ofAdd lineTouch ⟨0, fun _ => 1⟩ lineCommand 2 (.ofAdd 7)).1 = false := by
  refine ⟨?_, by decide, by decide, by decide, by decide⟩
  intro s s' a b h1 h2 h3
  simp only [lineTouch, h1, h2, h3]

end Verif.Props
