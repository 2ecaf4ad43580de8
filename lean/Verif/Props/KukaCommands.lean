import Mathlib.Algebra.Group.Basic
import Mathlib.Algebra.Group.TypeTags.Basic
import Mathlib.Algebra.Group.Int.Defs
import Verif.Spec.Commands
import Verif.Props.KukaDomain

/-! Properties of kuka commands: C60 (reversing), C72 (executed trajectory), C73 (insertion trajectory). -/

set_option linter.unusedSimpArgs false

namespace Verif.Props

open Verif.Strips Verif.Spec Verif.Commands

variable {B C J G L : Type}

theorem item_reverse_reverse (i : Item B C J G L) : i.reverse.reverse = i := by
  cases i <;> simp [Item.reverse, BodyPath.reverse]

/-- **C60**. Reversing a command twice gives the original command. -/
theorem C60_twice (c : List (Item B C J G L)) : reverse (reverse c) = c := by
  simp [reverse, List.map_reverse, Function.comp_def, item_reverse_reverse]

/-- **C60**. The `i`-th entry of the reversed command comes from the `i`-th entry from the end: a path is reversed, an attach becomes a
detach of the same body and link, a detach an attach. -/
theorem C60_exchange (c : List (Item B C J G L)) (i : ℕ) (hi : i < c.length) :
    (reverse c).length = c.length ∧
    (∀ b r l, c[c.length - 1 - i]? = some (.attach b r l) → (reverse c)[i]? = some (.detach b r l)) ∧
    (∀ b r l, c[c.length - 1 - i]? = some (.detach b r l) → (reverse c)[i]? = some (.attach b r l)) ∧
    (∀ body path joints att, c[c.length - 1 - i]? = some (.path ⟨body, path, joints, att⟩) →
      (reverse c)[i]? = some (.path ⟨body, path.reverse, joints, att⟩)) := by
  refine ⟨by simp [reverse], ?_, ?_, ?_⟩ <;> intros <;> rename_i h <;> rw [reverse, List.getElem?_map, List.getElem?_reverse hi, h] <;> rfl

/-- **C60**. Executing the reversed command shows the same configurations, with the same attachments, in the opposite order. -/
theorem C60_visits (c : List (Item B C J G L)) : visits (reverse c) = (visits c).reverse := by
  induction c with
  | nil => rfl
  | cons i c ih =>
    have h1 : reverse (i :: c) = reverse c ++ [i.reverse] := by simp [reverse]
    have h2 : Item.visits i.reverse = (Item.visits i).reverse := by
      cases i <;> simp [Item.visits, Item.reverse, BodyPath.reverse]
    have h3 : visits (reverse c ++ [i.reverse]) = visits (reverse c) ++ Item.visits i.reverse := by simp [visits]
    have h4 : visits (i :: c) = Item.visits i ++ visits c := by simp [visits]
    rw [h1, h3, h4, ih, h2, List.reverse_append]

/-- **C60**. The reversed command involves the same bodies. -/
theorem C60_bodies (c : List (Item B C J G L)) (b : B) : b ∈ bodies (reverse c) ↔ b ∈ bodies c := by
  have h : ∀ i : Item B C J G L, Item.bodies i.reverse = Item.bodies i := by
    intro i; cases i <;> simp [Item.bodies, Item.reverse, BodyPath.reverse]
  simp [bodies, reverse, h]

theorem runControl_append (c d : List (Item B C J G L)) (s : Set (B × B × L)) : runControl (c ++ d) s = runControl d (runControl c s) := by
  simp [runControl, List.foldl_append]

theorem tidy_append : ∀ (c d : List (Item B C J G L)) (s : Set (B × B × L)), Tidy (c ++ d) s ↔ Tidy c s ∧ Tidy d (runControl c s)
  | [], d, s => by simp [Tidy, runControl]
  | .path p :: c, d, s => by
    have := tidy_append c d s
    simpa [Tidy, runControl, Item.control] using this
  | .attach b r l :: c, d, s => by
    have := tidy_append c d {x | x ∈ s ∨ x = (b, r, l)}
    simp only [List.cons_append, Tidy, this, runControl, List.foldl_cons, Item.control, and_assoc]
  | .detach b r l :: c, d, s => by
    have := tidy_append c d {x | x ∈ s ∧ x ≠ (b, r, l)}
    simp only [List.cons_append, Tidy, this, runControl, List.foldl_cons, Item.control, and_assoc]

/-- **C60**. Running a command that attaches only what is loose and detaches only what is attached, and then its reverse, restores the
attachments; the reverse is such a command as well. -/
theorem C60_undo (c : List (Item B C J G L)) (s : Set (B × B × L)) (h : Tidy c s) :
    runControl (reverse c) (runControl c s) = s ∧ Tidy (reverse c) (runControl c s) := by
  induction c generalizing s with
  | nil => exact ⟨rfl, trivial⟩
  | cons i c ih =>
    have h1 : reverse (i :: c) = reverse c ++ [i.reverse] := by simp [reverse]
    have h2 : runControl (i :: c) s = runControl c (i.control s) := rfl
    rw [h1, h2, runControl_append, tidy_append]
    cases i with
    | path p =>
      obtain ⟨h3, h4⟩ := ih s h
      exact ⟨h3, h4, trivial⟩
    | attach b r l =>
      obtain ⟨h3, h4⟩ := ih _ h.2
      change runControl (reverse c) (runControl c ((Item.attach b r l : Item B C J G L).control s)) = _ at h3
      rw [h3]
      refine ⟨?_, h4, ⟨.inr rfl, trivial⟩⟩
      ext x
      simp only [runControl, List.foldl_cons, List.foldl_nil, Item.reverse, Item.control, Set.mem_ofPred_eq]
      constructor
      · rintro ⟨h5 | h5, h6⟩
        · exact h5
        · exact absurd h5 h6
      · intro h5
        exact ⟨.inl h5, fun h6 => h.1 (h6 ▸ h5)⟩
    | detach b r l =>
      obtain ⟨h3, h4⟩ := ih _ h.2
      change runControl (reverse c) (runControl c ((Item.detach b r l : Item B C J G L).control s)) = _ at h3
      rw [h3]
      refine ⟨?_, h4, ⟨fun h5 => h5.2 rfl, trivial⟩⟩
      ext x
      simp only [runControl, List.foldl_cons, List.foldl_nil, Item.reverse, Item.control, Set.mem_ofPred_eq]
      constructor
      · rintro (h5 | h5)
        · exact h5.1
        · exact h5 ▸ h.1
      · intro h5
        by_cases h6 : x = (b, r, l)
        · exact .inr h6
        · exact .inl ⟨h5, h6⟩

/-- A command: approach, attach, carry, release. -/
def carry : List (Item ℕ ℕ Unit Unit ℕ) :=
  [.path ⟨0, [1, 2], (), []⟩, .attach 7 0 3, .path ⟨0, [2, 5, 6], (), [(7, ())]⟩, .detach 7 0 3]

/-- **C60** on `carry`. -/
theorem C60_nonvacuous : Tidy carry ∅ ∧ reverse carry =
      [.attach 7 0 3, .path ⟨0, [6, 5, 2], (), [(7, ())]⟩, .detach 7 0 3, .path ⟨0, [2, 1], (), []⟩] ∧
    (visits (reverse carry)).map (fun v => v.2.2.1) = [6, 5, 2, 2, 1] := by
  refine ⟨?_, rfl, rfl⟩
  simp [carry, Tidy]

/-! ### C72 -/

variable {α : Type}

/-- The command of a motion from `q1` to `q2`: one path of the robot, from the first configuration to the second, with the grasped body. -/
def Drives (robot : B) (conf : α → C) (attr : α → Option (List (Item B C J G L))) (q1 t q2 : α) (carried : List B) : Prop :=
  ∃ path joints att, attr t = some [.path ⟨robot, path, joints, att⟩] ∧ path.head? = some (conf q1) ∧ path.getLast? = some (conf q2) ∧
    att.map Prod.fst = carried

/-- The command of an insertion: one path of the robot with the grasped body. -/
def Inserts (robot : B) (attr : α → Option (List (Item B C J G L))) (t : α) (carried : List B) : Prop :=
  ∃ path joints att, attr t = some [.path ⟨robot, path, joints, att⟩] ∧ path ≠ [] ∧ att.map Prod.fst = carried

/-- A movement of the plan: from where, carrying what, whether it is an insertion, and to where. -/
structure Movement (α B : Type) where
  source : α
  carried : List B
  inserting : Bool
  target : α

/-- The movements of a plan. -/
def movements (bodyOf : α → B) (plan : List (KukaAction α)) : List (Movement α B) :=
  plan.filterMap fun
    | .moveFree q1 q2 _ => some ⟨q1, [], false, q2⟩
    | .moveHolding q1 q2 o _ _ => some ⟨q1, [bodyOf o], false, q2⟩
    | .moveInsert q1 q2 o _ _ => some ⟨q1, [bodyOf o], true, q2⟩
    | _ => none

/-- The path of the robot for a movement: it carries the object, and unless it is an insertion it leads from the first to the second configuration. -/
def Follows (robot : B) (conf : α → C) (i : Item B C J G L) (m : Movement α B) : Prop :=
  ∃ path joints att, i = .path ⟨robot, path, joints, att⟩ ∧ path ≠ [] ∧ att.map Prod.fst = m.carried ∧
    (m.inserting = false → path.head? = some (conf m.source) ∧ path.getLast? = some (conf m.target))

/-- **C72** (partial). For every executable plan the result is a sequence of paths of the robot without attach or detach commands, one for each movement of the plan and in the same order, carrying the held object.
In the plan each movement begins where the one before it ended, from the initial configuration to the final one, and a plan that reaches the goal ends where it began. The paths of all movements but insertions
lead from the movement's first to its second configuration. Missing: the paths of insertions do not, see C107_jump_false. -/
theorem C72_connected_partial (p : KukaProblem α) (certified : Set (KukaFact α)) (hc : KukaCertified p certified) (hd : (p.bodies.map KukaBody.body).Nodup)
    (robot : B) (conf : α → C) (bodyOf : α → B) (attr : α → Option (List (Item B C J G L)))
    (h1 : ∀ q1 t q2, .freeMotion q1 t q2 ∈ certified → Drives robot conf attr q1 t q2 [])
    (h2 : ∀ q1 t q2 o g, .holdingMotion q1 t q2 o g ∈ certified → Drives robot conf attr q1 t q2 [bodyOf o])
    (h3 : ∀ q1 t q2 o g, .insertMotion q1 t q2 o g ∈ certified → Inserts robot attr t [bodyOf o])
    (plan : List (KukaAction α)) (s : Set (KukaFact α)) (h : Executes KukaAction.op (p.start certified) plan s) :
    ∃ items q, postprocessPlan attr (plan.map kukaItem) = .ok items ∧ List.Forall₂ (Follows robot conf) items (movements bodyOf plan) ∧
      Linked p.startConf ((movements bodyOf plan).map fun m => (m.source, m.target)) q ∧ .atConf q ∈ s ∧ ((∀ f ∈ p.goal, f ∈ s) → q = p.startConf) := by
  have hinit : ∀ f : KukaFact α, (match f with | .freeMotion .. | .holdingMotion .. | .insertMotion .. => True | _ => False) → f ∈ p.start certified → f ∈ certified := by
    intro f hf h
    rcases h with h | h
    · exfalso
      simp only [KukaProblem.init, List.mem_append, List.mem_flatMap, List.mem_map] at h
      cases f <;> try exact hf
      all_goals
        rcases h with ((h | ⟨b, _, h⟩) | ⟨_, _, h⟩) | ⟨_, _, h⟩
        · simp at h
        · unfold KukaBody.facts at h
          rcases hb : b.insert with _ | ⟨sk, post, pre, qpre, qpost⟩ <;> simp [hb, List.mem_append] at h
        · simp at h
        · simp at h
    · exact h
  have key : ∀ (plan : List (KukaAction α)) (t : Set (KukaFact α)) (q : α), KukaInv (p.bodies.map KukaBody.body) t → .atConf q ∈ t →
      (∀ f : KukaFact α, (match f with | .freeMotion .. | .holdingMotion .. | .insertMotion .. => True | _ => False) → f ∈ t → f ∈ certified) →
      Executes KukaAction.op t plan s → ∃ items q', postprocessPlan attr (plan.map kukaItem) = .ok items ∧ List.Forall₂ (Follows robot conf) items (movements bodyOf plan) ∧
      Linked q ((movements bodyOf plan).map fun m => (m.source, m.target)) q' ∧ .atConf q' ∈ s := by
    intro plan
    induction plan with
    | nil => intro t q hi hq _ he; rw [show s = t from he]; exact ⟨[], q, rfl, .nil, rfl, hq⟩
    | cons a plan ih =>
      intro t q hi hq hf he
      have hf' : ∀ f : KukaFact α, (match f with | .freeMotion .. | .holdingMotion .. | .insertMotion .. => True | _ => False) → f ∈ a.op.apply t → f ∈ certified := by
        intro f hm h
        refine hf f hm ?_
        rcases h with h | h
        · exact h.1
        · exfalso
          cases f <;> simp at hm <;> cases a <;> simp [KukaAction.op] at h
      obtain ⟨q0, _, hu⟩ := hi.consistent.conf
      have move : ∀ q1 q2 tr carried ins, .atConf q1 ∈ t → .atConf q2 ∈ a.op.apply t → (kukaItem a).2.getLast? = some tr →
          (kukaItem a).1 ∈ ["move", "move_free", "move_holding", "move_insert"] → movements bodyOf (a :: plan) = ⟨q1, carried, ins, q2⟩ :: movements bodyOf plan →
          (∃ path joints att, attr tr = some [.path ⟨robot, path, joints, att⟩] ∧ path ≠ [] ∧ att.map Prod.fst = carried ∧
            (ins = false → path.head? = some (conf q1) ∧ path.getLast? = some (conf q2))) →
          ∃ items q', postprocessPlan attr ((a :: plan).map kukaItem) = .ok items ∧ List.Forall₂ (Follows robot conf) items (movements bodyOf (a :: plan)) ∧
            Linked q ((movements bodyOf (a :: plan)).map fun m => (m.source, m.target)) q' ∧ .atConf q' ∈ s := by
        intro q1 q2 tr carried ins hq1 hq2 hl hn hm ⟨path, joints, att, h4, h5, h6, h7⟩
        obtain rfl : q1 = q := by rw [hu _ hq1, hu _ hq]
        obtain ⟨items, q', h8, h9, h10, h11⟩ := ih _ q2 (hi.step _ _ _ he.1) hq2 hf' he.2
        rw [hm]
        refine ⟨.path ⟨robot, path, joints, att⟩ :: items, q', ?_, .cons ⟨_, _, _, rfl, h5, h6, h7⟩ h9, ⟨rfl, h10⟩, h11⟩
        rw [List.map_cons]
        unfold postprocessPlan
        rw [if_pos hn, hl]
        simp [h4, h8, Except.map]
      have stay : .atConf q ∈ a.op.apply t → (kukaItem a).1 ∉ ["move", "move_free", "move_holding", "move_insert"] → movements bodyOf (a :: plan) = movements bodyOf plan →
          ∃ items q', postprocessPlan attr ((a :: plan).map kukaItem) = .ok items ∧ List.Forall₂ (Follows robot conf) items (movements bodyOf (a :: plan)) ∧
            Linked q ((movements bodyOf (a :: plan)).map fun m => (m.source, m.target)) q' ∧ .atConf q' ∈ s := by
        intro hq' hn hm
        obtain ⟨items, q', h8, h9, h10, h11⟩ := ih _ q (hi.step _ _ _ he.1) hq' hf' he.2
        rw [hm]
        refine ⟨items, q', ?_, h9, h10, h11⟩
        rw [List.map_cons]
        unfold postprocessPlan
        rw [if_neg hn, h8]
      have ends : ∀ q1 tr q2 carried, Drives robot conf attr q1 tr q2 carried → ∃ path joints att, attr tr = some [.path ⟨robot, path, joints, att⟩] ∧ path ≠ [] ∧
          att.map Prod.fst = carried ∧ (false = false → path.head? = some (conf q1) ∧ path.getLast? = some (conf q2)) := by
        rintro q1 tr q2 carried ⟨path, joints, att, h4, h5, h6, h7⟩
        exact ⟨path, joints, att, h4, by rintro rfl; simp at h5, h7, fun _ => ⟨h5, h6⟩⟩
      cases a with
      | moveFree q1 q2 tr =>
        exact move q1 q2 tr [] false (he.1 _ (by simp [KukaAction.op])) (by simp [mem_apply, KukaAction.op]) rfl (by simp [kukaItem]) rfl
          (ends _ _ _ _ (h1 _ _ _ (hf _ trivial (he.1 (.freeMotion q1 tr q2) (by simp [KukaAction.op])))))
      | moveHolding q1 q2 o g tr =>
        exact move q1 q2 tr _ false (he.1 _ (by simp [KukaAction.op])) (by simp [mem_apply, KukaAction.op]) rfl (by simp [kukaItem]) rfl
          (ends _ _ _ _ (h2 _ _ _ _ _ (hf _ trivial (he.1 (.holdingMotion q1 tr q2 o g) (by simp [KukaAction.op])))))
      | moveInsert q1 q2 o g tr =>
        obtain ⟨path, joints, att, h4, h5, h6⟩ := h3 _ _ _ _ _ (hf _ trivial (he.1 (.insertMotion q1 tr q2 o g) (by simp [KukaAction.op])))
        exact move q1 q2 tr _ true (he.1 _ (by simp [KukaAction.op])) (by simp [mem_apply, KukaAction.op]) rfl (by simp [kukaItem]) rfl
          ⟨path, joints, att, h4, h5, h6, by simp⟩
      | pick o x g q1 => exact stay (by simpa [mem_apply, KukaAction.op] using hq) (by simp [kukaItem]) rfl
      | place o x g q1 => exact stay (by simpa [mem_apply, KukaAction.op] using hq) (by simp [kukaItem]) rfl
      | clean o r x => exact stay (by simpa [mem_apply, KukaAction.op] using hq) (by simp [kukaItem]) rfl
      | cook o r x => exact stay (by simpa [mem_apply, KukaAction.op] using hq) (by simp [kukaItem]) rfl
  obtain ⟨items, q, h4, h5, h6, h7⟩ := key plan _ p.startConf (KukaInv.start p certified hc hd) (.inl (by simp [KukaProblem.init])) hinit h
  refine ⟨items, q, h4, h5, h6, h7, fun hg => ?_⟩
  obtain ⟨q0, _, hu⟩ := (Executes.invariant (I := KukaInv (p.bodies.map KukaBody.body)) (fun s a hs ha => hs.step _ s a ha) (KukaInv.start p certified hc hd) h).consistent.conf
  rw [hu _ h7, hu p.startConf (hg _ (by simp [KukaProblem.goal]))]

/-- The four motions of a plan. -/
def fourMotions : List (KukaFact ℕ) := [.freeMotion 0 20 1, .holdingMotion 1 21 2 100 50, .insertMotion 2 22 3 100 50, .freeMotion 3 23 0]

/-- Their commands. -/
def fourCommands : ℕ → Option (List (Item ℕ ℕ Unit Unit ℕ))
  | 20 => some [.path ⟨0, [0, 7, 1], (), []⟩]
  | 21 => some [.path ⟨0, [1, 8, 2], (), [(100, ())]⟩]
  | 22 => some [.path ⟨0, [12, 9, 13], (), [(100, ())]⟩]
  | 23 => some [.path ⟨0, [3, 0], (), []⟩]
  | _ => none

/-- **C72** applies: the assumptions hold for a plan that reaches the goal, and its trajectory is as expected. -/
theorem C72_nonvacuous : KukaCertified oneBody {f | f ∈ fourMotions} ∧
    (∀ q1 t q2, .freeMotion q1 t q2 ∈ fourMotions → Drives 0 id fourCommands q1 t q2 []) ∧
    (∀ q1 t q2 o g, .holdingMotion q1 t q2 o g ∈ fourMotions → Drives 0 id fourCommands q1 t q2 [id o]) ∧
    (∀ q1 t q2 o g, .insertMotion q1 t q2 o g ∈ fourMotions → Inserts 0 fourCommands t [id o]) ∧
    (∃ s, Executes KukaAction.op (oneBody.start {f | f ∈ fourMotions})
      [.moveFree 0 1 20, .pick 100 10 50 1, .moveHolding 1 2 100 50 21, .place 100 12 50 2, .pick 100 12 50 2, .moveInsert 2 3 100 50 22,
        .place 100 11 50 3, .clean 100 200 11, .moveFree 3 0 23] s ∧ ∀ f ∈ oneBody.goal, f ∈ s) ∧
    (postprocessPlan fourCommands ([.moveFree 0 1 20, .pick 100 10 50 1, .moveHolding 1 2 100 50 21, .place 100 12 50 2, .pick 100 12 50 2,
      .moveInsert 2 3 100 50 22, .place 100 11 50 3, .clean 100 200 11, .moveFree 3 0 23].map kukaItem)).map (fun c => (visits c).map fun v => v.2.2.1) =
      .ok [0, 7, 1, 1, 8, 2, 12, 9, 13, 3, 0] := by
  refine ⟨?_, ?_, ?_, ?_, ⟨_, ⟨?_, ?_, ?_, ?_, ?_, ?_, ?_, ?_, ?_, rfl⟩, ?_⟩, rfl⟩
  · intro f hf
    simp only [fourMotions, List.mem_cons, List.not_mem_nil, or_false, Set.mem_ofPred_eq] at hf
    rcases hf with rfl | rfl | rfl | rfl <;>
      simp [KukaFact.Certified, KukaProblem.start, KukaProblem.init, oneBody, KukaBody.facts]
  · intro q1 t q2 h
    simp only [fourMotions, List.mem_cons, List.not_mem_nil, or_false, KukaFact.freeMotion.injEq, reduceCtorEq, false_or] at h
    rcases h with ⟨rfl, rfl, rfl⟩ | ⟨rfl, rfl, rfl⟩ <;> exact ⟨_, _, _, rfl, rfl, rfl, rfl⟩
  · intro q1 t q2 o g h
    simp only [fourMotions, List.mem_cons, List.not_mem_nil, or_false, KukaFact.holdingMotion.injEq, reduceCtorEq, false_or] at h
    obtain ⟨rfl, rfl, rfl, rfl, rfl⟩ := h
    exact ⟨_, _, _, rfl, rfl, rfl, rfl⟩
  · intro q1 t q2 o g h
    simp only [fourMotions, List.mem_cons, List.not_mem_nil, or_false, KukaFact.insertMotion.injEq, reduceCtorEq, false_or] at h
    obtain ⟨rfl, rfl, rfl, rfl, rfl⟩ := h
    exact ⟨_, _, _, rfl, by simp, rfl⟩
  all_goals simp [Op.Applicable, KukaAction.op, mem_apply, KukaProblem.start, KukaProblem.init, KukaProblem.goal, oneBody, fourMotions, KukaBody.facts]

/-! ### C73 -/

variable {P : Type} [Group P]

theorem ikFn_spec (attempt : ℕ → P → Option C) (approach grasp pose : P) (n : ℕ) : ∀ made made' c,
    ikFn attempt approach grasp pose made n = (made', some c) → ∃ k, attempt k (approach * (pose * grasp⁻¹)) = some c := by
  induction n with
  | zero => intro made made' c h; simp [ikFn] at h
  | succ n ih =>
    intro made made' c h
    unfold ikFn at h
    cases ha : attempt made (approach * (pose * grasp⁻¹)) with
    | none => rw [ha] at h; exact ih _ _ _ h
    | some d =>
      rw [ha] at h
      simp only [Prod.mk.injEq, Option.some.injEq] at h
      exact ⟨made, by rw [ha, h.2]⟩

theorem confPath_sublist (attempt : ℕ → P → Option C) (approach grasp : P) : ∀ (l : List P) (made : ℕ),
    ((confPath attempt approach grasp made l).map Prod.fst).Sublist l ∧
    ∀ x ∈ confPath attempt approach grasp made l, ∃ k, attempt k (approach * (x.1 * grasp⁻¹)) = some x.2
  | [], made => by simp [confPath]
  | pose :: rest, made => by
    unfold confPath
    rcases h : ikFn attempt approach grasp pose made 10 with ⟨made', _ | c⟩
    · obtain ⟨h1, h2⟩ := confPath_sublist attempt approach grasp rest made'
      exact ⟨h1.cons _, h2⟩
    · obtain ⟨h1, h2⟩ := confPath_sublist attempt approach grasp rest made'
      refine ⟨by simpa using h1, ?_⟩
      intro x hx
      rcases List.mem_cons.1 hx with rfl | hx
      · exact ikFn_spec _ _ _ _ _ _ _ _ h
      · exact h2 x hx

theorem confPath_all (attempt : ℕ → P → Option C) (approach grasp : P) : ∀ (l : List P) (made : ℕ),
    (∀ pose ∈ l, ∀ k, attempt k (approach * (pose * grasp⁻¹)) ≠ none) → (confPath attempt approach grasp made l).map Prod.fst = l
  | [], made, _ => rfl
  | pose :: rest, made, h => by
    unfold confPath
    have h0 := h pose (by simp) made
    obtain ⟨c, hc⟩ := Option.ne_none_iff_exists'.1 h0
    have : ikFn attempt approach grasp pose made 10 = (made + 1, some c) := by simp [ikFn, hc]
    rw [this]
    simp [confPath_all attempt approach grasp rest _ fun x hx => h x (List.mem_cons_of_mem _ hx)]

theorem confPath_nil (attempt : ℕ → P → Option C) (approach grasp : P) : ∀ (l : List P) (made : ℕ),
    (∀ pose ∈ l, ∀ k, attempt k (approach * (pose * grasp⁻¹)) = none) → confPath attempt approach grasp made l = []
  | [], made, _ => rfl
  | pose :: rest, made, h => by
    unfold confPath
    have h0 : ∀ n made, (ikFn attempt approach grasp pose made n).2 = none := by
      intro n
      induction n with
      | zero => intro made; rfl
      | succ n ih => intro made; simp [ikFn, h pose (by simp), ih]
    have h1 := h0 10 made
    rcases h2 : ikFn attempt approach grasp pose made 10 with ⟨made', _ | c⟩
    · exact confPath_nil attempt approach grasp rest _ fun x hx => h x (List.mem_cons_of_mem _ hx)
    · rw [h2] at h1; simp at h1

/-- **C73** (partial). Inverse kinematics is taken to be correct: the configuration it returns brings the gripper to the asked pose
(`fk`). Then along the trajectory the held object passes, in the planned order and each shifted by the approach offset, some of the planned
poses, and all of them, start and goal included, if inverse kinematics always succeeds. Missing: the offset, and poses that are left out. -/
theorem C73_order_partial (attempt : ℕ → P → Option C) (fk : C → P) (hfk : ∀ k e c, attempt k e = some c → fk c = e) (approach grasp start goal : P)
    (path : List P) (l : List (P × C)) (h : insertion attempt approach grasp start path goal = .ok l) :
    (l.map fun x => fk x.2 * grasp) = (l.map Prod.fst).map (fun pose => approach * pose) ∧
    (l.map Prod.fst).Sublist (start :: path ++ [goal]) ∧ l ≠ [] ∧
    ((∀ pose ∈ start :: path ++ [goal], ∀ k, attempt k (approach * (pose * grasp⁻¹)) ≠ none) → l.map Prod.fst = start :: path ++ [goal]) := by
  unfold insertion at h
  obtain ⟨h1, h2⟩ := confPath_sublist attempt approach grasp ([start] ++ path ++ [goal]) 0
  have h3 := confPath_all attempt approach grasp ([start] ++ path ++ [goal]) 0
  generalize confPath attempt approach grasp 0 ([start] ++ path ++ [goal]) = m at h h1 h2 h3
  have hm : m = l ∧ l ≠ [] := by
    cases m with
    | nil => simp at h
    | cons x m => simp only [Except.ok.injEq] at h; subst h; simp
  obtain ⟨rfl, hne⟩ := hm
  refine ⟨?_, by simpa using h1, hne, fun hs => by simpa using h3 (by simpa using hs)⟩
  rw [List.map_map]
  apply List.map_congr_left
  intro x hx
  obtain ⟨k, hk⟩ := h2 x hx
  simp [hfk k _ _ hk, mul_assoc]

/-- **C73** is false: unless the approach offset is the identity, which it is not (1 cm, kuka_primitives.py:79), at no configuration of the
trajectory is the object at the pose the configuration was computed for. -/
theorem C73_offset_false (attempt : ℕ → P → Option C) (fk : C → P) (hfk : ∀ k e c, attempt k e = some c → fk c = e) (approach grasp start goal : P)
    (ha : approach ≠ 1) (path : List P) (l : List (P × C)) (h : insertion attempt approach grasp start path goal = .ok l) :
    l ≠ [] ∧ ∀ x ∈ l, fk x.2 * grasp ≠ x.1 := by
  obtain ⟨h1, _, h3, _⟩ := C73_order_partial attempt fk hfk approach grasp start goal path l h
  refine ⟨h3, fun x hx he => ha ?_⟩
  have : fk x.2 * grasp = approach * x.1 := by
    rw [List.map_map] at h1
    exact List.map_inj_left.1 h1 x hx
  rw [this] at he
  simpa using he

/-- **C73** is false, also without an offset: a pose for which inverse kinematics fails is left out, so the object may jump between two
poses although every two consecutive planned poses were one unit apart. -/
theorem C73_dropped_false : ∃ (attempt : ℕ → Multiplicative ℤ → Option ℤ) (fk : ℤ → Multiplicative ℤ) (start goal : Multiplicative ℤ) (path : List (Multiplicative ℤ))
    (l : List (Multiplicative ℤ × ℤ)), (∀ k e c, attempt k e = some c → fk c = e) ∧
    (start :: path ++ [goal]).IsChain (fun a b => Multiplicative.toAdd b = Multiplicative.toAdd a + 1) ∧
    insertion attempt 1 1 start path goal = .ok l ∧ l.map (fun x => Multiplicative.toAdd (fk x.2)) = [0, 2] := by
  refine ⟨fun _ e => if Multiplicative.toAdd e = 1 then none else some (Multiplicative.toAdd e), Multiplicative.ofAdd, Multiplicative.ofAdd 0, Multiplicative.ofAdd 2,
    [Multiplicative.ofAdd 1], [(Multiplicative.ofAdd 0, 0), (Multiplicative.ofAdd 2, 2)], ?_, ?_, ?_, ?_⟩
  · intro k e c h
    dsimp only at h
    split_ifs at h
    simp only [Option.some.injEq] at h
    rw [← h]; rfl
  · simp
  · simp [insertion, confPath, ikFn]
  · simp

/-- **C73**: if there is no configuration for any of the poses, planning ends with an `UnboundLocalError`. -/
theorem C73_unbound (attempt : ℕ → P → Option C) (approach grasp start goal : P) (path : List P)
    (h : ∀ pose ∈ start :: path ++ [goal], ∀ k, attempt k (approach * (pose * grasp⁻¹)) = none) :
    insertion attempt approach grasp start path goal = .error .unbound := by
  unfold insertion
  rw [confPath_nil _ _ _ _ _ (by simpa using h)]

theorem ikFn_none (attempt : ℕ → P → Option C) (approach grasp pose : P) (n : ℕ) : ∀ made made',
    ikFn attempt approach grasp pose made n = (made', none) → ∀ i < n, attempt (made + i) (approach * (pose * grasp⁻¹)) = none := by
  induction n with
  | zero => intro made made' _ i hi; omega
  | succ n ih =>
    intro made made' h i hi
    unfold ikFn at h
    cases ha : attempt made (approach * (pose * grasp⁻¹)) with
    | none =>
      rw [ha] at h
      cases i with
      | zero => exact ha
      | succ i =>
        have := ih _ _ h i (by omega)
        rwa [show made + 1 + i = made + (i + 1) by omega] at this
    | some d =>
      rw [ha] at h
      simp at h

theorem confPath_left (attempt : ℕ → P → Option C) (approach grasp : P) : ∀ (l : List P) (made : ℕ), ∀ pose ∈ l,
    pose ∈ (confPath attempt approach grasp made l).map Prod.fst ∨ ∃ d, ∀ i < 10, attempt (d + i) (approach * (pose * grasp⁻¹)) = none
  | [], _, _, h => by simp at h
  | pose :: rest, made, x, hx => by
    unfold confPath
    rcases h : ikFn attempt approach grasp pose made 10 with ⟨made', _ | c⟩
    · rcases List.mem_cons.1 hx with rfl | hx
      · exact Or.inr ⟨made, ikFn_none _ _ _ _ _ _ _ h⟩
      · exact confPath_left attempt approach grasp rest made' x hx
    · rcases List.mem_cons.1 hx with rfl | hx
      · exact Or.inl (by simp)
      · exact (confPath_left attempt approach grasp rest made' x hx).imp_left fun h => by
          rw [List.map_cons]
          exact List.mem_cons_of_mem _ h

/-- **C73**: a pose is left out of the trajectory only if ten attempts in a row to find a configuration for it have failed; and only if this is so for all poses an exception is raised. -/
theorem C73_left_out (attempt : ℕ → P → Option C) (approach grasp start goal : P) (path : List P) :
    (∀ l, insertion attempt approach grasp start path goal = .ok l → ∀ pose ∈ start :: path ++ [goal],
      pose ∈ l.map Prod.fst ∨ ∃ d, ∀ i < 10, attempt (d + i) (approach * (pose * grasp⁻¹)) = none) ∧
    ∀ e, insertion attempt approach grasp start path goal = .error e → e = .unbound ∧ ∀ pose ∈ start :: path ++ [goal],
      ∃ d, ∀ i < 10, attempt (d + i) (approach * (pose * grasp⁻¹)) = none := by
  have h := confPath_left attempt approach grasp ([start] ++ path ++ [goal]) 0
  unfold insertion
  generalize confPath attempt approach grasp 0 ([start] ++ path ++ [goal]) = c at h
  cases c with
  | nil =>
    refine ⟨fun l hl => by simp at hl, fun e he => ?_⟩
    simp only [Except.error.injEq] at he
    exact ⟨he.symm, fun pose hp => (h pose (by simpa using hp)).resolve_left (by simp)⟩
  | cons x c =>
    refine ⟨fun l hl pose hp => ?_, fun e he => by simp at he⟩
    simp only [Except.ok.injEq] at hl
    subst hl
    exact h pose (by simpa using hp)

/-- **C73** applies to a kinematics that always succeeds, with an offset: object poses 1, 2, 3 instead of 0, 1, 2. -/
theorem C73_nonvacuous : ∃ l, insertion (fun _ e => some (Multiplicative.toAdd e)) (Multiplicative.ofAdd 1) (Multiplicative.ofAdd 5) (Multiplicative.ofAdd 0)
      [Multiplicative.ofAdd 1] (Multiplicative.ofAdd (2 : ℤ)) = .ok l ∧
    l.map (fun x => Multiplicative.toAdd (Multiplicative.ofAdd x.2 * Multiplicative.ofAdd 5)) = [1, 2, 3] := by
  refine ⟨_, rfl, ?_⟩
  decide

end Verif.Props
