import Verif.Lemmas.Strips

/-! Properties of the turtlebot planning domain: C57. -/

set_option linter.unusedSimpArgs false

namespace Verif.Props

open Verif.Strips Verif.Spec

variable {α : Type}

/-- The invariant of the domain. -/
structure RoverInv (rover : α) (s : Set (RoverFact α)) : Prop where
  consistent : RoverConsistent rover s
  held : ∀ o, .holding o ∈ s → .target o ∈ s
  placed : ∀ o p, .atPose o p ∈ s → .target o ∈ s

theorem RoverInv.step (rover : α) (s : Set (RoverFact α)) (a : RoverAction α) (h : RoverInv rover s) (ha : a.op.Applicable s) :
    RoverInv rover (a.op.apply s) := by
  obtain ⟨⟨⟨q, hq, hqu⟩, hand, target⟩, held, placed⟩ := h
  cases a with
  | pick v q1 t q2 p o =>
    simp only [Op.Applicable, RoverAction.op, List.mem_cons, List.not_mem_nil, or_false, forall_eq_or_imp, forall_eq] at ha
    obtain ⟨h1, h2, h3, h4, h5, h6, h7⟩ := ha
    obtain ⟨rfl, rfl⟩ := hqu v q1 h3
    have hno : ∀ o, RoverFact.holding o ∉ s := by
      rcases hand with ⟨_, h⟩ | ⟨h, _⟩
      · exact h
      · exact absurd h7 h
    have hp : ∀ p', RoverFact.atPose o p' ∈ s → p' = p := by
      rcases target o h6 with ⟨h, _⟩ | ⟨_, p0, h, hu⟩
      · exact absurd h (hno o)
      · intro p' hp'; rw [hu p' hp', hu p h4]
    refine ⟨⟨⟨q2, ?_, ?_⟩, .inr ⟨?_, o, ?_, ?_⟩, ?_⟩, ?_, ?_⟩ <;> simp only [mem_apply, RoverAction.op, List.mem_cons, List.not_mem_nil, or_false,
      RoverFact.atConf.injEq, RoverFact.holding.injEq, RoverFact.atPose.injEq, reduceCtorEq, false_or, not_false_eq_true, and_true, or_true, true_or, not_true_eq_false, and_false]
    · rintro v' q' (⟨h, hn⟩ | ⟨rfl, rfl⟩)
      · obtain ⟨rfl, rfl⟩ := hqu _ _ h
        exact absurd ⟨rfl, rfl⟩ hn
      · exact ⟨rfl, rfl⟩
    · rintro o' (h | h)
      · exact absurd h (hno o')
      · exact h
    · intro o' ho'
      by_cases he : o' = o
      · subst he
        left
        refine ⟨.inr rfl, fun p' => ?_⟩
        rintro ⟨h, hn⟩
        exact hn ⟨rfl, hp p' h⟩
      · right
        rcases target o' ho' with ⟨h, _⟩ | ⟨h, p0, h0, hu⟩
        · exact absurd h (hno o')
        · refine ⟨fun hc => hc.elim (fun h' => h h') he, p0, ⟨h0, fun hc => he hc.1⟩, fun p' h' => hu p' h'.1⟩
    · rintro o' (h | rfl)
      · exact held o' h
      · exact h6
    · rintro o' p' ⟨h, _⟩
      exact placed o' p' h
  | place v q1 t q2 p o =>
    simp only [Op.Applicable, RoverAction.op, List.mem_cons, List.not_mem_nil, or_false, forall_eq_or_imp, forall_eq] at ha
    obtain ⟨h1, h2, h3, h4, h5, h6, h7⟩ := ha
    obtain ⟨rfl, rfl⟩ := hqu v q1 h3
    have hone : ∀ o', RoverFact.holding o' ∈ s → o' = o := by
      rcases hand with ⟨_, h⟩ | ⟨_, o0, _, hu⟩
      · exact absurd h4 (h o)
      · intro o' ho'; rw [hu o' ho', hu o h4]
    have hp : ∀ p', RoverFact.atPose o p' ∉ s := by
      rcases target o h5 with ⟨_, h⟩ | ⟨h, _⟩
      · exact h
      · exact absurd h4 h
    refine ⟨⟨⟨q2, ?_, ?_⟩, .inl ⟨?_, ?_⟩, ?_⟩, ?_, ?_⟩ <;> simp only [mem_apply, RoverAction.op, List.mem_cons, List.not_mem_nil, or_false,
      RoverFact.atConf.injEq, RoverFact.holding.injEq, RoverFact.atPose.injEq, reduceCtorEq, false_or, not_false_eq_true, and_true, or_true, true_or, not_true_eq_false, and_false]
    · rintro v' q' (⟨h, hn⟩ | ⟨rfl, rfl⟩)
      · obtain ⟨rfl, rfl⟩ := hqu _ _ h
        exact absurd ⟨rfl, rfl⟩ hn
      · exact ⟨rfl, rfl⟩
    · rintro o' ⟨h, hn⟩
      exact hn (hone o' h)
    · intro o' ho'
      right
      by_cases he : o' = o
      · subst he
        refine ⟨fun hc => hc.2 rfl, p, .inr ⟨rfl, rfl⟩, ?_⟩
        rintro p' (h | ⟨_, rfl⟩)
        · exact absurd h (hp p')
        · rfl
      · rcases target o' ho' with ⟨h, _⟩ | ⟨h, p0, h0, hu⟩
        · exact absurd (hone o' h) he
        · refine ⟨fun hc => h hc.1, p0, .inl h0, ?_⟩
          rintro p' (h' | ⟨rfl, _⟩)
          · exact hu p' h'
          · exact absurd rfl he
    · rintro o' ⟨h, _⟩
      exact held o' h
    · rintro o' p' (h | ⟨rfl, rfl⟩)
      · exact placed o' p' h
      · exact h5

theorem fst_zip_sublist {β : Type} : ∀ (l : List α) (m : List β), ((l.zip m).map Prod.fst).Sublist l
  | [], m => by simp
  | a :: l, [] => by simp
  | a :: l, b :: m => by simpa using fst_zip_sublist l m

theorem RoverInv.start (p : RoverProblem α) (certified : Set (RoverFact α)) (hc : ∀ f ∈ certified, f.Certified) (hn : p.targets.Nodup) :
    RoverInv p.rover (p.start certified) := by
  have no : ∀ f : RoverFact α, ¬ f.Certified → (f ∈ p.start certified ↔ f ∈ p.init) := fun f hf =>
    ⟨fun h => h.elim id fun h' => absurd (hc f h') hf, .inl⟩
  have hconf : ∀ v q, RoverFact.atConf v q ∈ p.start certified ↔ v = p.rover ∧ q = p.initConf := by
    intro v q; rw [no _ (by simp [RoverFact.Certified])]; simp [RoverProblem.init]
  have hfree : RoverFact.hfree ∈ p.start certified := .inl (by simp [RoverProblem.init])
  have hhold : ∀ o, RoverFact.holding o ∉ p.start certified := by
    intro o; rw [no _ (by simp [RoverFact.Certified])]; simp [RoverProblem.init]
  have htarget : ∀ o, RoverFact.target o ∈ p.start certified ↔ ∃ r ∈ p.rows, r.1 = o := by
    intro o; rw [no _ (by simp [RoverFact.Certified])]; simp [RoverProblem.init, eq_comm]
  have hpose : ∀ o x, RoverFact.atPose o x ∈ p.start certified ↔ ∃ r ∈ p.rows, r.1 = o ∧ r.2.1 = x := by
    intro o x; rw [no _ (by simp [RoverFact.Certified])]; simp [RoverProblem.init, eq_comm]
  have hrows : ∀ r ∈ p.rows, ∀ r' ∈ p.rows, r.1 = r'.1 → r = r' := by
    have hnd : (p.rows.map Prod.fst).Nodup := by
      unfold RoverProblem.rows
      exact hn.sublist (fst_zip_sublist _ _)
    intro r hr r' hr' he
    exact List.inj_on_of_nodup_map hnd hr hr' he
  refine ⟨⟨⟨p.initConf, (hconf _ _).2 ⟨rfl, rfl⟩, fun v q h => (hconf v q).1 h⟩, .inl ⟨hfree, hhold⟩, ?_⟩, fun o h => absurd h (hhold o), ?_⟩
  · intro o ho
    right
    obtain ⟨r, hr, rfl⟩ := (htarget o).1 ho
    refine ⟨hhold _, r.2.1, (hpose _ _).2 ⟨r, hr, rfl, rfl⟩, fun x hx => ?_⟩
    obtain ⟨r', hr', h1, rfl⟩ := (hpose _ _).1 hx
    rw [hrows r' hr' r hr h1]
  · intro o x h
    obtain ⟨r, hr, h1, _⟩ := (hpose o x).1 h
    exact (htarget o).2 ⟨r, hr, h1⟩

/-- **C57**. Every state reachable by an executable plan is consistent. -/
theorem C57_consistent (p : RoverProblem α) (certified : Set (RoverFact α)) (hc : ∀ f ∈ certified, f.Certified) (hn : p.targets.Nodup)
    (plan : List (RoverAction α)) (s : Set (RoverFact α)) (h : Executes RoverAction.op (p.start certified) plan s) : RoverConsistent p.rover s :=
  (Executes.invariant (I := RoverInv p.rover) (fun s a hs ha => hs.step p.rover s a ha) (RoverInv.start p certified hc hn) h).consistent

theorem target_static {plan : List (RoverAction α)} {s s' : Set (RoverFact α)} (h : Executes RoverAction.op s plan s') (o : α) :
    .target o ∈ s' ↔ .target o ∈ s := by
  refine Executes.invariant (I := fun t => RoverFact.target o ∈ t ↔ RoverFact.target o ∈ s) (fun t a ht _ => ?_) Iff.rfl h
  rw [← ht]
  cases a <;> simp [mem_apply, RoverAction.op]

/-- **C57**: when the goal is reached the hand is free and every target is at its goal pose and nowhere else. -/
theorem C57_goal (p : RoverProblem α) (certified : Set (RoverFact α)) (hc : ∀ f ∈ certified, f.Certified) (hn : p.targets.Nodup)
    (hl : p.targets.length ≤ p.initPoses.length ∧ p.targets.length ≤ p.goalPoses.length)
    (plan : List (RoverAction α)) (s : Set (RoverFact α)) (h : Executes RoverAction.op (p.start certified) plan s) (hg : ∀ f ∈ p.goal, f ∈ s) :
    .hfree ∈ s ∧ ∀ (i : ℕ) o x, p.targets[i]? = some o → p.goalPoses[i]? = some x → ∀ x', .atPose o x' ∈ s ↔ x' = x := by
  have hinv := Executes.invariant (I := RoverInv p.rover) (fun s a hs ha => hs.step p.rover s a ha) (RoverInv.start p certified hc hn) h
  have htgt : ∀ o, RoverFact.target o ∈ s → ∃ r ∈ p.rows, r.1 = o := by
    intro o ho
    rw [target_static h] at ho
    rcases ho with h | h
    · simpa [RoverProblem.init, eq_comm] using h
    · exact absurd (hc _ h) (by simp [RoverFact.Certified])
  have hgoal : ∀ r ∈ p.rows, RoverFact.atPose r.1 r.2.2 ∈ s := fun r hr => hg _ (List.mem_map.2 ⟨r, hr, rfl⟩)
  have hnot : ∀ o, RoverFact.holding o ∉ s := by
    intro o ho
    obtain ⟨r, hr, rfl⟩ := htgt o (hinv.held o ho)
    rcases hinv.consistent.target r.1 (hinv.held _ ho) with ⟨_, h⟩ | ⟨h, _⟩
    · exact h _ (hgoal r hr)
    · exact h ho
  refine ⟨?_, fun i o x ho hx x' => ?_⟩
  · rcases hinv.consistent.hand with ⟨h, _⟩ | ⟨_, o, h, _⟩
    · exact h
    · exact absurd h (hnot o)
  · have hi : i < p.targets.length := (List.getElem?_eq_some_iff.1 ho).1
    have hip : i < p.initPoses.length := lt_of_lt_of_le hi hl.1
    have hrow : (o, p.initPoses[i], x) ∈ p.rows := by
      unfold RoverProblem.rows
      apply List.mem_of_getElem? (i := i)
      rw [List.getElem?_zip_eq_some, List.getElem?_zip_eq_some]
      exact ⟨ho, List.getElem?_eq_getElem hip, hx⟩
    have hat := hgoal _ hrow
    refine ⟨fun h' => ?_, fun h' => by rw [h']; exact hat⟩
    rcases hinv.consistent.target o (hinv.placed _ _ hat) with ⟨h1, _⟩ | ⟨_, x0, _, hu⟩
    · exact absurd h1 (hnot o)
    · rw [hu x' h', hu x hat]

/-- A problem with two targets. -/
def twoTargets : RoverProblem ℕ := ⟨0, 1, [10, 11], [20, 21], [30, 31]⟩

/-- Motions and configurations for it. -/
def twoCertified : Set (RoverFact ℕ) := {f | f.Certified}

/-- **C57** applies: a plan that moves both targets can be executed and reaches the goal. -/
theorem C57_nonvacuous : (∀ f ∈ twoCertified, f.Certified) ∧ twoTargets.targets.Nodup ∧
    ∃ s, Executes RoverAction.op (twoTargets.start twoCertified)
      [.pick 0 1 5 2 20 10, .place 0 2 5 3 30 10, .pick 0 3 5 4 21 11, .place 0 4 5 4 31 11] s ∧ ∀ f ∈ twoTargets.goal, f ∈ s := by
  refine ⟨fun f h => h, by decide, _, ⟨?_, ?_, ?_, ?_, rfl⟩, ?_⟩ <;>
  simp [Op.Applicable, RoverAction.op, mem_apply, RoverProblem.start, RoverProblem.init, RoverProblem.goal, RoverProblem.rows, twoTargets, twoCertified,
    RoverFact.Certified]

end Verif.Props
