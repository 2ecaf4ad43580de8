import Verif.Spec.Commands
import Verif.Props.RoverDomain

/-! Properties of the turtlebot command list: C59. -/

set_option linter.unusedSimpArgs false

namespace Verif.Props

open Verif.Strips Verif.Spec Verif.Commands

variable {α : Type} [DecidableEq α]

/-- Attach and detach alternate from a state in which `held` is in the hand. -/
def PairedFrom (v : α) : Option α → List (RoverCommand α) → Prop
  | none, l => Paired l
  | some o, l => l = [] ∨ ∃ r, l = .detach v o :: r ∧ Paired r

theorem postLoop_executes (rover : α) : ∀ (plan : List (RoverAction α)) (s s' : Set (RoverFact α)) (att : Attachments α) (acc : List (RoverCommand α))
    (held : Option α), RoverInv rover s → (∀ o, .holding o ∈ s ↔ held = some o) → (∀ o, held = some o → att rover = some o) →
    Executes RoverAction.op s plan s' →
    ∃ att', postLoop att acc (plan.map roverItem) = .ok (acc ++ plan.flatMap commandsOf) ∧
      (∀ rest, postLoop att acc (plan.map roverItem ++ rest) = postLoop att' (acc ++ plan.flatMap commandsOf) rest) ∧
      PairedFrom rover held (grasps (plan.flatMap commandsOf))
  | [], s, s', att, acc, held, hinv, hh, ha, he => by
    refine ⟨att, by simp [postLoop], by simp, ?_⟩
    cases held with
    | none => exact .none
    | some o => exact .inl rfl
  | .pick v q1 t q2 p o :: plan, s, s', att, acc, held, hinv, hh, ha, he => by
    have hfree := he.1 .hfree (by simp [RoverAction.op])
    have hat := he.1 (.atConf v q1) (by simp [RoverAction.op])
    obtain ⟨q, _, hu⟩ := hinv.consistent.conf
    obtain rfl := (hu _ _ hat).1
    have hno : ∀ o, RoverFact.holding o ∉ s := by
      rcases hinv.consistent.hand with ⟨_, h⟩ | ⟨h, _⟩
      · exact h
      · exact absurd hfree h
    have hheld : held = none := by
      cases held with
      | none => rfl
      | some o' => exact absurd ((hh o').2 rfl) (hno o')
    subst hheld
    obtain ⟨att', h1, h2, h3⟩ := postLoop_executes v plan _ s' (fun k => if k = v then some o else att k) (acc ++ [.motion t, .attach v o]) (some o)
      (hinv.step v s _ he.1) (fun o' => by simp [mem_apply, RoverAction.op, hno, eq_comm]) (fun o' h => by simpa using h) he.2
    refine ⟨att', ?_, fun rest => ?_, ?_⟩
    · simp [postLoop, roverItem, h1, commandsOf]
    · have := h2 rest
      simpa [postLoop, roverItem, commandsOf] using this
    · show Paired _
      have : grasps ((RoverAction.pick v q1 t q2 p o :: plan).flatMap commandsOf) = .attach v o :: grasps (plan.flatMap commandsOf) := by
        simp [grasps, commandsOf]
      rw [this]
      rcases h3 with h3 | ⟨r, h3, h4⟩
      · rw [h3]; exact .one v o
      · rw [h3]; exact .more v o r h4
  | .place v q1 t q2 p o :: plan, s, s', att, acc, held, hinv, hh, ha, he => by
    have hold := he.1 (.holding o) (by simp [RoverAction.op])
    have hat := he.1 (.atConf v q1) (by simp [RoverAction.op])
    obtain ⟨q, _, hu⟩ := hinv.consistent.conf
    obtain rfl := (hu _ _ hat).1
    have hheld := (hh o).1 hold
    subst hheld
    have hatt := ha o rfl
    obtain ⟨att', h1, h2, h3⟩ := postLoop_executes v plan _ s' att (acc ++ [.motion t, .detach v o]) none
      (hinv.step v s _ he.1) (fun o' => by
        simp only [mem_apply, RoverAction.op, List.mem_cons, List.not_mem_nil, or_false, RoverFact.holding.injEq, reduceCtorEq, false_or, iff_false]
        rintro ⟨h, hn⟩
        exact hn (Option.some.inj ((hh o').1 h)).symm) (by simp) he.2
    refine ⟨att', ?_, fun rest => ?_, ?_⟩
    · simp [postLoop, roverItem, h1, commandsOf, hatt]
    · have := h2 rest
      simpa [postLoop, roverItem, commandsOf, hatt] using this
    · have : grasps ((RoverAction.place v q1 t q2 p o :: plan).flatMap commandsOf) = .detach v o :: grasps (plan.flatMap commandsOf) := by
        simp [grasps, commandsOf]
      rw [this]
      exact .inr ⟨_, rfl, h3⟩

/-- **C59**. For every executable plan the result is, action by action, the trajectory followed by attaching (pick) or detaching (place)
exactly the object of that action; attach and detach alternate, each detach for the body attached before it. -/
theorem C59_matched (p : RoverProblem α) (certified : Set (RoverFact α)) (hc : ∀ f ∈ certified, f.Certified) (hn : p.targets.Nodup)
    (plan : List (RoverAction α)) (s : Set (RoverFact α)) (h : Executes RoverAction.op (p.start certified) plan s) :
    ∃ commands, postProcess (some (plan.map roverItem)) = .ok (some commands) ∧ commands = plan.flatMap commandsOf ∧ Paired (grasps commands) := by
  have hno : ∀ o, RoverFact.holding o ∉ p.start certified := by
    intro o h
    rcases h with h | h
    · simp [RoverProblem.init] at h
    · exact absurd (hc _ h) (by simp [RoverFact.Certified])
  obtain ⟨att', h1, _, h3⟩ := postLoop_executes p.rover plan _ s (fun _ => none) [] none (RoverInv.start p certified hc hn)
    (fun o => by simp [hno]) (by simp) h
  exact ⟨plan.flatMap commandsOf, by simp [postProcess, h1, Except.map], rfl, h3⟩

/-- **C59**: an action with another name makes the result a `ValueError`. -/
theorem C59_other (p : RoverProblem α) (certified : Set (RoverFact α)) (hc : ∀ f ∈ certified, f.Certified) (hn : p.targets.Nodup)
    (plan : List (RoverAction α)) (s : Set (RoverFact α)) (h : Executes RoverAction.op (p.start certified) plan s)
    (name : String) (h1 : name ≠ "pick") (h2 : name ≠ "place") (args : List α) (rest : List (String × List α)) :
    postProcess (some (plan.map roverItem ++ (name, args) :: rest)) = .error .value := by
  have hno : ∀ o, RoverFact.holding o ∉ p.start certified := by
    intro o h
    rcases h with h | h
    · simp [RoverProblem.init] at h
    · exact absurd (hc _ h) (by simp [RoverFact.Certified])
  obtain ⟨att', _, h3, _⟩ := postLoop_executes p.rover plan _ s (fun _ => none) [] none (RoverInv.start p certified hc hn)
    (fun o => by simp [hno]) (by simp) h
  simp [postProcess, h3, postLoop, h1, h2, Except.map]

/-- **C59**: no plan, no commands. -/
theorem C59_none : postProcess (none : Option (List (String × List α))) = .ok none := rfl

omit [DecidableEq α] in
/-- **C59**: the trajectories are driven in an order in which each starts where the one before it ended. `runs t a b`: the trajectory `t`
leads from `a` to `b`; this is what the streams certify. -/
theorem C59_linked (p : RoverProblem α) (certified : Set (RoverFact α)) (hc : ∀ f ∈ certified, f.Certified) (hn : p.targets.Nodup)
    (runs : α → α → α → Prop) (hr1 : ∀ v q1 t q2, .motion v q1 t q2 ∈ certified → runs t q1 q2)
    (hr2 : ∀ v q1 t q2 o, .motionHolding v q1 t q2 o ∈ certified → runs t q1 q2)
    (plan : List (RoverAction α)) (s : Set (RoverFact α)) (h : Executes RoverAction.op (p.start certified) plan s) :
    ∃ legs q, List.Forall₂ (fun t leg => runs t leg.1 leg.2) (motions (plan.flatMap commandsOf)) legs ∧ Linked p.initConf legs q ∧
      .atConf p.rover q ∈ s := by
  have hstat : ∀ f, (match f with | RoverFact.motion .. | .motionHolding .. => True | _ => False) → f ∈ p.start certified → f ∈ certified := by
    intro f hf h
    rcases h with h | h
    · cases f <;> simp [RoverProblem.init] at hf h
    · exact h
  have key : ∀ (plan : List (RoverAction α)) (t : Set (RoverFact α)) (q : α), RoverInv p.rover t → .atConf p.rover q ∈ t →
      (∀ f, (match f with | RoverFact.motion .. | .motionHolding .. => True | _ => False) → f ∈ t → f ∈ certified) →
      Executes RoverAction.op t plan s → ∃ legs q', List.Forall₂ (fun t leg => runs t leg.1 leg.2) (motions (plan.flatMap commandsOf)) legs ∧ Linked q legs q' ∧
      .atConf p.rover q' ∈ s := by
    intro plan
    induction plan with
    | nil => intro t q hi hq _ he; rw [show s = t from he]; exact ⟨[], q, .nil, rfl, hq⟩
    | cons a plan ih =>
      intro t q hi hq hf he
      have hf' : ∀ f, (match f with | RoverFact.motion .. | .motionHolding .. => True | _ => False) → f ∈ a.op.apply t → f ∈ certified := by
        intro f hm h
        refine hf f hm ?_
        rcases h with h | h
        · exact h.1
        · exfalso
          cases f <;> simp at hm <;> cases a <;> simp [RoverAction.op] at h
      obtain ⟨q0, _, hu⟩ := hi.consistent.conf
      cases a with
      | pick v q1 tr q2 x o =>
        have hat := he.1 (.atConf v q1) (by simp [RoverAction.op])
        obtain ⟨rfl, h1⟩ := hu _ _ hat
        have h2 := (hu _ _ hq).2
        obtain rfl : q1 = q := by rw [h1, h2]
        obtain ⟨legs, q', h3, h4, h5⟩ := ih _ q2 (hi.step _ _ _ he.1) (by simp [mem_apply, RoverAction.op]) hf' he.2
        refine ⟨(q1, q2) :: legs, q', ?_, ⟨rfl, h4⟩, h5⟩
        have : motions ((RoverAction.pick p.rover q1 tr q2 x o :: plan).flatMap commandsOf) = tr :: motions (plan.flatMap commandsOf) := by
          simp [motions, commandsOf]
        rw [this]
        exact .cons (hr1 _ _ _ _ (hf _ trivial (he.1 (.motion p.rover q1 tr q2) (by simp [RoverAction.op])))) h3
      | place v q1 tr q2 x o =>
        have hat := he.1 (.atConf v q1) (by simp [RoverAction.op])
        obtain ⟨rfl, h1⟩ := hu _ _ hat
        have h2 := (hu _ _ hq).2
        obtain rfl : q1 = q := by rw [h1, h2]
        obtain ⟨legs, q', h3, h4, h5⟩ := ih _ q2 (hi.step _ _ _ he.1) (by simp [mem_apply, RoverAction.op]) hf' he.2
        refine ⟨(q1, q2) :: legs, q', ?_, ⟨rfl, h4⟩, h5⟩
        have : motions ((RoverAction.place p.rover q1 tr q2 x o :: plan).flatMap commandsOf) = tr :: motions (plan.flatMap commandsOf) := by
          simp [motions, commandsOf]
        rw [this]
        exact .cons (hr2 _ _ _ _ _ (hf _ trivial (he.1 (.motionHolding p.rover q1 tr q2 o) (by simp [RoverAction.op])))) h3
  exact key plan _ p.initConf (RoverInv.start p certified hc hn) (.inl (by simp [RoverProblem.init])) hstat h

/-- **C59** on the plan of `C57_nonvacuous`, which is executable: the commands it gives. -/
theorem C59_nonvacuous : (∃ s, Executes RoverAction.op (twoTargets.start twoCertified)
      [.pick 0 1 5 2 20 10, .place 0 2 5 3 30 10, .pick 0 3 5 4 21 11, .place 0 4 5 4 31 11] s) ∧
    postProcess (some ([.pick 0 1 5 2 20 10, .place 0 2 5 3 30 10, .pick 0 3 5 4 21 11, .place 0 4 5 4 31 11].map roverItem)) =
      .ok (some [.motion 5, .attach 0 10, .motion 5, .detach 0 10, .motion 5, .attach 0 11, .motion 5, .detach 0 11]) := by
  obtain ⟨_, _, s, h, _⟩ := C57_nonvacuous
  exact ⟨⟨s, h⟩, by simp [postProcess, postLoop, roverItem, Except.map]⟩

end Verif.Props
