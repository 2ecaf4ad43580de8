import Verif.Spec.RoverExec
import Verif.Props.Anytime
import Verif.Props.RoverCommands
import Verif.Props.Turtlebot

/-! Executing a plan of the turtlebot experiment: C106. -/

set_option linter.unusedSimpArgs false
set_option linter.unusedSectionVars false

namespace Verif.Props

open Verif.Strips Verif.Spec Verif.Commands Verif.RoverExec Verif.Anytime Verif.Turtlebot

variable {α K F E : Type} [LinearOrder K] [AddCommGroup K] [Field F] [LinearOrder F] [IsStrictOrderedRing F] [FloorSemiring F] [NormedAddCommGroup E] [NormedSpace ℝ E]

theorem getElem_of_isChain {R : E → E → Prop} : ∀ {l : List E}, l.IsChain R → ∀ (i : ℕ) a b, l[i]? = some a → l[i + 1]? = some b → R a b
  | [], _, i, a, b, h1, _ => by simp at h1
  | [x], _, i, a, b, _, h2 => by simp at h2
  | x :: y :: l, h, 0, a, b, h1, h2 => by
    rw [List.isChain_cons_cons] at h
    simp only [List.getElem?_cons_zero, Option.some.injEq, zero_add, List.getElem?_cons_succ] at h1 h2
    subst h1 h2
    exact h.1
  | x :: y :: l, h, i + 1, a, b, h1, h2 => by
    rw [List.isChain_cons_cons] at h
    exact getElem_of_isChain h.2 i a b (by simpa using h1) (by simpa using h2)

/-- A trajectory from `a` to `b` whose movements are parts of accepted motions. -/
def Moves (w : Prm.World E K) (a : E) (tr : List E) (b : E) : Prop :=
  ∃ rest, tr = a :: rest ∧ rest ≠ [] ∧ tr.getLast? = some b ∧ Covered w a a ∧ tr.IsChain (Covered w)

/-- What the stream makes of a path. -/
theorem moves_of_path {w : Prm.World E K} {a b : E} {pts : List E} (hne : pts ≠ []) (hch : (a :: pts ++ [b]).IsChain w.Accepted) {teleport : Bool} {tr : List E}
    (h : (if teleport then some (.ok (some (a :: pts ++ [b]))) else some ((interpolateVectors (a :: pts ++ [b]) (25 / 1000)).map some)) =
      some (.ok (some tr) : Except PyErr (Option (List E)))) : Moves w a tr b := by
  have hcov : (a :: pts ++ [b]).IsChain (Covered w) := hch.imp fun x y hxy => ⟨x, y, hxy, subset_rfl⟩
  have ha : Covered w a a := by
    obtain ⟨c, l, rfl⟩ := List.exists_cons_of_ne_nil hne
    rw [List.cons_append, List.cons_append, List.isChain_cons_cons] at hch
    exact ⟨a, c, hch.1, by rw [segment_same]; exact Set.singleton_subset_iff.2 (left_mem_segment ℝ a c)⟩
  split at h
  · simp only [Option.some.injEq, Except.ok.injEq] at h
    subst h
    exact ⟨pts ++ [b], rfl, by simp, List.getLast?_concat .., ha, hcov⟩
  · obtain ⟨res, hres, hsub, hhead, hlast, -, hseg, -⟩ := C54_interpolation a (pts ++ [b]) (25 / 1000) (by norm_num)
    have e : a :: pts ++ [b] = a :: (pts ++ [b]) := rfl
    rw [e, hres] at h
    simp only [Except.map, Option.some.injEq, Except.ok.injEq] at h
    subst h
    obtain ⟨rest, rfl⟩ : ∃ rest, res = a :: rest := by
      cases res with
      | nil => simp at hhead
      | cons x rest =>
        simp only [List.head?_cons, Option.some.injEq] at hhead
        exact ⟨rest, by rw [hhead]⟩
    refine ⟨rest, rfl, ?_, ?_, ha, ?_⟩
    · rintro rfl
      have := hsub.length_le
      simp at this
    · rw [hlast, ← e]
      exact List.getLast?_concat ..
    · refine hseg.imp ?_
      rintro p q ⟨i, x, y, h1, h2, h3⟩
      obtain ⟨c, d, hcd, hs'⟩ := getElem_of_isChain hcov i x y h1 h2
      exact ⟨c, d, hcd, h3.trans hs'⟩

/-- A motion returned by a stream. -/
theorem stream_path {w : Prm.World E K} (hw : w.Sound) {opt : Options F} {a b : E} {drawn fuel : ℕ} {tr : List E}
    (h : motionStream w opt a b drawn fuel = some (.ok (some tr))) : Moves w a tr b := by
  have hs : w.check a a = true := by
    by_contra hc
    rw [Bool.not_eq_true] at hc
    simp [motionStream, plan, planBy, hc] at h
  have hg : w.check b b = true := by
    by_contra hc
    rw [Bool.not_eq_true] at hc
    simp [motionStream, plan, planBy, hs, hc] at h
  obtain ⟨fuel', counts, answer, hp, -, -, -, -, -, -, -, -, hpath⟩ := C55_anytime_partial hw hs hg opt.minS opt.maxS opt.factor 32 false drawn
  simp only [motionStream] at h
  cases hq : plan w a b opt.minS opt.maxS opt.factor 32 false drawn fuel with
  | none => simp [hq] at h
  | some r =>
    have := plan_unique hp hq
    subst this
    rw [hq] at h
    match answer, h with
    | .ok (some path), h =>
      simp only at h
      obtain ⟨pts, rfl, hne, hch⟩ := hpath path rfl
      exact moves_of_path hne hch h

/-- What the facts certified by the streams mean for the movements. -/
def Backed (w : Option α → Prm.World E K) (val : Values α E) : RoverFact α → Prop
  | .motion _ q1 t q2 => Moves (w none) (val.conf q1) (val.traj t) (val.conf q2)
  | .motionHolding _ q1 t q2 o => Moves (w (some o)) (val.conf q1) (val.traj t) (val.conf q2)
  | .kin _ p q => val.conf q = ik (val.pose p)
  | .conf _ _ => True
  | _ => False

theorem streamed_backed {w : Option α → Prm.World E K} (hw : ∀ o, (w o).Sound) {opt : Options F} {val : Values α E} {f : RoverFact α} (h : Streamed w opt val f) :
    Backed w val f := by
  cases f with
  | motion v q1 t q2 => obtain ⟨drawn, fuel, h⟩ := h; exact stream_path (hw _) h
  | motionHolding v q1 t q2 o => obtain ⟨drawn, fuel, h⟩ := h; exact stream_path (hw _) h
  | kin o p q => exact h
  | conf v q => trivial
  | _ => exact h

variable [DecidableEq α]

theorem joined_append {legs legs' : List (Leg α E)} {p q r : E} (h : Joined p legs q) (h' : Joined q legs' r) : Joined p (legs ++ legs') r := by
  induction legs generalizing p with
  | nil => rw [show q = p from h] at h'; exact h'
  | cons l legs ih => exact ⟨h.1, ih h.2⟩

/-- What driving along waypoints does. -/
theorem drive_spec {w : Prm.World E K} (s : Sim α E) (l : List E) (hch : (s.rover :: l).IsChain (Covered w)) :
    let r := drive s l
    Joined s.rover r.1 r.2.rover ∧ r.2.held = s.held ∧ (s.rover :: l).getLast? = some r.2.rover ∧
      (∀ o, s.held ≠ some o → r.2.obj o = s.obj o) ∧ (∀ o, s.held = some o → r.2.obj o = s.obj o + (r.2.rover - s.rover)) ∧
      ∀ leg ∈ r.1, leg.before.held = s.held ∧ Covered w leg.before.rover leg.stop ∧ (∀ o, s.held ≠ some o → leg.before.obj o = s.obj o) ∧
        ∀ o, s.held = some o → leg.before.obj o = s.obj o + (leg.before.rover - s.rover) := by
  induction l generalizing s with
  | nil => exact ⟨rfl, rfl, rfl, fun _ _ => rfl, fun o _ => by simp [drive], by simp [drive]⟩
  | cons p l ih =>
    rw [List.isChain_cons_cons] at hch
    obtain ⟨h1, h2, h3, h4, h5, h6⟩ := ih (s.moveTo p) hch.2
    have hm : ∀ o, s.held ≠ some o → (s.moveTo p).obj o = s.obj o := fun o ho => by simp [Sim.moveTo, ho]
    have hm' : ∀ o, s.held = some o → (s.moveTo p).obj o = s.obj o + (p - s.rover) := fun o ho => by simp [Sim.moveTo, ho]
    refine ⟨⟨rfl, h1⟩, h2, ?_, fun o ho => (h4 o ho).trans (hm o ho), fun o ho => ?_, ?_⟩
    · rw [List.getLast?_cons_cons]
      exact h3
    · show (drive (s.moveTo p) l).2.obj o = _
      rw [h5 o ho, hm' o ho]
      show s.obj o + (p - s.rover) + ((drive (s.moveTo p) l).2.rover - p) = s.obj o + ((drive (s.moveTo p) l).2.rover - s.rover)
      abel
    · intro leg hleg
      rcases List.mem_cons.1 hleg with rfl | hleg
      · exact ⟨rfl, hch.1, fun _ _ => rfl, fun o _ => by simp⟩
      · obtain ⟨a, b, c, d⟩ := h6 leg hleg
        refine ⟨a, b, fun o ho => (c o ho).trans (hm o ho), fun o ho => ?_⟩
        rw [d o ho, hm' o ho]
        show s.obj o + (p - s.rover) + (leg.before.rover - p) = s.obj o + (leg.before.rover - s.rover)
        abel

theorem execute_append (val : Values α E) (s : Sim α E) (l l' : List (RoverCommand α)) :
    execute val s (l ++ l') = ((execute val s l).1 ++ (execute val (execute val s l).2 l').1, (execute val (execute val s l).2 l').2) := by
  induction l generalizing s with
  | nil => simp [execute]
  | cons c l ih => simp [execute, ih]

/-- The world agrees with the planner's state. -/
structure Agrees (rover : α) (val : Values α E) (s : Set (RoverFact α)) (sim : Sim α E) : Prop where
  conf : ∀ q, .atConf rover q ∈ s → sim.rover = val.conf q
  held : ∀ o, .holding o ∈ s ↔ sim.held = some o
  pose : ∀ o p, .atPose o p ∈ s → sim.obj o = val.pose p
  load : ∀ o, sim.held = some o → sim.obj o = sim.rover

/-- The commands of a plan whose facts are backed. -/
theorem executed_of_backed (p : RoverProblem α) (hn : p.targets.Nodup) (hl : p.targets.length ≤ p.initPoses.length ∧ p.targets.length ≤ p.goalPoses.length)
    (val : Values α E) (w : Option α → Prm.World E K) 
    (certified : Set (RoverFact α)) (hc : ∀ f ∈ certified, Backed w val f)
    (plan : List (RoverAction α)) (s : Set (RoverFact α)) (h : Executes RoverAction.op (p.start certified) plan s) (hg : ∀ f ∈ p.goal, f ∈ s)
    (sim : Sim α E) (hi : sim.Initial p val) :
    ∃ commands, postProcess (some (plan.map roverItem)) = .ok (some commands) ∧
      (∀ (i : ℕ) o x, p.targets[i]? = some o → p.goalPoses[i]? = some x → (execute val sim commands).2.obj o = val.pose x) ∧
      (execute val sim commands).2.held = none ∧
      Joined (val.conf p.initConf) (execute val sim commands).1 (execute val sim commands).2.rover ∧
      (∀ leg ∈ (execute val sim commands).1, Covered (w leg.before.held) leg.before.rover leg.stop ∧
        (∀ o, leg.before.held = some o → o ∈ p.targets ∧ leg.before.obj o = leg.before.rover) ∧ ∀ o, o ∉ p.targets → leg.before.obj o = sim.obj o) ∧
      ∀ o, o ∉ p.targets → (execute val sim commands).2.obj o = sim.obj o := by
  have hc' : ∀ f ∈ certified, f.Certified := by
    intro f hf
    have := hc f hf
    cases f <;> trivial
  obtain ⟨commands, hpost, rfl, -⟩ := C59_matched p certified hc' hn plan s h
  obtain ⟨hfree, hgoal⟩ := C57_goal p certified hc' hn hl plan s h hg
  have hstart := RoverInv.start p certified hc' hn
  have hno : ∀ o, RoverFact.holding o ∉ p.start certified := by
    intro o h
    rcases h with h | h
    · simp [RoverProblem.init] at h
    · exact absurd (hc' _ h) (by simp [RoverFact.Certified])
  have hag : Agrees p.rover val (p.start certified) sim := by
    refine ⟨?_, ?_, ?_, ?_⟩
    · intro q hq
      rcases hq with hq | hq
      · have : q = p.initConf := by simpa [RoverProblem.init] using hq
        rw [this]
        exact hi.1
      · exact absurd (hc' _ hq) (by simp [RoverFact.Certified])
    · intro o
      rw [hi.2.1]
      simp [hno]
    · intro o x hx
      rcases hx with hx | hx
      · have : ∃ r ∈ p.rows, r.1 = o ∧ r.2.1 = x := by simpa [RoverProblem.init, eq_comm] using hx
        obtain ⟨r, hr, rfl, rfl⟩ := this
        exact hi.2.2 r hr
      · exact absurd (hc' _ hx) (by simp [RoverFact.Certified])
    · intro o ho
      rw [hi.2.1] at ho
      cases ho
  have htgt : ∀ o, RoverFact.target o ∈ p.start certified → o ∈ p.targets := by
    intro o ho
    rcases ho with h | h
    · obtain ⟨r, hr, rfl⟩ : ∃ r ∈ p.rows, r.1 = o := by simpa [RoverProblem.init, eq_comm] using h
      exact (List.of_mem_zip hr).1
    · exact absurd (hc' _ h) (by simp [RoverFact.Certified])
  have hstatic : ∀ f, f.Certified → f ∈ p.start certified → Backed w val f := by
    intro f hf h
    rcases h with h | h
    · cases f <;> simp [RoverFact.Certified] at hf <;> first | trivial | simp [RoverProblem.init] at h
    · exact hc f h
  have key : ∀ (plan : List (RoverAction α)) (t : Set (RoverFact α)) (sim' : Sim α E), RoverInv p.rover t → Agrees p.rover val t sim' →
      (∀ f, f.Certified → f ∈ t → Backed w val f) → (∀ o, RoverFact.target o ∈ t → o ∈ p.targets) → (∀ o, o ∉ p.targets → sim'.obj o = sim.obj o) →
      Executes RoverAction.op t plan s →
      Agrees p.rover val s (execute val sim' (plan.flatMap commandsOf)).2 ∧
      Joined sim'.rover (execute val sim' (plan.flatMap commandsOf)).1 (execute val sim' (plan.flatMap commandsOf)).2.rover ∧
      (∀ leg ∈ (execute val sim' (plan.flatMap commandsOf)).1, Covered (w leg.before.held) leg.before.rover leg.stop ∧
        (∀ o, leg.before.held = some o → o ∈ p.targets ∧ leg.before.obj o = leg.before.rover) ∧ ∀ o, o ∉ p.targets → leg.before.obj o = sim.obj o) ∧
      ∀ o, o ∉ p.targets → (execute val sim' (plan.flatMap commandsOf)).2.obj o = sim.obj o := by
    intro plan
    induction plan with
    | nil =>
      intro t sim' _ ha _ _ hk he
      rw [show s = t from he]
      exact ⟨ha, rfl, by simp [execute], hk⟩
    | cons a plan ih =>
      intro t sim' hinv ha hs ht hk he
      have hs' : ∀ f, f.Certified → f ∈ a.op.apply t → Backed w val f := by
        intro f hf hm
        refine hs f hf ?_
        rcases hm with hm | hm
        · exact hm.1
        · exfalso
          cases a <;> simp only [RoverAction.op, List.mem_cons, List.not_mem_nil, or_false] at hm <;> rcases hm with rfl | rfl | rfl <;> simp [RoverFact.Certified] at hf
      have ht' : ∀ o, RoverFact.target o ∈ a.op.apply t → o ∈ p.targets := by
        intro o ho
        refine ht o ?_
        rcases ho with ho | ho
        · exact ho.1
        · exfalso
          cases a <;> simp [RoverAction.op] at ho
      obtain ⟨q0, -, hu⟩ := hinv.consistent.conf
      have hinv' := hinv.step _ _ _ he.1
      obtain ⟨q0', -, hu'⟩ := hinv'.consistent.conf
      rw [List.flatMap_cons, execute_append]
      cases a with
      | pick v q1 tr q2 x o =>
        have hat := he.1 (.atConf v q1) (by simp [RoverAction.op])
        obtain ⟨rfl, -⟩ := hu _ _ hat
        have hpose := he.1 (.atPose o x) (by simp [RoverAction.op])
        have hkin : val.conf q2 = val.pose x := hs (.kin o x q2) trivial (he.1 (.kin o x q2) (by simp [RoverAction.op]))
        have hstream : Backed w val (.motion p.rover q1 tr q2) := hs _ trivial (he.1 _ (by simp [RoverAction.op]))
        have htar := ht o (he.1 (.target o) (by simp [RoverAction.op]))
        have hnone : sim'.held = none := by
          cases hh : sim'.held with
          | none => rfl
          | some o' =>
            have h1 := (ha.held o').2 hh
            rcases hinv.consistent.hand with ⟨_, h2⟩ | ⟨h2, _⟩
            · exact absurd h1 (h2 o')
            · exact absurd (he.1 .hfree (by simp [RoverAction.op])) h2
        obtain ⟨rest, htr, -, hlast, hcov, hch⟩ := hstream
        have hrov := ha.conf q1 hat
        have hchain : (sim'.rover :: val.traj tr).IsChain (Covered (w none)) := by
          rw [htr, List.isChain_cons_cons, ← htr]
          rw [hrov]
          exact ⟨hcov, hch⟩
        obtain ⟨d1, d2, d3, d4, -, d6⟩ := drive_spec sim' (val.traj tr) hchain
        have hend : (drive sim' (val.traj tr)).2.rover = val.conf q2 := by
          have : (sim'.rover :: val.traj tr).getLast? = some (val.conf q2) := by
            rw [htr, List.getLast?_cons_cons, ← htr, hlast]
          rw [this] at d3
          exact (Option.some.inj d3).symm
        have hcmd : execute val sim' (commandsOf (.pick p.rover q1 tr q2 x o)) = ((drive sim' (val.traj tr)).1, { (drive sim' (val.traj tr)).2 with held := some o }) := by
          simp [execute, commandsOf, command]
        rw [hcmd]
        have hkeep : ∀ o', (drive sim' (val.traj tr)).2.obj o' = sim'.obj o' := fun o' => d4 o' (by rw [hnone]; simp)
        have hag' : Agrees p.rover val ((RoverAction.pick p.rover q1 tr q2 x o).op.apply t) { (drive sim' (val.traj tr)).2 with held := some o } := by
          refine ⟨?_, ?_, ?_, ?_⟩
          · intro q hq
            have h2 : RoverFact.atConf p.rover q2 ∈ (RoverAction.pick p.rover q1 tr q2 x o).op.apply t := by simp [mem_apply, RoverAction.op]
            rw [(hu' _ _ hq).2, ← (hu' _ _ h2).2]
            exact hend
          · intro o'
            have : ∀ o', RoverFact.holding o' ∉ t := fun o' h' => by
              have := (ha.held o').1 h'
              rw [hnone] at this
              cases this
            simp [mem_apply, RoverAction.op, this, eq_comm]
          · intro o' x' hx'
            have : RoverFact.atPose o' x' ∈ t := by
              simp only [mem_apply, RoverAction.op, List.mem_cons, List.not_mem_nil, or_false, reduceCtorEq] at hx'
              exact hx'.1
            show (drive sim' (val.traj tr)).2.obj o' = _
            rw [hkeep, ha.pose o' x' this]
          · intro o' ho'
            obtain rfl : o = o' := by simpa using ho'
            show (drive sim' (val.traj tr)).2.obj o = (drive sim' (val.traj tr)).2.rover
            rw [hkeep, hend, hkin, ha.pose o x hpose]
        obtain ⟨i1, i2, i3, i4⟩ := ih _ _ hinv' hag' hs' ht' (fun o' ho' => (hkeep o').trans (hk o' ho')) he.2
        refine ⟨i1, joined_append d1 i2, ?_, i4⟩
        intro leg hleg
        rcases List.mem_append.1 hleg with hleg | hleg
        · obtain ⟨e1, e2, e3, -⟩ := d6 leg hleg
          refine ⟨by rw [e1, hnone]; exact e2, fun o' ho' => ?_, fun o' ho' => ?_⟩
          · rw [e1, hnone] at ho'
            cases ho'
          · rw [e3 o' (by rw [hnone]; simp)]
            exact hk o' ho'
        · exact i3 leg hleg
      | place v q1 tr q2 x o =>
        have hat := he.1 (.atConf v q1) (by simp [RoverAction.op])
        obtain ⟨rfl, -⟩ := hu _ _ hat
        have hhold := he.1 (.holding o) (by simp [RoverAction.op])
        have hkin : val.conf q2 = val.pose x := hs (.kin o x q2) trivial (he.1 (.kin o x q2) (by simp [RoverAction.op]))
        have hstream : Backed w val (.motionHolding p.rover q1 tr q2 o) := hs _ trivial (he.1 _ (by simp [RoverAction.op]))
        have htar := ht o (he.1 (.target o) (by simp [RoverAction.op]))
        have hsome := (ha.held o).1 hhold
        obtain ⟨rest, htr, -, hlast, hcov, hch⟩ := hstream
        have hrov := ha.conf q1 hat
        have hchain : (sim'.rover :: val.traj tr).IsChain (Covered (w (some o))) := by
          rw [htr, List.isChain_cons_cons, ← htr]
          rw [hrov]
          exact ⟨hcov, hch⟩
        obtain ⟨d1, d2, d3, d4, d5, d6⟩ := drive_spec sim' (val.traj tr) hchain
        have hend : (drive sim' (val.traj tr)).2.rover = val.conf q2 := by
          have : (sim'.rover :: val.traj tr).getLast? = some (val.conf q2) := by
            rw [htr, List.getLast?_cons_cons, ← htr, hlast]
          rw [this] at d3
          exact (Option.some.inj d3).symm
        have hcmd : execute val sim' (commandsOf (.place p.rover q1 tr q2 x o)) = ((drive sim' (val.traj tr)).1, { (drive sim' (val.traj tr)).2 with held := none }) := by
          simp [execute, commandsOf, command]
        rw [hcmd]
        have hload := ha.load o hsome
        have hkeep : ∀ o', o' ≠ o → (drive sim' (val.traj tr)).2.obj o' = sim'.obj o' := fun o' ho' => d4 o' (by rw [hsome]; simpa using fun e => ho' e.symm)
        have hmoved : (drive sim' (val.traj tr)).2.obj o = val.pose x := by
          rw [d5 o hsome, hload, hend, hkin]
          abel
        have hag' : Agrees p.rover val ((RoverAction.place p.rover q1 tr q2 x o).op.apply t) { (drive sim' (val.traj tr)).2 with held := none } := by
          refine ⟨?_, ?_, ?_, ?_⟩
          · intro q hq
            have h2 : RoverFact.atConf p.rover q2 ∈ (RoverAction.place p.rover q1 tr q2 x o).op.apply t := by simp [mem_apply, RoverAction.op]
            rw [(hu' _ _ hq).2, ← (hu' _ _ h2).2]
            exact hend
          · intro o'
            simp only [mem_apply, RoverAction.op, List.mem_cons, List.not_mem_nil, or_false, RoverFact.holding.injEq, reduceCtorEq, false_or, iff_false]
            rintro ⟨h1, h2⟩
            have := (ha.held o').1 h1
            rw [hsome] at this
            exact h2 (Option.some.inj this).symm
          · intro o' x' hx'
            show (drive sim' (val.traj tr)).2.obj o' = _
            have hat' : ∀ x'', RoverFact.atPose o x'' ∉ t := by
              rcases hinv.consistent.target o (he.1 (.target o) (by simp [RoverAction.op])) with ⟨_, h2⟩ | ⟨h2, _⟩
              · exact h2
              · exact absurd hhold h2
            simp only [mem_apply, RoverAction.op, List.mem_cons, List.not_mem_nil, or_false, RoverFact.atPose.injEq, reduceCtorEq, false_or] at hx'
            rcases hx' with hx' | ⟨rfl, rfl⟩
            · rw [hkeep o' (fun e => hat' x' (e ▸ hx'.1))]
              exact ha.pose o' x' hx'.1
            · exact hmoved
          · intro o' ho'
            cases ho'
        have hk' : ∀ o', o' ∉ p.targets → (drive sim' (val.traj tr)).2.obj o' = sim.obj o' := fun o' ho' => by
          rw [hkeep o' (fun e => ho' (e ▸ htar))]
          exact hk o' ho'
        obtain ⟨i1, i2, i3, i4⟩ := ih _ _ hinv' hag' hs' ht' hk' he.2
        refine ⟨i1, joined_append d1 i2, ?_, i4⟩
        intro leg hleg
        rcases List.mem_append.1 hleg with hleg | hleg
        · obtain ⟨e1, e2, e3, e4⟩ := d6 leg hleg
          refine ⟨by rw [e1, hsome]; exact e2, fun o' ho' => ?_, fun o' ho' => ?_⟩
          · rw [e1, hsome] at ho'
            cases ho'
            refine ⟨htar, ?_⟩
            rw [e4 o hsome, hload]
            abel
          · rw [e3 o' (by rw [hsome]; simp only [ne_eq, Option.some.injEq]; exact fun e => ho' (e ▸ htar))]
            exact hk o' ho'
        · exact i3 leg hleg
  obtain ⟨k1, k2, k3, k4⟩ := key plan _ sim hstart hag hstatic htgt (fun _ _ => rfl) h
  refine ⟨_, hpost, ?_, ?_, hi.1 ▸ k2, k3, k4⟩
  · intro i o x ho hx
    exact k1.pose o x ((hgoal i o x ho hx x).2 rfl)
  · cases hh : (execute val sim (plan.flatMap commandsOf)).2.held with
    | none => rfl
    | some o =>
      have h1 := (k1.held o).2 hh
      have hcons := C57_consistent p certified hc' hn plan s h
      rcases hcons.hand with ⟨_, h2⟩ | ⟨h2, _⟩
      · exact absurd h1 (h2 o)
      · exact absurd hfree h2

/-- C106: the commands of an executable plan, with motions and configurations from the streams, take the targets from their initial to their goal places. The legs that the rover drives join up, starting at its initial
configuration. Each is part of a motion that was accepted by the motion check for the shape of what is moved: that of the held object if there is one, which then is where the rover is. Objects that are not targets stay. -/
theorem C106_executed (p : RoverProblem α) (hn : p.targets.Nodup) (hl : p.targets.length ≤ p.initPoses.length ∧ p.targets.length ≤ p.goalPoses.length)
    (val : Values α E) (w : Option α → Prm.World E K) (hw : ∀ o, (w o).Sound) (opt : Options F)
    (certified : Set (RoverFact α)) (hc : ∀ f ∈ certified, Streamed w opt val f)
    (plan : List (RoverAction α)) (s : Set (RoverFact α)) (h : Executes RoverAction.op (p.start certified) plan s) (hg : ∀ f ∈ p.goal, f ∈ s)
    (sim : Sim α E) (hi : sim.Initial p val) :
    ∃ commands, postProcess (some (plan.map roverItem)) = .ok (some commands) ∧
      (∀ (i : ℕ) o x, p.targets[i]? = some o → p.goalPoses[i]? = some x → (execute val sim commands).2.obj o = val.pose x) ∧
      (execute val sim commands).2.held = none ∧
      Joined (val.conf p.initConf) (execute val sim commands).1 (execute val sim commands).2.rover ∧
      (∀ leg ∈ (execute val sim commands).1, Covered (w leg.before.held) leg.before.rover leg.stop ∧
        (∀ o, leg.before.held = some o → o ∈ p.targets ∧ leg.before.obj o = leg.before.rover) ∧ ∀ o, o ∉ p.targets → leg.before.obj o = sim.obj o) ∧
      ∀ o, o ∉ p.targets → (execute val sim commands).2.obj o = sim.obj o :=
  executed_of_backed p hn hl val w certified (fun f hf => streamed_backed hw (hc f hf)) plan s h hg sim hi

/-- A line on which every motion is accepted; the sampler always returns 1. The distance is not of interest. -/
noncomputable def freeLine : Prm.World ℝ ℤ where
  check _ _ := true
  draw _ := 1
  dist _ _ := 0
  knn := Prm.exactKnn fun _ _ => 0
  knnUpdate S new k := Prm.exactKnn (fun _ _ => 0) (S ++ new) k
  shortest := Prm.refShortest
  visits E _ := E

theorem freeLine_sound : freeLine.Sound where
  dist_symm _ _ := rfl
  dist_nonneg _ _ := le_rfl
  dijkstra := Prm.refShortest_correct
  knn_true S k := Prm.exactKnn_true freeLine S k
  knnUpdate_true S new k := Prm.exactKnn_true freeLine (S ++ new) k

theorem freeLine_grow : ((Prm.Knn.init 32 false 0).grow freeLine 2).2 = .ok () := by rfl

theorem freeLine_shortest : ∃ L : List (Prm.Edge ℤ),
    (Prm.linkTo 3 [(0, 0), (1, 0)] (Prm.linkTo 2 [(0, 0), (1, 0)] ((⟨2, [], [⟨0, 1, 0⟩]⟩ : Prm.NkGraph ℤ).addNodes 2))).edges = L ∧
      Prm.refShortest L 2 3 = ((0 : WithTop ℤ), [0]) := ⟨_, rfl, by decide +kernel⟩

theorem freeLine_query (a b : ℝ) : (((Prm.Knn.init 32 false 0).grow freeLine 2).1.query freeLine a b).2 = .ok ((0 : WithTop ℤ), [1]) := by
  have hq : ∀ q, freeLine.querySamples [1, 1] 0 q = [(0, 0), (1, 0)] := fun q => rfl
  obtain ⟨L, h1, h2⟩ := freeLine_shortest
  have h3 : freeLine.shortest = Prm.refShortest := rfl
  have t1 : ((Prm.Knn.init 32 false 0).grow freeLine 2).1.samples = some [1, 1] := by rfl
  have t2 : ((Prm.Knn.init 32 false 0).grow freeLine 2).1.graph = some ⟨2, [], [⟨0, 1, 0⟩]⟩ := by rfl
  have t3 : ((Prm.Knn.init 32 false 0).grow freeLine 2).1.connR = none := by rfl
  have t4 : ((Prm.Knn.init 32 false 0).grow freeLine 2).1.certified = some 0 := by rfl
  generalize ((Prm.Knn.init 32 false 0).grow freeLine 2).1 = s at *
  simp only [Prm.Knn.query, t1, t2, t3, t4, Option.or, Prm.World.solve, hq, h1, h3, h2]
  rfl

theorem freeLine_plan (a b : ℝ) : plan freeLine a b 2 2 (3 : ℚ) 32 false 0 2 = some ([2], .ok (some [a, 1, b])) := by
  have hc : ∀ x y, freeLine.check x y = true := fun _ _ => rfl
  have h1 : (2 : ℚ) < 2 + 1 := by norm_num
  have h2 : ⌊(2 : ℚ)⌋₊ = 2 := Nat.floor_natCast 2
  have h3 := freeLine_grow
  have h4 := freeLine_query a b
  simp only [plan, planBy, loop, bodyBy, hc, Nat.cast_ofNat, h1, h2, if_true]
  simp [h3, h4, finish]

/-- The values in the example: target 10 goes from 0 to 2 and target 11 from 1 to 5, with the rover at −1 in the beginning. -/
def carryValues : Values ℕ ℝ where
  conf q := if q = 1 then -1 else if q = 2 then 0 else if q = 3 then 2 else if q = 4 then 1 else 5
  pose x := if x = 20 then 0 else if x = 30 then 2 else if x = 21 then 1 else 5
  traj t := if t = 5 then [-1, 1, 0] else if t = 6 then [0, 1, 2] else if t = 7 then [2, 1, 1] else [1, 1, 5]

/-- What the streams certify in the example. -/
def carryCertified : Set (RoverFact ℕ) :=
  {.motion 0 1 5 2, .motionHolding 0 2 6 3 10, .motion 0 3 7 4, .motionHolding 0 4 8 5 11, .kin 10 20 2, .kin 10 30 3, .kin 11 21 4, .kin 11 31 5}

/-- The plan of the example. -/
def carryPlan : List (RoverAction ℕ) := [.pick 0 1 5 2 20 10, .place 0 2 6 3 30 10, .pick 0 3 7 4 21 11, .place 0 4 8 5 31 11]

/-- The world at the beginning. -/
def carrySim : Sim ℕ ℝ := ⟨-1, fun o => if o = 10 then 0 else 1, none⟩

/-- C106: the hypotheses are met by carrying two targets along a line. -/
theorem C106_nonvacuous : twoTargets.targets.Nodup ∧ (twoTargets.targets.length ≤ twoTargets.initPoses.length ∧ twoTargets.targets.length ≤ twoTargets.goalPoses.length) ∧
    freeLine.Sound ∧ (∀ f ∈ carryCertified, Streamed (fun _ => freeLine) ⟨true, 2, 2, (3 : ℚ)⟩ carryValues f) ∧
    (∃ s, Executes RoverAction.op (twoTargets.start carryCertified) carryPlan s ∧ ∀ f ∈ twoTargets.goal, f ∈ s) ∧ carrySim.Initial twoTargets carryValues := by
  refine ⟨by decide, by decide, freeLine_sound, ?_, ?_, ?_⟩
  · have hm : ∀ a b : ℝ, motionStream freeLine ⟨true, 2, 2, (3 : ℚ)⟩ a b 0 2 = some (.ok (some [a, 1, b])) := fun a b => by simp [motionStream, freeLine_plan]
    intro f hf
    simp only [carryCertified, Set.mem_insert_iff, Set.mem_singleton_iff] at hf
    rcases hf with rfl | rfl | rfl | rfl | rfl | rfl | rfl | rfl
    · exact ⟨0, 2, by rw [hm]; simp [carryValues]⟩
    · exact ⟨0, 2, by rw [hm]; simp [carryValues]⟩
    · exact ⟨0, 2, by rw [hm]; simp [carryValues]⟩
    · exact ⟨0, 2, by rw [hm]; simp [carryValues]⟩
    all_goals simp [Streamed, carryValues, ik]
  · refine ⟨_, ⟨?_, ?_, ?_, ?_, rfl⟩, ?_⟩ <;>
    simp [Op.Applicable, RoverAction.op, mem_apply, RoverProblem.start, RoverProblem.init, RoverProblem.goal, RoverProblem.rows, twoTargets, carryCertified, carryPlan]
  · refine ⟨?_, rfl, ?_⟩
    · simp [carrySim, carryValues, twoTargets]
    · simp [carrySim, carryValues, twoTargets, RoverProblem.rows]

/-- C106: targets are not obstacles of each other, so that a plan may carry one target through the place of another: of the commands of the example one leg, driven with target 10, ends where target 11 stands. -/
theorem C106_targets_false : ∃ commands, postProcess (some (carryPlan.map roverItem)) = .ok (some commands) ∧
    ∃ leg ∈ (execute carryValues carrySim commands).1, leg.before.held = some 10 ∧ leg.before.obj 11 = leg.stop := by
  refine ⟨_, rfl, ?_⟩
  have h : (execute carryValues carrySim [.motion 5, .attach 0 10, .motion 6, .detach 0 10, .motion 7, .attach 0 11, .motion 8, .detach 0 11]).1[4]? =
      some ⟨(({ (((carrySim.moveTo (-1)).moveTo 1).moveTo 0) with held := some 10 }) : Sim ℕ ℝ).moveTo 0, 1⟩ := by
    simp [execute, command, drive, carryValues]
  refine ⟨_, List.mem_of_getElem? h, rfl, ?_⟩
  simp [Sim.moveTo, carrySim]

end Verif.Props
