import Verif.Model.BatchExec
import Verif.Lemmas.BatchSound
import Verif.Props.BatchHallway
import Verif.Props.Ferry

/-! The turtlebot task with the motion check as the planner calls it, on whole batches: C141. -/

namespace Verif.Props

open Verif.Sat2D Verif.Spec Verif.Turtlebot Verif.Hallway Verif.Prm Verif.Net Verif.Strips Verif.Commands Verif.RoverExec Verif.Bound Verif.Anytime MeasureTheory

/-- C141: a path that the anytime planning call returns leads from the start to the goal with at least one place between them, and each of its motions was accepted, in one direction or
the other. This is so whatever the checker answers for motions whose answer depends on the batch, and also if it raises for some batches. -/
theorem C141_answers {P K F : Type*} [LinearOrder K] [AddCommGroup K] [Field F] [LinearOrder F] [FloorSemiring F] {w : World P K} (hw : w.Sound) {check : Batch P} {lo hi : P → P → Bool}
    (hb : check.Between lo hi) {a b : P} {minS maxS : ℕ} {scale : F → F} {k : ℕ} {tr : Bool} {d fuel : ℕ} {counts : List ℕ} {path : List P}
    (h : planB w check a b minS maxS scale k tr d fuel = some (counts, .ok (some path))) :
    ∃ pts, path = a :: pts ++ [b] ∧ pts ≠ [] ∧ path.IsChain fun p q => hi p q = true ∨ hi q p = true := by
  obtain ⟨pts, rfl, hne, hch⟩ := planB_sound hw hb h
  exact ⟨pts, rfl, hne, hch⟩

section General

variable {α K F E : Type} [LinearOrder K] [AddCommGroup K] [Field F] [LinearOrder F] [FloorSemiring F] [NormedAddCommGroup E] [NormedSpace ℝ E]

theorem streamB_path {w : World E K} (hw : w.Sound) {check : Batch E} {lo hi : E → E → Bool} (hb : check.Between lo hi) {opt : Options F} {a b : E} {drawn fuel : ℕ} {tr : List E}
    (h : motionStreamB w check opt a b drawn fuel = some (.ok (some tr))) : Moves (w.withCheck hi) a tr b := by
  unfold motionStreamB at h
  split at h
  · cases h
  · cases h
  · cases h
  · rename_i path hp
    obtain ⟨pts, rfl, hne, hch⟩ := planB_sound hw hb hp
    exact moves_of_path hne hch h

theorem streamedB_backed {w : Option α → World E K} (hw : ∀ o, (w o).Sound) {check : Option α → Batch E} {lo hi : Option α → E → E → Bool}
    (hb : ∀ o, (check o).Between (lo o) (hi o)) {opt : Options F} {val : Values α E} {f : RoverFact α} (h : StreamedB w check opt val f) :
    Backed (fun o => (w o).withCheck (hi o)) val f := by
  cases f with
  | motion r q1 t q2 =>
    obtain ⟨d, fuel, h⟩ := h
    exact streamB_path (hw none) (hb none) h
  | motionHolding r q1 t q2 o =>
    obtain ⟨d, fuel, h⟩ := h
    exact streamB_path (hw (some o)) (hb (some o)) h
  | kin o p q => exact h
  | conf r q => trivial
  | _ => exact h.elim

variable [DecidableEq α]

/-- C141: C106 for streams whose checker judges whole batches. The commands of an executable plan take the targets to their goal places; each leg that is driven is part of a motion that
the checker for the moved shape accepted. -/
theorem C141_executed (p : RoverProblem α) (hn : p.targets.Nodup) (hl : p.targets.length ≤ p.initPoses.length ∧ p.targets.length ≤ p.goalPoses.length)
    (val : Values α E) (w : Option α → World E K) (hw : ∀ o, (w o).Sound) (check : Option α → Batch E) {lo hi : Option α → E → E → Bool}
    (hb : ∀ o, (check o).Between (lo o) (hi o)) (opt : Options F)
    (certified : Set (RoverFact α)) (hc : ∀ f ∈ certified, StreamedB w check opt val f)
    (plan : List (RoverAction α)) (s : Set (RoverFact α)) (h : Executes RoverAction.op (p.start certified) plan s) (hg : ∀ f ∈ p.goal, f ∈ s)
    (sim : Sim α E) (hi' : sim.Initial p val) :
    ∃ commands, postProcess (some (plan.map roverItem)) = .ok (some commands) ∧
      (∀ (i : ℕ) o x, p.targets[i]? = some o → p.goalPoses[i]? = some x → (execute val sim commands).2.obj o = val.pose x) ∧
      (execute val sim commands).2.held = none ∧
      Joined (val.conf p.initConf) (execute val sim commands).1 (execute val sim commands).2.rover ∧
      (∀ leg ∈ (execute val sim commands).1,
        (∃ a b, (hi leg.before.held a b = true ∨ hi leg.before.held b a = true) ∧ segment ℝ leg.before.rover leg.stop ⊆ segment ℝ a b) ∧
        (∀ o, leg.before.held = some o → o ∈ p.targets ∧ leg.before.obj o = leg.before.rover) ∧ ∀ o, o ∉ p.targets → leg.before.obj o = sim.obj o) ∧
      ∀ o, o ∉ p.targets → (execute val sim commands).2.obj o = sim.obj o :=
  executed_of_backed p hn hl val _ certified (fun f hf => streamedB_backed hw hb (hc f hf)) plan s h hg sim hi'

end General

section Turtle

variable {α : Type}

/-- The turtlebot's motion check for a shape in the hallway world. -/
theorem turtle_between {scale dd : ℝ} {num : ℕ} {u : ℕ → ℝ} {P : Problem} (hP : hallwayManip scale dd num u = .ok P) (hgap : P.gap ≤ 7 / 5) {shape : List (ℝ × ℝ)} (hs : Footprint shape) :
    (batch (fun x : Space 2 => (x 0, x 1)) shape (P.obstacles.map Box.corners)).Between
      (acceptedAlways (fun x : Space 2 => (x 0, x 1)) shape (P.obstacles.map Box.corners)) (acceptedOnce (fun x : Space 2 => (x 0, x 1)) shape (P.obstacles.map Box.corners)) ∧
    batch (fun x : Space 2 => (x 0, x 1)) shape (P.obstacles.map Box.corners) [] = .error .value := by
  obtain ⟨-, -, -, ho, -⟩ := manip_eq hP
  have hsz : ∀ o ∈ P.obstacles, 0 < o.w ∧ 0 < o.l := by rw [ho]; exact rooms_sizes (by norm_num) (by linarith)
  obtain ⟨h1, h2, h3, -⟩ := hs
  refine C131_turtlebot _ ⟨h1, h2⟩ ?_
  intro o ho'
  obtain ⟨b, hb', rfl⟩ := List.mem_map.1 ho'
  obtain ⟨w, l⟩ := hsz b hb'
  exact ⟨h3.symm, rect_convex _ _ _ _ (by linarith) (by linarith), rect_proper _ _ _ _ (by linarith) (by linarith)⟩

theorem turtleChecked_withCheck {w : World (Space 2) ℝ} (hw : w.Sound) (robot : List (ℝ × ℝ)) (hulls : List (List (ℝ × ℝ))) :
    TurtleChecked (w.withCheck (acceptedOnce (fun x : Space 2 => (x 0, x 1)) robot hulls)) robot hulls := by
  classical
  refine ⟨hw.withCheck _, fun p q h => ?_⟩
  unfold World.withCheck acceptedOnce at h
  exact of_decide_eq_true h

variable [DecidableEq α]

/-- C141: C122 with the turtlebot's motion check as it is called. Executing an executable plan of the hallway task never leaves the two rooms and the hallway, and at each moment the rover
is at most 0.04 in each coordinate away from a position where the moved shape touches no wall. -/
theorem C141_stays {F : Type} [Field F] [LinearOrder F] [FloorSemiring F]
    {scale dd : ℝ} {num : ℕ} {u : ℕ → ℝ} {P : Problem} (hP : hallwayManip scale dd num u = .ok P) (hgap : P.gap ≤ 7 / 5)
    (shape : Option α → List (ℝ × ℝ)) (hshape : ∀ o, Footprint (shape o)) (w : Option α → World (Space 2) ℝ) (hw : ∀ o, (w o).Sound)
    (p : RoverProblem α) (hn : p.targets.Nodup) (hl : p.targets.length ≤ p.initPoses.length ∧ p.targets.length ≤ p.goalPoses.length)
    (val : Values α (Space 2)) (opt : Options F) (certified : Set (RoverFact α))
    (hc : ∀ f ∈ certified, StreamedB w (fun o => batch (fun x : Space 2 => (x 0, x 1)) (shape o) (P.obstacles.map Box.corners)) opt val f)
    (plan : List (RoverAction α)) (s : Set (RoverFact α)) (h : Executes RoverAction.op (p.start certified) plan s) (hg : ∀ f ∈ p.goal, f ∈ s)
    (sim : Sim α (Space 2)) (hi : sim.Initial p val) (h0 : (sim.rover 0, sim.rover 1) ∈ house (3 / 2) (P.gap + 1 / 10)) :
    ∃ commands, postProcess (some (plan.map roverItem)) = .ok (some commands) ∧
      (∀ leg ∈ (execute val sim commands).1, ∀ x ∈ segment ℝ leg.before.rover leg.stop, (x 0, x 1) ∈ house (3 / 2) (P.gap + 1 / 10) ∧
        ∃ y, FreeAt P.obstacles (polygonHull (shape leg.before.held)) y ∧ |x 0 - y.1| ≤ 4 / 100 ∧ |x 1 - y.2| ≤ 4 / 100) ∧
      ∀ o, (sim.obj o 0, sim.obj o 1) ∈ house (3 / 2) (P.gap + 1 / 10) →
        (∀ leg ∈ (execute val sim commands).1, (leg.before.obj o 0, leg.before.obj o 1) ∈ house (3 / 2) (P.gap + 1 / 10)) ∧
        ((execute val sim commands).2.obj o 0, (execute val sim commands).2.obj o 1) ∈ house (3 / 2) (P.gap + 1 / 10) :=
  stays_of_backed hP hgap shape hshape _ (fun o => turtleChecked_withCheck (hw o) (shape o) _) p hn hl val certified
    (fun f hf => streamedB_backed hw (fun o => (turtle_between hP hgap (hshape o)).1) (hc f hf)) plan s h hg sim hi h0

/-- C141: C122 with the turtlebot's motion check as it is called. If a target is a box at least as high as the gap and has to go to the other side of the hallway, no plan with motions
from the streams solves the task. -/
theorem C141_unsolvable {F : Type} [Field F] [LinearOrder F] [FloorSemiring F]
    {scale dd : ℝ} {num : ℕ} {u : ℕ → ℝ} {P : Problem} (hP : hallwayManip scale dd num u = .ok P) (hgap : P.gap ≤ 7 / 5)
    {a b : ℝ} (ha : 0 < a) (hb : 0 < b) (hb2 : P.gap ≤ 2 * b) (shape : Option α → List (ℝ × ℝ)) (hshape : ∀ o, Footprint (shape o))
    (p : RoverProblem α) (hn : p.targets.Nodup) (hl : p.targets.length ≤ p.initPoses.length ∧ p.targets.length ≤ p.goalPoses.length)
    {o x y : α} {i : ℕ} (ho : p.targets[i]? = some o) (hx : p.initPoses[i]? = some x) (hy : p.goalPoses[i]? = some y) (hso : shape (some o) = rect (-a) (-b) a b)
    (w : Option α → World (Space 2) ℝ) (hw : ∀ o, (w o).Sound) (val : Values α (Space 2)) (opt : Options F) (certified : Set (RoverFact α))
    (hc : ∀ f ∈ certified, StreamedB w (fun o => batch (fun x : Space 2 => (x 0, x 1)) (shape o) (P.obstacles.map Box.corners)) opt val f)
    (hstart : (val.pose x 0, val.pose x 1) ∈ house (3 / 2) (P.gap + 1 / 10)) (hsides : val.pose x 0 * val.pose y 0 < 0) :
    ¬ ∃ (plan : List (RoverAction α)) (s : Set (RoverFact α)), Executes RoverAction.op (p.start certified) plan s ∧ ∀ f ∈ p.goal, f ∈ s :=
  unsolvable_of_backed hP hgap ha hb hb2 p hn hl ho hx hy
    (fun o => (w o).withCheck (acceptedOnce (fun x : Space 2 => (x 0, x 1)) (shape o) (P.obstacles.map Box.corners)))
    (by rw [hso]; exact turtleChecked_withCheck (hw (some o)) _ _) val certified
    (fun f hf => streamedB_backed hw (fun o => (turtle_between hP hgap (hshape o)).1) (hc f hf)) hstart hsides

end Turtle

theorem streamB_of_plan {w : World (Space 2) ℝ} {check : Batch (Space 2)} {opt : Options ℝ} {a b : Space 2} {drawn fuel : ℕ} {counts : List ℕ} {l : List (Space 2)}
    (h : planB w check a b opt.minS opt.maxS (fun x => x * opt.factor) 32 false drawn fuel = some (counts, .ok (some (a :: l)))) :
    ∃ res, motionStreamB w check opt a b drawn fuel = some (.ok (some res)) := by
  cases ht : opt.teleport with
  | true => exact ⟨_, by simp only [motionStreamB, h, ht, if_true]; rfl⟩
  | false =>
    obtain ⟨res, hres, -⟩ := C54_interpolation a l (25 / 1000) (by norm_num)
    refine ⟨res, ?_⟩
    simp only [motionStreamB, h, ht, hres, Except.map]
    rfl

/-- A call of the stream succeeds at its first count when this is at most 33 and there are samples in the lanes on both sides. -/
theorem lane_streamB {scale dd : ℝ} {num : ℕ} {u : ℕ → ℝ} {P : Problem} (hP : hallwayManip scale dd num u = .ok P) (hg : P.gap ≤ 7 / 5)
    {a b : ℝ} (ha : 0 < a) (hb : 0 < b) (hreach : (29 / 20 - 2 * a) ^ 2 + (7 / 5 - 2 * b) ^ 2 ≤ (31 / 20 + a) ^ 2) {x : ℕ → ℝ × ℝ} {w : World (Space 2) ℝ}
    (hw : w.Sound) (hdist : ∀ p q, w.dist p q = dist p q) (hdraw : ∀ i, w.draw i = plane (x i)) (hK : KnnWorld w) {δ : ℝ} (hδ : 0 < δ)
    {p q : Space 2} (hp : Spot a b δ (p 0, p 1)) (hq : Spot a b δ (q 0, q 1)) {opt : Options ℝ} (h2 : 2 ≤ opt.minS) (hm : opt.minS ≤ 33) (hM : opt.minS ≤ opt.maxS)
    (hf : 1 ≤ opt.minS * (opt.factor - 1)) (d : ℕ) (hlane : ∀ s : ℝ, s = 1 ∨ s = -1 → ∃ l < opt.minS, plane (x (d + 1 + l)) ∈ lane P.gap a b s) :
    ∃ res fuel, motionStreamB w (batch (fun x : Space 2 => (x 0, x 1)) (rect (-a) (-b) a b) (P.obstacles.map Box.corners)) opt p q d fuel = some (.ok (some res)) := by
  obtain ⟨hbetween, hempty⟩ := turtle_between hP hg (rect_footprint ha hb)
  have hT : TurtleWorld (w.withCheck (acceptedAlways (fun x : Space 2 => (x 0, x 1)) (rect (-a) (-b) a b) (P.obstacles.map Box.corners))) (rect (-a) (-b) a b) (P.obstacles.map Box.corners) x := by
    classical
    refine ⟨hw.withCheck _, hdist, hdraw, fun p q h => ?_⟩
    unfold World.withCheck acceptedAlways
    exact decide_eq_true h
  have hK' := knnWorld_withCheck hK (acceptedAlways (fun x : Space 2 => (x 0, x 1)) (rect (-a) (-b) a b) (P.obstacles.map Box.corners))
  obtain ⟨c1, c2, hquery⟩ := lane_query hP hg ha hb hreach hT hK' hδ hp hq (m := opt.minS) (k := 32) (by omega) d hlane
  rw [plane_eta] at c1 c2
  rw [plane_eta, plane_eta] at hquery
  have hgrow : ((Knn.init 32 false d).grow (w.withCheck (acceptedAlways (fun x : Space 2 => (x 0, x 1)) (rect (-a) (-b) a b) (P.obstacles.map Box.corners))) opt.minS).2 = .ok () :=
    grow_ok hT.sound hK'.exact (Knn.init 32 false d) (by omega) (by change 1 ≤ 32; norm_num) (by intro S hS; cases hS) |>.1
  have hfl : ⌊(fun x : ℝ => x * opt.factor)^[0] (opt.minS : ℝ)⌋₊ = opt.minS := by simp
  obtain ⟨hok, y, hgr⟩ := growB_grown hw hK.exact (tr := false) (by simp) hbetween (k := 32) (by norm_num) (d := d) h2 (s := Knn.init 32 false d) ⟨rfl, rfl, .inl ⟨rfl, rfl⟩⟩
    (by intro S hS; cases hS)
  obtain ⟨c, pts, h3, -⟩ := row_query hw hK.exact (tr := false) (by simp) (acceptedAlways (fun x : Space 2 => (x 0, x 1)) (rect (-a) (-b) a b) (P.obstacles.map Box.corners)) (by norm_num) d h2
    hgr.certify p q
  have hne : pts ≠ [] := by
    rintro rfl
    exact hquery [] (by simp) hgrow c h3
  have hm0 : (0 : ℝ) < opt.minS := by
    have : 0 < opt.minS := by omega
    exact_mod_cast this
  have hf1 : 1 ≤ opt.factor := by
    by_contra hlt
    push Not at hlt
    have : (opt.minS : ℝ) * (opt.factor - 1) < 0 := mul_neg_of_pos_of_neg hm0 (by linarith)
    linarith
  obtain ⟨fuel, counts, answer, hpl, h4⟩ := C131_call_partial (F := ℝ) hw hK.exact false (by simp) hbetween hempty (k := 32) (by norm_num) d c1 c2 h2 (scale := fun x => x * opt.factor)
    (maxS := opt.maxS) (i := 0)
    (fun i => by
      simp only [scale_iterate]
      exact mul_le_mul_of_nonneg_left (pow_le_pow_right₀ hf1 (Nat.le_succ i)) hm0.le)
    (fun i _ => by simp only [scale_iterate]; exact floor_pow_lt hf i)
    (by
      have : (opt.minS : ℝ) ≤ opt.maxS := by exact_mod_cast hM
      simp only [Function.iterate_zero, id]
      linarith)
    (c := c) (pts := pts) (by rw [hfl]; exact h3) hne
  rcases h4 with ⟨j, hj, -⟩ | ⟨path, rfl, -, -⟩
  · omega
  obtain ⟨res, hres⟩ := streamB_of_plan hpl
  exact ⟨res, fuel, hres⟩

section Solve

variable {α : Type} [DecidableEq α] {Ω : Type*} [MeasurableSpace Ω] {Pr : Measure Ω} [IsProbabilityMeasure Pr]

/-- C141: C123 with the turtlebot's motion check as it is called. When the first sample count is at most 33, the streams certify, up to the stated probability, the facts for the plan that carries the
targets one after the other to their goals, and executing it brings every target to its goal. -/
theorem C141_solves {scale dd : ℝ} {num : ℕ} {u : ℕ → ℝ} {P : Problem} (hP : hallwayManip scale dd num u = .ok P) (hg0 : 0 ≤ P.gap) (hg : P.gap ≤ 7 / 5)
    {bounds : (ℝ × ℝ) × (ℝ × ℝ)} (hbd : extents P.obstacles = .ok bounds) {U : ℕ → Ω → Fin 2 → ℝ} (hU : UnitDraws Pr U)
    (p : RoverProblem α) (hn : p.targets.Nodup) (hl : p.targets.length ≤ p.initPoses.length ∧ p.targets.length ≤ p.goalPoses.length)
    (val : Values α (Space 2)) (hstart : val.conf p.initConf = plane P.start) (conf : α → α)
    (hconf : ∀ r ∈ p.rows, val.conf (conf r.2.1) = ik (val.pose r.2.1) ∧ val.conf (conf r.2.2) = ik (val.pose r.2.2)) {traj : ℕ → α} (htraj : traj.Injective)
    {a b : Option α → ℝ} (ha : ∀ o, 0 < a o) (hb : ∀ o, 0 < b o) (hreach : ∀ o, (29 / 20 - 2 * a o) ^ 2 + (7 / 5 - 2 * b o) ^ 2 ≤ (31 / 20 + a o) ^ 2)
    {δ : ℝ} (hδ : 0 < δ) (hfit : a none + δ ≤ 7 / 10 ∧ b none + δ ≤ 7 / 10)
    (hspot : ∀ r ∈ p.rows, ∀ o ∈ [none, some r.1], ∀ x ∈ [r.2.1, r.2.2], Spot (a o) (b o) δ (val.pose x 0, val.pose x 1))
    {β : ℝ} (hβ0 : 0 ≤ β) (hβ : ∀ o, a o ≤ 29 / 40 ∧ β ≤ (29 / 20 - 2 * a o) * (P.gap - 2 * b o))
    {opt : Options ℝ} (h2 : 2 ≤ opt.minS) (hm : opt.minS ≤ 33) (hM : opt.minS ≤ opt.maxS) (hf : 1 ≤ opt.minS * (opt.factor - 1))
    {d : ℕ → Ω → ℕ} (hd : ∀ j, NoLookAhead U (d j)) :
    Pr {ω | ¬ ∀ w : Option α → World (Space 2) ℝ, (∀ o, (w o).Sound ∧ (∀ p q, (w o).dist p q = dist p q) ∧
          (∀ i, (w o).draw i = plane (sampleFromEnv bounds (U i ω 0, U i ω 1))) ∧ KnnWorld (w o)) →
        ∃ val' : Values α (Space 2), val'.conf = val.conf ∧ val'.pose = val.pose ∧
          (∀ j c, (ferryCalls conf p.initConf p.rows)[j]? = some c →
            ∃ fuel, motionStreamB (w c.1) (batch (fun x : Space 2 => (x 0, x 1)) (rect (-(a c.1)) (-(b c.1)) (a c.1) (b c.1)) (P.obstacles.map Box.corners)) opt
              (val.conf c.2.1) (val.conf c.2.2) (d j ω) fuel = some (.ok (some (val'.traj (traj j))))) ∧
          ∀ sim : Sim α (Space 2), sim.Initial p val' → ∃ commands, postProcess (some ((ferryPlan p.rover conf traj p.initConf 0 p.rows).map roverItem)) = .ok (some commands) ∧
            ∀ (n : ℕ) o x, p.targets[n]? = some o → p.goalPoses[n]? = some x → (execute val' sim commands).2.obj o = val.pose x} ≤
      (2 * p.targets.length : ℕ) * (2 * ENNReal.ofReal ((1 - β / 9.92) ^ opt.minS)) := by
  refine (measure_mono ?_).trans (ferry_draws hP hg0 hg hbd hU p hl val hstart conf hconf ha hb hfit hspot hβ0 hβ opt.minS hd)
  intro ω hω hgood
  apply hω
  intro w hw
  refine ferry_done p hn hl val conf hconf htraj
    (fun o => (w o).withCheck (acceptedOnce (fun x : Space 2 => (x 0, x 1)) (rect (-(a o)) (-(b o)) (a o) (b o)) (P.obstacles.map Box.corners)))
    (R := fun j c res => ∃ fuel, motionStreamB (w c.1) (batch (fun x : Space 2 => (x 0, x 1)) (rect (-(a c.1)) (-(b c.1)) (a c.1) (b c.1)) (P.obstacles.map Box.corners)) opt
      (val.conf c.2.1) (val.conf c.2.2) (d j ω) fuel = some (.ok (some res)))
    (fun j c res ⟨fuel, h⟩ => streamB_path (hw c.1).1 (turtle_between hP hg (rect_footprint (ha c.1) (hb c.1))).1 h) fun j c hc => ?_
  obtain ⟨s1, s2, hlane⟩ := hgood j c hc
  obtain ⟨e1, e2, e3, e4⟩ := hw c.1
  exact lane_streamB hP hg (ha c.1) (hb c.1) (hreach c.1) e1 e2 e3 e4 hδ s1 s2 h2 hm hM hf (d j ω) hlane

end Solve

/-! ### Examples -/

/-- Draws that alternate between the lanes of the two rooms. -/
noncomputable def laneDraws (i : ℕ) : ℝ × ℝ := if i % 2 = 0 then (2, 3 / 4) else (-2, 3 / 4)

theorem laneConf_spot (q : ℕ) : Spot (3 / 20) (3 / 20) (1 / 20) (lineConf q, 3 / 4) := by
  unfold lineConf Spot
  split_ifs <;> norm_num [abs_le, le_abs]

/-- The hypotheses of `C141_executed` and `C141_stays` are met in the world of the experiment with two targets (hallway 0.05 wider than the largest one; bodies of half-width 0.15), where a
plan carries both to the first room. -/
theorem C141_nonvacuous : ∃ P, hallwayManip (3 / 10) (5 / 100) 2 (fun _ => 1 / 2) = .ok P ∧ P.gap ≤ 7 / 5 ∧ Footprint (rect (-(3 / 20)) (-(3 / 20)) (3 / 20) (3 / 20)) ∧
    ∃ w : World (Space 2) ℝ, w.Sound ∧
    twoTargets.targets.Nodup ∧ (twoTargets.targets.length ≤ twoTargets.initPoses.length ∧ twoTargets.targets.length ≤ twoTargets.goalPoses.length) ∧
    ∃ val : Values ℕ (Space 2), (∀ f ∈ carryCertified, StreamedB (fun _ => w)
      (fun _ => batch (fun x : Space 2 => (x 0, x 1)) (rect (-(3 / 20)) (-(3 / 20)) (3 / 20) (3 / 20)) (P.obstacles.map Box.corners)) ⟨false, 2, 2, (2 : ℝ)⟩ val f) ∧
    (∃ s, Executes RoverAction.op (twoTargets.start carryCertified) carryPlan s ∧ ∀ f ∈ twoTargets.goal, f ∈ s) ∧
    ∃ sim : Sim ℕ (Space 2), sim.Initial twoTargets val ∧ (sim.rover 0, sim.rover 1) = P.start ∧ P.start ∈ house (3 / 2) (P.gap + 1 / 10) ∧
      ∀ o ∈ twoTargets.targets, (sim.obj o 0, sim.obj o 1) ∈ rectangle (3 / 2) 3 0 (3 / 2) := by
  obtain ⟨P, hP⟩ := (C88_answers (3 / 10) (5 / 100) 2 fun _ => 1 / 2).2 (by norm_num)
  obtain ⟨-, -, h1, h2⟩ := C88_sizes (fun _ => by norm_num) hP
  obtain ⟨-, -, -, -, hs⟩ := manip_eq hP
  have hgap : P.gap ≤ 7 / 5 := by rw [h2]; norm_num
  have hT := turtleWorld_turtle [] [] laneDraws
  refine ⟨P, hP, hgap, rect_footprint (by norm_num) (by norm_num), turtleWorld [] [] laneDraws, hT.sound, by decide, by decide, ?_⟩
  have hstr : ∀ q q' : ℕ, ∃ path fuel, motionStreamB (turtleWorld [] [] laneDraws)
      (batch (fun x : Space 2 => (x 0, x 1)) (rect (-(3 / 20)) (-(3 / 20)) (3 / 20) (3 / 20)) (P.obstacles.map Box.corners)) ⟨false, 2, 2, (2 : ℝ)⟩
      (plane (lineConf q, 3 / 4)) (plane (lineConf q', 3 / 4)) 0 fuel = some (.ok (some path)) := by
    intro q q'
    refine lane_streamB hP hgap (by norm_num) (by norm_num) (by norm_num) hT.sound hT.dist hT.draw (turtleWorld_knn [] [] laneDraws) (δ := 1 / 20) (by norm_num)
      (laneConf_spot q) (laneConf_spot q') le_rfl (by norm_num) le_rfl (by norm_num) 0 ?_
    have hgp : 0 < P.gap / 2 - 3 / 20 := by rw [h2]; norm_num
    rintro s (rfl | rfl)
    · refine ⟨1, by norm_num, ?_⟩
      simp only [lane, laneDraws, plane, Set.mem_ofPred_eq]
      norm_num
      linarith
    · refine ⟨0, by norm_num, ?_⟩
      simp only [lane, laneDraws, plane, Set.mem_ofPred_eq]
      norm_num
      linarith
  choose path fuel hpath using hstr
  refine ⟨⟨fun q => plane (lineConf q, 3 / 4), fun x => plane (linePose x, 3 / 4), fun t => path (t - 4) (t - 3)⟩, ?_, C106_nonvacuous.2.2.2.2.1, ?_⟩
  · intro f hf
    simp only [carryCertified, Set.mem_insert_iff, Set.mem_singleton_iff] at hf
    rcases hf with rfl | rfl | rfl | rfl | rfl | rfl | rfl | rfl
    · exact ⟨0, _, hpath 1 2⟩
    · exact ⟨0, _, hpath 2 3⟩
    · exact ⟨0, _, hpath 3 4⟩
    · exact ⟨0, _, hpath 4 5⟩
    all_goals simp [StreamedB, lineConf, linePose, ik]
  · refine ⟨⟨plane (-9 / 4, 3 / 4), fun o => plane (if o = 10 then 2 else 9 / 4, 3 / 4), none⟩, ⟨?_, rfl, ?_⟩, ?_, ?_, ?_⟩
    · simp [lineConf, twoTargets]
    · simp [linePose, twoTargets, RoverProblem.rows]
    · rw [hs]
      norm_num [plane]
    · rw [hs]
      left; left; exact ⟨by norm_num, by norm_num, by norm_num, by norm_num⟩
    · simp [twoTargets, plane, rectangle]
      norm_num

/-- The hypotheses of `C141_solves` that are not among those of C123 are met with a first count of 31; the failure probability is at most 3/4 for the example of `C123_nonvacuous`. -/
theorem C141_solves_nonvacuous : ((1 : ℝ) ≤ (31 : ℕ) * (11 / 10 - 1) ∧ 2 ≤ 31 ∧ 31 ≤ 33 ∧ 31 ≤ 2000) ∧
    (∀ x : ℕ → ℝ × ℝ, ∃ w : World (Space 2) ℝ, w.Sound ∧ (∀ p q, w.dist p q = dist p q) ∧ (∀ i, w.draw i = plane (x i)) ∧ KnnWorld w) ∧
    ((2 * oneTarget.targets.length : ℕ) : ENNReal) * (2 * ENNReal.ofReal ((1 - 678 / 1250 / 9.92) ^ 31)) ≤ ENNReal.ofReal (3 / 4) := by
  obtain ⟨P, h⟩ := C123_nonvacuous
  refine ⟨by norm_num, fun x => ⟨turtleWorld [] [] x, ?_⟩, h.2.2.2.2.2.2.2.2.2.2.2.2.2.2.2.2.2.2.2⟩
  have hT := turtleWorld_turtle [] [] x
  exact ⟨hT.sound, hT.dist, hT.draw, turtleWorld_knn [] [] x⟩

end Verif.Props
