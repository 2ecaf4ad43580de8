import Verif.Model.KukaSetup
import Verif.Props.KukaWorld

/-! C115: the problem that kuka_carry solves describes the world in which the plan is executed. -/

namespace Verif.Props

open Verif Verif.KukaWorld Verif.Spec

variable {B P C G : Type*} [DecidableEq B] [Group P]

theorem setup_attempt (u : Setup B P C G) (fuel k drawn : ℕ) {r : Ready B P C} (h : setup u fuel k drawn = some (.ok r)) :
    ∃ drawn', attempt u fuel drawn' = some (.ok (.inr r)) := by
  induction k generalizing drawn with
  | zero => cases h
  | succ k ih =>
    rw [setup] at h
    cases ha : attempt u fuel drawn with
    | none => rw [ha] at h; cases h
    | some o =>
      rw [ha] at h
      match o, h with
      | .error e, h => cases h
      | .ok (.inl d), h => exact ih d h
      | .ok (.inr r'), h => cases h; exact ⟨drawn, ha⟩

/-- C115: however many worlds were given up before, and whatever the solver did to the simulator, when the plan is executed the arm is in the
initial configuration of the problem, every object is where its `AtPose` fact says, touches nothing and can be approached, and every
insertion fact is true of the fixed bodies as they stand. -/
theorem C115_described {u : Setup B P C G} {reach : C → P → Prop} {hc : G → C → B → P → Bool} (hs : SimOk u.sim reach hc)
    (hnd : u.movable.Nodup) (hf : ∀ b ∈ u.movable, b ∉ u.fixed) (hp : ∀ x ∈ u.pairs, x.1 ∈ u.movable) {fuel k drawn : ℕ} {r : Ready B P C}
    (h : setup u fuel k drawn = some (.ok r)) (after : World B P C) :
    let w := beforeExecution u r after
    w.conf = r.startConf ∧
      r.starts.map (·.body) = u.movable ∧
      (∀ f ∈ r.starts, w.pose f.body = f.pose ∧ Good u.sim reach u.fixed w.pose (u.approach * (f.pose * (u.grasp f.body)⁻¹)) f.conf ∧
        (∀ o ∈ u.fixed, u.sim.collide f.body f.pose o (w.pose o) = false) ∧
        ∀ g ∈ r.starts, g.body ≠ f.body → u.sim.collide f.body f.pose g.body g.pose = false) ∧
      r.inserts.map (fun f => (f.body, f.sink)) = u.pairs ∧
      ∀ f ∈ r.inserts, (∀ o ∈ u.fixed, u.sim.collide f.body f.post o (w.pose o) = false) ∧ f.pre = u.lift * f.post ∧
        Good u.sim reach u.fixed w.pose (u.approach * (f.pre * (u.grasp f.body)⁻¹)) f.preConf ∧
        Good u.sim reach u.fixed w.pose (u.approach * (f.post * (u.grasp f.body)⁻¹)) f.postConf := by
  intro w
  obtain ⟨d, ha⟩ := setup_attempt u fuel k drawn h
  unfold attempt at ha
  cases hpl : placeAll u.sim u.approach u.grasp u.fixed u.stove fuel u.movable [] ⟨u.loaded, u.robotLoaded, d⟩ with
  | none => rw [hpl] at ha; cases ha
  | some saved =>
    rw [hpl] at ha
    dsimp only at ha
    obtain ⟨-, h98⟩ := C98_world hs hnd hf hpl
    cases hst : startFacts u.sim u.approach u.grasp u.fixed u.movable { saved with conf := u.arm } with
    | mk w1 o =>
      rw [hst] at ha
      cases o with
      | none => cases ha
      | some starts =>
        dsimp only at ha
        obtain ⟨q1, q2, q3⟩ := C99_start hs hst
        cases hin : insertFacts u.sim u.approach u.lift u.grasp u.fixed u.pairs w1 with
        | mk w2 o =>
          rw [hin] at ha
          match o, ha, hin with
          | .ok (some inserts), ha, hin =>
            cases ha
            obtain ⟨t1, t2⟩ := C99_insert hs (fun x hx => hf _ (hp x hx)) hin
            refine ⟨rfl, q2, ?_, t1, ?_⟩
            · intro f hfm
              obtain ⟨r1, r2⟩ := q3 f hfm
              have hmem : f.body ∈ u.movable := q2 ▸ List.mem_map_of_mem hfm
              obtain ⟨-, s2, s3, -⟩ := h98 f.body hmem
              refine ⟨r1.symm, r2, ?_, ?_⟩
              · intro o ho
                rw [r1]
                exact s2 o ho
              · intro g hg hne
                rw [r1, (q3 g hg).1]
                exact s3 g.body (q2 ▸ List.mem_map_of_mem hg) hne
            · intro f hfm
              obtain ⟨-, r2, r3, r4, r5⟩ := t2 f hfm
              rw [q1] at r2 r4 r5
              exact ⟨r2, r3, r4, r5⟩

/-- The stove (0), a sink (1) and one object (2) on the line. -/
def lineSetup : Setup ℕ (Multiplicative ℤ) (Multiplicative ℤ) Unit where
  sim := lineSim
  approach := .ofAdd 1
  lift := .ofAdd 3
  grasp _ := 1
  fixed := [0, 1]
  stove := 0
  movable := [2]
  pairs := [(2, 1)]
  loaded := fun b => .ofAdd (-1 - b)
  robotLoaded := 1
  arm := .ofAdd 50

/-- C115, the restored world: false that the facts are true of the world in which making the problem ends. The objects stand in their sinks. -/
theorem C115_moved_false : SimOk lineSetup.sim (fun q t => q = t) (fun _ c o p => lineSim.robotCollide c o p) ∧
    ∃ r, setup lineSetup 5 1 0 = some (.ok r) ∧ ∃ f ∈ r.starts, r.now.pose f.body ≠ f.pose := by
  refine ⟨lineSim_ok, _, rfl, _, List.mem_singleton.2 rfl, ?_⟩
  decide

/-- The line, but for the first draws there is no place in the sink. -/
def lateSim : Sim ℕ (Multiplicative ℤ) (Multiplicative ℤ) Unit :=
  { lineSim with placement := fun n _ _ surface => if surface = 1 ∧ n < 7 then none else some (.ofAdd n) }

/-- C115, trying again: false that worlds are loaded until a problem can be made. If no place in a sink is found for an object, the assertion
ends the program, although a problem could be made of the next world. -/
theorem C115_assert_false : SimOk lateSim (fun q t => q = t) (fun _ c o p => lateSim.robotCollide c o p) ∧
    (∀ k, setup { lineSetup with sim := lateSim } 5 (k + 1) 0 = some (.error .assertion)) ∧
    ∃ r, setup { lineSetup with sim := lateSim } 5 1 7 = some (.ok r) :=
  ⟨⟨lineSim_ok.symm, lineSim_ok.ik, lineSim_ok.plan⟩, fun _ => rfl, _, rfl⟩

/-- The line, but the first configurations for the object are not found. -/
def retrySim : Sim ℕ (Multiplicative ℤ) (Multiplicative ℤ) Unit :=
  { lineSim with invKin := fun n c t => if 2 ≤ n ∧ n < 12 then (none, c) else (some t, t) }

/-- C115 is not vacuous: the first world is given up, the problem is made of the second one. -/
theorem C115_nonvacuous : SimOk retrySim (fun q t => q = t) (fun _ c o p => retrySim.robotCollide c o p) ∧ lineSetup.movable.Nodup ∧
    (∀ b ∈ lineSetup.movable, b ∉ lineSetup.fixed) ∧ (∀ x ∈ lineSetup.pairs, x.1 ∈ lineSetup.movable) ∧
    attempt { lineSetup with sim := retrySim } 5 0 = some (.ok (.inl 12)) ∧
    ∃ r, setup { lineSetup with sim := retrySim } 5 2 0 = some (.ok r) ∧ r.starts.map (·.pose) = [.ofAdd 12] := by
  refine ⟨⟨lineSim_ok.symm, ?_, lineSim_ok.plan⟩, by decide, by decide, by decide, rfl, _, rfl, rfl⟩
  intro n c t q c' h
  simp only [retrySim] at h
  split at h
  · simp at h
  · simp only [Prod.mk.injEq, Option.some.injEq] at h
    exact ⟨h.2.symm.trans h.1, h.1.symm⟩

end Verif.Props
