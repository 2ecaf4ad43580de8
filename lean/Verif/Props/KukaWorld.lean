import Verif.Lemmas.Py
import Verif.Spec.KukaWorld
import Mathlib.Tactic.NormNum
import Mathlib.Tactic.Linarith

/-! World, problem and motions of kuka_carry: C98, C99, C100. -/

namespace Verif.Props

open Verif.Spec Verif.KukaWorld

variable {B P C G : Type*} [DecidableEq B]

theorem samplePlacement_pose (s : Sim B P C G) (θ : ℝ) (body surface : B) (w : World B P C) :
    (∀ b ≠ body, (samplePlacement s θ body surface w).1.pose b = w.pose b) ∧
      ∀ p, (samplePlacement s θ body surface w).2 = some p → (samplePlacement s θ body surface w).1.pose body = p ∧ s.placement w.drawn θ body surface = some p := by
  unfold samplePlacement
  cases h : s.placement w.drawn θ body surface with
  | none => exact ⟨fun b hb => Function.update_of_ne hb _ _, fun p hp => by simp at hp⟩
  | some q => exact ⟨fun b hb => Function.update_of_ne hb _ _, fun p hp => by simp at hp; subst hp; simp⟩

theorem stable_loop {s : Sim B P C G} {fixed placed : List B} {body surface : B} {fuel : ℕ} {w w' : World B P C} {p : P}
    (h : loop (stableStep s fixed placed body surface) fuel w = some (p, w')) :
    (∀ b ≠ body, w'.pose b = w.pose b) ∧ w'.pose body = p ∧ (∃ n, s.placement n (s.theta n) body surface = some p) ∧
      ∀ o ∈ fixed ++ placed, s.collide body p o (w'.pose o) = false := by
  induction fuel generalizing w with
  | zero => cases h
  | succ fuel ih =>
    rw [loop] at h
    obtain ⟨h1, h2⟩ := samplePlacement_pose s (s.theta w.drawn) body surface w
    unfold stableStep at h
    cases hsp : samplePlacement s (s.theta w.drawn) body surface w with
    | mk w1 o =>
      rw [hsp] at h h1 h2
      cases o with
      | none =>
        simp only at h
        obtain ⟨i1, i2⟩ := ih h
        exact ⟨fun b hb => (i1 b hb).trans (h1 b hb), i2⟩
      | some p1 =>
        simp only at h
        obtain ⟨h3, h4⟩ := h2 p1 rfl
        by_cases hc : anyCollision s w1 body (fixed ++ placed) = true
        · rw [if_pos hc] at h
          obtain ⟨i1, i2⟩ := ih h
          exact ⟨fun b hb => (i1 b hb).trans (h1 b hb), i2⟩
        · rw [if_neg hc] at h
          simp only [Option.some.injEq, Prod.mk.injEq] at h
          obtain ⟨rfl, rfl⟩ := h
          refine ⟨h1, h3, ⟨_, h4⟩, ?_⟩
          intro o ho
          simp only [anyCollision, Bool.not_eq_true, List.any_eq_false] at hc
          have := hc o ho
          rw [h3] at this
          simpa using this

omit [DecidableEq B] in
theorem ik_pose (s : Sim B P C G) (fixed : List B) (t : P) (n : ℕ) (w : World B P C) : (ikFn s fixed t n w).1.pose = w.pose := by
  induction n generalizing w with
  | zero => rfl
  | succ n ih =>
    rw [ikFn]
    split
    · rename_i q c heq
      cases q with
      | none => exact ih _
      | some q =>
        simp only
        split
        · exact ih _
        · rfl

omit [DecidableEq B] in
theorem ik_good {s : Sim B P C G} {reach : C → P → Prop} {hc : G → C → B → P → Bool} (hs : SimOk s reach hc) (fixed : List B) (t : P) (n : ℕ) (w : World B P C) {q : C}
    (h : (ikFn s fixed t n w).2 = some q) : Good s reach fixed w.pose t q := by
  induction n generalizing w with
  | zero => cases h
  | succ n ih =>
    rw [ikFn] at h
    split at h
    rename_i q' c heq
    cases q' with
    | none => exact ih { w with conf := c, drawn := w.drawn + 1 } h
    | some q' =>
      simp only at h
      split at h
      · exact ih { w with conf := c, drawn := w.drawn + 1 } h
      · rename_i hcol
        cases h
        obtain ⟨rfl, h2⟩ := hs.ik _ _ _ _ _ heq
        refine ⟨h2, fun o ho => ?_⟩
        simp only [anyRobotCollision, Bool.not_eq_true, List.any_eq_false] at hcol
        simpa using hcol o ho

variable [Group P]

theorem placeOne_ok {s : Sim B P C G} {reach : C → P → Prop} {hc : G → C → B → P → Bool} (hs : SimOk s reach hc) {approach : P} {grasp : B → P} {fixed placed : List B} {body surface : B} {fuel k : ℕ}
    {w w' : World B P C} (h : placeOne s approach grasp fixed placed body surface fuel k w = some w') :
    (∀ b ≠ body, w'.pose b = w.pose b) ∧ (∃ n, s.placement n (s.theta n) body surface = some (w'.pose body)) ∧
      (∀ o ∈ fixed ++ placed, s.collide body (w'.pose body) o (w'.pose o) = false) ∧
      ∃ q, Good s reach fixed w'.pose (approachPose approach (grasp body) (w'.pose body)) q := by
  induction k generalizing w with
  | zero => cases h
  | succ k ih =>
    rw [placeOne] at h
    cases hl : loop (stableStep s fixed placed body surface) fuel w with
    | none => rw [hl] at h; cases h
    | some r =>
      obtain ⟨p, w1⟩ := r
      obtain ⟨s1, s2, s3, s4⟩ := stable_loop hl
      rw [hl] at h
      simp only at h
      have e : Function.update w1.pose body p = w1.pose := by
        rw [← s2, Function.update_eq_self]
      rw [e] at h
      have hp := ik_pose s fixed (approachPose approach (grasp body) p) 10 w1
      have hg := fun q => ik_good hs fixed (approachPose approach (grasp body) p) 10 w1 (q := q)
      cases hik : ikFn s fixed (approachPose approach (grasp body) p) 10 w1 with
      | mk w2 o =>
        rw [hik] at h hp hg
        simp only at hp
        cases o with
        | none =>
          simp only at h
          obtain ⟨i1, i2⟩ := ih h
          exact ⟨fun b hb => by rw [i1 b hb, hp, s1 b hb], i2⟩
        | some q =>
          simp only [Option.some.injEq] at h
          subst h
          rw [hp, s2]
          exact ⟨s1, s3, s4, q, hg q rfl⟩

theorem placeAll_ok {s : Sim B P C G} {reach : C → P → Prop} {hc : G → C → B → P → Bool} (hs : SimOk s reach hc) {approach : P} {grasp : B → P} {fixed : List B} {surface : B} {fuel : ℕ}
    (bodies placed : List B) (hnd : bodies.Nodup) (hf : ∀ b ∈ bodies, b ∉ fixed ∧ b ∉ placed) {w w' : World B P C} (h : placeAll s approach grasp fixed surface fuel bodies placed w = some w') :
    (∀ b ∉ bodies, w'.pose b = w.pose b) ∧ ∀ b ∈ bodies, (∃ n, s.placement n (s.theta n) b surface = some (w'.pose b)) ∧
      (∀ o ∈ fixed ++ placed, s.collide b (w'.pose b) o (w'.pose o) = false) ∧
      (∀ o ∈ bodies, o ≠ b → s.collide b (w'.pose b) o (w'.pose o) = false) ∧
      ∃ q, Good s reach fixed w'.pose (approachPose approach (grasp b) (w'.pose b)) q := by
  induction bodies generalizing placed w with
  | nil => simp only [placeAll, Option.some.injEq] at h; subst h; simp
  | cons body rest ih =>
    rw [placeAll] at h
    cases h1 : placeOne s approach grasp fixed placed body surface fuel fuel w with
    | none => rw [h1] at h; cases h
    | some w1 =>
      rw [h1] at h
      obtain ⟨hn1, hn2⟩ := List.nodup_cons.1 hnd
      obtain ⟨o1, o2, o3, q, o4⟩ := placeOne_ok hs h1
      obtain ⟨i1, i2⟩ := ih (placed ++ [body]) hn2 (fun b hb => ⟨(hf b (List.mem_cons_of_mem _ hb)).1, by
        simp only [List.mem_append, List.mem_singleton, not_or]
        exact ⟨(hf b (List.mem_cons_of_mem _ hb)).2, fun e => hn1 (e ▸ hb)⟩⟩) h
      have hkeep : ∀ o, o ∉ rest → w'.pose o = w1.pose o := i1
      have hfix : ∀ o ∈ fixed ++ placed, w'.pose o = w1.pose o := by
        intro o ho
        apply hkeep
        intro hr
        have := hf o (List.mem_cons_of_mem _ hr)
        rcases List.mem_append.1 ho with h | h
        · exact this.1 h
        · exact this.2 h
      refine ⟨?_, ?_⟩
      · intro b hb
        simp only [List.mem_cons, not_or] at hb
        rw [hkeep b hb.2, o1 b hb.1]
      · intro b hb
        rcases List.mem_cons.1 hb with rfl | hb
        · refine ⟨by rw [hkeep b hn1]; exact o2, fun o ho => by rw [hkeep b hn1, hfix o ho]; exact o3 o ho, ?_, q, ?_, ?_⟩
          · intro o ho hne
            have ho' : o ∈ rest := (List.mem_cons.1 ho).resolve_left hne
            rw [hs.symm]
            exact (i2 o ho').2.1 b (by simp)
          · rw [hkeep b hn1]; exact o4.1
          · intro o ho
            rw [hfix o (List.mem_append_left _ ho)]
            exact o4.2 o ho
        · obtain ⟨j1, j2, j3, j4⟩ := i2 b hb
          refine ⟨j1, fun o ho => j2 o (by simp only [List.mem_append] at ho ⊢; exact ho.elim (fun h => .inl h) (fun h => .inr (.inl h))), ?_, j4⟩
          intro o ho hne
          rcases List.mem_cons.1 ho with rfl | ho
          · exact j2 o (by simp)
          · exact j3 o ho hne

/-- C98, the world: when `load_world` has placed the objects, every object is at a pose drawn for the surface, touches no fixed body and no other object, can be approached by the robot without touching a
fixed body, and nothing else was moved. -/
theorem C98_world {s : Sim B P C G} {reach : C → P → Prop} {hc : G → C → B → P → Bool} (hs : SimOk s reach hc) {approach : P} {grasp : B → P} {fixed : List B} {surface : B} {fuel : ℕ}
    {bodies : List B} (hnd : bodies.Nodup) (hf : ∀ b ∈ bodies, b ∉ fixed) {w w' : World B P C} (h : placeAll s approach grasp fixed surface fuel bodies [] w = some w') :
    (∀ b ∉ bodies, w'.pose b = w.pose b) ∧ ∀ b ∈ bodies, (∃ n, s.placement n (s.theta n) b surface = some (w'.pose b)) ∧
      (∀ o ∈ fixed, s.collide b (w'.pose b) o (w'.pose o) = false) ∧
      (∀ o ∈ bodies, o ≠ b → s.collide b (w'.pose b) o (w'.pose o) = false) ∧
      ∃ q, reach q (approach * (w'.pose b * (grasp b)⁻¹)) ∧ ∀ o ∈ fixed, s.robotCollide q o (w'.pose o) = false := by
  obtain ⟨h1, h2⟩ := placeAll_ok hs bodies [] hnd (fun b hb => ⟨hf b hb, by simp⟩) h
  refine ⟨h1, fun b hb => ?_⟩
  obtain ⟨j1, j2, j3, j4⟩ := h2 b hb
  exact ⟨j1, fun o ho => j2 o (by simpa using ho), j3, j4⟩

omit [DecidableEq B] in
theorem startFacts_pose (s : Sim B P C G) (approach : P) (grasp : B → P) (fixed bodies : List B) (w : World B P C) : (startFacts s approach grasp fixed bodies w).1.pose = w.pose := by
  induction bodies generalizing w with
  | nil => rfl
  | cons b rest ih =>
    have hp := ik_pose s fixed (approachPose approach (grasp b) (w.pose b)) 10 w
    rw [startFacts]
    cases hik : ikFn s fixed (approachPose approach (grasp b) (w.pose b)) 10 w with
    | mk w' o =>
      rw [hik] at hp
      cases o with
      | none => exact hp
      | some q =>
        have hi := ih w'
        simp only
        cases hr : startFacts s approach grasp fixed rest w' with
        | mk w'' r =>
          rw [hr] at hi
          cases r <;> exact hi.trans hp

omit [DecidableEq B] in
/-- C99, initial poses: there is exactly one entry for each object; it contains the object's pose in the world and joints for which the tool is at the approach pose and the robot touches no fixed body. -/
theorem C99_start {s : Sim B P C G} {reach : C → P → Prop} {hc : G → C → B → P → Bool} (hs : SimOk s reach hc) {approach : P} {grasp : B → P} {fixed bodies : List B} {w w' : World B P C}
    {l : List (Start B P C)} (h : startFacts s approach grasp fixed bodies w = (w', some l)) :
    w'.pose = w.pose ∧ l.map (·.body) = bodies ∧ ∀ f ∈ l, f.pose = w.pose f.body ∧ Good s reach fixed w.pose (approach * (f.pose * (grasp f.body)⁻¹)) f.conf := by
  refine ⟨?_, ?_⟩
  · have := startFacts_pose s approach grasp fixed bodies w
    rwa [h] at this
  induction bodies generalizing w w' l with
  | nil =>
    simp only [startFacts, Prod.mk.injEq, Option.some.injEq] at h
    rw [← h.2]
    simp
  | cons b rest ih =>
    rw [startFacts] at h
    have hp := ik_pose s fixed (approachPose approach (grasp b) (w.pose b)) 10 w
    have hg := fun q => ik_good hs fixed (approachPose approach (grasp b) (w.pose b)) 10 w (q := q)
    cases hik : ikFn s fixed (approachPose approach (grasp b) (w.pose b)) 10 w with
    | mk w1 o =>
      rw [hik] at h hp hg
      simp only at hp
      cases o with
      | none => simp at h
      | some q =>
        simp only at h
        cases hr : startFacts s approach grasp fixed rest w1 with
        | mk w2 r =>
          rw [hr] at h
          cases r with
          | none => simp at h
          | some l' =>
            simp only [Prod.mk.injEq, Option.some.injEq] at h
            obtain ⟨i1, i2⟩ := ih hr
            rw [← h.2]
            refine ⟨by simp [i1], ?_⟩
            intro f hf
            rcases List.mem_cons.1 hf with rfl | hf
            · exact ⟨rfl, hg q rfl⟩
            · rw [hp] at i2
              exact i2 f hf

omit [Group P] in
theorem fixedStable_ok (s : Sim B P C G) (fixed : List B) (body surface : B) (hb : body ∉ fixed) (θs : List ℝ) (w : World B P C) :
    (∀ b ≠ body, (fixedStable s fixed body surface θs w).1.pose b = w.pose b) ∧
      ∀ p, (fixedStable s fixed body surface θs w).2 = some p → (∃ n, ∃ θ ∈ θs, s.placement n θ body surface = some p) ∧ ∀ o ∈ fixed, s.collide body p o (w.pose o) = false := by
  induction θs generalizing w with
  | nil => exact ⟨fun _ _ => rfl, fun p h => by simp [fixedStable] at h⟩
  | cons θ rest ih =>
    obtain ⟨h1, h2⟩ := samplePlacement_pose s θ body surface w
    rw [fixedStable]
    cases hsp : samplePlacement s θ body surface w with
    | mk w1 o =>
      rw [hsp] at h1 h2
      simp only at h1
      obtain ⟨i1, i2⟩ := ih w1
      have hrest : (∀ b ≠ body, (fixedStable s fixed body surface rest w1).1.pose b = w.pose b) ∧
          ∀ p, (fixedStable s fixed body surface rest w1).2 = some p → (∃ n, ∃ θ' ∈ θ :: rest, s.placement n θ' body surface = some p) ∧ ∀ o ∈ fixed, s.collide body p o (w.pose o) = false := by
        refine ⟨fun b hb => (i1 b hb).trans (h1 b hb), fun p hp => ?_⟩
        obtain ⟨⟨n, θ', hθ', hpl⟩, hcol⟩ := i2 p hp
        exact ⟨⟨n, θ', List.mem_cons_of_mem _ hθ', hpl⟩, fun o ho => by rw [← h1 o (fun e => hb (e ▸ ho))]; exact hcol o ho⟩
      cases o with
      | none => exact hrest
      | some p1 =>
        simp only
        split
        · exact hrest
        · rename_i hcol
          refine ⟨h1, fun p hp => ?_⟩
          simp only [Option.some.injEq] at hp
          subst hp
          obtain ⟨h3, h4⟩ := h2 p1 rfl
          refine ⟨⟨_, θ, List.mem_cons_self, h4⟩, fun o ho => ?_⟩
          simp only [anyCollision, Bool.not_eq_true, List.any_eq_false] at hcol
          have := hcol o ho
          simp only at h3
          rw [h3, h1 o (fun e => hb (e ▸ ho))] at this
          simpa using this

/-- C99, insertions: if the problem is made there is exactly one entry for each pair of object and sink. Its final pose is one drawn for that sink with one of the four rotations in which the object touches no
fixed body, the pose before the insertion is the lifted one, and both are reachable without touching a fixed body. -/
theorem C99_insert {s : Sim B P C G} {reach : C → P → Prop} {hc : G → C → B → P → Bool} (hs : SimOk s reach hc) {approach lift : P} {grasp : B → P} {fixed : List B} {pairs : List (B × B)}
    (hf : ∀ x ∈ pairs, x.1 ∉ fixed) {w w' : World B P C} {l : List (Insert B P C)} (h : insertFacts s approach lift grasp fixed pairs w = (w', .ok (some l))) :
    l.map (fun f => (f.body, f.sink)) = pairs ∧ ∀ f ∈ l, (∃ n, ∃ θ ∈ [0, Real.pi / 2, Real.pi, -Real.pi / 2], s.placement n θ f.body f.sink = some f.post) ∧
      (∀ o ∈ fixed, s.collide f.body f.post o (w.pose o) = false) ∧ f.pre = lift * f.post ∧
      Good s reach fixed w.pose (approach * (f.pre * (grasp f.body)⁻¹)) f.preConf ∧ Good s reach fixed w.pose (approach * (f.post * (grasp f.body)⁻¹)) f.postConf := by
  induction pairs generalizing w w' l with
  | nil =>
    simp only [insertFacts, Prod.mk.injEq, Except.ok.injEq, Option.some.injEq] at h
    rw [← h.2]
    simp
  | cons x rest ih =>
    obtain ⟨body, sink⟩ := x
    have hb : body ∉ fixed := hf (body, sink) List.mem_cons_self
    rw [insertFacts] at h
    obtain ⟨a1, a2⟩ := fixedStable_ok s fixed body sink hb [0, Real.pi / 2, Real.pi, -Real.pi / 2] w
    cases hfs : fixedStable s fixed body sink [0, Real.pi / 2, Real.pi, -Real.pi / 2] w with
    | mk w1 o =>
      rw [hfs] at h a1 a2
      simp only at a1
      cases o with
      | none => simp at h
      | some post =>
        simp only at h
        have p1 := ik_pose s fixed (approachPose approach (grasp body) (lift * post)) 10 w1
        have g1 := fun q => ik_good hs fixed (approachPose approach (grasp body) (lift * post)) 10 w1 (q := q)
        cases h1 : ikFn s fixed (approachPose approach (grasp body) (lift * post)) 10 w1 with
        | mk w2 o1 =>
          rw [h1] at h p1 g1
          simp only at h p1
          have p2 := ik_pose s fixed (approachPose approach (grasp body) post) 10 w2
          have g2 := fun q => ik_good hs fixed (approachPose approach (grasp body) post) 10 w2 (q := q)
          cases h2 : ikFn s fixed (approachPose approach (grasp body) post) 10 w2 with
          | mk w3 o2 =>
            rw [h2] at h p2 g2
            simp only at h p2
            have hfix : ∀ o ∈ fixed, w3.pose o = w.pose o := fun o ho => by rw [p2, p1]; exact a1 o fun e => hb (e ▸ ho)
            have hgood : ∀ {v : World B P C} {t : P} {q : C}, (∀ o ∈ fixed, v.pose o = w.pose o) → Good s reach fixed v.pose t q → Good s reach fixed w.pose t q := by
              intro v t q hv hg
              exact ⟨hg.1, fun o ho => by rw [← hv o ho]; exact hg.2 o ho⟩
            cases o1 with
            | none => simp at h
            | some q1 =>
              cases o2 with
              | none => simp at h
              | some q2 =>
                simp only at h
                cases hr : insertFacts s approach lift grasp fixed rest w3 with
                | mk w4 r =>
                  rw [hr] at h
                  cases r with
                  | error e => simp at h
                  | ok r =>
                    cases r with
                    | none => simp at h
                    | some l' =>
                      simp only [Prod.mk.injEq, Except.ok.injEq, Option.some.injEq] at h
                      obtain ⟨i1, i2⟩ := ih (fun x hx => hf x (List.mem_cons_of_mem _ hx)) hr
                      rw [← h.2]
                      refine ⟨by simp [i1], ?_⟩
                      intro f hf'
                      rcases List.mem_cons.1 hf' with rfl | hf'
                      · obtain ⟨b1, b2⟩ := a2 post rfl
                        exact ⟨b1, b2, rfl, hgood (v := w1) (fun o ho => a1 o fun e => hb (e ▸ ho)) (g1 q1 rfl),
                          hgood (v := w2) (fun o ho => by rw [p1]; exact a1 o fun e => hb (e ▸ ho)) (g2 q2 rfl)⟩
                      · obtain ⟨j1, j2, j3, j4, j5⟩ := i2 f hf'
                        exact ⟨j1, fun o ho => by rw [← hfix o ho]; exact j2 o ho, j3, hgood hfix j4, hgood hfix j5⟩

omit [Group P] in
theorem assignFluents_ok (fluents : List (Fluent B P)) (hown : ∀ f ∈ fluents, f.poseBody = f.object) (hone : (fluents.map (·.object)).Nodup) {pose pose' : B → P} {l : List B}
    (h : assignFluents fluents pose = .ok (pose', l)) : l = fluents.map (·.object) ∧ (∀ b, b ∉ l → pose' b = pose b) ∧ ∀ f ∈ fluents, pose' f.object = f.pose := by
  induction fluents generalizing pose pose' l with
  | nil =>
    simp only [assignFluents, Except.ok.injEq, Prod.mk.injEq] at h
    obtain ⟨rfl, rfl⟩ := h
    simp
  | cons f rest ih =>
    rw [assignFluents] at h
    split at h
    · cases hr : assignFluents rest (Function.update pose f.poseBody f.pose) with
      | error e => rw [hr] at h; simp at h
      | ok r =>
        obtain ⟨pose1, l1⟩ := r
        rw [hr] at h
        simp only [Except.ok.injEq, Prod.mk.injEq] at h
        obtain ⟨rfl, rfl⟩ := h
        simp only [List.map_cons, List.nodup_cons] at hone
        obtain ⟨rfl, i2, i3⟩ := ih (fun g hg => hown g (List.mem_cons_of_mem _ hg)) hone.2 hr
        have ho := hown f List.mem_cons_self
        refine ⟨rfl, ?_, ?_⟩
        · intro b hb
          simp only [List.mem_cons, not_or] at hb
          rw [i2 b hb.2, ho, Function.update_of_ne hb.1]
        · intro g hg
          rcases List.mem_cons.1 hg with rfl | hg
          · rw [i2 _ hone.1, ho, Function.update_self]
          · exact i3 g hg
    · simp at h

omit [Group P] in
/-- C100, motions: a motion that is returned leads from the first to the second configuration, and in every configuration of it neither the robot nor the held body touches a fixed body or one of the objects,
each of them at the pose that the facts give it. -/
theorem C100_motion {R J : Type*} [DecidableEq R] [DecidableEq J] {s : Sim B P C G} {reach : C → P → Prop} {hc : G → C → B → P → Bool} (hs : SimOk s reach hc) {fixed : List B} {held : List G}
    {conf1 conf2 : BodyConf R J C} {fluents : List (Fluent B P)} (hfl : PoseFacts fixed fluents) {w : World B P C} {path : List C}
    (h : motion s fixed false held conf1 conf2 fluents w = .ok (some path)) :
    path.head? = some conf1.configuration ∧ path.getLast? = some conf2.configuration ∧
      ∀ c ∈ path, (∀ o ∈ fixed, s.robotCollide c o (w.pose o) = false ∧ ∀ g ∈ held, hc g c o (w.pose o) = false) ∧
        ∀ f ∈ fluents, s.robotCollide c f.object f.pose = false ∧ ∀ g ∈ held, hc g c f.object f.pose = false := by
  unfold motion at h
  split at h
  · simp only [Bool.false_eq_true, if_false] at h
    split at h
    · simp at h
    · rename_i pose l ha
      simp only [Except.ok.injEq] at h
      obtain ⟨rfl, a2, a3⟩ := assignFluents_ok fluents hfl.own hfl.one ha
      obtain ⟨p1, p2, p3⟩ := hs.plan _ _ _ _ _ h
      refine ⟨p1, p2, fun c hcp => ⟨fun o ho => ?_, fun f hf => ?_⟩⟩
      · have := p3 c hcp o (List.mem_append_left _ ho)
        simp only at this
        rwa [a2 o] at this
        intro hmem
        obtain ⟨f, hf, rfl⟩ := List.mem_map.1 hmem
        exact hfl.fixed f hf ho
      · have := p3 c hcp f.object (List.mem_append_right _ (List.mem_map.2 ⟨f, hf, rfl⟩))
        simp only at this
        rwa [a3 f hf] at this
  · simp at h

omit [Group P] in
theorem assignFluents_error (fluents : List (Fluent B P)) (pose : B → P) :
    (assignFluents fluents pose = .error .value ∧ ∃ f ∈ fluents, f.name ≠ "atpose") ∨ ((∃ r, assignFluents fluents pose = .ok r) ∧ ∀ f ∈ fluents, f.name = "atpose") := by
  induction fluents generalizing pose with
  | nil => exact .inr ⟨⟨_, rfl⟩, by simp⟩
  | cons f rest ih =>
    rw [assignFluents]
    by_cases hf : f.name = "atpose"
    · rw [if_pos hf]
      rcases ih (Function.update pose f.poseBody f.pose) with ⟨h1, g, hg, hg'⟩ | ⟨⟨r, h1⟩, h2⟩
      · rw [h1]
        exact .inl ⟨rfl, g, List.mem_cons_of_mem _ hg, hg'⟩
      · rw [h1]
        refine .inr ⟨⟨_, rfl⟩, ?_⟩
        intro g hg
        rcases List.mem_cons.1 hg with rfl | hg
        · exact hf
        · exact h2 g hg
    · rw [if_neg hf]
      exact .inl ⟨rfl, f, List.mem_cons_self, hf⟩

omit [Group P] in
/-- C100, errors: an AssertionError exactly for configurations of different robots or joints; else a ValueError exactly for a fact that is not about a pose, unless the robot is teleported. -/
theorem C100_errors {R J : Type*} [DecidableEq R] [DecidableEq J] (s : Sim B P C G) (fixed : List B) (teleport : Bool) (held : List G)
    (conf1 conf2 : BodyConf R J C) (fluents : List (Fluent B P)) (w : World B P C) :
    (motion s fixed teleport held conf1 conf2 fluents w = .error .assertion ↔ ¬ (conf1.body = conf2.body ∧ conf1.joints = conf2.joints)) ∧
      (motion s fixed teleport held conf1 conf2 fluents w = .error .value ↔
        (conf1.body = conf2.body ∧ conf1.joints = conf2.joints) ∧ teleport = false ∧ ∃ f ∈ fluents, f.name ≠ "atpose") := by
  unfold motion
  by_cases hcj : conf1.body = conf2.body ∧ conf1.joints = conf2.joints
  · rw [if_pos hcj]
    cases teleport with
    | true => simp [hcj]
    | false =>
      simp only [Bool.false_eq_true, if_false]
      rcases assignFluents_error fluents w.pose with ⟨h1, h2⟩ | ⟨⟨r, h1⟩, h2⟩
      · rw [h1]
        simp [hcj, h2]
      · rw [h1]
        obtain ⟨r1, r2⟩ := r
        refine ⟨by simp [hcj], ?_⟩
        simp only [reduceCtorEq, false_iff, not_and, not_exists]
        intro _ _ f hf
        simp [h2 f hf]
  · rw [if_neg hcj]
    simp [hcj]

/-- A world on a line: two bodies touch if they are at the same place, the robot is a point that touches objects (bodies 2, 3, ...), the placement is the number of the draw. -/
def lineSim : Sim ℕ (Multiplicative ℤ) (Multiplicative ℤ) Unit where
  collide _ p _ q := decide (p = q)
  robotCollide c o p := decide (2 ≤ o ∧ c = p)
  placement n _ _ _ := some (.ofAdd n)
  left _ _ _ _ := 1
  theta _ := 0
  sample _ := 1
  invKin _ _ t := (some t, t)
  plan w goal obstacles _ := if obstacles.all fun o => !decide (2 ≤ o ∧ w.conf = w.pose o) && !decide (2 ≤ o ∧ goal = w.pose o) then some [w.conf, goal] else none

theorem lineSim_ok : SimOk lineSim (fun q t => q = t) (fun _ c o p => lineSim.robotCollide c o p) := by
  refine ⟨fun a p b q => decide_eq_decide.2 eq_comm, ?_, ?_⟩
  · intro n c t q c' h
    simp only [lineSim, Prod.mk.injEq, Option.some.injEq] at h
    exact ⟨h.2.symm.trans h.1, h.1.symm⟩
  · intro w goal obstacles held path h
    simp only [lineSim] at h
    split at h
    · rename_i hall
      cases h
      refine ⟨rfl, rfl, ?_⟩
      intro c hc o ho
      have := List.all_eq_true.1 hall o ho
      simp only [Bool.and_eq_true, Bool.not_eq_true'] at this
      simp only [List.mem_cons, List.not_mem_nil, or_false] at hc
      rcases hc with rfl | rfl
      · exact ⟨this.1, fun _ _ => this.1⟩
      · exact ⟨this.2, fun _ _ => this.2⟩
    · cases h

/-- The stove (0) and a sink (1) left of the origin. -/
def lineWorld : World ℕ (Multiplicative ℤ) (Multiplicative ℤ) := ⟨fun b => .ofAdd (-1 - b), 1, 0⟩

/-- C98, other objects: false that the objects can be approached without touching another object. The check looks at the fixed bodies only. -/
theorem C98_objects_false : ∃ (s : Sim ℕ (Multiplicative ℤ) (Multiplicative ℤ) Unit) (reach : Multiplicative ℤ → Multiplicative ℤ → Prop) (w w' : World ℕ (Multiplicative ℤ) (Multiplicative ℤ))
    (approach : Multiplicative ℤ), SimOk s reach (fun _ c o p => s.robotCollide c o p) ∧ placeAll s approach (fun _ => 1) [0, 1] 0 5 [2, 3] [] w = some w' ∧
      ∀ q, reach q (approach * (w'.pose 2 * 1⁻¹)) → s.robotCollide q 3 (w'.pose 3) = true := by
  refine ⟨lineSim, fun q t => q = t, lineWorld, _, .ofAdd 2, lineSim_ok, rfl, ?_⟩
  rintro q rfl
  rfl

/-- C98 is not vacuous. -/
theorem C98_nonvacuous : SimOk lineSim (fun q t => q = t) (fun _ c o p => lineSim.robotCollide c o p) ∧
    ∃ w', placeAll lineSim (.ofAdd 1) (fun _ => 1) [0, 1] 0 5 [2, 3] [] lineWorld = some w' ∧ w'.pose 2 = .ofAdd 0 ∧ w'.pose 3 = .ofAdd 2 :=
  ⟨lineSim_ok, _, rfl, rfl, rfl⟩

/-- The line, but with rotation 0 the object is put to the origin, which the robot cannot reach, and with the other ones to 1. -/
noncomputable def turnSim : Sim ℕ (Multiplicative ℤ) (Multiplicative ℤ) Unit :=
  open Classical in
  { lineSim with
    placement := fun _ θ _ _ => if θ = 0 then some 1 else some (.ofAdd 1)
    invKin := fun _ c t => if t = 1 then (none, c) else (some t, t) }

theorem turnSim_ok : SimOk turnSim (fun q t => q = t) (fun _ c o p => turnSim.robotCollide c o p) := by
  refine ⟨lineSim_ok.symm, ?_, lineSim_ok.plan⟩
  intro n c t q c' h
  simp only [turnSim] at h
  split at h
  · simp at h
  · simp only [Prod.mk.injEq, Option.some.injEq] at h
    exact ⟨h.2.symm.trans h.1, h.1.symm⟩

/-- C99, rotations: false that the problem is made whenever the insertion is possible with one of the four rotations. Only the first one without collision is tried. -/
theorem C99_rotation_false : ∃ (s : Sim ℕ (Multiplicative ℤ) (Multiplicative ℤ) Unit) (reach : Multiplicative ℤ → Multiplicative ℤ → Prop) (w : World ℕ (Multiplicative ℤ) (Multiplicative ℤ)),
    SimOk s reach (fun _ c o p => s.robotCollide c o p) ∧ (∃ w', insertFacts s 1 1 (fun _ => 1) [0, 1] [(2, 1)] w = (w', .ok none)) ∧
      ∃ θ ∈ [0, Real.pi / 2, Real.pi, -Real.pi / 2], ∀ n, ∃ post, s.placement n θ 2 1 = some post ∧ (∀ o ∈ [0, 1], s.collide 2 post o (w.pose o) = false) ∧
        ∃ q, Good s reach [0, 1] w.pose (1 * (post * 1⁻¹)) q := by
  refine ⟨turnSim, fun q t => q = t, lineWorld, turnSim_ok, ?_, Real.pi / 2, by simp, ?_⟩
  · have hik : ∀ n w, (ikFn turnSim [0, 1] 1 n w).2 = none := by
      intro n
      induction n with
      | zero => intro w; rfl
      | succ n ih =>
        intro w
        simp only [ikFn, turnSim, if_true]
        exact ih _
    have hfs : fixedStable turnSim [0, 1] 2 1 [0, Real.pi / 2, Real.pi, -Real.pi / 2] lineWorld = ({ lineWorld with pose := Function.update lineWorld.pose 2 1, drawn := 1 }, some 1) := by
      simp only [fixedStable, samplePlacement, turnSim, if_true]
      rfl
    rw [insertFacts, hfs]
    simp only [approachPose, inv_one, mul_one]
    generalize { lineWorld with pose := Function.update lineWorld.pose 2 1, drawn := 1 } = w0
    have h1 := hik 10 w0
    generalize ikFn turnSim [0, 1] 1 10 w0 = r1 at *
    obtain ⟨w1, o1⟩ := r1
    simp only at h1
    subst h1
    exact ⟨_, rfl⟩
  · intro n
    have hpi : Real.pi / 2 ≠ 0 := by have := Real.pi_pos; positivity
    refine ⟨.ofAdd 1, ?_, ?_, .ofAdd 1, rfl, ?_⟩
    · simp only [turnSim, if_neg hpi]
    · intro o ho
      fin_cases ho <;> rfl
    · intro o ho
      fin_cases ho <;> rfl

/-- Ten attempts in a row to bring the tool to `target`, each from random joints, fail: no joints are found, or the robot then touches a fixed body. -/
def GivesUp (s : Sim B P C G) (fixed : List B) (pose : B → P) (target : P) : Prop :=
  ∃ d, ∀ i < 10, (s.invKin (d + i) (s.sample (d + i)) target).1 = none ∨ ∃ o ∈ fixed, s.robotCollide (s.invKin (d + i) (s.sample (d + i)) target).2 o (pose o) = true

omit [DecidableEq B] [Group P] in
theorem ik_none (s : Sim B P C G) (fixed : List B) (t : P) (n : ℕ) (w : World B P C) (h : (ikFn s fixed t n w).2 = none) :
    ∀ i < n, (s.invKin (w.drawn + i) (s.sample (w.drawn + i)) t).1 = none ∨ ∃ o ∈ fixed, s.robotCollide (s.invKin (w.drawn + i) (s.sample (w.drawn + i)) t).2 o (w.pose o) = true := by
  induction n generalizing w with
  | zero => intro i hi; omega
  | succ n ih =>
    rw [ikFn] at h
    cases hik : s.invKin w.drawn (s.sample w.drawn) t with
    | mk q c =>
      rw [hik] at h
      simp only at h
      have hrest : ∀ w1 : World B P C, w1.pose = w.pose → w1.drawn = w.drawn + 1 → (ikFn s fixed t n w1).2 = none →
          ((s.invKin w.drawn (s.sample w.drawn) t).1 = none ∨ ∃ o ∈ fixed, s.robotCollide (s.invKin w.drawn (s.sample w.drawn) t).2 o (w.pose o) = true) →
          ∀ i < n + 1, (s.invKin (w.drawn + i) (s.sample (w.drawn + i)) t).1 = none ∨
            ∃ o ∈ fixed, s.robotCollide (s.invKin (w.drawn + i) (s.sample (w.drawn + i)) t).2 o (w.pose o) = true := by
        intro w1 hp hd hn h0 i hi
        cases i with
        | zero => exact h0
        | succ i =>
          have := ih w1 hn i (by omega)
          rwa [hp, hd, add_assoc, add_comm 1 i] at this
      cases q with
      | none => exact hrest { w with conf := c, drawn := w.drawn + 1 } rfl rfl h (Or.inl (by rw [hik]))
      | some q =>
        simp only at h
        split at h
        · rename_i hc
          refine hrest { w with conf := c, drawn := w.drawn + 1 } rfl rfl h (Or.inr ?_)
          simp only [anyRobotCollision, List.any_eq_true] at hc
          rwa [hik]
        · simp at h

omit [DecidableEq B] in
/-- C99, refusal: the problem is not made because of an initial pose only if for some object ten attempts in a row to reach its approach pose have failed. -/
theorem C99_start_refused (s : Sim B P C G) (approach : P) (grasp : B → P) (fixed bodies : List B) (w : World B P C) (h : (startFacts s approach grasp fixed bodies w).2 = none) :
    ∃ b ∈ bodies, GivesUp s fixed w.pose (approach * (w.pose b * (grasp b)⁻¹)) := by
  induction bodies generalizing w with
  | nil => simp [startFacts] at h
  | cons b rest ih =>
    have hp := ik_pose s fixed (approachPose approach (grasp b) (w.pose b)) 10 w
    have hn := ik_none s fixed (approachPose approach (grasp b) (w.pose b)) 10 w
    rw [startFacts] at h
    cases hik : ikFn s fixed (approachPose approach (grasp b) (w.pose b)) 10 w with
    | mk w' o =>
      rw [hik] at hp hn h
      simp only at hp
      cases o with
      | none => exact ⟨b, List.mem_cons_self, w.drawn, hn rfl⟩
      | some q =>
        simp only at h
        have hr : (startFacts s approach grasp fixed rest w').2 = none := by
          cases hr : startFacts s approach grasp fixed rest w' with
          | mk w'' r =>
            rw [hr] at h
            cases r with
            | none => rfl
            | some l => simp at h
        obtain ⟨b', hb', hg⟩ := ih w' hr
        rw [hp] at hg
        exact ⟨b', List.mem_cons_of_mem _ hb', hg⟩

omit [Group P] in
theorem fixedStable_none (s : Sim B P C G) (fixed : List B) (body surface : B) (hb : body ∉ fixed) (θs : List ℝ) (w : World B P C) (h : (fixedStable s fixed body surface θs w).2 = none) :
    ∀ i θ, θs[i]? = some θ → ∀ p, s.placement (w.drawn + i) θ body surface = some p → ∃ o ∈ fixed, s.collide body p o (w.pose o) = true := by
  induction θs generalizing w with
  | nil => simp
  | cons θ rest ih =>
    obtain ⟨h1, h2⟩ := samplePlacement_pose s θ body surface w
    rw [fixedStable] at h
    have hd : (samplePlacement s θ body surface w).1.drawn = w.drawn + 1 := by
      unfold samplePlacement
      split <;> rfl
    have hpl : (samplePlacement s θ body surface w).2 = s.placement w.drawn θ body surface := by
      unfold samplePlacement
      split
      · rename_i e; exact e.symm
      · rename_i e; exact e.symm
    cases hsp : samplePlacement s θ body surface w with
    | mk w1 o =>
      rw [hsp] at h1 h2 hd hpl h
      simp only at h1 hd hpl h
      have hrest : (fixedStable s fixed body surface rest w1).2 = none →
          (∀ p, s.placement w.drawn θ body surface = some p → ∃ o ∈ fixed, s.collide body p o (w.pose o) = true) →
          ∀ i θ', (θ :: rest)[i]? = some θ' → ∀ p, s.placement (w.drawn + i) θ' body surface = some p → ∃ o ∈ fixed, s.collide body p o (w.pose o) = true := by
        intro hn h0 i θ' hi p hp
        cases i with
        | zero =>
          rw [List.getElem?_cons_zero, Option.some.injEq] at hi
          subst hi
          exact h0 p hp
        | succ i =>
          rw [List.getElem?_cons_succ] at hi
          obtain ⟨o, ho, hc⟩ := ih w1 hn i θ' hi p (by rw [hd, add_assoc, add_comm 1 i]; exact hp)
          exact ⟨o, ho, by rw [← h1 o fun e => hb (e ▸ ho)]; exact hc⟩
      cases o with
      | none => exact hrest h fun p hp => by rw [← hpl] at hp; simp at hp
      | some p1 =>
        simp only at h
        split at h
        · rename_i hcol
          refine hrest h fun p hp => ?_
          rw [← hpl, Option.some.injEq] at hp
          subst hp
          obtain ⟨h3, -⟩ := h2 p1 rfl
          simp only [anyCollision, List.any_eq_true] at hcol
          obtain ⟨o, ho, hc⟩ := hcol
          simp only at h3
          rw [h3, h1 o fun e => hb (e ▸ ho)] at hc
          exact ⟨o, ho, hc⟩
        · simp at h

/-- C99, refusal: why an insertion keeps the problem from being made. It is refused only if for some pair a collision-free place with one of the four rotations was drawn, and ten attempts in a row to reach it, or
the pose above it, have failed; and it is an assertion that fails only if for some pair the draws with all four rotations gave no place or one in which the object touches a fixed body. -/
theorem C99_insert_refused (s : Sim B P C G) (approach lift : P) (grasp : B → P) (fixed : List B) (pairs : List (B × B)) (hf : ∀ x ∈ pairs, x.1 ∉ fixed) (w : World B P C) :
    ((insertFacts s approach lift grasp fixed pairs w).2 = .ok none → ∃ x ∈ pairs, ∃ n, ∃ θ ∈ [0, Real.pi / 2, Real.pi, -Real.pi / 2], ∃ post,
      s.placement n θ x.1 x.2 = some post ∧ (∀ o ∈ fixed, s.collide x.1 post o (w.pose o) = false) ∧
      (GivesUp s fixed w.pose (approach * (lift * post * (grasp x.1)⁻¹)) ∨ GivesUp s fixed w.pose (approach * (post * (grasp x.1)⁻¹)))) ∧
    ∀ e, (insertFacts s approach lift grasp fixed pairs w).2 = .error e → e = .assertion ∧ ∃ x ∈ pairs, ∃ d, ∀ i θ, [0, Real.pi / 2, Real.pi, -Real.pi / 2][i]? = some θ →
      ∀ p, s.placement (d + i) θ x.1 x.2 = some p → ∃ o ∈ fixed, s.collide x.1 p o (w.pose o) = true := by
  induction pairs generalizing w with
  | nil => exact ⟨fun h => by simp [insertFacts] at h, fun e h => by simp [insertFacts] at h⟩
  | cons x rest ih =>
    obtain ⟨body, sink⟩ := x
    have hb : body ∉ fixed := hf (body, sink) List.mem_cons_self
    rw [insertFacts]
    obtain ⟨a1, a2⟩ := fixedStable_ok s fixed body sink hb [0, Real.pi / 2, Real.pi, -Real.pi / 2] w
    have a3 := fixedStable_none s fixed body sink hb [0, Real.pi / 2, Real.pi, -Real.pi / 2] w
    cases hfs : fixedStable s fixed body sink [0, Real.pi / 2, Real.pi, -Real.pi / 2] w with
    | mk w1 o =>
      rw [hfs] at a1 a2 a3
      simp only at a1
      cases o with
      | none =>
        refine ⟨fun h => by simp at h, fun e h => ?_⟩
        simp only [Except.error.injEq] at h
        exact ⟨h.symm, (body, sink), List.mem_cons_self, w.drawn, a3 rfl⟩
      | some post =>
        obtain ⟨⟨n, θ, hθ, hpl⟩, hcol⟩ := a2 post rfl
        simp only
        have p1 := ik_pose s fixed (approachPose approach (grasp body) (lift * post)) 10 w1
        have n1 := ik_none s fixed (approachPose approach (grasp body) (lift * post)) 10 w1
        cases h1 : ikFn s fixed (approachPose approach (grasp body) (lift * post)) 10 w1 with
        | mk w2 o1 =>
          rw [h1] at p1 n1
          simp only at p1 ⊢
          have p2 := ik_pose s fixed (approachPose approach (grasp body) post) 10 w2
          have n2 := ik_none s fixed (approachPose approach (grasp body) post) 10 w2
          cases h2 : ikFn s fixed (approachPose approach (grasp body) post) 10 w2 with
          | mk w3 o2 =>
            rw [h2] at p2 n2
            simp only at p2 ⊢
            have hgive : ∀ {v : World B P C} {t : P}, (∀ o ∈ fixed, v.pose o = w.pose o) → GivesUp s fixed v.pose t → GivesUp s fixed w.pose t := by
              rintro v t hv ⟨d, hd⟩
              refine ⟨d, fun i hi => (hd i hi).imp_right ?_⟩
              rintro ⟨o, ho, hc⟩
              exact ⟨o, ho, by rw [← hv o ho]; exact hc⟩
            have f1 : ∀ o ∈ fixed, w1.pose o = w.pose o := fun o ho => a1 o fun e => hb (e ▸ ho)
            have f2 : ∀ o ∈ fixed, w2.pose o = w.pose o := fun o ho => by rw [p1]; exact f1 o ho
            have f3 : ∀ o ∈ fixed, w3.pose o = w.pose o := fun o ho => by rw [p2]; exact f2 o ho
            cases o1 with
            | none =>
              refine ⟨fun _ => ⟨(body, sink), List.mem_cons_self, n, θ, hθ, post, hpl, hcol, Or.inl (hgive f1 ⟨w1.drawn, n1 rfl⟩)⟩, fun e h => by simp at h⟩
            | some q1 =>
              cases o2 with
              | none =>
                refine ⟨fun _ => ⟨(body, sink), List.mem_cons_self, n, θ, hθ, post, hpl, hcol, Or.inr (hgive f2 ⟨w2.drawn, n2 rfl⟩)⟩, fun e h => by simp at h⟩
              | some q2 =>
                simp only
                have hnot : ∀ y ∈ rest, y.1 ∉ fixed := fun y hy => hf y (List.mem_cons_of_mem _ hy)
                obtain ⟨i1, i2⟩ := ih hnot w3
                have hcolw : ∀ {b : B} {p : P}, (∀ o ∈ fixed, s.collide b p o (w3.pose o) = false) → ∀ o ∈ fixed, s.collide b p o (w.pose o) = false :=
                  fun h o ho => by rw [← f3 o ho]; exact h o ho
                cases hr : insertFacts s approach lift grasp fixed rest w3 with
                | mk w4 r =>
                  rw [hr] at i1 i2
                  rcases r with e | _ | l
                  · refine ⟨fun h => by simp at h, fun e' h => ?_⟩
                    obtain ⟨j1, y, hy, d, hd⟩ := i2 e' h
                    refine ⟨j1, y, List.mem_cons_of_mem _ hy, d, fun i θ hi p hp => ?_⟩
                    obtain ⟨o, ho, hc⟩ := hd i θ hi p hp
                    exact ⟨o, ho, by rw [← f3 o ho]; exact hc⟩
                  · refine ⟨fun h => ?_, fun e' h => by simp at h⟩
                    obtain ⟨y, hy, n', θ', hθ', post', j1, j2, j3⟩ := i1 rfl
                    exact ⟨y, List.mem_cons_of_mem _ hy, n', θ', hθ', post', j1, hcolw j2, j3.imp (hgive f3) (hgive f3)⟩
                  · exact ⟨fun h => by simp at h, fun e' h => by simp at h⟩

/-- The three refusals occur (for the second see also `C99_rotation_false`). -/
theorem C99_refused_nonvacuous : (startFacts turnSim 1 (fun _ => 1) [0, 1] [2] { lineWorld with pose := fun _ => 1 }).2 = none ∧
    (insertFacts { lineSim with invKin := fun _ c _ => (none, c) } 1 1 (fun _ => 1) [0, 1] [(2, 1)] lineWorld).2 = .ok none ∧
    (insertFacts { lineSim with placement := fun _ _ _ _ => none } 1 1 (fun _ => 1) [0, 1] [(2, 1)] lineWorld).2 = .error .assertion := by
  refine ⟨?_, rfl, rfl⟩
  have hik : ∀ n w, (ikFn turnSim [0, 1] 1 n w).2 = none := by
    intro n
    induction n with
    | zero => intro w; rfl
    | succ n ih =>
      intro w
      simp only [ikFn, turnSim, if_true]
      exact ih _
  rw [startFacts]
  simp only [approachPose, inv_one, mul_one]
  generalize ({ lineWorld with pose := fun _ => 1 } : World ℕ (Multiplicative ℤ) (Multiplicative ℤ)) = w0
  have h1 := hik 10 w0
  generalize ikFn turnSim [0, 1] 1 10 w0 = r1 at *
  obtain ⟨w1, o1⟩ := r1
  simp only at h1
  subst h1
  rfl

/-- C99 is not vacuous. -/
theorem C99_nonvacuous : SimOk lineSim (fun q t => q = t) (fun _ c o p => lineSim.robotCollide c o p) ∧
    (∃ w' l, startFacts lineSim (.ofAdd 1) (fun _ => 1) [0, 1] [2, 3] lineWorld = (w', some l)) ∧
    ∃ w' l, insertFacts lineSim (.ofAdd 1) (.ofAdd 3) (fun _ => 1) [0, 1] [(2, 1)] lineWorld = (w', .ok (some l)) ∧ l.map (·.pre) = [.ofAdd 3] :=
  ⟨lineSim_ok, ⟨_, _, rfl⟩, _, _, rfl, rfl⟩

/-- C100, teleport: false for a teleported robot, whose motion is not checked. -/
theorem C100_teleport_false : ∃ (conf1 conf2 : BodyConf Unit Unit (Multiplicative ℤ)) (fluents : List (Fluent ℕ (Multiplicative ℤ))) (path : List (Multiplicative ℤ)),
    PoseFacts [0, 1] fluents ∧ motion lineSim [0, 1] true [] conf1 conf2 fluents lineWorld = .ok (some path) ∧ ∃ c ∈ path, ∃ f ∈ fluents, lineSim.robotCollide c f.object f.pose = true :=
  ⟨⟨(), (), 1⟩, ⟨(), (), 1⟩, [⟨"atpose", 2, 2, 1⟩], _, ⟨by simp, by simp, by simp⟩, rfl, 1, by simp, _, List.mem_singleton.2 rfl, rfl⟩

omit [Group P] in
/-- The general form of `C100_teleport_false`: the command of a teleported robot consists of the two configurations, whatever the world and the facts are. -/
theorem C100_teleport {R J : Type*} [DecidableEq R] [DecidableEq J] (s : Sim B P C G) (fixed : List B) (held : List G) (conf1 conf2 : BodyConf R J C) (fluents : List (Fluent B P)) (w : World B P C)
    (hb : conf1.body = conf2.body) (hj : conf1.joints = conf2.joints) (path : List C) :
    motion s fixed true held conf1 conf2 fluents w = .ok (some path) ↔ path = [conf1.configuration, conf2.configuration] := by
  simp only [motion, hb, hj, and_self, if_true, Except.ok.injEq, Option.some.injEq]
  exact eq_comm

/-- C100 is not vacuous. -/
theorem C100_nonvacuous : ∃ fluents : List (Fluent ℕ (Multiplicative ℤ)), PoseFacts [0, 1] fluents ∧ fluents ≠ [] ∧
    motion lineSim [0, 1] false [()] (⟨(), (), 1⟩ : BodyConf Unit Unit (Multiplicative ℤ)) ⟨(), (), .ofAdd 5⟩ fluents lineWorld = .ok (some [1, .ofAdd 5]) :=
  ⟨[⟨"atpose", 2, 2, .ofAdd 3⟩, ⟨"atpose", 3, 3, .ofAdd 4⟩], ⟨by simp, by simp, by simp⟩, by simp, rfl⟩

end Verif.Props
