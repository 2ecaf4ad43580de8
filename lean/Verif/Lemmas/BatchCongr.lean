import Verif.Model.Batch
import Mathlib.Tactic.Cases

/-! The planning call with a batch checker only asks about motions between samples, the start and the goal. -/

namespace Verif.Prm

variable {P K : Type*} [LinearOrder K] {check check' : Batch P} {A : Set P}

/-- The two checkers agree on batches of motions between points of `A`. -/
def Batch.AgreeOn (check check' : Batch P) (A : Set P) : Prop := ∀ ms, (∀ m ∈ ms, m.1 ∈ A ∧ m.2 ∈ A) → check ms = check' ms

theorem tableGraphB_congr (h : check.AgreeOn check' A) {samples : List P} (hs : ∀ p ∈ samples, p ∈ A) (t : Table K) (start : ℕ) (thr : Option K) :
    tableGraphB check samples t start thr = tableGraphB check' samples t start thr := by
  have e : ∀ cs : List (ℕ × ℕ × K), check (ends samples cs) = check' (ends samples cs) := by
    intro cs
    apply h
    intro m hm
    unfold ends at hm
    obtain ⟨c, -, hc⟩ := List.mem_filterMap.1 hm
    split at hc
    · rename_i p q h1 h2
      cases hc
      exact ⟨hs _ (List.mem_of_getElem? h1), hs _ (List.mem_of_getElem? h2)⟩
    · cases hc
  unfold tableGraphB
  simp only [e]

theorem querySamplesB_congr (w : World P K) (h : check.AgreeOn check' A) {samples : List P} (hs : ∀ p ∈ samples, p ∈ A) (r : K) {q : P} (hq : q ∈ A) :
    w.querySamplesB check samples r q = w.querySamplesB check' samples r q := by
  unfold World.querySamplesB
  rw [h]
  intro m hm
  obtain ⟨c, hc, rfl⟩ := List.mem_map.1 hm
  exact ⟨hq, hs _ (List.fst_mem_of_mem_zipIdx (List.mem_of_mem_filter hc))⟩

namespace Knn

/-- All samples are in `A`. -/
def SamplesIn (s : Knn P K) (A : Set P) : Prop := ∀ S, s.samples = some S → ∀ p ∈ S, p ∈ A

theorem setRadius_samples (w : World P K) (s : Knn P K) (r : K) : (s.setRadius w r).1.samples = s.samples := by
  unfold setRadius
  split
  · rfl
  · split
    · rfl
    · simp only
      split <;> rfl

theorem rebuildB_congr (w : World P K) (h : check.AgreeOn check' A) (s : Knn P K) {samples : List P} (hs : ∀ p ∈ samples, p ∈ A) :
    s.rebuildB w check samples = s.rebuildB w check' samples ∧ (s.rebuildB w check samples).1.SamplesIn A := by
  refine ⟨?_, ?_⟩
  · unfold rebuildB
    simp only [tableGraphB_congr h hs]
  · have : (s.rebuildB w check samples).1.samples = some samples := by
      unfold rebuildB
      simp only
      split
      · rfl
      · split
        · rfl
        · split
          · rw [setRadius_samples]
          · rfl
    intro S hS
    rw [this] at hS
    cases hS
    exact hs

theorem fresh_in {w : World P K} (hd : ∀ i, w.draw i ∈ A) (d n : ℕ) : ∀ p ∈ w.fresh d n, p ∈ A := by
  intro p hp
  unfold World.fresh at hp
  obtain ⟨i, -, rfl⟩ := List.mem_map.1 hp
  exact hd _

theorem growB_congr {w : World P K} (h : check.AgreeOn check' A) (hd : ∀ i, w.draw i ∈ A) (n : ℕ) {s : Knn P K} (hs : s.SamplesIn A) :
    s.growB w check n = s.growB w check' n ∧ (s.growB w check n).1.SamplesIn A := by
  unfold growB
  simp only
  cases e : s.samples with
  | none => exact rebuildB_congr w h _ (fresh_in hd _ _)
  | some old =>
    simp only
    by_cases hn : n ≤ old.length
    · rw [if_pos hn, if_pos hn]
      refine ⟨rfl, ?_⟩
      intro S hS
      exact hs S (by rw [e]; simpa using hS)
    · rw [if_neg hn, if_neg hn]
      refine rebuildB_congr w h _ ?_
      intro p hp
      rcases List.mem_append.1 hp with hp | hp
      · exact hs old e p hp
      · exact fresh_in hd _ _ p hp

theorem queryB_congr (w : World P K) (h : check.AgreeOn check' A) {a b : P} (ha : a ∈ A) (hb : b ∈ A) {s : Knn P K} (hs : s.SamplesIn A) :
    s.queryB w check a b = s.queryB w check' a b ∧ (s.queryB w check a b).1.SamplesIn A := by
  refine ⟨?_, ?_⟩
  · unfold queryB
    cases e : s.samples with
    | none => rfl
    | some S =>
      cases e' : s.connR.or s.certified with
      | none => rfl
      | some r => simp only [querySamplesB_congr w h (hs S e) r ha, querySamplesB_congr w h (hs S e) r hb]
  · have : (s.queryB w check a b).1.samples = s.samples := by
      unfold queryB
      split
      · rfl
      · rfl
      · split
        · rfl
        · split
          · rfl
          · split <;> rfl
    intro S hS
    rw [this] at hS
    exact hs S hS

end Knn

end Verif.Prm

namespace Verif.Anytime

open Verif.Prm

variable {P K F : Type*} [LinearOrder K] [Field F] [LinearOrder F] [FloorSemiring F] {check check' : Batch P} {A : Set P}

theorem bodyB_congr {w : World P K} (h : check.AgreeOn check' A) (hd : ∀ i, w.draw i ∈ A) {a b : P} (ha : a ∈ A) (hb : b ∈ A) (maxS : ℕ) (scale : F → F)
    {s : Vars P K F} (hs : s.prm.SamplesIn A) :
    bodyB w check a b maxS scale s = bodyB w check' a b maxS scale s ∧ ∀ s', bodyB w check a b maxS scale s = .next s' → s'.prm.SamplesIn A := by
  obtain ⟨g1, g2⟩ := Knn.growB_congr h hd ⌊s.num⌋₊ hs
  obtain ⟨q1, q2⟩ := Knn.queryB_congr w h ha hb g2
  unfold bodyB
  simp only
  rw [← g1, ← q1]
  refine ⟨rfl, ?_⟩
  intro s' h'
  split at h'
  · split at h'
    · cases h'
    · split at h'
      · cases h'
      · split at h'
        · cases h'
        · cases h'
          exact q2
  · cases h'

theorem loopB_congr {w : World P K} (h : check.AgreeOn check' A) (hd : ∀ i, w.draw i ∈ A) {a b : P} (ha : a ∈ A) (hb : b ∈ A) (maxS : ℕ) (scale : F → F) (fuel : ℕ) :
    ∀ s : Vars P K F, s.prm.SamplesIn A → loop (bodyB w check a b maxS scale) fuel s = loop (bodyB w check' a b maxS scale) fuel s := by
  induction fuel with
  | zero => intro s _; rfl
  | succ fuel ih =>
    intro s hs
    obtain ⟨e, hn⟩ := bodyB_congr h hd ha hb maxS scale hs
    unfold loop
    rw [← e]
    cases hb' : bodyB w check a b maxS scale s with
    | done b => rfl
    | next s' => exact ih s' (hn s' hb')

theorem planB_congr {w : World P K} (h : check.AgreeOn check' A) (hd : ∀ i, w.draw i ∈ A) {a b : P} (ha : a ∈ A) (hb : b ∈ A) (minS maxS : ℕ) (scale : F → F)
    (k : ℕ) (tr : Bool) (d fuel : ℕ) : planB w check a b minS maxS scale k tr d fuel = planB w check' a b minS maxS scale k tr d fuel := by
  have hp : ∀ x ∈ A, assertFree check x = assertFree check' x := by
    intro x hx
    unfold assertFree
    rw [h [(x, x)] (by simp [hx])]
  unfold planB
  rw [hp a ha, hp b hb, loopB_congr h hd ha hb maxS scale fuel _ (by intro S hS; cases hS)]

end Verif.Anytime
