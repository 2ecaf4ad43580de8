import Mathlib.Tactic.Linarith
import Mathlib.Tactic.NormNum
import Mathlib.Tactic.Ring
import Mathlib.Data.Rat.Floor
import Mathlib.Data.List.Range
import Verif.Model.Anytime
import Verif.Props.PrmKnn
import Verif.Props.BoundSearch

/-! The anytime planning loop: C55. -/

namespace Verif.Props

open Verif.Prm Verif.Anytime Verif.Bound Verif.Spec

set_option linter.unusedSectionVars false

variable {P K F : Type*} [LinearOrder K] [AddCommGroup K] [Field F] [LinearOrder F] [IsStrictOrderedRing F] [FloorSemiring F]

/-- The roadmap calls that trying the given sample counts makes. -/
def tried (start goal : P) (counts : List ℕ) : List (Knn.Op P K) := counts.flatMap fun n => [.grow n, .query start goal]

/-- For every count in the list the roadmap grown to it had no path from start to goal. -/
def NoPath (w : World P K) (k : ℕ) (tr : Bool) (d : ℕ) (start goal : P) (counts : List ℕ) : Prop :=
  ∀ (i n : ℕ), counts[i]? = some n →
    ∃ c, (((Knn.init k tr d).run w (tried start goal (counts.take i) ++ [.grow n])).query w start goal).2 = .ok (c, [])

theorem setRadius_samples (w : World P K) (r : K) (s : Knn P K) : (s.setRadius w r).1.samples = s.samples := by
  unfold Knn.setRadius
  repeat' (first | rfl | split)
  all_goals simp only
  all_goals split <;> rfl

theorem rebuild_samples (w : World P K) (s : Knn P K) (S : List P) : (Knn.rebuild w s S).1.samples = some S := by
  unfold Knn.rebuild
  simp only
  split
  · rfl
  · split
    · rfl
    · split
      · rw [setRadius_samples]
      · rfl

theorem grow_samples (w : World P K) (s : Knn P K) (n : ℕ) :
    (∃ S, s.samples = some S ∧ n ≤ S.length ∧ (s.grow w n).2 = .error .arithmetic) ∨
    ((∀ S, s.samples = some S → S.length < n) ∧ ∃ S, (s.grow w n).1.samples = some S ∧ S.length = n) := by
  unfold Knn.grow
  simp only
  cases h : s.samples with
  | none =>
    right
    refine ⟨by simp, _, rebuild_samples _ _ _, by simp [World.fresh]⟩
  | some old =>
    by_cases hn : n ≤ old.length
    · left
      exact ⟨old, rfl, hn, by simp [hn]⟩
    · right
      refine ⟨by rintro S ⟨⟩; omega, old ++ w.fresh s.drawn (n - old.length), ?_, by simp [World.fresh]; omega⟩
      simp only [if_neg hn]
      rw [rebuild_samples]

theorem query_samples (w : World P K) (s : Knn P K) (a b : P) : (s.query w a b).1.samples = s.samples := by
  unfold Knn.query
  split <;> rfl

/-- Invariant of the loop. -/
structure LoopInv (w : World P K) (start goal : P) (minS maxS : ℕ) (scale : F → F) (k : ℕ) (tr : Bool) (d : ℕ) (s : Vars P K F) : Prop where
  prm : s.prm = (Knn.init k tr d).run w (tried start goal s.counts)
  num : s.num = scale^[s.counts.length] (minS : F)
  counts : s.counts = (List.range s.counts.length).map fun i => ⌊scale^[i] (minS : F)⌋₊
  le : ∀ c ∈ s.counts, c ≤ maxS
  chain : s.counts.IsChain (· < ·)
  last : s.prm.samples.map List.length = s.counts.getLast?
  path : s.path = if s.counts = [] then none else some []
  failed : NoPath w k tr d start goal s.counts
  below : ∀ i, i < s.counts.length → scale^[i] (minS : F) < (maxS : F) + 1

/-- What holds when the loop is left. -/
structure LoopPost (w : World P K) (start goal : P) (minS maxS : ℕ) (scale : F → F) (k : ℕ) (tr : Bool) (d : ℕ)
    (b : Vars P K F × Except PyErr Unit) : Prop where
  counts : b.1.counts = (List.range b.1.counts.length).map fun i => ⌊scale^[i] (minS : F)⌋₊
  le : ∀ c ∈ b.1.counts, c ≤ maxS
  chain : b.1.counts.IsChain (· < ·) ∨ (b.1.counts.dropLast.IsChain (· < ·) ∧ b.2 = .error .arithmetic)
  failed : NoPath w k tr d start goal b.1.counts.dropLast
  empty : b.1.counts = [] → b.2 = .ok () ∧ b.1.path = none ∧ maxS < minS
  nonempty : b.1.counts ≠ [] → minS ≤ maxS
  below : ∀ i, i < b.1.counts.length → scale^[i] (minS : F) < (maxS : F) + 1
  error : ∀ e, b.2 = .error e → ∃ n, b.1.counts.getLast? = some n ∧
    ((((Knn.init k tr d).run w (tried start goal b.1.counts.dropLast)).grow w n).2 = .error e ∨
      ((((Knn.init k tr d).run w (tried start goal b.1.counts.dropLast)).grow w n).2 = .ok () ∧
        (((Knn.init k tr d).run w (tried start goal b.1.counts.dropLast ++ [.grow n])).query w start goal).2 = .error e))
  answer : b.2 = .ok () → b.1.counts ≠ [] → ∃ pts, b.1.path = some pts ∧
    (pts = [] → NoPath w k tr d start goal b.1.counts ∧ (maxS : F) + 1 ≤ scale^[b.1.counts.length] (minS : F)) ∧
    (pts ≠ [] → ∃ n c, b.1.counts.getLast? = some n ∧
      (((Knn.init k tr d).run w (tried start goal b.1.counts.dropLast ++ [.grow n])).query w start goal).2 = .ok (c, pts))

theorem length_le_of_chain {l : List ℕ} {m : ℕ} (h : l.IsChain (· < ·)) (hm : ∀ c ∈ l, c ≤ m) : l.length ≤ m + 1 := by
  have hn : l.Nodup := (List.isChain_iff_pairwise.1 h).imp fun h => Nat.ne_of_lt h
  have hs : l ⊆ List.range (m + 1) := fun c hc => List.mem_range.2 (Nat.lt_succ_of_le (hm c hc))
  simpa using (hn.subperm hs).length_le

theorem chain_snoc {l : List ℕ} {n : ℕ} (h : l.IsChain (· < ·)) (hl : ∀ c, l.getLast? = some c → c < n) :
    (l ++ [n]).IsChain (· < ·) := by
  rw [List.isChain_append]
  refine ⟨h, by simp, ?_⟩
  intro x hx y hy
  simp only [List.head?_cons, Option.mem_def, Option.some.injEq] at hy
  subst hy
  exact hl x hx

theorem floor_le_max {x : F} {m : ℕ} (h : x < (m : F) + 1) : ⌊x⌋₊ ≤ m := by
  by_contra hcon
  have h1 : m + 1 ≤ ⌊x⌋₊ := by omega
  have h2 : ((m + 1 : ℕ) : F) ≤ x := (Nat.le_floor_iff' (by omega)).1 h1
  push_cast at h2
  exact absurd h (not_lt.2 h2)

theorem noPath_snoc {w : World P K} {k : ℕ} {tr : Bool} {d : ℕ} {start goal : P} {counts : List ℕ} {n : ℕ}
    (h : NoPath w k tr d start goal counts)
    (hn : ∃ c, (((Knn.init k tr d).run w (tried start goal counts ++ [.grow n])).query w start goal).2 = .ok (c, [])) :
    NoPath w k tr d start goal (counts ++ [n]) := by
  intro i m hi
  rcases Nat.lt_trichotomy i counts.length with hlt | heq | hgt
  · rw [List.getElem?_append_left hlt] at hi
    rw [List.take_append_of_le_length (Nat.le_of_lt hlt)]
    exact h i m hi
  · subst heq
    simp only [List.getElem?_concat_length, Option.some.injEq] at hi
    subst hi
    simpa using hn
  · rw [List.getElem?_eq_none (by simp; omega)] at hi
    cases hi

theorem loop_step (w : World P K) (start goal : P) (minS maxS : ℕ) (scale : F → F) (k : ℕ) (tr : Bool) (d : ℕ) (s : Vars P K F)
    (h : LoopInv w start goal minS maxS scale k tr d s) :
    (∃ b, bodyBy w start goal maxS scale s = .done b ∧ LoopPost w start goal minS maxS scale k tr d b) ∨
    ∃ s', bodyBy w start goal maxS scale s = .next s' ∧ LoopInv w start goal minS maxS scale k tr d s' ∧
      maxS + 1 - s'.counts.length < maxS + 1 - s.counts.length := by
  have hfirst : s.counts = [] → s.num = minS := by
    intro h0; rw [h.num, h0]; simp
  have hmin : s.counts ≠ [] → minS ≤ maxS := by
    intro h0
    obtain ⟨c, l, hc⟩ := List.exists_cons_of_ne_nil h0
    have h1 := h.counts
    have h2 := h.le c (by rw [hc]; simp)
    have h3 : s.counts[0]? = some c := by rw [hc]; rfl
    rw [h1, List.getElem?_map, List.getElem?_range (by rw [hc]; simp)] at h3
    simp at h3
    omega
  by_cases hlt : s.num < (maxS : F) + 1
  · set n := ⌊s.num⌋₊ with hn
    have hcounts : s.counts ++ [n] = (List.range (s.counts ++ [n]).length).map fun i => ⌊scale^[i] (minS : F)⌋₊ := by
      rw [List.length_append, List.length_singleton, List.range_succ, List.map_append, ← h.counts, List.map_singleton, ← h.num]
    have hle : ∀ c ∈ s.counts ++ [n], c ≤ maxS := by
      intro c hc
      rw [List.mem_append, List.mem_singleton] at hc
      rcases hc with hc | rfl
      · exact h.le c hc
      · exact floor_le_max hlt
    have hmin' : minS ≤ maxS := by
      by_cases h0 : s.counts = []
      · have h1 := hle n (by simp)
        rw [hn, hfirst h0] at h1
        simpa using h1
      · exact hmin h0
    have hbelow : ∀ i, i < (s.counts ++ [n]).length → scale^[i] (minS : F) < (maxS : F) + 1 := by
      intro i hi
      rw [List.length_append, List.length_singleton] at hi
      rcases Nat.lt_succ_iff_lt_or_eq.1 hi with hi | rfl
      · exact h.below i hi
      · rw [← h.num]; exact hlt
    have hrun : (s.prm.grow w n).1 = (Knn.init k tr d).run w (tried start goal s.counts ++ [.grow n]) := by
      rw [h.prm]; simp [Knn.run, Knn.step]
    have hnew : (∀ S, s.prm.samples = some S → S.length < n) → (s.counts ++ [n]).IsChain (· < ·) := by
      intro hS
      refine chain_snoc h.chain ?_
      intro c hc
      rw [← h.last] at hc
      cases hs : s.prm.samples with
      | none => rw [hs] at hc; cases hc
      | some S => rw [hs] at hc; cases hc; exact hS S hs
    have hbody : bodyBy w start goal maxS scale s = (match (s.prm.grow w n).2 with
        | .error e => .done ({ s with prm := (s.prm.grow w n).1, counts := s.counts ++ [n] }, .error e)
        | .ok () => match ((s.prm.grow w n).1.query w start goal).2 with
          | .error e => .done ({ s with prm := ((s.prm.grow w n).1.query w start goal).1, counts := s.counts ++ [n] }, .error e)
          | .ok (_, path) =>
            if 0 < path.length then
              .done ({ s with prm := ((s.prm.grow w n).1.query w start goal).1, counts := s.counts ++ [n], path := some path }, .ok ())
            else .next { s with prm := ((s.prm.grow w n).1.query w start goal).1, counts := s.counts ++ [n], path := some path,
                                num := scale s.num }) := by
      unfold bodyBy
      rw [if_pos hlt]
      rfl
    rw [hbody]
    rcases grow_samples w s.prm n with ⟨S, hS, hnS, herr⟩ | ⟨hgt, S, hS, hlen⟩
    · left
      rw [herr]
      refine ⟨_, rfl, hcounts, hle, ?_, ?_, ?_, fun _ => hmin', hbelow, ?_, ?_⟩
      · right
        simpa using h.chain
      · simpa using h.failed
      · intro h0; simp at h0
      · rintro e ⟨⟩
        refine ⟨n, by simp, .inl ?_⟩
        simp only [List.dropLast_concat, ← h.prm]
        exact herr
      · intro h0; cases h0
    · have hch := hnew hgt
      cases hg : (s.prm.grow w n).2 with
      | error e =>
        left
        refine ⟨_, rfl, hcounts, hle, .inl hch, ?_, ?_, fun _ => hmin', hbelow, ?_, ?_⟩
        · simpa using h.failed
        · intro h0; simp at h0
        · rintro e' ⟨⟩
          refine ⟨n, by simp, .inl ?_⟩
          simp only [List.dropLast_concat, ← h.prm]
          exact hg
        · intro h0; cases h0
      | ok u =>
        cases hq : ((s.prm.grow w n).1.query w start goal).2 with
        | error e =>
          left
          refine ⟨_, rfl, hcounts, hle, .inl hch, ?_, ?_, fun _ => hmin', hbelow, ?_, ?_⟩
          · simpa using h.failed
          · intro h0; simp at h0
          · rintro e' ⟨⟩
            refine ⟨n, by simp, .inr ?_⟩
            simp only [List.dropLast_concat, ← h.prm, ← hrun]
            exact ⟨hg, hq⟩
          · intro h0; cases h0
        | ok r =>
          obtain ⟨c, path⟩ := r
          simp only
          by_cases hp : 0 < path.length
          · left
            rw [if_pos hp]
            refine ⟨_, rfl, hcounts, hle, .inl hch, ?_, ?_, fun _ => hmin', hbelow, ?_, ?_⟩
            · simpa using h.failed
            · intro h0; simp at h0
            · intro e h0; cases h0
            · intro _ _
              refine ⟨path, rfl, ?_, ?_⟩
              · rintro rfl; simp at hp
              · intro _
                refine ⟨n, c, by simp, ?_⟩
                simp only [List.dropLast_concat]
                rw [← hrun]; exact hq
          · right
            rw [if_neg hp]
            have hp0 : path = [] := by
              cases path with
              | nil => rfl
              | cons _ _ => simp at hp
            subst hp0
            refine ⟨_, rfl, ⟨?_, ?_, hcounts, hle, hch, ?_, ?_, ?_, hbelow⟩, ?_⟩
            · simp only [tried, List.flatMap_append]
              rw [h.prm]
              simp [Knn.run, Knn.step, tried]
            · simp only [List.length_append, List.length_singleton]
              rw [h.num, Function.iterate_succ_apply']
            · simp only [query_samples, hS, List.getLast?_concat, Option.map_some, hlen]
            · simp
            · refine noPath_snoc h.failed ⟨c, ?_⟩
              rw [← hrun]; exact hq
            · simp only [List.length_append, List.length_singleton]
              have := length_le_of_chain hch hle
              rw [List.length_append, List.length_singleton] at this
              omega
  · left
    refine ⟨(s, .ok ()), by unfold bodyBy; rw [if_neg hlt], h.counts, h.le, .inl h.chain, ?_, ?_, hmin, h.below, (fun e h0 => nomatch h0), ?_⟩
    · change NoPath w k tr d start goal s.counts.dropLast
      intro i m hi
      have hi' : s.counts[i]? = some m := by
        rw [List.getElem?_dropLast] at hi
        split at hi
        · exact hi
        · cases hi
      have : s.counts.dropLast.take i = s.counts.take i := by
        rw [List.getElem?_dropLast] at hi
        split at hi
        · rw [List.dropLast_eq_take, List.take_take, Nat.min_eq_left (by omega)]
        · cases hi
      rw [this]
      exact h.failed i m hi'
    · intro h0
      refine ⟨rfl, by rw [h.path, if_pos h0], ?_⟩
      rw [hfirst h0, not_lt] at hlt
      have : ((maxS + 1 : ℕ) : F) ≤ (minS : ℕ) := by push_cast; exact hlt
      exact Nat.cast_le.1 this
    · intro _ h0
      refine ⟨[], by rw [h.path, if_neg h0], ?_, fun h => absurd rfl h⟩
      intro _
      refine ⟨h.failed, ?_⟩
      rw [← h.num]
      exact not_lt.1 hlt

theorem loop_outcome (w : World P K) (start goal : P) (minS maxS : ℕ) (scale : F → F) (k : ℕ) (tr : Bool) (d : ℕ) :
    ∃ b, LoopStops (bodyBy w start goal maxS scale) ⟨Knn.init k tr d, (minS : F), none, []⟩ b ∧
      LoopPost w start goal minS maxS scale k tr d b := by
  refine LoopStops.of_measure (LoopInv w start goal minS maxS scale k tr d) _ (fun s => maxS + 1 - s.counts.length)
    (loop_step w start goal minS maxS scale k tr d) ?_
  refine ⟨rfl, by simp, rfl, by simp, by simp, rfl, rfl, ?_, by simp⟩
  intro i n h
  simp at h

theorem plan_eq {w : World P K} {start goal : P} (hs : w.check start start = true) (hg : w.check goal goal = true) (minS maxS : ℕ)
    (scale : F → F) (k : ℕ) (tr : Bool) (d : ℕ) {b : Vars P K F × Except PyErr Unit}
    (h : LoopStops (bodyBy w start goal maxS scale) ⟨Knn.init k tr d, (minS : F), none, []⟩ b) :
    ∃ fuel, planBy w start goal minS maxS scale k tr d fuel =
      some (b.1.counts, match b.2 with | .error e => .error e | .ok () => finish start goal b.1.path) := by
  obtain ⟨fuel, hf⟩ := h
  refine ⟨fuel, ?_⟩
  unfold planBy
  rw [hs, hg, hf]
  obtain ⟨s, r⟩ := b
  cases r <;> rfl

theorem plan_mono {w : World P K} {start goal : P} {minS maxS : ℕ} {scale : F → F} {k : ℕ} {tr : Bool} {d fuel : ℕ}
    {x : List ℕ × Except PyErr (Option (List P))} (h : planBy w start goal minS maxS scale k tr d fuel = some x) (m : ℕ) :
    planBy w start goal minS maxS scale k tr d (fuel + m) = some x := by
  unfold planBy at h ⊢
  split
  · rename_i hs; rw [if_pos hs] at h; exact h
  · rename_i hs
    rw [if_neg hs] at h
    split
    · rename_i hg; rw [if_pos hg] at h; exact h
    · rename_i hg
      rw [if_neg hg] at h
      cases hl : loop (bodyBy w start goal maxS scale) fuel ⟨Knn.init k tr d, (minS : F), none, []⟩ with
      | none => rw [hl] at h; cases h
      | some b => rw [loop_mono hl]; rw [hl] at h; exact h

theorem plan_unique {w : World P K} {start goal : P} {minS maxS : ℕ} {scale : F → F} {k : ℕ} {tr : Bool} {d fuel fuel' : ℕ}
    {x y : List ℕ × Except PyErr (Option (List P))} (h : planBy w start goal minS maxS scale k tr d fuel = some x)
    (h' : planBy w start goal minS maxS scale k tr d fuel' = some y) : x = y := by
  have h1 := plan_mono h fuel'
  have h2 := plan_mono h' fuel
  rw [Nat.add_comm, h2] at h1
  exact (Option.some.inj h1).symm

/-- A path that a query of the roadmap returned. -/
theorem query_path {w : World P K} (hw : w.Sound) (k : ℕ) (tr : Bool) (d : ℕ) (ops : List (Knn.Op P K)) {start goal : P}
    {c : WithTop K} {pts : List P} (h : (((Knn.init k tr d).run w ops).query w start goal).2 = .ok (c, pts)) (hne : pts ≠ []) :
    ∃ S, ((Knn.init k tr d).run w ops).samples = some S ∧ (∀ p ∈ pts, p ∈ S) ∧ (start :: pts ++ [goal]).IsChain w.Accepted := by
  cases hS : ((Knn.init k tr d).run w ops).samples with
  | none =>
    have : (((Knn.init k tr d).run w ops).query w start goal).2 = .error .type := by unfold Knn.query; rw [hS]
    rw [this] at h; cases h
  | some S =>
    cases hr : ((Knn.init k tr d).run w ops).connR.or ((Knn.init k tr d).run w ops).certified with
    | none =>
      have : (((Knn.init k tr d).run w ops).query w start goal).2 = .error .type := by unfold Knn.query; rw [hS, hr]
      rw [this] at h; cases h
    | some r =>
      obtain ⟨d', pts', h1, h2⟩ := C28_knn hw k tr d ops hS hr start goal
      rw [h] at h1
      cases h1
      obtain ⟨h3, h4, _⟩ := h2 hne
      exact ⟨S, rfl, h3, h4⟩

/-- `C55_anytime_partial` for any way to multiply. -/
theorem anytime_by {w : World P K} (hw : w.Sound) {start goal : P} (hs : w.check start start = true)
    (hg : w.check goal goal = true) (minS maxS : ℕ) (scale : F → F) (k : ℕ) (tr : Bool) (d : ℕ) :
    ∃ fuel counts answer, planBy w start goal minS maxS scale k tr d fuel = some (counts, answer) ∧
      counts = (List.range counts.length).map (fun i => ⌊scale^[i] (minS : F)⌋₊) ∧
      (∀ c ∈ counts, c ≤ maxS) ∧
      (counts = [] ↔ maxS < minS) ∧ (maxS < minS → answer = .error .unbound) ∧
      (counts.IsChain (· < ·) ∨ (counts.dropLast.IsChain (· < ·) ∧ answer = .error .arithmetic)) ∧
      ((∀ i, scale^[i + 1] (minS : F) < maxS + 1 → ⌊scale^[i] (minS : F)⌋₊ < ⌊scale^[i + 1] (minS : F)⌋₊) → counts.IsChain (· < ·)) ∧
      NoPath w k tr d start goal counts.dropLast ∧
      (answer = .ok none → NoPath w k tr d start goal counts ∧ (maxS : F) + 1 ≤ scale^[counts.length] (minS : F)) ∧
      (∀ path, answer = .ok (some path) → ∃ pts, path = start :: pts ++ [goal] ∧ pts ≠ [] ∧ path.IsChain w.Accepted) := by
  obtain ⟨⟨s, r⟩, hb, hpost⟩ := loop_outcome w start goal minS maxS scale k tr d
  obtain ⟨fuel, hf⟩ := plan_eq hs hg minS maxS scale k tr d hb
  obtain ⟨h1, h2, h3, h4, h5, h6, hbel, _, h7⟩ := hpost
  simp only at h1 h2 h3 h4 h5 h6 h7 hf hbel
  have hempty : s.counts = [] ↔ maxS < minS := by
    constructor
    · intro h; exact (h5 h).2.2
    · intro h
      by_contra hne
      have := h6 hne
      omega
  refine ⟨fuel, s.counts, _, hf, h1, h2, hempty, ?_, ?_, ?_, h4, ?_, ?_⟩
  · intro h
    obtain ⟨h8, h9, _⟩ := h5 (hempty.2 h)
    rw [h8, h9]; rfl
  · rcases h3 with h3 | ⟨h3, h8⟩
    · exact .inl h3
    · right; rw [h8]; exact ⟨h3, rfl⟩
  · intro hf
    rw [h1, List.isChain_map]
    refine List.isChain_range _ _ |>.2 ?_
    intro i hi
    exact hf i (hbel (i + 1) (by omega))
  · intro h
    cases r with
    | error e => cases h
    | ok u =>
      simp only at h
      by_cases hc : s.counts = []
      · rw [(h5 hc).2.1] at h; cases h
      · obtain ⟨pts, hp, h8, _⟩ := h7 rfl hc
        rw [hp] at h
        cases pts with
        | nil => exact h8 rfl
        | cons a l => simp [finish] at h
  · intro path h
    cases r with
    | error e => cases h
    | ok u =>
      simp only at h
      by_cases hc : s.counts = []
      · rw [(h5 hc).2.1] at h; cases h
      · obtain ⟨pts, hp, _, h8⟩ := h7 rfl hc
        rw [hp] at h
        cases pts with
        | nil => simp [finish] at h
        | cons a l =>
          simp only [finish, Except.ok.injEq, Option.some.injEq] at h
          obtain ⟨n, c, _, h9⟩ := h8 (by simp)
          obtain ⟨_, _, _, h10⟩ := query_path hw k tr d _ h9 (by simp)
          exact ⟨a :: l, h.symm, by simp, h ▸ h10⟩

theorem scale_iterate (factor x : F) (i : ℕ) : (fun x => x * factor)^[i] x = x * factor ^ i := by
  induction i with
  | zero => simp
  | succ i ih => rw [Function.iterate_succ_apply', ih, pow_succ, mul_assoc]

/-- Exact products of a fast enough factor: the counts grow. -/
theorem floor_pow_lt {minS : ℕ} {factor : F} (hf : 1 ≤ (minS : F) * (factor - 1)) (i : ℕ) :
    ⌊(minS : F) * factor ^ i⌋₊ < ⌊(minS : F) * factor ^ (i + 1)⌋₊ := by
  have hmin : (1 : F) ≤ minS := by
    have h0 : minS ≠ 0 := by
      rintro rfl
      norm_num at hf
    exact_mod_cast Nat.one_le_iff_ne_zero.2 h0
  have hfac : (1 : F) ≤ factor := by
    by_contra hcon
    push Not at hcon
    have : (minS : F) * (factor - 1) ≤ 0 := mul_nonpos_of_nonneg_of_nonpos (by linarith) (by linarith)
    linarith
  have hpow : (1 : F) ≤ factor ^ i := one_le_pow₀ hfac
  have hx : (minS : F) * factor ^ i + 1 ≤ minS * factor ^ (i + 1) := by
    have h9 : (1 : F) ≤ minS * (factor - 1) * factor ^ i := by nlinarith
    have : (minS : F) * factor ^ (i + 1) = minS * factor ^ i + minS * (factor - 1) * factor ^ i := by ring
    linarith
  have h0 : (0 : F) ≤ minS * factor ^ i := by positivity
  calc ⌊(minS : F) * factor ^ i⌋₊ < ⌊(minS : F) * factor ^ i⌋₊ + 1 := Nat.lt_succ_self _
    _ = ⌊(minS : F) * factor ^ i + 1⌋₊ := (Nat.floor_add_one h0).symm
    _ ≤ _ := Nat.floor_mono hx

/-- C55 (what holds for every budget and factor). If start and goal are free, the planning call answers, and:
the sample counts tried are `⌊min * factor ^ i⌋`, the first one being `min`; none exceeds `max`; no count is tried iff `min > max`, and then
the call raises UnboundLocalError; the counts grow strictly, except that a repeated count at the end raises ArithmeticError; they always grow
strictly when `min * (factor - 1) ≥ 1`; "no path" is answered only if every tried roadmap had no path and the next count is
beyond the budget; a returned path leads from start to goal through samples, with every motion accepted by the checker.
Missing: in adaptive mode the count of the bound is not reached (`C55_adaptive_false`), and slow growth raises (`C55_repeated_count_false`). -/
theorem C55_anytime_partial {w : World P K} (hw : w.Sound) {start goal : P} (hs : w.check start start = true)
    (hg : w.check goal goal = true) (minS maxS : ℕ) (factor : F) (k : ℕ) (tr : Bool) (d : ℕ) :
    ∃ fuel counts answer, plan w start goal minS maxS factor k tr d fuel = some (counts, answer) ∧
      counts = (List.range counts.length).map (fun i => ⌊(minS : F) * factor ^ i⌋₊) ∧
      (∀ c ∈ counts, c ≤ maxS) ∧
      (counts = [] ↔ maxS < minS) ∧ (maxS < minS → answer = .error .unbound) ∧
      (counts.IsChain (· < ·) ∨ (counts.dropLast.IsChain (· < ·) ∧ answer = .error .arithmetic)) ∧
      (1 ≤ (minS : F) * (factor - 1) → counts.IsChain (· < ·)) ∧
      NoPath w k tr d start goal counts.dropLast ∧
      (answer = .ok none → NoPath w k tr d start goal counts ∧ (maxS : F) + 1 ≤ minS * factor ^ counts.length) ∧
      (∀ path, answer = .ok (some path) → ∃ pts, path = start :: pts ++ [goal] ∧ pts ≠ [] ∧ path.IsChain w.Accepted) := by
  have h := anytime_by hw hs hg minS maxS (fun x => x * factor) k tr d
  simp only [scale_iterate] at h
  obtain ⟨fuel, counts, answer, h1, h2, h3, h4, h5, h6, h7, h8⟩ := h
  exact ⟨fuel, counts, answer, h1, h2, h3, h4, h5, h6, fun hf => h7 fun i _ => floor_pow_lt hf i, h8⟩

theorem setRadius_k (w : World P K) (r : K) (s : Knn P K) : (s.setRadius w r).1.k = s.k := by
  unfold Knn.setRadius
  repeat' (first | rfl | split)
  all_goals simp only
  all_goals split <;> rfl

theorem rebuild_k (w : World P K) (s : Knn P K) (S : List P) : (Knn.rebuild w s S).1.k = s.k := by
  unfold Knn.rebuild
  simp only
  split
  · rfl
  · split
    · rfl
    · split
      · rw [setRadius_k]
      · rfl

theorem grow_k (w : World P K) (s : Knn P K) (n : ℕ) : (s.grow w n).1.k = s.k := by
  unfold Knn.grow
  simp only
  split
  · rw [rebuild_k]
  · split
    · rfl
    · rw [rebuild_k]

theorem query_k (w : World P K) (s : Knn P K) (a b : P) : (s.query w a b).1.k = s.k := by
  unfold Knn.query
  split <;> rfl

theorem tried_k (w : World P K) (start goal : P) (counts : List ℕ) (s : Knn P K) :
    (s.run w (tried start goal counts)).k = s.k := by
  induction counts generalizing s with
  | nil => rfl
  | cons n l ih =>
    have : s.run w (tried start goal (n :: l)) = ((s.grow w n).1.query w start goal).1.run w (tried start goal l) := by
      simp [tried, Knn.run, Knn.step]
    rw [this, ih, query_k, grow_k]

theorem mapM_getLast {α : Type*} {t : List (List α)} (h : ∀ row ∈ t, row ≠ []) : ∃ l, t.mapM (fun row => row.getLast?) = some l ∧
    l.length = t.length := by
  induction t with
  | nil => exact ⟨[], rfl, rfl⟩
  | cons a t ih =>
    obtain ⟨l, h1, h2⟩ := ih fun row hr => h row (List.mem_cons_of_mem _ hr)
    cases ha : a.getLast? with
    | none => exact absurd (List.getLast?_eq_none_iff.1 ha) (h a (by simp))
    | some c => exact ⟨c :: l, by rw [List.mapM_cons, ha, h1]; rfl, by simp [h2]⟩

theorem certify_ok {t : Table K} (h0 : t ≠ []) (h : ∀ row ∈ t, row ≠ []) : ∃ x, Knn.certify t = .ok x := by
  obtain ⟨l, h1, h2⟩ := mapM_getLast h
  unfold Knn.certify
  rw [h1]
  cases l with
  | nil => exact absurd (List.length_eq_zero_iff.1 h2.symm) h0
  | cons c l => exact ⟨_, rfl⟩

theorem rebuild_ok {w : World P K} (hw : w.Sound) (hx : ∀ S k, w.ExactTable S k (w.knn S k)) (s : Knn P K) {S : List P}
    (hS : 2 ≤ S.length) (hk : 1 ≤ s.k) : (Knn.rebuild w s S).2 = .ok () ∧ ∃ r, (Knn.rebuild w s S).1.certified = some r := by
  have ht := hw.knn_true S (min (S.length - 1) s.k)
  have hrows : ∀ row ∈ w.knn S (min (S.length - 1) s.k), row ≠ [] := by
    rintro row hrow rfl
    obtain ⟨i, hi⟩ := List.mem_iff_getElem?.1 hrow
    have := (hx S (min (S.length - 1) s.k)).full i [] hi
    simp at this
    omega
  have hne : w.knn S (min (S.length - 1) s.k) ≠ [] := by
    intro h
    have := ht.1
    rw [h] at this
    simp at this
    omega
  obtain ⟨x, hxc⟩ := certify_ok hne hrows
  unfold Knn.rebuild
  simp only [tableGraph_ok ht, hxc]
  split
  · simp only [Knn.setRadius]
    split
    · rename_i h; simp at h
    · split
      · rename_i h; simp at h
      · exact ⟨rfl, _, rfl⟩
  · exact ⟨rfl, _, rfl⟩

theorem grow_ok {w : World P K} (hw : w.Sound) (hx : ∀ S k, w.ExactTable S k (w.knn S k)) (s : Knn P K) {n : ℕ} (hn : 2 ≤ n)
    (hk : 1 ≤ s.k) (hS : ∀ S, s.samples = some S → S.length < n) :
    (s.grow w n).2 = .ok () ∧ ∃ r, (s.grow w n).1.certified = some r := by
  unfold Knn.grow
  simp only
  cases h : s.samples with
  | none => exact rebuild_ok hw hx _ (by simpa [World.fresh] using hn) hk
  | some old =>
    have := hS old h
    simp only
    rw [if_neg (by omega)]
    exact rebuild_ok hw hx _ (by simp [World.fresh]; omega) hk

/-- `C55_answers` for any way to multiply. -/
theorem answers_by {w : World P K} (hw : w.Sound) (hx : ∀ S k, w.ExactTable S k (w.knn S k)) {start goal : P}
    (hs : w.check start start = true) (hg : w.check goal goal = true) (minS maxS : ℕ) (h2 : 2 ≤ minS) (hle : minS ≤ maxS) (scale : F → F)
    (hf : ∀ i, scale^[i + 1] (minS : F) < maxS + 1 → ⌊scale^[i] (minS : F)⌋₊ < ⌊scale^[i + 1] (minS : F)⌋₊) (k : ℕ) (hk : 1 ≤ k) (tr : Bool) (d : ℕ) :
    ∃ fuel counts path, planBy w start goal minS maxS scale k tr d fuel = some (counts, .ok path) := by
  obtain ⟨⟨s, r⟩, hb, hpost⟩ := loop_outcome w start goal minS maxS scale k tr d
  obtain ⟨fuel, hpl⟩ := plan_eq hs hg minS maxS scale k tr d hb
  obtain ⟨fuel', counts, answer, h1, h3, h4, h5, _, _, h7, _⟩ := anytime_by hw hs hg minS maxS scale k tr d
  have hbc := plan_unique h1 hpl
  simp only [Prod.mk.injEq] at hbc
  obtain ⟨hc1, _⟩ := hbc
  subst hc1
  have hchain := h7 hf
  have hne : s.counts ≠ [] := by
    intro h
    have := h5.1 h
    omega
  cases r with
  | ok u =>
    obtain ⟨pts, hp, _⟩ := hpost.answer rfl hne
    simp only at hp
    refine ⟨fuel, s.counts, ?_⟩
    rw [hpl]
    simp only [hp]
    cases pts with
    | nil => exact ⟨none, rfl⟩
    | cons a l => exact ⟨_, rfl⟩
  | error e =>
    exfalso
    obtain ⟨n, hn, herr⟩ := hpost.error e rfl
    simp only at hn herr
    set q := (Knn.init k tr d).run w (tried start goal s.counts.dropLast) with hq
    have hn2 : 2 ≤ n := by
      have hhead : s.counts.head? = some minS := by
        have h0 : 0 < s.counts.length := List.length_pos_iff.2 hne
        rw [List.head?_eq_getElem?, h3, List.getElem?_map, List.getElem?_range h0]
        simp
      obtain ⟨c, l, hcl⟩ := List.exists_cons_of_ne_nil hne
      rw [hcl] at hhead hn hchain
      simp only [List.head?_cons, Option.some.injEq] at hhead
      subst hhead
      have hmem := List.mem_of_getLast? hn
      rw [List.mem_cons] at hmem
      rcases hmem with rfl | hmem
      · exact h2
      · have := (List.pairwise_cons.1 (List.isChain_iff_pairwise.1 hchain)).1 n hmem
        omega
    have hqk : q.k = k := by rw [hq, tried_k]; rfl
    have hsmall : ∀ S, q.samples = some S → S.length < n := by
      intro S hS
      have hlast : q.samples = none ∨ ∃ S c, q.samples = some S ∧ S.length ≤ c ∧ s.counts.dropLast.getLast? = some c := by
        have key : ∀ (l : List ℕ), l.IsChain (· < ·) →
            ((Knn.init k tr d).run w (tried start goal l)).samples = none ∨
            ∃ S c, ((Knn.init k tr d).run w (tried start goal l)).samples = some S ∧ S.length ≤ c ∧ l.getLast? = some c := by
          intro l
          induction l using List.reverseRecOn with
          | nil => intro _; exact .inl rfl
          | append_singleton l m ih =>
            intro hch
            right
            have e : (Knn.init k tr d).run w (tried start goal (l ++ [m])) =
                ((((Knn.init k tr d).run w (tried start goal l)).grow w m).1.query w start goal).1 := by
              simp [tried, Knn.run, Knn.step]
            rw [List.isChain_append] at hch
            rw [e, query_samples]
            rcases grow_samples w ((Knn.init k tr d).run w (tried start goal l)) m with ⟨S, hS, hSm, _⟩ | ⟨_, S, hS, hSm⟩
            · rcases ih hch.1 with h | ⟨S', c, h, hc, hl⟩
              · rw [h] at hS; cases hS
              · rw [h] at hS
                cases hS
                have := hch.2.2 c hl m (by simp)
                omega
            · exact ⟨S, m, hS, by omega, by simp⟩
        refine key _ ?_
        exact List.isChain_iff_pairwise.2 ((List.isChain_iff_pairwise.1 hchain).sublist (List.dropLast_sublist _))
      rcases hlast with h | ⟨S', c, h, hc, hl⟩
      · rw [h] at hS; cases hS
      · rw [h] at hS
        cases hS
        have hsplit : s.counts = s.counts.dropLast ++ [n] := by
          rw [List.getLast?_eq_some_getLast hne] at hn
          have := List.dropLast_append_getLast hne
          rw [Option.some.inj hn] at this
          exact this.symm
        rw [hsplit, List.isChain_append] at hchain
        have := hchain.2.2 c hl n (by simp)
        omega
    obtain ⟨hgo, x, hxx⟩ := grow_ok hw hx q hn2 (by omega) hsmall
    rcases herr with herr | ⟨_, herr⟩
    · rw [hgo] at herr; cases herr
    · have hrun : (Knn.init k tr d).run w (tried start goal s.counts.dropLast ++ [.grow n]) = (q.grow w n).1 := by
        rw [hq]; simp [Knn.run, Knn.step]
      obtain ⟨S, hS, _⟩ : ∃ S, (q.grow w n).1.samples = some S ∧ S.length = n := by
        rcases grow_samples w q n with ⟨S, hS, hle, _⟩ | ⟨_, h⟩
        · have := hsmall S hS; omega
        · exact h
      obtain ⟨r, hr⟩ : ∃ r, (q.grow w n).1.connR.or (q.grow w n).1.certified = some r := by
        rw [hxx]
        cases (q.grow w n).1.connR with
        | none => exact ⟨x, rfl⟩
        | some y => exact ⟨y, rfl⟩
      rw [← hrun] at hS hr
      obtain ⟨c, pts, hqq, _⟩ := C28_knn hw k tr d _ hS hr start goal
      rw [hqq] at herr
      cases herr

/-- C55: with full exact neighbour tables, at least two samples, a nonempty budget and fast enough growth, the planning call never raises: it
answers with a path or with "no path". -/
theorem C55_answers {w : World P K} (hw : w.Sound) (hx : ∀ S k, w.ExactTable S k (w.knn S k)) {start goal : P}
    (hs : w.check start start = true) (hg : w.check goal goal = true) (minS maxS : ℕ) (h2 : 2 ≤ minS) (hle : minS ≤ maxS) (factor : F)
    (hf : 1 ≤ (minS : F) * (factor - 1)) (k : ℕ) (hk : 1 ≤ k) (tr : Bool) (d : ℕ) :
    ∃ fuel counts path, plan w start goal minS maxS factor k tr d fuel = some (counts, .ok path) :=
  answers_by hw hx hs hg minS maxS h2 hle (fun x => x * factor)
    (fun i _ => by simp only [scale_iterate]; exact floor_pow_lt hf i) k hk tr d

/-- Two roadmaps are tried, the second one has a path. -/
theorem C55_nonvacuous : openWorld.Sound ∧ openWorld.check (1/2) (1/2) = true ∧ (1 : ℚ) ≤ (2 : ℕ) * (2 - 1) ∧
    plan openWorld (1/2) (9/2) 2 4 (2 : ℚ) 2 false 0 5 = some ([2, 4], .ok (some [1/2, 1, 2, 3, 4, 9/2])) :=
  ⟨lineWorld_sound _ _, rfl, by norm_num, by decide +kernel⟩

/-- `C55_repeated_count_false` for any way to multiply. -/
theorem repeated_by {w : World P K} {start goal : P} (hs : w.check start start = true)
    (hg : w.check goal goal = true) (minS maxS : ℕ) (hle : minS ≤ maxS) (scale : F → F) (hslow : scale (minS : F) < minS + 1)
    (k : ℕ) (tr : Bool) (d : ℕ) (hgrow : ((Knn.init k tr d).grow w minS).2 = .ok ())
    (hno : ∃ c, (((Knn.init k tr d).run w [.grow minS]).query w start goal).2 = .ok (c, [])) :
    planBy w start goal minS maxS scale k tr d 2 = some ([minS, ⌊scale (minS : F)⌋₊], .error .arithmetic) := by
  obtain ⟨c, hc⟩ := hno
  have hrun : (Knn.init k tr d).run w [.grow minS] = ((Knn.init k tr d).grow w minS).1 := by simp [Knn.run, Knn.step]
  rw [hrun] at hc
  have hlt : (minS : F) < maxS + 1 := by
    have : (minS : F) ≤ maxS := by exact_mod_cast hle
    linarith
  have hbody : bodyBy w start goal maxS scale ⟨Knn.init k tr d, (minS : F), none, []⟩ =
      .next ⟨(((Knn.init k tr d).grow w minS).1.query w start goal).1, scale (minS : F), some [], [minS]⟩ := by
    unfold bodyBy
    simp only [hlt, if_true, Nat.floor_natCast, hgrow, hc]
    simp
  have hfl : ⌊scale (minS : F)⌋₊ ≤ minS := floor_le_max hslow
  obtain ⟨S, hS, hlen⟩ : ∃ S, (((Knn.init k tr d).grow w minS).1.query w start goal).1.samples = some S ∧ S.length = minS := by
    rw [query_samples]
    rcases grow_samples w (Knn.init k tr d) minS with ⟨S, _, _, h⟩ | ⟨_, S, h1, h2⟩
    · rw [hgrow] at h; cases h
    · exact ⟨S, h1, h2⟩
  have hlt2 : scale (minS : F) < maxS + 1 := by
    have : (minS : F) ≤ maxS := by exact_mod_cast hle
    linarith
  have hgr : ((((Knn.init k tr d).grow w minS).1.query w start goal).1.grow w ⌊scale (minS : F)⌋₊).2 = .error .arithmetic := by
    rw [C33_knn_partial w _ hS _ (by omega)]
  have hbody2 : ∃ s', bodyBy w start goal maxS scale
      ⟨(((Knn.init k tr d).grow w minS).1.query w start goal).1, scale (minS : F), some [], [minS]⟩ = .done (s', .error .arithmetic) ∧
      s'.counts = [minS, ⌊scale (minS : F)⌋₊] := by
    unfold bodyBy
    simp only [hlt2, if_true, hgr]
    exact ⟨_, rfl, rfl⟩
  obtain ⟨s', h1, h2⟩ := hbody2
  unfold planBy
  rw [hs, hg, loop_next hbody, loop_done h1]
  simp [h2]

/-- C55 is false for slow growth: when `min * factor < min + 1`, a first roadmap without path makes the call raise ArithmeticError instead of
trying more samples or answering "no path". -/
theorem C55_repeated_count_false {w : World P K} {start goal : P} (hs : w.check start start = true)
    (hg : w.check goal goal = true) (minS maxS : ℕ) (hle : minS ≤ maxS) (factor : F) (hslow : (minS : F) * factor < minS + 1)
    (k : ℕ) (tr : Bool) (d : ℕ) (hgrow : ((Knn.init k tr d).grow w minS).2 = .ok ())
    (hno : ∃ c, (((Knn.init k tr d).run w [.grow minS]).query w start goal).2 = .ok (c, [])) :
    plan w start goal minS maxS factor k tr d 2 = some ([minS, ⌊(minS : F) * factor⌋₊], .error .arithmetic) :=
  repeated_by hs hg minS maxS hle (fun x => x * factor) hslow k tr d hgrow hno

/-- The default factor 1.1 with 5 to 100 samples; the goal cannot be reached. -/
theorem C55_repeated_count_nonvacuous :
    plan openWorld (1/2) 100 5 100 (11/10 : ℚ) 2 false 0 2 = some ([5, 5], .error .arithmetic) := by decide +kernel

/-- C55 is false in adaptive mode: when the bound asks for `N` samples, only the single count `N - 1` is tried (for a factor with
`(N - 1) * factor ≥ N + 1`), and with more than two samples this count does not meet the required failure probability 0.01. -/
theorem C55_adaptive_false {w : World P K} (hw : w.Sound) {start goal : P} (hs : w.check start start = true)
    (hg : w.check goal goal = true) {delta : ℝ} (hd : 0 ≤ delta) {fuel₀ N M : ℕ} (hN : adaptiveRange delta fuel₀ = some (.ok (M, N)))
    (factor : F) (hf : (N : F) + 1 ≤ ((N - 1 : ℕ) : F) * factor) (k : ℕ) (tr : Bool) (d : ℕ) :
    M = N - 1 ∧ (∃ fuel answer, plan w start goal M N factor k tr d fuel = some ([N - 1], answer)) ∧
      (3 ≤ N → 1 / 100 < failureBound (N - 1) (netMeasure delta none 2 16) 3) ∧
      failureBound N (netMeasure delta none 2 16) 3 ≤ 1 / 100 := by
  unfold adaptiveRange at hN
  cases hb : numericalBound delta (99 / 100) 16 2 none fuel₀ with
  | none => rw [hb] at hN; cases hN
  | some o =>
    rw [hb] at hN
    cases o with
    | error e => simp at hN
    | ok p =>
      obtain ⟨N', r⟩ := p
      simp only [Option.some.injEq, Except.ok.injEq, Prod.mk.injEq] at hN
      obtain ⟨rfl, rfl⟩ := hN
      obtain ⟨h2, hleast⟩ := C02_least (tol := none) (by norm_num) hd trivial hb
      refine ⟨rfl, ?_, ?_, ?_⟩
      · obtain ⟨fuel, counts, answer, h1, h3, h4, h5, _⟩ := C55_anytime_partial hw hs hg (N' - 1) N' factor k tr d
        refine ⟨fuel, answer, ?_⟩
        rw [h1]
        have hne : counts ≠ [] := by
          intro h
          have := h5.1 h
          omega
        have hlen : counts.length = 1 := by
          rcases Nat.lt_or_ge 1 counts.length with h | h
          · exfalso
            have hc : counts[1]? = some ⌊((N' - 1 : ℕ) : F) * factor ^ 1⌋₊ := by
              rw [h3, List.getElem?_map, List.getElem?_range h]; rfl
            have h6 := h4 _ (List.mem_of_getElem? hc)
            rw [pow_one] at h6
            have h7 : ((N' + 1 : ℕ) : F) ≤ ((N' - 1 : ℕ) : F) * factor := by push_cast; exact hf
            have h8 := Nat.floor_mono (R := F) h7
            rw [Nat.floor_natCast] at h8
            omega
          · have := List.length_pos_iff.2 hne
            omega
        rw [h3, hlen]
        simp
      · intro h3
        have := hleast (N' - 1) (by omega) (by omega)
        norm_num at this ⊢
        exact this
      · have := C01_sufficient (tol := none) (by norm_num) hd trivial hb N' le_rfl
        norm_num at this ⊢
        exact this

/-- In a hallway of clearance 8/√π the adaptive mode finds a sample range. -/
theorem C55_adaptive_nonvacuous : ∃ fuel M N, adaptiveRange (8 / √Real.pi) fuel = some (.ok (M, N)) := by
  have hpi : √Real.pi ≠ 0 := (Real.sqrt_pos.2 Real.pi_pos).ne'
  have hm : netMeasure (8 / √Real.pi) none 2 16 = 4 := by
    rw [← rho_eq_netMeasure (tol := none) (by norm_num) (by positivity) trivial]
    have : volUnitSphere 2 = Real.pi := by
      have h2 : Real.Gamma (1 + 1) = 1 := by rw [Real.Gamma_add_one one_ne_zero, Real.Gamma_one, one_mul]
      unfold volUnitSphere; norm_num [h2]
    unfold rho epsilonNetRadius alpha
    rw [this]
    simp only [one_mul, div_pow, Real.sq_sqrt Real.pi_pos.le]
    have := Real.pi_pos.ne'
    field_simp
    norm_num
  have h10 : failureBound 10 (netMeasure (8 / √Real.pi) none 2 16) (2 + 1) ≤ 1 - 99 / 100 := by
    rw [hm, failureBound_example]
    norm_num [Finset.sum_range_succ, Nat.choose]
  obtain ⟨fuel, N, r, h⟩ := C03_answers_partial (δ := 8 / √Real.pi) (p := 99 / 100) (vol := 16) (dim := 2) (tol := none)
    (by norm_num) (by positivity) trivial (by norm_num) (by norm_num) ⟨10, by norm_num, by norm_num, h10⟩
  exact ⟨fuel, N - 1, N, by unfold adaptiveRange; rw [h]⟩

/-- C65 is false: a robot that is wider than the passage by some amount gets the same sample range as one that is narrower by this amount. -/
theorem C65_too_wide_false (gap width x : ℝ) (hx : width + x = gap + 5 / 100) (fuel : ℕ) :
    adaptiveRange (turtleDelta gap 0 (width + 2 * x)) fuel = adaptiveRange (turtleDelta gap 0 width) fuel := by
  have h1 : turtleDelta gap 0 (width + 2 * x) = -x := by unfold turtleDelta; linarith
  have h2 : turtleDelta gap 0 width = x := by unfold turtleDelta; linarith
  have hr : rho (-x) none 2 16 = rho x none 2 16 := by
    unfold rho epsilonNetRadius
    simp only
    ring
  rw [h1, h2]
  unfold adaptiveRange numericalBound
  simp only [hr]
  rw [if_neg (by norm_num), if_neg (by norm_num)]
  cases doublingSampleSearch (fun m => sauerShelahLog2 m (rho x none 2 16) (2 + 1)) (Real.logb 2 (1 - 99 / 100)) fuel with
  | none => rfl
  | some o => cases o <;> rfl

/-- C65, the part that holds: while the clearance is not negative, a wider gap never asks for more samples, and it gets an answer if the narrower gap
got one. -/
theorem C65_wider_gap_partial {gap gap' lower upper : ℝ} (h0 : 0 ≤ turtleDelta gap lower upper) (hle : gap ≤ gap') {fuel M N : ℕ}
    (h : adaptiveRange (turtleDelta gap lower upper) fuel = some (.ok (M, N))) :
    (∀ fuel' M' N', adaptiveRange (turtleDelta gap' lower upper) fuel' = some (.ok (M', N')) → N' ≤ N ∧ M' ≤ M) ∧
      ∃ fuel' M' N', adaptiveRange (turtleDelta gap' lower upper) fuel' = some (.ok (M', N')) := by
  have key : ∀ {x : ℝ} {fuel M N : ℕ}, adaptiveRange x fuel = some (.ok (M, N)) →
      M = N - 1 ∧ ∃ r, numericalBound x (99 / 100) 16 2 none fuel = some (.ok (N, r)) := by
    intro x fuel M N h
    unfold adaptiveRange at h
    cases hb : numericalBound x (99 / 100) 16 2 none fuel with
    | none => rw [hb] at h; cases h
    | some o =>
      rw [hb] at h
      cases o with
      | error e => simp at h
      | ok p =>
        simp only [Option.some.injEq, Except.ok.injEq, Prod.mk.injEq] at h
        exact ⟨by rw [← h.1, h.2], p.2, by rw [← h.2]⟩
  obtain ⟨hM, r, hr⟩ := key h
  have hd : turtleDelta gap lower upper ≤ turtleDelta gap' lower upper := by unfold turtleDelta; linarith
  obtain ⟨h1, h2⟩ := C05_monotone (tol := none) (vol' := 16) (p' := 99 / 100) (tol' := none) h0 hd (by norm_num) le_rfl (by norm_num) le_rfl trivial trivial hr
  refine ⟨?_, ?_⟩
  · intro fuel' M' N' h'
    obtain ⟨hM', r', hr'⟩ := key h'
    have := h1 _ _ _ hr'
    omega
  · obtain ⟨fuel', N', r', h'⟩ := h2
    exact ⟨fuel', N' - 1, N', by unfold adaptiveRange; rw [h']⟩

/-- C65 on a gap that is 8/√π wider than the robot (without the margin), and on a gap that is wider by one more. -/
theorem C65_nonvacuous : 0 ≤ turtleDelta (8 / √Real.pi) 0 (5 / 100) ∧
    (∃ fuel M N, adaptiveRange (turtleDelta (8 / √Real.pi) 0 (5 / 100)) fuel = some (.ok (M, N))) ∧
    ∃ fuel M N, adaptiveRange (turtleDelta (8 / √Real.pi + 1) 0 (5 / 100)) fuel = some (.ok (M, N)) := by
  have h : turtleDelta (8 / √Real.pi) 0 (5 / 100) = 8 / √Real.pi := by unfold turtleDelta; ring
  have h0 : 0 ≤ turtleDelta (8 / √Real.pi) 0 (5 / 100) := by rw [h]; positivity
  obtain ⟨fuel, M, N, ha⟩ := C55_adaptive_nonvacuous
  rw [← h] at ha
  exact ⟨h0, ⟨fuel, M, N, ha⟩, (C65_wider_gap_partial h0 (by linarith) ha).2⟩

end Verif.Props
