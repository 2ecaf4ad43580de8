import Verif.Lemmas.NarrowTrial
import Verif.Lemmas.PrmExample

/-! The narrow-passage trial on the roadmap objects: C108. -/

namespace Verif.Props

open Verif.Prm Verif.Exps

set_option linter.unusedSectionVars false

variable {P K : Type} [LinearOrder K] [AddCommGroup K]

/-! ### Sorted lists of lengths -/

theorem mem_unique (ds : List K) (r : K) : r ∈ unique ds ↔ r ∈ ds := by
  simp [unique]

theorem unique_sorted (ds : List K) : (unique ds).Pairwise (· < ·) := by
  have h1 : (unique ds).Pairwise (· ≤ ·) := (List.pairwise_insertionSort (· ≤ ·) ds).sublist (List.dedup_sublist _)
  have h2 : (unique ds).Nodup := List.nodup_dedup _
  exact (h1.and h2).imp fun h => lt_of_le_of_ne h.1 h.2

/-! ### The states of the roadmap during the trial -/

/-- The roadmap object of the trial: the first `m` states after the very first one are its samples. -/
def TrialAt (w : World P K) (d : ℕ) (s : Full P K) (m : ℕ) : Prop :=
  s.Inv w ∧ s.drawn = d + 1 + m ∧ (s.samples = some (w.fresh (d + 1) m) ∨ (s.samples = none ∧ m = 0))

theorem fresh_length (w : World P K) (d n : ℕ) : (w.fresh d n).length = n := by simp [World.fresh]

theorem fresh_append (w : World P K) (d m n : ℕ) (h : m ≤ n) : w.fresh d m ++ w.fresh (d + m) (n - m) = w.fresh d n := by
  obtain ⟨k, rfl⟩ := Nat.exists_eq_add_of_le h
  simp only [World.fresh, Nat.add_sub_cancel_left, List.range_add, List.map_append, List.map_map]
  congr 1
  apply List.map_congr_left
  intro i _
  simp [Nat.add_assoc]

theorem rebuild_lengths (w : World P K) (hw : w.Sound) (s : Full P K) (S : List P) :
    ∃ ds, (Full.rebuild w s S).2 = .ok ds ∧ ∀ r, r ∈ ds ↔ w.Connection S s.connR r := by
  refine ⟨_, rfl, ?_⟩
  intro r
  simp only [List.mem_map, List.mem_filter, Prod.exists]
  constructor
  · rintro ⟨i, j, x, ⟨⟨h1, h2⟩, h3⟩, rfl⟩
    rw [mem_pairs] at h1
    obtain ⟨p, q, hp, hq, hd⟩ := h1
    obtain ⟨p', q', hp', hq', hck⟩ := (accepts_iff _ _ _ _).1 h3
    rw [hp] at hp'; cases hp'
    rw [hq] at hq'; cases hq'
    exact ⟨i, j, p, q, hp, hq, hck, by rw [hd, hw.dist_symm], by simpa using h2⟩
  · rintro ⟨i, j, p, q, hp, hq, hck, hd, hr⟩
    exact ⟨i, j, r, ⟨⟨(mem_pairs _ _ _ _ _).2 ⟨p, q, hp, hq, by rw [hw.dist_symm, hd]⟩, by simpa using hr⟩,
      (accepts_iff _ _ _ _).2 ⟨p, q, hp, hq, hck⟩⟩, rfl⟩

/-- Growth at the largest radius. -/
theorem trial_grow {w : World P K} (hw : w.Sound) (start goal : P) (maxR : K) {d m : ℕ} {s : Full P K} (h : TrialAt w d s m) (n : ℕ)
    (hn : m ≤ n) : ∃ s' conns, (radiusDriver w start goal maxR).grow n s = (s', .ok conns) ∧ TrialAt w d s' n ∧
      s'.samples = some (w.fresh (d + 1) n) ∧ conns.Pairwise (· < ·) ∧ ∀ r, r ∈ conns ↔ w.Connection (w.fresh (d + 1) n) maxR r := by
  obtain ⟨_, hd, hs⟩ := h
  have key : ∃ s0 : Full P K, s0.connR = maxR ∧ s0.drawn = d + 1 + n ∧
      ({ s with connR := maxR } : Full P K).grow w n = Full.rebuild w s0 (w.fresh (d + 1) n) := by
    rcases hs with hs | ⟨hs, rfl⟩
    · refine ⟨{ s with connR := maxR, drawn := s.drawn + (n - m) }, rfl, by simp only; omega, ?_⟩
      unfold Full.grow
      simp only [hs, fresh_length]
      rw [if_neg (by omega), hd, fresh_append _ _ _ _ hn]
    · refine ⟨{ s with connR := maxR, drawn := s.drawn + n }, rfl, by simp only; omega, ?_⟩
      unfold Full.grow
      simp only [hs, hd, Nat.add_zero]
  obtain ⟨s0, h1, h2, h3⟩ := key
  obtain ⟨ds, h5, h6⟩ := rebuild_lengths w hw s0 (w.fresh (d + 1) n)
  refine ⟨(Full.rebuild w s0 (w.fresh (d + 1) n)).1, unique ds, ?_, ⟨Full.rebuild_inv _ _ _, h2, Or.inl rfl⟩, rfl, unique_sorted _, ?_⟩
  · cases h5
    simp only [radiusDriver, h3]
    rfl
  · intro r
    rw [mem_unique, h6, h1]

theorem trial_refused (w : World P K) (start goal : P) (maxR : K) {d m : ℕ} {s : Full P K} (h : TrialAt w d s m) (n : ℕ)
    (hn : n < m) : ∃ s', (radiusDriver w start goal maxR).grow n s = (s', .error .arithmetic) := by
  obtain ⟨_, _, hs | ⟨_, rfl⟩⟩ := h
  · refine ⟨{ s with connR := maxR }, ?_⟩
    simp only [radiusDriver, Full.grow, hs, fresh_length]
    rw [if_pos hn]
  · omega

/-- What testing a radius says. -/
def Tested (w : World P K) (S : List P) (start goal : P) (r : K) : Option (WithTop K × ℕ) → Prop
  | none => ¬ w.Solvable S start goal r
  | some p => ∃ d : K, p.1 = d ∧ w.Shortest S start goal r d

theorem tested_some {w : World P K} {S : List P} {start goal : P} {r : K} {p : WithTop K × ℕ} (h : Tested w S start goal r (some p)) :
    w.Solvable S start goal r := by
  obtain ⟨d, _, ⟨pts, hp, _⟩, _⟩ := h
  exact ⟨pts, hp⟩

theorem trial_test {w : World P K} (hw : w.Sound) (start goal : P) (maxR : K) {d n : ℕ} {s : Full P K} (h : TrialAt w d s n)
    (hs : s.samples = some (w.fresh (d + 1) n)) (r : K) :
    ∃ s' a, (radiusDriver w start goal maxR).test r s = (s', .ok a) ∧
      (TrialAt w d s' n ∧ s'.samples = some (w.fresh (d + 1) n)) ∧ Tested w (w.fresh (d + 1) n) start goal r (answer a) := by
  obtain ⟨hi, hd, _⟩ := h
  have hset : s.setRadius w r = Full.rebuild w { s with connR := r } (w.fresh (d + 1) n) := by
    unfold Full.setRadius Full.grow
    rw [hs]
    simp only [Nat.lt_irrefl, if_false, Nat.sub_self, Nat.add_zero]
    congr 1
    simp [World.fresh]
  have hinv := Full.rebuild_inv w { s with connR := r } (w.fresh (d + 1) n)
  obtain ⟨x, pts, hq, hres⟩ := full_query hw hinv rfl start goal
  have hqi := Full.query_inv hw hinv start goal
  obtain ⟨g, x', pts', _, _, _, hqe, _⟩ := Full.query_eq hw hinv (S := w.fresh (d + 1) n) rfl start goal
  refine ⟨((Full.rebuild w { s with connR := r } (w.fresh (d + 1) n)).1.query w start goal).1, (x, pts), ?_, ⟨⟨hqi, ?_, ?_⟩, ?_⟩, ?_⟩
  · rw [← hq]
    simp only [radiusDriver, hset]
    rfl
  · rw [hqe]; exact hd
  · rw [hqe]; exact Or.inl rfl
  · rw [hqe]; rfl
  · rcases hres with ⟨h1, h2, h3⟩ | ⟨h1, h2, h3⟩
    · have : answer (x, pts) = some (x, pts.length) := by
        have := h1.nonempty
        simp [answer, this]
      rw [this]
      exact ⟨_, h2, ⟨pts, h1, rfl⟩, h3⟩
    · have : answer (x, pts) = none := by simp [answer, h2]
      rw [this]
      rintro ⟨pts', h'⟩
      exact h3 pts' h'

/-! ### Rows -/

theorem row_cells (t : PrmType) (dim : ℕ) (δ : WithTop K) (seed : ℤ) (n : ℕ) (r : Round (WithTop K)) (f : Found (WithTop K))
    (a b : Val (WithTop K)) (hne : r.conns ≠ []) (ha : connAt r.conns f.lb = .ok a) (hb : connAt r.conns f.ub = .ok b) :
    ∃ row, narrowRow t dim δ seed n r f = .ok row ∧ cell narrowColumns row "n_samples" = some (.int n) ∧
      cell narrowColumns row "conn_lb" = some a ∧ cell narrowColumns row "conn_ub" = some b ∧
      cell narrowColumns row "thresh_path_dist" = some (match f.path with | none => Val.nan | some p => .num p.1) := by
  unfold narrowRow
  rw [if_neg (by simp [hne]), ha, hb]
  refine ⟨_, rfl, rfl, rfl, rfl, ?_⟩
  cases f.path <;> rfl

theorem connAt_some (conns : List K) (i : ℕ) (c : K) (h : conns[i]? = some c) :
    connAt (conns.map fun r : K => (r : WithTop K)) (some (i : ℤ)) = .ok (.num (c : WithTop K)) := by
  unfold connAt
  simp only
  rw [pyGet_nat _ i (c : WithTop K) (by rw [List.getElem?_map, h]; rfl)]
  rfl

theorem solvable_mono {w : World P K} {S T : List P} (hST : ∀ p ∈ S, p ∈ T) {start goal : P} {r r' : K} (hr : r ≤ r')
    (h : w.Solvable S start goal r) : w.Solvable T start goal r' := by
  obtain ⟨pts, h1, h2, h3, h4, h5⟩ := h
  exact ⟨pts, h1, fun p hp => hST p (h2 p hp), fun p hp => ⟨(h3 p hp).1.trans hr, (h3 p hp).2⟩,
    fun p hp => ⟨(h4 p hp).1.trans hr, (h4 p hp).2⟩, h5.imp fun _ _ h => ⟨h.1.trans hr, h.2⟩⟩

/-- One pass over the schedule. -/
theorem trial_round {w : World P K} (hw : w.Sound) (start goal : P) (maxR : K) (dim : ℕ) (δ : WithTop K) (seed : ℤ)
    (times : ℕ → WithTop K × WithTop K) {d m : ℕ} {s : Full P K} (h : TrialAt w d s m) (i n : ℕ) (hn : m ≤ n) :
    ∃ s' row, (radiusDriver w start goal maxR).round ⟨.radius, dim, δ, seed, maxR, fun r => (r : WithTop K), times⟩ i n s = (s', .ok row) ∧
      TrialAt w d s' n ∧ RadiusRow w (w.fresh (d + 1) n) start goal maxR n row := by
  obtain ⟨s1, conns, hg, hat, hsam, hsort, hmem⟩ := trial_grow hw start goal maxR h n hn
  have hlt : ∀ (i j : ℕ) (a b : K), conns[i]? = some a → conns[j]? = some b → i < j → a < b := by
    intro i j a b ha hb hij
    obtain ⟨hi, rfl⟩ := List.getElem?_eq_some_iff.1 ha
    obtain ⟨hj, rfl⟩ := List.getElem?_eq_some_iff.1 hb
    exact List.pairwise_iff_getElem.1 hsort i j hi hj hij
  have hidx : ∀ c, w.Connection (w.fresh (d + 1) n) maxR c → ∃ i : ℕ, conns[i]? = some c := fun c hc =>
    List.mem_iff_getElem?.1 ((hmem c).2 hc)
  have hcon : ∀ (i : ℕ) (c : K), conns[i]? = some c → w.Connection (w.fresh (d + 1) n) maxR c := fun i c hc =>
    (hmem c).1 (List.mem_of_getElem? hc)
  generalize hS : w.fresh (d + 1) n = S at *
  have htest : ∀ x : Full P K, (TrialAt w d x n ∧ x.samples = some S) → ∀ c, ∃ x' a,
      (radiusDriver w start goal maxR).test c x = (x', .ok a) ∧ (TrialAt w d x' n ∧ x'.samples = some S) ∧
        Tested w S start goal c (answer a) := by
    intro x hx c
    rw [← hS] at hx ⊢
    exact trial_test hw start goal maxR hx.1 hx.2 c
  unfold Driver.round
  rw [hg]
  simp only
  by_cases h0 : conns.length = 0
  · have hnil : conns = [] := List.length_eq_zero_iff.1 h0
    subst hnil
    rw [if_pos (by simp)]
    refine ⟨s1, _, rfl, hat, rfl, fun _ => ⟨rfl, rfl⟩, ?_, ?_⟩
    · intro c hc
      obtain ⟨i, hi⟩ := hidx c ((hc c).2 rfl)
      simp at hi
    · intro a b ha _ _
      obtain ⟨i, hi⟩ := hidx a ha
      simp at hi
  · rw [if_neg (by simp [h0])]
    have hne : conns.map (fun r : K => (r : WithTop K)) ≠ [] := by
      intro hc
      rw [List.map_eq_nil_iff] at hc
      rw [hc] at h0
      exact h0 rfl
    by_cases h1 : conns.length = 1
    · obtain ⟨c, rfl⟩ := List.length_eq_one_iff.1 h1
      obtain ⟨s', f, hl, hI, hf⟩ := single_loop (radiusDriver w start goal maxR) c maxR (fun x => TrialAt w d x n ∧ x.samples = some S)
        (Tested w S start goal) (fun x hx => htest x hx c) s1 ⟨hat, hsam⟩
      have honly : ∀ r, w.Connection S maxR r ↔ r = c := fun r => by rw [← hmem]; simp
      have hl' : loop (trialBody (radiusDriver w start goal maxR) .radius [c] maxR) ([c].length + 1) (s1, narrowStart [c]) =
        some (s', .ok f) := hl
      rw [hl']
      simp only
      rcases hf with ⟨h2, h3, h4, h5⟩ | ⟨p, h2, h3, h4, h5⟩
      · obtain ⟨row, hr, c1, c2, c3, c4⟩ := row_cells .radius dim δ seed n
          ⟨[c].map fun r : K => (r : WithTop K), fun _ => none, (times i).1, (times i).2⟩ f (.num (c : WithTop K)) .nan hne
          (by rw [h2]; exact connAt_some [c] 0 c rfl) (by rw [h3]; rfl)
        rw [h4] at c4
        rw [hr]
        refine ⟨s', row, rfl, hI.1, c1, ?_, ?_, ?_⟩
        · intro hno
          exact absurd ⟨c, (honly c).2 rfl⟩ hno
        · intro c' hc'
          have : c = c' := (hc' c).1 ((honly c).2 rfl)
          subst this
          exact ⟨fun h => absurd h h5, fun _ => ⟨c2, c3, c4⟩⟩
        · intro a b ha hb hab
          rw [honly] at ha hb
          rw [ha, hb] at hab
          exact absurd hab (lt_irrefl _)
      · obtain ⟨row, hr, c1, c2, c3, c4⟩ := row_cells .radius dim δ seed n
          ⟨[c].map fun r : K => (r : WithTop K), fun _ => none, (times i).1, (times i).2⟩ f .nan (.num (c : WithTop K)) hne
          (by rw [h2]; rfl) (by rw [h3]; exact connAt_some [c] 0 c rfl)
        rw [h4] at c4
        rw [hr]
        refine ⟨s', row, rfl, hI.1, c1, ?_, ?_, ?_⟩
        · intro hno
          exact absurd ⟨c, (honly c).2 rfl⟩ hno
        · intro c' hc'
          have : c = c' := (hc' c).1 ((honly c).2 rfl)
          subst this
          refine ⟨fun _ => ⟨c2, c3, ?_⟩, fun h => absurd (tested_some h5) h⟩
          obtain ⟨x, hx, hx'⟩ := h5
          simp only [hx] at c4
          exact ⟨x, c4, hx'⟩
        · intro a b ha hb hab
          rw [honly] at ha hb
          rw [ha, hb] at hab
          exact absurd hab (lt_irrefl _)
    · have h2 : 2 ≤ conns.length := by omega
      have hnot : ∀ c, ¬ ∀ r, w.Connection S maxR r ↔ r = c := by
        intro c hc
        have e0 := (hc _).1 (hcon 0 conns[0] (List.getElem?_eq_getElem (by omega)))
        have e1 := (hc _).1 (hcon 1 conns[1] (List.getElem?_eq_getElem (by omega)))
        have := hlt 0 1 _ _ (List.getElem?_eq_getElem (by omega)) (List.getElem?_eq_getElem (by omega)) (by omega)
        rw [e0, e1] at this
        exact lt_irrefl _ this
      have hsome : ∃ r, w.Connection S maxR r := ⟨_, hcon 0 conns[0] (List.getElem?_eq_getElem (by omega))⟩
      obtain ⟨s', f, hl, hI, hf⟩ := bisect_loop (radiusDriver w start goal maxR) .radius conns h2 maxR
        (fun x => TrialAt w d x n ∧ x.samples = some S) (Tested w S start goal) (fun x hx c _ => htest x hx c) s1 ⟨hat, hsam⟩
      rw [hl]
      simp only
      rcases hf with ⟨h3, h4, h5, h6⟩ | ⟨k, lo, hi, p, h3, h4, h5, h6, h7, h8, h9, h10, h11⟩
      · obtain ⟨top, htop⟩ : ∃ top, conns[conns.length - 1]? = some top := ⟨_, List.getElem?_eq_getElem (by omega)⟩
        obtain ⟨row, hr, c1, c2, c3, c4⟩ := row_cells .radius dim δ seed n
          ⟨conns.map fun r : K => (r : WithTop K), fun _ => none, (times i).1, (times i).2⟩ f (.num (top : WithTop K)) .nan hne
          (by rw [h3, show (conns.length : ℤ) - 1 = ((conns.length - 1 : ℕ) : ℤ) by omega]; exact connAt_some conns _ top htop)
          (by rw [h4]; rfl)
        rw [h5] at c4
        rw [hr]
        refine ⟨s', row, rfl, hI.1, c1, fun h => absurd hsome h, fun c hc => absurd hc (hnot c), ?_⟩
        intro a b _ _ _
        refine ⟨fun _ => ⟨c3, c4, top, c2, hcon _ _ htop, ?_⟩, fun h => absurd h h6⟩
        intro c hc
        obtain ⟨j, hj⟩ := hidx c hc
        have hjlt : j < conns.length := (List.getElem?_eq_some_iff.1 hj).1
        rcases Nat.lt_or_ge j (conns.length - 1) with hlt' | hge
        · exact (hlt _ _ _ _ hj htop hlt').le
        · have : j = conns.length - 1 := by omega
          subst this
          rw [htop, Option.some.injEq] at hj
          exact hj.ge
      · obtain ⟨row, hr, c1, c2, c3, c4⟩ := row_cells .radius dim δ seed n
          ⟨conns.map fun r : K => (r : WithTop K), fun _ => none, (times i).1, (times i).2⟩ f (.num (lo : WithTop K)) (.num (hi : WithTop K)) hne
          (by rw [h3]; exact connAt_some conns _ lo h5)
          (by rw [h4, show (k : ℤ) + 1 = ((k + 1 : ℕ) : ℤ) by push_cast; rfl]; exact connAt_some conns _ hi h6)
        rw [h8] at c4
        rw [hr]
        have hle : ∀ (j : ℕ) (c : K), conns[j]? = some c → ∀ (j' : ℕ) (c' : K), conns[j']? = some c' → j ≤ j' → c ≤ c' := by
          intro j c hj j' c' hj' hjj
          rcases Nat.lt_or_ge j j' with h | h
          · exact (hlt _ _ _ _ hj hj' h).le
          · have : j = j' := by omega
            subst this
            rw [hj, Option.some.injEq] at hj'
            exact hj'.le
        have hklt : k + 1 < conns.length := (List.getElem?_eq_some_iff.1 h6).1
        have hhi : hi ≤ maxR := by
          obtain ⟨_, _, _, _, _, _, _, _, h⟩ := hcon _ _ h6
          exact h
        have hsol : w.Solvable S start goal maxR := by
          rcases Nat.lt_or_ge (k + 2) conns.length with h | h
          · exact solvable_mono (fun _ hp => hp) hhi (tested_some (h10 h))
          · exact tested_some (h11 (by omega))
        refine ⟨s', row, rfl, hI.1, c1, fun h => absurd hsome h, fun c hc => absurd hc (hnot c), ?_⟩
        intro a b _ _ _
        refine ⟨fun h => absurd hsol h, fun _ => ⟨lo, hi, c2, c3, hcon _ _ h5, hcon _ _ h6, hlt _ _ _ _ h5 h6 (by omega), ?_, ?_, ?_⟩⟩
        · intro c hc
          obtain ⟨j, hj⟩ := hidx c hc
          rcases Nat.lt_or_ge k j with h | h
          · exact Or.inr (hle _ _ h6 _ _ hj h)
          · exact Or.inl (hle _ _ hj _ _ h5 h)
        · intro hs c hc
          rcases h7 with rfl | h7
          · obtain ⟨j, hj⟩ := hidx c hc
            exact hle _ _ h5 _ _ hj (by omega)
          · exact absurd hs h7
        · rcases Nat.lt_or_ge (k + 2) conns.length with h | h
          · obtain ⟨x, hx, hx'⟩ := h10 h
            simp only [hx] at c4
            exact ⟨hi, x, c4, hx', Or.inl rfl⟩
          · obtain ⟨x, hx, hx'⟩ := h11 (by omega)
            simp only [hx] at c4
            refine ⟨maxR, x, c4, hx', Or.inr ⟨rfl, ?_⟩⟩
            intro c hc
            obtain ⟨j, hj⟩ := hidx c hc
            have hjlt : j < conns.length := (List.getElem?_eq_some_iff.1 hj).1
            exact hle _ _ hj _ _ h6 (by omega)

theorem rows_radius {w : World P K} (hw : w.Sound) (start goal : P) (maxR : K) (dim : ℕ) (δ : WithTop K) (seed : ℤ)
    (times : ℕ → WithTop K × WithTop K) (d : ℕ) (sched : List ℕ) : ∀ (i m : ℕ) (s : Full P K), TrialAt w d s m →
    (∀ x, sched.head? = some x → m ≤ x) → sched.IsChain (· ≤ ·) →
    ∃ rows, (radiusDriver w start goal maxR).rows ⟨.radius, dim, δ, seed, maxR, fun r => (r : WithTop K), times⟩ i sched s = .ok rows ∧
      List.Forall₂ (fun n row => RadiusRow w (w.fresh (d + 1) n) start goal maxR n row) sched rows := by
  induction sched with
  | nil => intro i m s _ _ _; exact ⟨[], rfl, List.Forall₂.nil⟩
  | cons n ns ih =>
    intro i m s h hm hc
    obtain ⟨s', row, hr, hat, hrow⟩ := trial_round hw start goal maxR dim δ seed times h i n (hm n rfl)
    rw [List.isChain_cons] at hc
    obtain ⟨rows, hrs, hall⟩ := ih (i + 1) n s' hat (fun x hx => hc.1 x hx) hc.2
    refine ⟨row :: rows, ?_, List.Forall₂.cons hrow hall⟩
    unfold Driver.rows
    rw [hr]
    simp only [hrs]

theorem rows_refused {w : World P K} (hw : w.Sound) (start goal : P) (maxR : K) (dim : ℕ) (δ : WithTop K) (seed : ℤ)
    (times : ℕ → WithTop K × WithTop K) (d : ℕ) (sched : List ℕ) : ∀ (i m : ℕ) (s : Full P K), TrialAt w d s m →
    ¬ ((∀ x, sched.head? = some x → m ≤ x) ∧ sched.IsChain (· ≤ ·)) →
    (radiusDriver w start goal maxR).rows ⟨.radius, dim, δ, seed, maxR, fun r => (r : WithTop K), times⟩ i sched s = .error .arithmetic := by
  induction sched with
  | nil => intro i m s _ h; exact absurd ⟨by simp, by simp⟩ h
  | cons n ns ih =>
    intro i m s h hnot
    rcases Nat.lt_or_ge n m with hlt | hge
    · obtain ⟨s', hg⟩ := trial_refused w start goal maxR h n hlt
      simp only [Driver.rows, Driver.round, hg]
    · obtain ⟨s', row, hr, hat, _⟩ := trial_round hw start goal maxR dim δ seed times h i n hge
      have := ih (i + 1) n s' hat (by
        rintro ⟨h1, h2⟩
        apply hnot
        refine ⟨?_, ?_⟩
        · intro x hx
          simp only [List.head?_cons, Option.some.injEq] at hx
          omega
        · rw [List.isChain_cons]
          exact ⟨fun x hx => h1 x hx, h2⟩)
      unfold Driver.rows
      rw [hr]
      simp only [this]

theorem init_trial (w : World P K) (maxR : K) (d : ℕ) : TrialAt w d (Full.init maxR d) 0 :=
  ⟨Full.init_inv w maxR d, rfl, Or.inr ⟨rfl, rfl⟩⟩

/-- C108 for the radius roadmap, what the rows say (`RadiusRow` in the specification): for every ascending schedule the trial makes one
row for each sample size, in order. With the states drawn so far as samples, each row says for which lengths of connections the problem
is solved, up to the following. Missing: the shortest length may be recorded as failing although it solves the problem; the longest
length may be recorded as solving although it does not, see `C108_last_false`; and with connections of one length only, the largest
radius is not tested, see `C108_single_false`. -/
theorem C108_rows_partial {w : World P K} (hw : w.Sound) (start goal : P) (maxR : K) (dim : ℕ) (δ : K) (seed : ℤ)
    (times : ℕ → WithTop K × WithTop K) (d : ℕ) (sched : List ℕ) (hsched : sched.IsChain (· ≤ ·)) :
    ∃ rows, radiusTrial w start goal dim δ seed maxR times sched d = dataFrame narrowColumns rows ∧
      List.Forall₂ (fun n row => RadiusRow w (w.fresh (d + 1) n) start goal maxR n row) sched rows := by
  obtain ⟨rows, h1, h2⟩ := rows_radius hw start goal maxR dim δ seed times d sched 0 0 _ (init_trial w maxR d) (fun _ _ => Nat.zero_le _)
    hsched
  refine ⟨rows, ?_, h2⟩
  unfold radiusTrial Driver.trial
  rw [h1]

/-- C108: a schedule that is not ascending makes the trial raise ArithmeticError; all rows are lost. -/
theorem C108_schedule {w : World P K} (hw : w.Sound) (start goal : P) (maxR : K) (dim : ℕ) (δ : K) (seed : ℤ)
    (times : ℕ → WithTop K × WithTop K) (d : ℕ) (sched : List ℕ) (hsched : ¬ sched.IsChain (· ≤ ·)) :
    radiusTrial w start goal dim δ seed maxR times sched d = .error .arithmetic := by
  unfold radiusTrial Driver.trial
  rw [rows_refused hw start goal maxR dim δ seed times d sched 0 0 _ (init_trial w maxR d) (fun h => hsched h.2)]

theorem connections_cases (w : World P K) (S : List P) (maxR : K) :
    (¬ ∃ r, w.Connection S maxR r) ∨ (∃ c, ∀ r, w.Connection S maxR r ↔ r = c) ∨
      ∃ a b, w.Connection S maxR a ∧ w.Connection S maxR b ∧ a < b := by
  by_cases h : ∃ r, w.Connection S maxR r
  · obtain ⟨c, hc⟩ := h
    by_cases h1 : ∀ r, w.Connection S maxR r → r = c
    · exact Or.inr (Or.inl ⟨c, fun r => ⟨h1 r, fun h => h ▸ hc⟩⟩)
    · push Not at h1
      obtain ⟨r, hr, hne⟩ := h1
      rcases lt_or_gt_of_ne hne with h | h
      · exact Or.inr (Or.inr ⟨r, c, hr, hc, h⟩)
      · exact Or.inr (Or.inr ⟨c, r, hc, hr, h⟩)
  · exact Or.inl h

/-- When the upper value of a row is not NaN. -/
theorem upper_cases {w : World P K} {S : List P} {start goal : P} {maxR : K} {n : ℕ} {row : List (Val (WithTop K))}
    (h : RadiusRow w S start goal maxR n row) :
    (HasNan row "conn_ub" ∧ ∀ c, w.Connection S maxR c → w.Solvable S start goal c → False) ∨
    ((∃ x, HasNum row "conn_ub" x) ∧ w.Solvable S start goal maxR ∧ ∃ c, w.Connection S maxR c ∧
      (w.Solvable S start goal c ∨ ∃ b, w.Connection S maxR b ∧ c < b)) := by
  have hle : ∀ c, w.Connection S maxR c → c ≤ maxR := by
    rintro c ⟨_, _, _, _, _, _, _, _, hc⟩
    exact hc
  rcases connections_cases w S maxR with h1 | ⟨c, hc⟩ | ⟨a, b, ha, hb, hab⟩
  · exact Or.inl ⟨(h.without h1).2, fun c hc _ => h1 ⟨c, hc⟩⟩
  · by_cases hs : w.Solvable S start goal c
    · exact Or.inr ⟨⟨c, ((h.one c hc).1 hs).2.1⟩, solvable_mono (fun _ hp => hp) (hle c ((hc c).2 rfl)) hs, c, (hc c).2 rfl, Or.inl hs⟩
    · refine Or.inl ⟨((h.one c hc).2 hs).2.1, ?_⟩
      intro c' hc' hs'
      rw [(hc c').1 hc'] at hs'
      exact hs hs'
  · by_cases hs : w.Solvable S start goal maxR
    · obtain ⟨lo, hi, _, h2, _⟩ := (h.many a b ha hb hab).2 hs
      exact Or.inr ⟨⟨hi, h2⟩, hs, a, ha, Or.inr ⟨b, hb, hab⟩⟩
    · refine Or.inl ⟨((h.many a b ha hb hab).1 hs).1, ?_⟩
      intro c hc hs'
      exact hs (solvable_mono (fun _ hp => hp) (hle c hc) hs')

theorem upper_grows {w : World P K} {S T : List P} (hpre : S <+: T) {start goal : P} {maxR : K} {n m : ℕ}
    {row row' : List (Val (WithTop K))} (h : RadiusRow w S start goal maxR n row) (h' : RadiusRow w T start goal maxR m row')
    (hs : ¬ HasNan row "conn_ub") : ∃ x, HasNum row' "conn_ub" x := by
  obtain ⟨U, rfl⟩ := hpre
  have hmem : ∀ p ∈ S, p ∈ S ++ U := fun p hp => List.mem_append_left _ hp
  have hcon : ∀ c, w.Connection S maxR c → w.Connection (S ++ U) maxR c := by
    rintro c ⟨i, j, p, q, hp, hq, hr⟩
    refine ⟨i, j, p, q, ?_, ?_, hr⟩
    · rw [List.getElem?_append_left (List.getElem?_eq_some_iff.1 hp).1]; exact hp
    · rw [List.getElem?_append_left (List.getElem?_eq_some_iff.1 hq).1]; exact hq
  rcases upper_cases h with ⟨h1, _⟩ | ⟨_, h2, c, h3, h4⟩
  · exact absurd h1 hs
  · have hT := solvable_mono hmem (le_refl maxR) h2
    rcases connections_cases w (S ++ U) maxR with h1 | ⟨e, he⟩ | ⟨a, b, ha, hb, hab⟩
    · exact absurd ⟨c, hcon c h3⟩ h1
    · have hce : c = e := (he c).1 (hcon c h3)
      rcases h4 with h4 | ⟨b, hb, hcb⟩
      · rw [hce] at h4
        exact ⟨e, ((h'.one e he).1 (solvable_mono hmem (le_refl e) h4)).2.1⟩
      · have hbe : b = e := (he b).1 (hcon b hb)
        rw [hce, hbe] at hcb
        exact absurd hcb (lt_irrefl _)
    · obtain ⟨lo, hi, _, h5, _⟩ := (h'.many a b ha hb hab).2 hT
      exact ⟨hi, h5⟩

theorem fresh_prefix (w : World P K) (d : ℕ) {m n : ℕ} (h : m ≤ n) : w.fresh d m <+: w.fresh d n :=
  ⟨_, fresh_append w d m n h⟩

theorem frame_row {V : Type} {columns : List String} {rows : List (List V)} {table : List (List (Option V))}
    (h : dataFrame columns rows = .ok table) {i : ℕ} {r : List (Option V)} (hr : table[i]? = some r) :
    ∃ row, rows[i]? = some row ∧ ∀ name v, cell columns row name = some v → cell columns r name = some (some v) := by
  unfold dataFrame at h
  split at h
  · cases h; simp at hr
  · simp only at h
    split at h
    · cases h
    · simp only [Except.ok.injEq] at h
      subst h
      rw [List.getElem?_map] at hr
      cases hrow : rows[i]? with
      | none => rw [hrow] at hr; cases hr
      | some row =>
        rw [hrow] at hr
        simp only [Option.map_some, Option.some.injEq] at hr
        subst hr
        refine ⟨row, rfl, ?_⟩
        intro name v hv
        unfold cell at hv ⊢
        have hlt := (List.getElem?_eq_some_iff.1 hv).1
        rw [List.getElem?_append_left (by simpa using hlt), List.getElem?_map, hv]
        rfl

/-- C108: more samples do not destroy a solution. In the table of a radius trial, for every world and schedule: if a row has an upper
value (a radius recorded as solving the problem), every later row has one. -/
theorem C108_more_samples {w : World P K} (hw : w.Sound) (start goal : P) (maxR : K) (dim : ℕ) (δ : K) (seed : ℤ)
    (times : ℕ → WithTop K × WithTop K) (d : ℕ) (sched : List ℕ) {table : List (List (Option (Val (WithTop K))))}
    (h : radiusTrial w start goal dim δ seed maxR times sched d = .ok table) {i j : ℕ} (hij : i ≤ j)
    {small large : List (Option (Val (WithTop K)))} (hi : table[i]? = some small) (hj : table[j]? = some large)
    (hsol : cell narrowColumns small "conn_ub" ≠ some (some .nan)) :
    ∃ x : K, cell narrowColumns large "conn_ub" = some (some (.num (x : WithTop K))) := by
  by_cases hsched : sched.IsChain (· ≤ ·)
  · obtain ⟨rows, h1, h2⟩ := C108_rows_partial hw start goal maxR dim δ seed times d sched hsched
    rw [h1] at h
    obtain ⟨r1, hr1, hc1⟩ := frame_row h hi
    obtain ⟨r2, hr2, hc2⟩ := frame_row h hj
    have hlen := h2.length_eq
    have hl1 : i < sched.length := by rw [hlen]; exact (List.getElem?_eq_some_iff.1 hr1).1
    have hl2 : j < sched.length := by rw [hlen]; exact (List.getElem?_eq_some_iff.1 hr2).1
    have hget := List.forall₂_iff_get.1 h2
    have e1 : RadiusRow w (w.fresh (d + 1) sched[i]) start goal maxR sched[i] r1 := by
      have := hget.2 i hl1 (by rw [← hlen]; exact hl1)
      rw [← (List.getElem?_eq_some_iff.1 hr1).2]
      exact this
    have e2 : RadiusRow w (w.fresh (d + 1) sched[j]) start goal maxR sched[j] r2 := by
      have := hget.2 j hl2 (by rw [← hlen]; exact hl2)
      rw [← (List.getElem?_eq_some_iff.1 hr2).2]
      exact this
    have hle : sched[i] ≤ sched[j] := by
      rcases Nat.lt_or_ge i j with hlt | hge
      · exact List.pairwise_iff_getElem.1 (List.isChain_iff_pairwise.1 hsched) i j hl1 hl2 hlt
      · have : i = j := by omega
        subst this
        exact le_refl _
    obtain ⟨x, hx⟩ := upper_grows (fresh_prefix w (d + 1) hle) e1 e2 (fun hn => hsol (hc1 _ _ hn))
    exact ⟨x, hc2 _ _ hx⟩
  · rw [C108_schedule hw start goal maxR dim δ seed times d sched hsched] at h
    cases h

/-! ### Examples -/

/-- Points on the line that are drawn in the given order (the first one only for its size); all motions are accepted. -/
def drawWorld (l : List ℚ) : World ℚ ℚ := lineWorld (fun _ _ => true) fun i => l.getD i 0

/-- A trial with two sample sizes. Two samples at distance 2 have only themselves as connections; the third sample makes a chain with
hops of length 1 from start to goal, and the row says so. -/
theorem C108_nonvacuous : (drawWorld [9, 1, 3, 2]).Sound ∧ (drawWorld [9, 1, 3, 2]).fresh 1 3 = [1, 3, 2] ∧
    radiusTrial (drawWorld [9, 1, 3, 2]) 0 4 2 (1 / 4) 7 1 (fun _ => (5, 6)) [2, 3] 0 = .ok
      [[.str "radius", .int 2, .num ((1 / 4 : ℚ) : WithTop ℚ), .int 2, .num ((0 : ℚ) : WithTop ℚ), .nan, .nan, .nan, .num 5, .num 6,
          .str "only one connection; and no path found.", .int 7].map some,
        [.str "radius", .int 2, .num ((1 / 4 : ℚ) : WithTop ℚ), .int 3, .num ((0 : ℚ) : WithTop ℚ), .num ((1 : ℚ) : WithTop ℚ),
          .num ((4 : ℚ) : WithTop ℚ), .int 3, .num 5, .num 6, .str "", .int 7].map some] := by
  refine ⟨lineWorld_sound _ _, by decide +kernel, ?_⟩
  decide +kernel

/-- C108 is false for the longest connection: at the end the bisection tests `max_connections` in place of the last radius. Here the
samples are 1 and 2, start and goal are at distance 2 from them, the largest radius is 2. Radius 1 is recorded as solving the problem,
but no chain with hops up to 1 reaches the samples from the start. -/
theorem C108_last_false : radiusTrial (drawWorld [9, 1, 2]) (-1) 4 2 (1 / 4) 7 2 (fun _ => (5, 6)) [2] 0 = .ok
      [[.str "radius", .int 2, .num ((1 / 4 : ℚ) : WithTop ℚ), .int 2, .num ((0 : ℚ) : WithTop ℚ), .num ((1 : ℚ) : WithTop ℚ),
          .num ((5 : ℚ) : WithTop ℚ), .int 2, .num 5, .num 6, .str "", .int 7].map some] ∧
    (drawWorld [9, 1, 2]).fresh 1 2 = [1, 2] ∧ ¬ (drawWorld [9, 1, 2]).Solvable [1, 2] (-1) 4 1 := by
  refine ⟨by decide +kernel, by decide +kernel, ?_⟩
  rintro ⟨pts, h1, h2, h3, _, _⟩
  cases pts with
  | nil => exact h1 rfl
  | cons p l =>
    have h4 := (h3 p rfl).1
    have h5 := h2 p (by simp)
    simp only [List.mem_cons, List.not_mem_nil, or_false] at h5
    rcases h5 with rfl | rfl <;> exact absurd h4 (by decide +kernel)

/-- C108 is false with connections of one length: one sample is connected with itself only, radius 0 is tested and fails, and the row
says that the problem is not solved; with the largest radius it is solved, through that sample. -/
theorem C108_single_false : radiusTrial (drawWorld [9, 1]) 0 2 2 (1 / 4) 7 1 (fun _ => (5, 6)) [1] 0 = .ok
      [[.str "radius", .int 2, .num ((1 / 4 : ℚ) : WithTop ℚ), .int 1, .num ((0 : ℚ) : WithTop ℚ), .nan, .nan, .nan, .num 5, .num 6,
          .str "only one connection; and no path found.", .int 7].map some] ∧
    (drawWorld [9, 1]).fresh 1 1 = [1] ∧ (drawWorld [9, 1]).Solvable [1] 0 2 1 := by
  refine ⟨by decide +kernel, by decide +kernel, [1], by simp, by simp, ?_, ?_, by simp⟩
  · intro p hp
    simp only [List.head?_cons, Option.some.injEq] at hp
    subst hp
    exact ⟨by decide +kernel, rfl⟩
  · intro p hp
    simp only [List.getLast?_singleton, Option.some.injEq] at hp
    subst hp
    exact ⟨by decide +kernel, rfl⟩

/-- Two places, 0 and 10, and a pocket near 0 whose points cannot be connected with anything. -/
def pocketWorld : World ℚ ℚ := lineWorld (fun p q => decide (p = 0 ∨ p = 10) && decide (q = 0 ∨ q = 10))
  fun i => [9, 0, 10, 1 / 10, 2 / 10, 3 / 10, 4 / 10, 5 / 10, 6 / 10].getD i 0

/-- C108 is false for the k-NN roadmap: more samples can destroy a solution. With up to 6 neighbours, the 2 samples at 0 and 10 solve the
problem. 6 more samples fill up the neighbours of the first one and make the certified radius small; then there is no solution. -/
theorem C108_knn_false : pocketWorld.Sound ∧ pocketWorld.ExactKnn ∧
    knnTrial pocketWorld 0 10 2 (1 / 4) 7 6 3 (fun _ => (5, 6)) [2, 8] 0 = .ok
      [[.str "knn", .int 2, .num ((1 / 4 : ℚ) : WithTop ℚ), .int 2, .num ((4 : ℚ) : WithTop ℚ), .num ((8 : ℚ) : WithTop ℚ),
          .num ((10 : ℚ) : WithTop ℚ), .int 1, .num 5, .num 6, .str "", .int 7].map some,
        [.str "knn", .int 2, .num ((1 / 4 : ℚ) : WithTop ℚ), .int 8, .num ((8 : ℚ) : WithTop ℚ), .nan, .nan, .nan, .num 5, .num 6,
          .str "no paths found for all connection settings", .int 7].map some] := by
  refine ⟨lineWorld_sound _ _, lineWorld_exact _ _, ?_⟩
  decide +kernel

end Verif.Props
