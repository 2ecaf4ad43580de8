import Verif.Props.NarrowTrial
import Verif.Props.PrmKnn

/-! The narrow-passage trial on the k-NN roadmap: C108. -/

namespace Verif.Props

open Verif.Prm Verif.Exps

set_option linter.unusedSectionVars false

variable {P K : Type} [LinearOrder K] [AddCommGroup K]

theorem behind_mono {t : Table K} {k k' i j : ℕ} (h : k ≤ k') (hb : Behind t k' i j) : Behind t k i j := by
  obtain ⟨row, hrow, d, hd⟩ := hb
  refine ⟨row, hrow, d, ?_⟩
  obtain ⟨x, rfl⟩ := Nat.exists_eq_add_of_le h
  rw [← List.drop_drop] at hd
  exact List.mem_of_mem_drop hd

theorem kept_mono {w : World P K} {S : List P} {t : Table K} {k k' i j : ℕ} (h : k ≤ k') (hk : w.Kept S t k i j) : w.Kept S t k' i j :=
  ⟨hk.1, fun hb => hk.2.1 (behind_mono h hb), fun hb => hk.2.2 (behind_mono h hb)⟩

theorem route_congr {w : World P K} {S : List P} {g h : NkGraph K} {r : K} {start goal : P} {ids : List ℕ} {pts : List P}
    (hgh : ∀ i j, g.Adj i j → h.Adj i j) (hr : w.Route S g r start goal ids pts) : w.Route S h r start goal ids pts :=
  ⟨hr.nonempty, hr.points, hr.first, hr.last, hr.edges.imp hgh⟩

/-- A graph with exactly the kept connections. -/
theorem kept_graph (w : World P K) (S : List P) (t : Table K) (k : ℕ) :
    ∀ i j, (Knn.throwAway (Knn.tails t k) (tabGraph w S t)).Adj i j ↔ w.Kept S t k i j := by
  intro i j
  rw [throwAway_adj (tabGraph_simple w S t), mem_tails, mem_tails, tabGraph_adj]
  rfl

theorem knnSolvable_mono {w : World P K} {S : List P} {maxK : ℕ} {start goal : P} {k k' : ℕ} (h : k ≤ k')
    (hs : w.KnnSolvable S maxK start goal k) : w.KnnSolvable S maxK start goal k' := by
  obtain ⟨pts, r, g, ids, h1, h2, h3⟩ := hs
  refine ⟨pts, r, _, ids, h1, kept_graph w S _ k', route_congr ?_ h3⟩
  intro i j hij
  exact (kept_graph w S _ k' i j).2 (kept_mono h ((h2 i j).1 hij))

/-! ### The states of the roadmap during the trial -/

/-- The roadmap object between two passes: the first `m` states after the very first one are its samples. -/
def KnnAt (w : World P K) (maxK d : ℕ) (s : Knn P K) (m : ℕ) : Prop :=
  s.maxK = maxK ∧ s.truncate = false ∧ s.drawn = d + 1 + m ∧ (s.samples = some (w.fresh (d + 1) m) ∨ (s.samples = none ∧ m = 0))

/-- The roadmap object during the bisection. -/
structure KnnNow (w : World P K) (maxK d : ℕ) (n : ℕ) (r : K) (s : Knn P K) : Prop where
  max : s.maxK = maxK
  trunc : s.truncate = false
  drawn : s.drawn = d + 1 + n
  samples : s.samples = some (w.fresh (d + 1) n)
  connR : s.connR = none
  cert : s.certified = some r
  master : s.master = some (w.knn (w.fresh (d + 1) n) (min (n - 1) maxK))
  cache : s.cache = some (tabGraph w (w.fresh (d + 1) n) (w.knn (w.fresh (d + 1) n) (min (n - 1) maxK)))
  graph : ∃ g, s.graph = some g ∧ g.edges.Sublist (tabGraph w (w.fresh (d + 1) n) (w.knn (w.fresh (d + 1) n) (min (n - 1) maxK))).edges ∧
    n ≤ g.bound ∧ ∀ i j, g.Adj i j ↔ w.Kept (w.fresh (d + 1) n) (w.knn (w.fresh (d + 1) n) (min (n - 1) maxK)) s.k i j

theorem certify_full_ok (t : Table K) (h : t ≠ []) (hrow : ∀ row ∈ t, row ≠ []) : ∃ r, Knn.certify t = .ok r := by
  have h1 : ∃ l, t.mapM (fun row : List (ℕ × K) => row.getLast?) = some l ∧ l.length = t.length := by
    clear h
    induction t with
    | nil => exact ⟨[], rfl, rfl⟩
    | cons row t ih =>
      obtain ⟨l, hl, hlen⟩ := ih (fun x hx => hrow x (List.mem_cons_of_mem _ hx))
      have hne := hrow row (by simp)
      refine ⟨row.getLast hne :: l, ?_, by simp [hlen]⟩
      rw [List.mapM_cons, hl, List.getLast?_eq_getLast_of_ne_nil hne]
      rfl
  obtain ⟨l, hl, hlen⟩ := h1
  unfold Knn.certify
  rw [hl]
  cases l with
  | nil =>
    exfalso
    apply h
    exact List.length_eq_zero_iff.1 hlen.symm
  | cons c cs => exact ⟨_, rfl⟩

/-- Growth with all neighbours. -/
theorem knn_grow {w : World P K} (hw : w.Sound) (hfull : ∀ (S : List P) (k : ℕ), ∀ row ∈ w.knn S k, row.length = min k (S.length - 1))
    (start goal : P) (L : ℕ) {maxK d m : ℕ} (hmax : 1 ≤ maxK) {s : Knn P K} (h : KnnAt w maxK d s m) (n : ℕ) (hn : m < n) (hn2 : 2 ≤ n) :
    ∃ s' r, (knnDriver w start goal L).grow n s = (s', .ok (nnKs L)) ∧
      Knn.certify (w.knn (w.fresh (d + 1) n) (min (n - 1) maxK)) = .ok r ∧ KnnNow w maxK d n r s' := by
  obtain ⟨h1, h2, h3, h4⟩ := h
  have ht := hw.knn_true (w.fresh (d + 1) n) (min (n - 1) maxK)
  obtain ⟨r, hr⟩ : ∃ r, Knn.certify (w.knn (w.fresh (d + 1) n) (min (n - 1) maxK)) = .ok r := by
    apply certify_full_ok
    · intro hc
      have := ht.1
      rw [hc, fresh_length] at this
      simp at this
      omega
    · intro row hrow hc
      have := hfull _ _ row hrow
      rw [hc, fresh_length] at this
      simp at this
      omega
  have key : ∃ s0 : Knn P K, s0.maxK = maxK ∧ s0.k = maxK ∧ s0.truncate = false ∧ s0.connR = none ∧ s0.drawn = d + 1 + n ∧
      ({ s with k := s.maxK } : Knn P K).grow w n = Knn.rebuild w s0 (w.fresh (d + 1) n) := by
    rcases h4 with h4 | ⟨h4, rfl⟩
    · refine ⟨{ s with k := s.maxK, connR := none, drawn := s.drawn + (n - m) }, h1, h1, h2, rfl, by simp only; omega, ?_⟩
      unfold Knn.grow
      simp only [h4, fresh_length]
      rw [if_neg (by omega), h3, fresh_append _ _ _ _ hn.le]
    · refine ⟨{ s with k := s.maxK, connR := none, drawn := s.drawn + n }, h1, h1, h2, rfl, by simp only; omega, ?_⟩
      unfold Knn.grow
      simp only [h4, h3, Nat.add_zero]
  obtain ⟨s0, e1, e2, e3, e4, e5, e6⟩ := key
  have hreb : Knn.rebuild w s0 (w.fresh (d + 1) n) =
      ({ s0 with
          samples := some (w.fresh (d + 1) n)
          master := some (w.knn (w.fresh (d + 1) n) (min (n - 1) maxK))
          cache := some (tabGraph w (w.fresh (d + 1) n) (w.knn (w.fresh (d + 1) n) (min (n - 1) maxK)))
          graph := some (tabGraph w (w.fresh (d + 1) n) (w.knn (w.fresh (d + 1) n) (min (n - 1) maxK)))
          certified := some r }, .ok ()) := by
    unfold Knn.rebuild
    simp only [fresh_length, e2, tableGraph_ok ht, hr, e3, Bool.false_eq_true, if_false]
    rfl
  refine ⟨(Knn.rebuild w s0 (w.fresh (d + 1) n)).1, r, ?_, hr, ?_⟩
  · simp only [knnDriver, e6, hreb]
  · rw [hreb]
    refine ⟨e1, e3, e5, rfl, e4, rfl, rfl, rfl, _, rfl, List.Sublist.refl _, ?_, ?_⟩
    · rw [tabGraph_bound ht, fresh_length]
    · intro i j
      rw [tabGraph_adj]
      refine ⟨fun h => ⟨h, ?_, ?_⟩, fun h => h.1⟩
      all_goals
        rintro ⟨row, hrow, x, hx⟩
        have hlen := hfull _ _ row (List.mem_of_getElem? hrow)
        have : row.drop s0.k = [] := by
          apply List.drop_eq_nil_of_le
          rw [hlen, e2]
          omega
        rw [this] at hx
        simp at hx

/-- What testing a number of neighbours says. -/
def TestedK (w : World P K) (S : List P) (maxK : ℕ) (start goal : P) (k : ℕ) : Option (WithTop K × ℕ) → Prop
  | none => ¬ w.KnnSolvable S maxK start goal k
  | some p => ∃ d : K, p.1 = d ∧ w.KnnShortest S maxK start goal k d

theorem testedK_some {w : World P K} {S : List P} {maxK : ℕ} {start goal : P} {k : ℕ} {p : WithTop K × ℕ}
    (h : TestedK w S maxK start goal k (some p)) : w.KnnSolvable S maxK start goal k := by
  obtain ⟨d, _, ⟨pts, hp, _⟩, _⟩ := h
  exact ⟨pts, hp⟩

theorem knn_test {w : World P K} (hw : w.Sound) (start goal : P) (L : ℕ) {maxK d n : ℕ} {r : K}
    (hr : Knn.certify (w.knn (w.fresh (d + 1) n) (min (n - 1) maxK)) = .ok r) {s : Knn P K} (h : KnnNow w maxK d n r s) (k : ℕ)
    (hk : k ≤ maxK) :
    ∃ s' a, (knnDriver w start goal L).test k s = (s', .ok a) ∧ KnnNow w maxK d n r s' ∧
      TestedK w (w.fresh (d + 1) n) maxK start goal k (answer a) := by
  obtain ⟨h1, h2, h3, h4, h5, h6, h7, h8, g, h9, h10, h11, h12⟩ := h
  have ht := hw.knn_true (w.fresh (d + 1) n) (min (n - 1) maxK)
  have hlenS : (w.fresh (d + 1) n).length = n := fresh_length ..
  have hlen : w.knn (w.fresh (d + 1) n) (min ((w.fresh (d + 1) n).length - 1) maxK) = w.knn (w.fresh (d + 1) n) (min (n - 1) maxK) := by
    rw [hlenS]
  generalize hS : w.fresh (d + 1) n = S at *
  generalize htt : w.knn S (min (n - 1) maxK) = t at *
  have hset : ∃ g', s.setNeighbors k = ({ s with graph := some g', k := k }, .ok ()) ∧ g'.edges.Sublist (tabGraph w S t).edges ∧
      n ≤ g'.bound ∧ ∀ i j, g'.Adj i j ↔ w.Kept S t k i j := by
    unfold Knn.setNeighbors
    rw [if_neg (by omega)]
    by_cases hlt : s.k < k
    · simp only [hlt, h8, h7, decide_true, Option.isNone_some, Bool.and_false, Bool.false_eq_true, if_true, if_false]
      refine ⟨_, rfl, ?_, ?_, kept_graph w S t k⟩
      · rw [throwAway_eq]; exact removeAll_sublist _ _
      · rw [throwAway_eq, removeAll_bound, tabGraph_bound ht, hlenS]
    · simp only [hlt, decide_false, Bool.false_and, Bool.false_eq_true, if_false, h7, h9]
      refine ⟨_, rfl, ?_, ?_, ?_⟩
      · rw [throwAway_eq]; exact (removeAll_sublist _ _).trans h10
      · rw [throwAway_eq, removeAll_bound]; exact h11
      · intro i j
        rw [throwAway_adj (List.Pairwise.sublist h10 (tabGraph_simple w S t)), mem_tails, mem_tails, h12]
        constructor
        · rintro ⟨a1, a2, a3⟩
          exact ⟨a1.1, a2, a3⟩
        · rintro ⟨a1, a2, a3⟩
          exact ⟨⟨a1, fun hb => a2 (behind_mono (by omega) hb), fun hb => a3 (behind_mono (by omega) hb)⟩, a2, a3⟩
  obtain ⟨g', hset, b1, b2, b3⟩ := hset
  have hck : w.Checked S g' := Checked.sublist (fun e he => b1.subset he) (tabGraph_checked hw ht)
  obtain ⟨x, pts, hq, hres⟩ := Knn.query_eq hw (s := { s with graph := some g', k := k }) (S := S) (g := g') (r := r) h4 rfl
    (by simp only [h5, h6]; rfl) hck (by rw [hlenS]; exact b2) start goal
  refine ⟨{ s with graph := some (afterQuery g' (w.querySamples S r start) (w.querySamples S r goal)), k := k }, (x, pts), ?_,
    ⟨h1, h2, h3, by rw [hS]; exact h4, h5, h6, by rw [hS, htt]; exact h7, by rw [hS, htt]; exact h8, _, rfl, ?_, ?_, ?_⟩, ?_⟩
  · simp only [knnDriver, hset]
    exact hq
  · rw [hS, htt, afterQuery_edges (Checked.inBound hck (by rw [hlenS]; exact b2))]
    exact b1
  · rw [afterQuery_bound]; omega
  · intro i j
    rw [hS, htt, Adj.congr (afterQuery_edges (Checked.inBound hck (by rw [hlenS]; exact b2)) _ _)]
    exact b3 i j
  · have hroute : ∀ pts', (∃ ids, w.Route S g' r start goal ids pts') ↔ w.KnnRoute S maxK start goal k pts' := by
      intro pts'
      constructor
      · rintro ⟨ids, hh⟩
        exact ⟨r, g', ids, by rw [hlen]; exact hr, by rw [hlen]; exact b3, hh⟩
      · rintro ⟨r', g'', ids, c1, c2, c3⟩
        rw [hlen] at c1 c2
        rw [hr] at c1
        cases c1
        exact ⟨ids, route_congr (fun i j hij => (b3 i j).2 ((c2 i j).1 hij)) c3⟩
    rcases hres with ⟨ids, c1, c2, c3⟩ | ⟨c1, c2, c3⟩
    · have hne : pts ≠ [] := by
        rintro rfl
        have := c1.points
        cases this
        exact c1.nonempty rfl
      have : answer (x, pts) = some (x, pts.length) := by simp [answer, hne]
      rw [this]
      refine ⟨_, c2, ⟨pts, (hroute pts).1 ⟨ids, c1⟩, rfl⟩, ?_⟩
      intro pts' hp'
      obtain ⟨ids', hp'⟩ := (hroute pts').2 hp'
      exact c3 ids' pts' hp'
    · have : answer (x, pts) = none := by simp [answer, c2]
      rw [this]
      rintro ⟨pts', hp'⟩
      obtain ⟨ids', hp'⟩ := (hroute pts').2 hp'
      exact c3 ids' pts' hp'

theorem KnnNow.at {w : World P K} {maxK d n : ℕ} {r : K} {s : Knn P K} (h : KnnNow w maxK d n r s) : KnnAt w maxK d s n :=
  ⟨h.max, h.trunc, h.drawn, Or.inl h.samples⟩

variable [NatCast K]

theorem connAt_pow (L e : ℕ) (h2 : 2 ≤ e) (hL : e ≤ L) :
    connAt ((nnKs L).map fun k : ℕ => ((k : K) : WithTop K)) (some ((e - 2 : ℕ) : ℤ)) = .ok (.num (((2 ^ e : ℕ) : K) : WithTop K)) := by
  unfold connAt
  simp only
  rw [pyGet_nat _ (e - 2) (((2 ^ e : ℕ) : K) : WithTop K)]
  · rfl
  · rw [List.getElem?_map, C47_neighbor_counts, if_pos (by omega), show e - 2 + 2 = e by omega]
    rfl

theorem half_le {L maxK : ℕ} (h : 4 ^ L ≤ 2 * maxK ^ 2) (e : ℕ) (he : e + 1 ≤ L) : 2 ^ e ≤ maxK := by
  by_contra hc
  push Not at hc
  have h1 : 4 ^ (e + 1) ≤ 4 ^ L := Nat.pow_le_pow_right (by omega) he
  have h2 : 4 ^ (e + 1) = 4 * (2 ^ e * 2 ^ e) := by
    rw [pow_succ, show (4 : ℕ) = 2 * 2 by rfl, mul_pow]; ring
  have h3 : maxK * maxK < 2 ^ e * 2 ^ e := Nat.mul_self_lt_mul_self hc
  have h4 : maxK ^ 2 = maxK * maxK := by ring
  omega

/-- One pass over the schedule. -/
theorem knn_round {w : World P K} (hw : w.Sound) (hfull : ∀ (S : List P) (k : ℕ), ∀ row ∈ w.knn S k, row.length = min k (S.length - 1))
    (start goal : P) (dim : ℕ) (δ : WithTop K) (seed : ℤ) (times : ℕ → WithTop K × WithTop K) {maxK L d m : ℕ}
    (hround : 4 ^ L ≤ 2 * maxK ^ 2) (hL : 3 ≤ L) {s : Knn P K} (h : KnnAt w maxK d s m) (i n : ℕ) (hn : m < n) (hn2 : 2 ≤ n) :
    ∃ s' row, (knnDriver w start goal L).round ⟨.knn, dim, δ, seed, maxK, fun k => ((k : K) : WithTop K), times⟩ i n s = (s', .ok row) ∧
      KnnAt w maxK d s' n ∧ KnnRow w (w.fresh (d + 1) n) start goal maxK L n row := by
  have hmax : 1 ≤ maxK := by
    have := half_le hround 0 (by omega)
    simpa using this
  obtain ⟨s1, r, hg, hr, hnow⟩ := knn_grow hw hfull start goal L hmax h n hn hn2
  have hlen : (nnKs L).length = L - 1 := by simp [nnKs]
  have hget : ∀ (j c : ℕ), (nnKs L)[j]? = some c → j + 2 ≤ L ∧ c = 2 ^ (j + 2) := by
    intro j c hc
    rw [C47_neighbor_counts] at hc
    split at hc
    · rename_i hj
      cases hc
      exact ⟨hj, rfl⟩
    · cases hc
  have hne : (nnKs L).map (fun k : ℕ => ((k : K) : WithTop K)) ≠ [] := by
    intro hc
    rw [List.map_eq_nil_iff] at hc
    rw [hc] at hlen
    simp at hlen
    omega
  obtain ⟨s', f, hl, hI, hf⟩ := bisect_loop (knnDriver w start goal L) .knn (nnKs L) (by omega) maxK
    (KnnNow w maxK d n r) (TestedK w (w.fresh (d + 1) n) maxK start goal) (by
      intro x hx c hc
      apply knn_test hw start goal L hr hx c
      rcases hc with rfl | ⟨j, _, hj, hc⟩
      · exact le_refl _
      · obtain ⟨_, rfl⟩ := hget j c hc
        exact half_le hround _ (by omega)) s1 hnow
  unfold Driver.round
  rw [hg]
  simp only
  rw [if_neg (by simp), hl]
  simp only
  rcases hf with ⟨h3, h4, h5, h6⟩ | ⟨k, lo, hi, p, h3, h4, h5, h6, h7, h8, h9, h10, h11⟩
  · obtain ⟨row, hrow, c1, c2, c3, c4⟩ := row_cells .knn dim δ seed n
      ⟨(nnKs L).map fun k : ℕ => ((k : K) : WithTop K), fun _ => none, (times i).1, (times i).2⟩ f
      (.num (((2 ^ L : ℕ) : K) : WithTop K)) .nan hne
      (by rw [h3, hlen, show ((L - 1 : ℕ) : ℤ) - 1 = ((L - 2 : ℕ) : ℤ) by omega]; exact connAt_pow L L (by omega) (le_refl _))
      (by rw [h4]; rfl)
    rw [h5] at c4
    rw [hrow]
    exact ⟨s', row, rfl, hI.at, c1, fun _ => ⟨c2, c3, c4⟩, fun h => absurd h h6⟩
  · obtain ⟨e1, rfl⟩ := hget k lo h5
    obtain ⟨e2, rfl⟩ := hget (k + 1) hi h6
    obtain ⟨row, hrow, c1, c2, c3, c4⟩ := row_cells .knn dim δ seed n
      ⟨(nnKs L).map fun k : ℕ => ((k : K) : WithTop K), fun _ => none, (times i).1, (times i).2⟩ f
      (.num (((2 ^ (k + 2) : ℕ) : K) : WithTop K)) (.num (((2 ^ (k + 2 + 1) : ℕ) : K) : WithTop K)) hne
      (by rw [h3]; exact connAt_pow L (k + 2) (by omega) e1)
      (by rw [h4, show (k : ℤ) + 1 = ((k + 2 + 1 - 2 : ℕ) : ℤ) by push_cast; omega]; exact connAt_pow L (k + 2 + 1) (by omega) (by omega))
    rw [h8] at c4
    rw [hrow]
    have hsol : w.KnnSolvable (w.fresh (d + 1) n) maxK start goal maxK := by
      rcases Nat.lt_or_ge (k + 2) (nnKs L).length with h | h
      · exact knnSolvable_mono (half_le hround _ (by omega)) (testedK_some (h10 h))
      · exact testedK_some (h11 (by omega))
    refine ⟨s', row, rfl, hI.at, c1, fun h => absurd hsol h, fun _ => ⟨k + 2, by omega, by omega, c2, c3, ?_, ?_, ?_⟩⟩
    · intro hs
      rcases h7 with rfl | h7
      · rfl
      · exact absurd hs h7
    · intro hlt
      exact testedK_some (h10 (by omega))
    · by_cases hlt : k + 2 + 1 < L
      · obtain ⟨x, hx, hx'⟩ := h10 (by omega)
        simp only [hx] at c4
        rw [if_pos hlt]
        exact ⟨x, c4, hx'⟩
      · obtain ⟨x, hx, hx'⟩ := h11 (by omega)
        simp only [hx] at c4
        rw [if_neg hlt]
        exact ⟨x, c4, hx'⟩

theorem rows_knn {w : World P K} (hw : w.Sound) (hfull : ∀ (S : List P) (k : ℕ), ∀ row ∈ w.knn S k, row.length = min k (S.length - 1))
    (start goal : P) (dim : ℕ) (δ : WithTop K) (seed : ℤ) (times : ℕ → WithTop K × WithTop K) {maxK L : ℕ}
    (hround : 4 ^ L ≤ 2 * maxK ^ 2) (hL : 3 ≤ L) (d : ℕ) (sched : List ℕ) : ∀ (i m : ℕ) (s : Knn P K), KnnAt w maxK d s m →
    (∀ x, sched.head? = some x → m < x ∧ 2 ≤ x) → sched.IsChain (· < ·) →
    ∃ rows, (knnDriver w start goal L).rows ⟨.knn, dim, δ, seed, maxK, fun k => ((k : K) : WithTop K), times⟩ i sched s = .ok rows ∧
      List.Forall₂ (fun n row => KnnRow w (w.fresh (d + 1) n) start goal maxK L n row) sched rows := by
  induction sched with
  | nil => intro i m s _ _ _; exact ⟨[], rfl, List.Forall₂.nil⟩
  | cons n ns ih =>
    intro i m s h hm hc
    obtain ⟨s', row, hr, hat, hrow⟩ := knn_round hw hfull start goal dim δ seed times hround hL h i n (hm n rfl).1 (hm n rfl).2
    rw [List.isChain_cons] at hc
    have hn2 := (hm n rfl).2
    obtain ⟨rows, hrs, hall⟩ := ih (i + 1) n s' hat (fun x hx => ⟨hc.1 x hx, by have := hc.1 x hx; omega⟩) hc.2
    refine ⟨row :: rows, ?_, List.Forall₂.cons hrow hall⟩
    unfold Driver.rows
    rw [hr]
    simp only [hrs]

/-- C108 for the k-NN roadmap, what the rows say (`KnnRow` in the specification), for at least 6 neighbours (`L`, the rounded logarithm,
at least 3), strictly ascending sample sizes from 2 on, and full neighbour lists: one row for each sample size, in order. Missing: the
bound 4 may be recorded as failing although it solves the problem, the last power of two is never tested, and more samples can destroy a
solution, see `C108_knn_false`. -/
theorem C108_knn_rows_partial {w : World P K} (hw : w.Sound)
    (hfull : ∀ (S : List P) (k : ℕ), ∀ row ∈ w.knn S k, row.length = min k (S.length - 1)) (start goal : P) (dim : ℕ) (δ : K) (seed : ℤ)
    (times : ℕ → WithTop K × WithTop K) {maxK L : ℕ} (hround : 4 ^ L ≤ 2 * maxK ^ 2) (hL : 3 ≤ L) (d : ℕ) (sched : List ℕ)
    (hfirst : ∀ x, sched.head? = some x → 2 ≤ x) (hsched : sched.IsChain (· < ·)) :
    ∃ rows, knnTrial w start goal dim δ seed maxK L times sched d = dataFrame narrowColumns rows ∧
      List.Forall₂ (fun n row => KnnRow w (w.fresh (d + 1) n) start goal maxK L n row) sched rows := by
  obtain ⟨rows, h1, h2⟩ := rows_knn hw hfull start goal dim δ seed times hround hL d sched 0 0 (Knn.init maxK false d)
    ⟨rfl, rfl, rfl, Or.inr ⟨rfl, rfl⟩⟩ (fun x hx => ⟨by have := hfirst x hx; omega, hfirst x hx⟩) hsched
  refine ⟨rows, ?_, h2⟩
  unfold knnTrial Driver.trial
  rw [h1]

/-- The world of `C108_knn_false` meets the assumptions. -/
theorem C108_knn_nonvacuous : pocketWorld.Sound ∧ (∀ (S : List ℚ) (k : ℕ), ∀ row ∈ pocketWorld.knn S k, row.length = min k (S.length - 1)) ∧
    4 ^ 3 ≤ 2 * 6 ^ 2 ∧ [2, 8].IsChain (· < ·) := by
  refine ⟨lineWorld_sound _ _, ?_, by norm_num, by simp⟩
  intro S k row hrow
  obtain ⟨i, hi⟩ := List.mem_iff_getElem?.1 hrow
  exact (lineWorld_table _ _ S k).full i row hi

end Verif.Props
