import Verif.Lemmas.PrmKnn
import Verif.Lemmas.PrmExample
import Verif.Model.NkArrays

/-! The k-NN PRM: C25, C27-C30, C33-C35, C37, C40 for `SimpleNearestNeighborRadiusPRM`. -/

namespace Verif.Props

open Verif.Prm

set_option linter.unusedSectionVars false

variable {P K : Type*} [LinearOrder K] [AddCommGroup K]

theorem knn_state {w : World P K} (hw : w.Sound) (k : ℕ) (tr : Bool) (d : ℕ) (ops : List (Knn.Op P K)) :
    ((Knn.init k tr d).run w ops).Inv w := Knn.run_inv hw (Knn.init_inv w k tr d) ops

/-- C25 for the k-NN PRM: after any history every edge joins two samples, has their distance as weight and was accepted. -/
theorem C25_knn {w : World P K} (hw : w.Sound) (k : ℕ) (tr : Bool) (d : ℕ) (ops : List (Knn.Op P K)) {S : List P} {g : NkGraph K}
    (hS : ((Knn.init k tr d).run w ops).samples = some S) (hg : ((Knn.init k tr d).run w ops).graph = some g) : w.Checked S g :=
  ((knn_state hw k tr d ops).checked hw hS hg).1

/-- A history that only changes the radius and asks queries. -/
def RadiusChanges (ops : List (Knn.Op P K)) : Prop := ∀ o ∈ ops, (∃ r, o = .setRadius r) ∨ ∃ a b, o = .query a b

theorem knn_cut_run {w : World P K} (hw : w.Sound) (hv : w.VisitsAll) {S : List P} {t : Table K} {x : K} (ht : w.TrueTable S t)
    {ops : List (Knn.Op P K)} (hops : RadiusChanges ops) {s : Knn P K} (h : s.Cut w S t x) : (s.run w ops).Cut w S t x := by
  induction ops generalizing s with
  | nil => exact h
  | cons o ops ih =>
    have hrest : RadiusChanges ops := fun o ho => hops o (List.mem_cons_of_mem _ ho)
    rcases hops o (by simp) with ⟨r, rfl⟩ | ⟨a, b, rfl⟩
    · exact ih hrest (Knn.cut_setRadius hv ht h r).1
    · exact ih hrest (Knn.cut_query hw ht h a b).1

theorem certify_le {t : Table K} {x : K} (h : Knn.certify t = .ok x) {row : List (ℕ × K)} (hrow : row ∈ t) :
    ∃ c ∈ row, x ≤ c.2 := by
  unfold Knn.certify at h
  cases hm : t.mapM (fun row => row.getLast?) with
  | none => rw [hm] at h; cases h
  | some l =>
    rw [hm] at h
    have hmem : ∃ c ∈ l, c ∈ row := by
      clear h
      induction t generalizing l with
      | nil => simp at hrow
      | cons a t ih =>
        rw [List.mapM_cons] at hm
        cases ha : a.getLast? with
        | none => rw [ha] at hm; cases hm
        | some c =>
          rw [ha] at hm
          cases hm' : t.mapM (fun row => row.getLast?) with
          | none => rw [hm'] at hm; cases hm
          | some l' =>
            rw [hm'] at hm
            have hl : l = c :: l' := (Option.some.inj hm).symm
            subst hl
            rw [List.mem_cons] at hrow
            rcases hrow with rfl | hrow
            · exact ⟨c, by simp, List.mem_of_getLast? ha⟩
            · obtain ⟨c', h1, h2⟩ := ih hrow l' hm'
              exact ⟨c', List.mem_cons_of_mem _ h1, h2⟩
    obtain ⟨c, hc, hcr⟩ := hmem
    refine ⟨c, hcr, ?_⟩
    have hfold : ∀ (l : List (ℕ × K)) (m : K), l.foldl (fun m d => min m d.2) m ≤ m ∧
        ∀ c ∈ l, l.foldl (fun m d => min m d.2) m ≤ c.2 := by
      intro l
      induction l with
      | nil => intro m; simp
      | cons a l ih =>
        intro m
        obtain ⟨h1, h2⟩ := ih (min m a.2)
        refine ⟨h1.trans (min_le_left _ _), ?_⟩
        intro c hc
        rw [List.mem_cons] at hc
        rcases hc with rfl | hc
        · exact h1.trans (min_le_right _ _)
        · exact h2 c hc
    cases l with
    | nil => simp at hc
    | cons a l =>
      simp only [Except.ok.injEq] at h
      subst h
      rw [List.mem_cons] at hc
      rcases hc with rfl | hc
      · exact (hfold l _).1
      · exact (hfold l _).2 c hc

/-- C27 (exact nearest neighbours, and the edge generator does not skip edges): after any history, a successful growth and any
sequence of radius changes and queries ending with `set_connection_radius(r)`, for `r` at most the certified radius, there is an
edge between two samples exactly when their distance is below `r` and the motion is accepted. -/
theorem C27_radius_graph_partial {w : World P K} (hw : w.Sound) (hv : w.VisitsAll) (hx : w.ExactKnn) (k : ℕ) (tr : Bool) (d₀ : ℕ)
    (ops : List (Knn.Op P K)) (n : ℕ) (hok : (((Knn.init k tr d₀).run w ops).grow w n).2 = .ok ()) (rs : List (Knn.Op P K))
    (hrs : RadiusChanges rs) (r : K) :
    ∃ S g x, ((Knn.init k tr d₀).run w (ops ++ .grow n :: rs ++ [.setRadius r])).samples = some S ∧ S.length = n ∧
      ((Knn.init k tr d₀).run w (ops ++ .grow n :: rs ++ [.setRadius r])).graph = some g ∧
      ((Knn.init k tr d₀).run w (ops ++ .grow n :: rs ++ [.setRadius r])).certified = some x ∧
      (r ≤ x → ∀ i j, i ≠ j →
        (g.Adj i j ↔ ∃ p q, S[i]? = some p ∧ S[j]? = some q ∧ w.dist p q < r ∧ w.Accepted p q)) := by
  have hrun : (Knn.init k tr d₀).run w (ops ++ .grow n :: rs ++ [.setRadius r]) =
      (((((Knn.init k tr d₀).run w ops).grow w n).1.run w rs).setRadius w r).1 := by
    simp [Knn.run, Knn.step]
  rw [hrun]
  obtain ⟨S, k', x, hc, hn, hcut, _⟩ := Knn.grow_cut hw hv hok
  have ht := hw.knn_true S k'
  obtain ⟨⟨h1, _, _, h4, g, h5, _, h7⟩, h8⟩ := Knn.cut_setRadius hv ht (knn_cut_run hw hv ht hrs hcut) r
  rw [h8] at h7
  refine ⟨S, g, x, h1, hn, h5, h4, ?_⟩
  intro hr i j hij
  constructor
  · rintro ⟨e, he, hj⟩
    rw [h7, List.mem_filter] at he
    obtain ⟨he, hlt⟩ := he
    have hlt : e.w < r := by simpa using hlt
    obtain ⟨p, q, hp, hq, hd, ha⟩ := tabGraph_checked hw ht i j e.w ⟨e, he, hj, rfl⟩
    exact ⟨p, q, hp, hq, by rw [← hd]; exact hlt, ha⟩
  · rintro ⟨p, q, hp, hq, hlt, ha⟩
    have hlist : ∀ i j p q, S[i]? = some p → S[j]? = some q → i ≠ j → w.dist p q < r →
        ∃ row : List (ℕ × K), (w.knn S k')[i]? = some row ∧ ∃ d, (j, d) ∈ row := by
      intro i j p q hp hq hij hlt
      have hi := lt_of_some hp
      have hi' : i < (w.knn S k').length := by rw [ht.1]; exact hi
      have hrow : (w.knn S k')[i]? = some ((w.knn S k')[i]) := List.getElem?_eq_getElem hi'
      refine ⟨_, hrow, ?_⟩
      by_contra hno
      push Not at hno
      obtain ⟨c, hcm, hcx⟩ := certify_le hc (List.getElem_mem hi')
      have := hx S k' i j _ p q hrow hp hq (Ne.symm hij) hno c hcm
      exact absurd (lt_of_lt_of_le hlt (hr.trans (hcx.trans this))) (lt_irrefl _)
    have hadj : (tabGraph w S (w.knn S k')).Adj i j := by
      rw [tabGraph_adj]
      rcases ha with ha | ha
      · exact Or.inl ⟨(accepts_iff ..).2 ⟨p, q, hp, hq, ha⟩, hlist i j p q hp hq hij hlt⟩
      · exact Or.inr ⟨(accepts_iff ..).2 ⟨q, p, hq, hp, ha⟩,
          hlist j i q p hq hp (Ne.symm hij) (by rw [hw.dist_symm]; exact hlt)⟩
    obtain ⟨e, he, hj⟩ := hadj
    obtain ⟨p', q', hp', hq', hd, _⟩ := tabGraph_checked hw ht i j e.w ⟨e, he, hj, rfl⟩
    rw [hp] at hp'; cases hp'
    rw [hq] at hq'; cases hq'
    refine ⟨e, ?_, hj⟩
    rw [h7, List.mem_filter]
    exact ⟨he, by rw [hd]; simpa using hlt⟩

theorem setRadius_truncate (w : World P K) (r : K) (s : Knn P K) : (s.setRadius w r).1.truncate = s.truncate := by
  unfold Knn.setRadius
  dsimp only
  generalize (if Knn.mustReload s.connR r = true then s.cache else s.graph) = start
  repeat' split
  all_goals rfl

theorem rebuild_truncate (w : World P K) (s : Knn P K) (S : List P) : (s.rebuild w S).1.truncate = s.truncate := by
  unfold Knn.rebuild
  dsimp only
  split
  · rfl
  · split
    · rfl
    · split
      · rw [setRadius_truncate]
      · rfl

theorem step_truncate (w : World P K) (s : Knn P K) (o : Knn.Op P K) : (s.step w o).truncate = s.truncate := by
  cases o with
  | grow n =>
    show (s.grow w n).1.truncate = _
    unfold Knn.grow
    dsimp only
    split
    · rw [rebuild_truncate]
    · split
      · rfl
      · rw [rebuild_truncate]
  | setRadius r => exact setRadius_truncate w r s
  | setNeighbors k =>
    show (s.setNeighbors k).1.truncate = _
    unfold Knn.setNeighbors
    dsimp only
    have h : (if s.k < k then { s with graph := s.cache } else s).truncate = s.truncate := by split <;> rfl
    generalize (if s.k < k then { s with graph := s.cache } else s) = s1 at h ⊢
    repeat' split
    all_goals first | rfl | exact h
  | query a b =>
    show (s.query w a b).1.truncate = _
    unfold Knn.query
    split <;> rfl
  | reset => rfl

theorem run_truncate (w : World P K) (s : Knn P K) (ops : List (Knn.Op P K)) : (s.run w ops).truncate = s.truncate := by
  induction ops generalizing s with
  | nil => rfl
  | cons o ops ih => exact (ih (s.step w o)).trans (step_truncate w s o)

/-- C27: right after a successful growth of a truncating PRM the current radius is the certified one, so the previous theorem with
`rs = []` and `r` the certified radius describes it: setting that radius again changes nothing. -/
theorem C27_truncated {w : World P K} (hw : w.Sound) (hv : w.VisitsAll) (k : ℕ) (d₀ : ℕ) (ops : List (Knn.Op P K)) (n : ℕ)
    (hok : (((Knn.init k true d₀).run w ops).grow w n).2 = .ok ()) :
    ∃ x g g', ((Knn.init k true d₀).run w (ops ++ [.grow n])).certified = some x ∧
      ((Knn.init k true d₀).run w (ops ++ [.grow n])).connR = some x ∧
      ((Knn.init k true d₀).run w (ops ++ [.grow n])).graph = some g ∧
      ((Knn.init k true d₀).run w (ops ++ [.grow n, .setRadius x])).graph = some g' ∧ g'.edges = g.edges ∧
      ∀ e ∈ g.edges, e.w < x := by
  have hrun : (Knn.init k true d₀).run w (ops ++ [.grow n]) = (((Knn.init k true d₀).run w ops).grow w n).1 := by
    simp [Knn.run, Knn.step]
  have hrun' : ∀ x, (Knn.init k true d₀).run w (ops ++ [.grow n, .setRadius x]) =
      ((((Knn.init k true d₀).run w ops).grow w n).1.setRadius w x).1 := by
    simp [Knn.run, Knn.step]
  obtain ⟨S, k', x, hc, hn, hcut, hr⟩ := Knn.grow_cut hw hv hok
  have ht := hw.knn_true S k'
  rw [run_truncate, if_pos (show (Knn.init k true d₀ : Knn P K).truncate = true from rfl)] at hr
  obtain ⟨⟨_, _, _, _, g', h5', _, h7'⟩, h8'⟩ := Knn.cut_setRadius hv ht hcut x
  obtain ⟨h1, _, _, h4, g, h5, _, h7⟩ := hcut
  rw [hr] at h7
  rw [h8'] at h7'
  rw [hrun]
  refine ⟨x, g, g', h4, hr, h5, by rw [hrun']; exact h5', by rw [h7, h7'], ?_⟩
  intro e he
  rw [h7, List.mem_filter] at he
  simpa using he.2

/-- The hypotheses of C27 and C35 are met on the line with three samples, for a radius below the certified one, and the roadmap is
neither empty nor complete. -/
theorem C27_nonvacuous : ∃ w : World ℚ ℚ, w.Sound ∧ w.VisitsAll ∧ w.ExactKnn ∧ ((Knn.init 2 true 0).grow w 3).2 = .ok () ∧
    ((Knn.init 2 true 0).grow w 3).1.certified = some 2 ∧
    ((Knn.init 2 true 0).run w [.grow 3, .setRadius 2]).graph.map NkGraph.edges = some [⟨0, 1, 1⟩] :=
  ⟨lineWorld (fun p q => decide (p ≠ q)) fun i => if i % 3 = 1 then 0 else if i % 3 = 2 then 1 else 3, lineWorld_sound _ _,
    lineWorld_visits _ _, lineWorld_exact _ _, by decide +kernel, by decide +kernel, by decide +kernel⟩

/-- Samples 0, 1, 10, 11; every motion is accepted; the edge generator works as we read networkit's source. -/
def arrayWorld : World ℚ ℚ :=
  { lineWorld (fun p q => decide (p ≠ q)) (fun i => if i = 1 then 0 else if i = 2 then 1 else if i = 3 then 10 else 11) with
    visits := arrayVisits }

/-- C27 needs its assumption on the generator: with removal by swapping in the last entry, the edge behind the removed one is
skipped. Here the certified and current radius is 10 but the edge of length 11 between samples 0 and 3 stays. -/
theorem C27_swap_removal_false : ((Knn.init 3 true 0).grow arrayWorld 4).2 = .ok () ∧
    ((Knn.init 3 true 0).grow arrayWorld 4).1.connR = some 10 ∧
    ((Knn.init 3 true 0).grow arrayWorld 4).1.certified = some 10 ∧
    (((Knn.init 3 true 0).grow arrayWorld 4).1.graph.map NkGraph.edges) = some [⟨0, 1, 1⟩, ⟨0, 3, 11⟩, ⟨1, 2, 9⟩, ⟨2, 3, 1⟩] := by
  decide +kernel

/-! ### Queries -/

/-- C28 and C29 for the k-NN PRM. In any reachable state with samples and a radius (the current one, else the certified one) a query
returns; a nonempty path is a chain of samples along roadmap edges whose hops were all accepted, with the distance as its length; the
path is empty exactly when there is no chain, and no chain is shorter. -/
theorem knn_query {w : World P K} (hw : w.Sound) {s : Knn P K} (h : s.Inv w) {S : List P} {r : K} (hS : s.samples = some S)
    (hr : s.connR.or s.certified = some r) (start goal : P) :
    ∃ g d pts, s.graph = some g ∧ (s.query w start goal).2 = .ok (d, pts) ∧
      ((∃ ids, w.Route S g r start goal ids pts ∧ d = (pathLength w.dist (start :: pts ++ [goal]) : K) ∧
          ∀ ids' pts', w.Route S g r start goal ids' pts' →
            pathLength w.dist (start :: pts ++ [goal]) ≤ pathLength w.dist (start :: pts' ++ [goal])) ∨
        (d = ⊤ ∧ pts = [] ∧ ∀ ids' pts', ¬ w.Route S g r start goal ids' pts')) := by
  have hg : ∃ g, s.graph = some g := by
    rcases h with ⟨h, _⟩ | ⟨_, g, _, _, _, h2, _⟩
    · rw [hS] at h; cases h
    · exact ⟨g, h2⟩
  obtain ⟨g, hg⟩ := hg
  obtain ⟨hck, hb⟩ := h.checked hw hS hg
  obtain ⟨d, pts, he, hsol⟩ := Knn.query_eq hw hS hg hr hck hb start goal
  exact ⟨g, d, pts, hg, by rw [he], hsol⟩

/-- The hops of a route were accepted. -/
theorem route_hops {w : World P K} (hw : w.Sound) {S : List P} {g : NkGraph K} (hck : w.Checked S g) {r : K} {start goal : P}
    {ids : List ℕ} {pts : List P} (h : w.Route S g r start goal ids pts) :
    (∀ p ∈ pts, p ∈ S) ∧ (start :: pts ++ [goal]).IsChain w.Accepted ∧
      (∀ p, pts.head? = some p → w.dist start p ≤ r) ∧ (∀ p, pts.getLast? = some p → w.dist p goal ≤ r) := by
  obtain ⟨hne, hf, h1, hl, hc⟩ := h
  cases hf with
  | nil => exact absurd rfl hne
  | @cons i p ids pts hi hf =>
    obtain ⟨p', hp', h2, h3⟩ := h1 i rfl
    rw [hi] at hp'; cases hp'
    have key : ∀ (ids : List ℕ) (pts : List P) (i : ℕ) (p : P), S[i]? = some p →
        List.Forall₂ (fun i p => S[i]? = some p) ids pts → (i :: ids).IsChain g.Adj →
        (∀ j, (i :: ids).getLast? = some j → w.Linked S r goal j) →
        (∀ q ∈ p :: pts, q ∈ S) ∧ (p :: pts ++ [goal]).IsChain w.Accepted ∧
          (∀ q, (p :: pts).getLast? = some q → w.dist q goal ≤ r) := by
      intro ids pts i p hi hf
      induction hf generalizing i p with
      | nil =>
        intro _ hl
        obtain ⟨p', hp', h2, h3⟩ := hl i rfl
        rw [hi] at hp'; cases hp'
        refine ⟨?_, ?_, ?_⟩
        · intro q hq
          rw [List.mem_singleton] at hq
          subst hq
          exact List.mem_of_getElem? hi
        · rw [List.cons_append, List.nil_append, List.isChain_cons_cons]
          exact ⟨Or.inr h3, List.isChain_singleton _⟩
        · intro q hq
          simp only [List.getLast?_singleton, Option.some.injEq] at hq
          subst hq
          exact h2
      | @cons j q ids pts hj hf ih =>
        intro hc hl
        rw [List.isChain_cons_cons] at hc
        obtain ⟨a1, a2, a3⟩ := ih j q hj hc.2 (by intro k hk; apply hl; rw [List.getLast?_cons_cons]; exact hk)
        refine ⟨?_, ?_, ?_⟩
        · intro x hx
          rw [List.mem_cons] at hx
          rcases hx with rfl | hx
          · exact List.mem_of_getElem? hi
          · exact a1 x hx
        · rw [List.cons_append, List.cons_append, List.isChain_cons_cons]
          refine ⟨?_, a2⟩
          obtain ⟨d, hd⟩ := Adj.exists_w hc.1
          obtain ⟨x, y, hx, hy, _, ha⟩ := hck i j d hd
          rw [hi] at hx; cases hx
          rw [hj] at hy; cases hy
          exact ha
        · intro x hx
          rw [List.getLast?_cons_cons] at hx
          exact a3 x hx
    obtain ⟨a1, a2, a3⟩ := key ids pts i p hi hf hc hl
    refine ⟨a1, ?_, ?_, a3⟩
    · rw [List.cons_append, List.cons_append, List.isChain_cons_cons]
      exact ⟨Or.inl h3, a2⟩
    · intro q hq
      simp only [List.head?_cons, Option.some.injEq] at hq
      subst hq
      rw [hw.dist_symm]; exact h2

/-- C28 for the k-NN PRM. -/
theorem C28_knn {w : World P K} (hw : w.Sound) (k : ℕ) (tr : Bool) (d₀ : ℕ) (ops : List (Knn.Op P K)) {S : List P} {r : K}
    (hS : ((Knn.init k tr d₀).run w ops).samples = some S)
    (hr : ((Knn.init k tr d₀).run w ops).connR.or ((Knn.init k tr d₀).run w ops).certified = some r) (start goal : P) :
    ∃ d pts, (((Knn.init k tr d₀).run w ops).query w start goal).2 = .ok (d, pts) ∧
      (pts ≠ [] → (∀ p ∈ pts, p ∈ S) ∧ (start :: pts ++ [goal]).IsChain w.Accepted ∧
        d = (pathLength w.dist (start :: pts ++ [goal]) : K)) := by
  have hinv := knn_state hw k tr d₀ ops
  obtain ⟨g, d, pts, hg, hq, hres⟩ := knn_query hw hinv hS hr start goal
  refine ⟨d, pts, hq, ?_⟩
  intro hne
  rcases hres with ⟨ids, h1, h2, _⟩ | ⟨_, h, _⟩
  · obtain ⟨h3, h4, _⟩ := route_hops hw (hinv.checked hw hS hg).1 h1
    exact ⟨h3, h4, h2⟩
  · exact absurd h hne

/-- C29 for the k-NN PRM. -/
theorem C29_knn {w : World P K} (hw : w.Sound) (k : ℕ) (tr : Bool) (d₀ : ℕ) (ops : List (Knn.Op P K)) {S : List P} {r : K}
    (hS : ((Knn.init k tr d₀).run w ops).samples = some S)
    (hr : ((Knn.init k tr d₀).run w ops).connR.or ((Knn.init k tr d₀).run w ops).certified = some r) (start goal : P) :
    ∃ g d pts, ((Knn.init k tr d₀).run w ops).graph = some g ∧
      (((Knn.init k tr d₀).run w ops).query w start goal).2 = .ok (d, pts) ∧
      (pts = [] ↔ ¬ ∃ ids pts', w.Route S g r start goal ids pts') ∧ (pts = [] ↔ d = ⊤) ∧
      ∀ ids pts', w.Route S g r start goal ids pts' → d ≤ (pathLength w.dist (start :: pts' ++ [goal]) : K) := by
  obtain ⟨g, d, pts, hg, hq, hres⟩ := knn_query hw (knn_state hw k tr d₀ ops) hS hr start goal
  refine ⟨g, d, pts, hg, hq, ?_⟩
  rcases hres with ⟨ids, h1, h2, h3⟩ | ⟨h1, h2, h3⟩
  · have hne : pts ≠ [] := by
      rintro rfl
      have := h1.points
      cases this
      exact h1.nonempty rfl
    refine ⟨iff_of_false hne (not_not_intro ⟨ids, pts, h1⟩), iff_of_false hne (by rw [h2]; exact WithTop.coe_ne_top), ?_⟩
    intro ids' pts' h'
    rw [h2]
    exact WithTop.coe_le_coe.2 (h3 ids' pts' h')
  · refine ⟨iff_of_true h2 (by rintro ⟨i, p, hp⟩; exact h3 i p hp), iff_of_true h2 h1, ?_⟩
    intro ids' pts' h'
    exact absurd h' (h3 ids' pts')

/-- C30 for the k-NN PRM: any number of queries leaves samples, vertices, edges, weights, counts and radii as they are, and the
distance of every query. -/
theorem C30_knn {w : World P K} (hw : w.Sound) (k : ℕ) (tr : Bool) (d₀ : ℕ) (ops qs : List (Knn.Op P K))
    (hqs : ∀ o ∈ qs, ∃ a b, o = .query a b) {S : List P} {g : NkGraph K} {r : K}
    (hS : ((Knn.init k tr d₀).run w ops).samples = some S) (hg : ((Knn.init k tr d₀).run w ops).graph = some g)
    (hr : ((Knn.init k tr d₀).run w ops).connR.or ((Knn.init k tr d₀).run w ops).certified = some r) :
    ∃ g', (Knn.init k tr d₀).run w (ops ++ qs) = { (Knn.init k tr d₀).run w ops with graph := some g' } ∧ g'.Same g ∧
      g'.numberOfNodes = g.numberOfNodes ∧ g'.numberOfEdges = g.numberOfEdges ∧
      ∀ start goal, ∃ d pts pts', (((Knn.init k tr d₀).run w ops).query w start goal).2 = .ok (d, pts) ∧
        (((Knn.init k tr d₀).run w (ops ++ qs)).query w start goal).2 = .ok (d, pts') ∧ (pts = [] ↔ pts' = []) := by
  have hrun : (Knn.init k tr d₀).run w (ops ++ qs) = ((Knn.init k tr d₀).run w ops).run w qs := by
    simp [Knn.run]
  rw [hrun]
  have hinv := knn_state hw k tr d₀ ops
  generalize (Knn.init k tr d₀).run w ops = s at *
  have hkeep : ∃ g', s.run w qs = { s with graph := some g' } ∧ g'.Same g := by
    clear hrun
    induction qs generalizing s g with
    | nil => exact ⟨g, by rw [← hg]; rfl, fun _ => rfl, rfl⟩
    | cons o qs ih =>
      obtain ⟨a, b, rfl⟩ := hqs o (by simp)
      obtain ⟨hck, hb⟩ := hinv.checked hw hS hg
      obtain ⟨d, pts, he, _⟩ := Knn.query_eq hw hS hg hr hck hb a b
      have hstep : s.step w (.query a b) =
          { s with graph := some (afterQuery g (w.querySamples S r a) (w.querySamples S r b)) } := by
        show (s.query w a b).1 = _
        rw [he]
      have hinv' : (s.step w (.query a b)).Inv w := Knn.query_inv hw hinv a b
      rw [hstep] at hinv'
      obtain ⟨g', h1, h2⟩ := ih (fun o ho => hqs o (List.mem_cons_of_mem _ ho))
        (s := { s with graph := some (afterQuery g (w.querySamples S r a) (w.querySamples S r b)) }) hS rfl hr hinv'
      refine ⟨g', ?_, ?_⟩
      · show (s.step w (.query a b)).run w qs = _
        rw [hstep, h1]
      · exact ⟨fun v => (h2.1 v).trans (afterQuery_hasNode ..), h2.2.trans (afterQuery_edges (Checked.inBound hck hb) _ _)⟩
  obtain ⟨g', hs', hsame⟩ := hkeep
  have hinv' := Knn.run_inv hw hinv qs
  refine ⟨g', hs', hsame, numberOfNodes_congr hsame.1, by unfold NkGraph.numberOfEdges; rw [hsame.2], ?_⟩
  intro start goal
  rw [hs'] at hinv' ⊢
  obtain ⟨g₁, d, pts, hg₁, hq, hres⟩ := knn_query hw hinv hS hr start goal
  rw [hg] at hg₁; cases hg₁
  obtain ⟨g₂, d', pts', hg₂, hq', hres'⟩ := knn_query hw hinv' (s := { s with graph := some g' }) hS hr start goal
  cases hg₂
  have hroute : ∀ ids pts, w.Route S g' r start goal ids pts ↔ w.Route S g r start goal ids pts := by
    intro ids pts
    have hadj : g'.Adj = g.Adj := by
      funext i j
      exact propext (Adj.congr hsame.2 i j)
    constructor
    · rintro ⟨a1, a2, a3, a4, a5⟩; exact ⟨a1, a2, a3, a4, hadj ▸ a5⟩
    · rintro ⟨a1, a2, a3, a4, a5⟩; exact ⟨a1, a2, a3, a4, hadj ▸ a5⟩
  have hne : ∀ ids pts, w.Route S g r start goal ids pts → pts ≠ [] := by
    rintro ids pts h rfl
    have := h.points
    cases this
    exact h.nonempty rfl
  simp only [hroute] at hres'
  have hdd : d = d' ∧ (pts = [] ↔ pts' = []) := by
    rcases hres with ⟨ids, a1, a2, a3⟩ | ⟨a1, a2, a3⟩
    · rcases hres' with ⟨ids', b1, b2, b3⟩ | ⟨b1, b2, b3⟩
      · refine ⟨?_, iff_of_false (hne _ _ a1) (hne _ _ b1)⟩
        rw [a2, b2]
        exact congrArg _ (le_antisymm (a3 _ _ b1) (b3 _ _ a1))
      · exact absurd a1 (b3 _ _)
    · rcases hres' with ⟨ids', b1, b2, b3⟩ | ⟨b1, b2, b3⟩
      · exact absurd b1 (a3 _ _)
      · exact ⟨a1.trans b1.symm, iff_of_true a2 b2⟩
  exact ⟨d, pts, pts', hq, by rw [hq', hdd.1], hdd.2⟩

/-- The hypotheses of C28-C30 are met and the path is not empty. -/
theorem C28_knn_nonvacuous : ∃ w : World ℚ ℚ, w.Sound ∧
    ((Knn.init 2 true 0).run w [.grow 4, .setRadius (5 / 4)]).samples = some [1, 2, 3, 4] ∧
    ((Knn.init 2 true 0).run w [.grow 4, .setRadius (5 / 4)]).connR = some (5 / 4) ∧
    (((Knn.init 2 true 0).run w [.grow 4, .setRadius (5 / 4)]).query w (1 / 2) (9 / 2)).2 = .ok ((4 : ℚ), [1, 2, 3, 4]) :=
  ⟨lineWorld (fun _ _ => true) fun i => i, lineWorld_sound _ _, by decide +kernel, by decide +kernel, by decide +kernel⟩

/-! ### Refused growth, neighbour count, radius history, vertex count, reset -/

/-- Samples 1, 2, 3, ...; every motion is accepted. -/
def openWorld : World ℚ ℚ := lineWorld (fun _ _ => true) fun i => i

/-- C33 for the k-NN PRM, the part that holds: a refused growth changes nothing but the current radius. -/
theorem C33_knn_partial (w : World P K) (s : Knn P K) {S : List P} (hS : s.samples = some S) (n : ℕ) (hn : n ≤ S.length) :
    s.grow w n = ({ s with connR := none }, .error .arithmetic) := by
  unfold Knn.grow
  simp [hS, hn]

/-- C33 fails for the k-NN PRM: a refused growth clears the radius, so that a query without solution before it has one after it. -/
theorem C33_knn_false :
    (((Knn.init 2 true 0).run openWorld [.grow 3, .setRadius (1 / 2)]).grow openWorld 3).2 = .error .arithmetic ∧
    (((Knn.init 2 true 0).run openWorld [.grow 3, .setRadius (1 / 2)]).query openWorld (1 / 4) (7 / 4)).2 = .ok (⊤, []) ∧
    (((Knn.init 2 true 0).run openWorld [.grow 3, .setRadius (1 / 2), .grow 3]).query openWorld (1 / 4) (7 / 4)).2 =
      .ok ((3 / 2 : ℚ), [1]) := by
  decide +kernel

/-- C34: more neighbours than at construction are refused, and nothing changes. -/
theorem C34_refused (s : Knn P K) (k : ℕ) (hk : s.maxK < k) : s.setNeighbors k = (s, .error .arithmetic) := by
  unfold Knn.setNeighbors
  rw [if_pos hk]

theorem mem_tails (t : Table K) (k i j : ℕ) :
    (i, j) ∈ Knn.tails t k ↔ ∃ row : List (ℕ × K), t[i]? = some row ∧ ∃ d, (j, d) ∈ row.drop k := by
  unfold Knn.tails
  simp only [List.mem_flatMap, List.mem_map, Prod.exists, Prod.mk.injEq]
  constructor
  · rintro ⟨row, i', hm, j', d, hd, rfl, rfl⟩
    exact ⟨row, (mem_zipIdx' _ _ _).1 hm, d, hd⟩
  · rintro ⟨row, hrow, d, hd⟩
    exact ⟨row, i, (mem_zipIdx' _ _ _).2 hrow, j, d, hd, rfl, rfl⟩

theorem throwAway_adj {g : NkGraph K} (hs : Simple g) (ps : List (ℕ × ℕ)) (i j : ℕ) :
    (Knn.throwAway ps g).Adj i j ↔ g.Adj i j ∧ (i, j) ∉ ps ∧ (j, i) ∉ ps := by
  rw [throwAway_eq]
  unfold NkGraph.Adj
  rw [removeAll_edges _ hs]
  simp only [List.mem_filter, List.all_eq_true, Bool.not_eq_true', Bool.eq_false_iff]
  constructor
  · rintro ⟨e, ⟨he, hp⟩, hj⟩
    refine ⟨⟨e, he, hj⟩, ?_, ?_⟩
    · intro h
      exact hp _ h ((joins_iff _ _ _).2 hj)
    · intro h
      exact hp _ h ((joins_iff _ _ _).2 hj.symm)
  · rintro ⟨⟨e, he, hj⟩, h1, h2⟩
    refine ⟨e, ⟨he, ?_⟩, hj⟩
    rintro ⟨a, b⟩ hp hab
    rw [joins_iff] at hab
    simp only at hab
    rcases hj with ⟨rfl, rfl⟩ | ⟨rfl, rfl⟩ <;> rcases hab with ⟨rfl, rfl⟩ | ⟨rfl, rfl⟩
    · exact h1 hp
    · exact h2 hp
    · exact h2 hp
    · exact h1 hp

/-- C34, the part that holds: after a successful `set_nearest_neighbors(k)` the roadmap is a part of the one that building with the
first `k` neighbours of every row gives; on a fresh untruncated PRM it has exactly the edges of the full roadmap that are behind the
`k`-th place in the list of neither end. -/
theorem C34_neighbors_partial {w : World P K} (hw : w.Sound) (k₀ : ℕ) (tr : Bool) (d₀ : ℕ) (ops : List (Knn.Op P K)) (k : ℕ)
    {S : List P} (hS : ((Knn.init k₀ tr d₀).run w ops).samples = some S)
    (hok : (((Knn.init k₀ tr d₀).run w ops).setNeighbors k).2 = .ok ()) :
    ∃ t g', ((Knn.init k₀ tr d₀).run w ops).master = some t ∧
      ((Knn.init k₀ tr d₀).run w (ops ++ [.setNeighbors k])).graph = some g' ∧
      (∀ i j, g'.Adj i j → (tabGraph w S (t.map (List.take k))).Adj i j) ∧
      (((Knn.init k₀ tr d₀).run w ops).graph = some (tabGraph w S t) → ∀ i j, g'.Adj i j ↔
        (tabGraph w S t).Adj i j ∧ (∀ row : List (ℕ × K), t[i]? = some row → ∀ d, (j, d) ∉ row.drop k) ∧
          ∀ row : List (ℕ × K), t[j]? = some row → ∀ d, (i, d) ∉ row.drop k) := by
  have hrun : (Knn.init k₀ tr d₀).run w (ops ++ [.setNeighbors k]) = (((Knn.init k₀ tr d₀).run w ops).setNeighbors k).1 := by
    simp [Knn.run, Knn.step]
  rw [hrun]
  have hinv := knn_state hw k₀ tr d₀ ops
  generalize (Knn.init k₀ tr d₀).run w ops = s at *
  rcases hinv with ⟨h, _⟩ | ⟨S', g, t, k', h1, h2, h3, h4, h5, h6, h7, h8⟩
  · rw [hS] at h; cases h
  rw [hS] at h1; cases h1
  have hgoal : ∀ g₀ : NkGraph K, g₀.edges.Sublist (tabGraph w S t).edges → ∀ i j, (Knn.throwAway (Knn.tails t k) g₀).Adj i j ↔
      g₀.Adj i j ∧ (∀ row : List (ℕ × K), t[i]? = some row → ∀ d, (j, d) ∉ row.drop k) ∧
          ∀ row : List (ℕ × K), t[j]? = some row → ∀ d, (i, d) ∉ row.drop k := by
    intro g₀ hsub i j
    have hsimple : Simple g₀ := List.Pairwise.sublist hsub (tabGraph_simple w S t)
    rw [throwAway_adj hsimple, mem_tails, mem_tails]
    push Not
    rfl
  have hhead : ∀ g₀ : NkGraph K, g₀.edges.Sublist (tabGraph w S t).edges → ∀ i j, (Knn.throwAway (Knn.tails t k) g₀).Adj i j →
      (tabGraph w S (t.map (List.take k))).Adj i j := by
    intro g₀ hsub i j h
    obtain ⟨⟨e, he, hj⟩, hi', hj'⟩ := (hgoal g₀ hsub i j).1 h
    have hadj : (tabGraph w S t).Adj i j := ⟨e, hsub.subset he, hj⟩
    rw [tabGraph_adj] at hadj ⊢
    have hmove : ∀ i j : ℕ, (∀ row : List (ℕ × K), t[i]? = some row → ∀ d, (j, d) ∉ row.drop k) →
        (∃ row : List (ℕ × K), t[i]? = some row ∧ ∃ d, (j, d) ∈ row) →
        ∃ row : List (ℕ × K), (t.map (List.take k))[i]? = some row ∧ ∃ d, (j, d) ∈ row := by
      rintro i j hno ⟨row, hrow, d, hd⟩
      refine ⟨row.take k, by rw [List.getElem?_map, hrow]; rfl, d, ?_⟩
      rw [← List.take_append_drop k row, List.mem_append] at hd
      exact hd.resolve_right (hno row hrow d)
    rcases hadj with ⟨ha, hr⟩ | ⟨ha, hr⟩
    · exact Or.inl ⟨ha, hmove i j hi' hr⟩
    · exact Or.inr ⟨ha, hmove j i hj' hr⟩
  unfold Knn.setNeighbors at hok ⊢
  by_cases hmax : s.maxK < k
  · rw [if_pos hmax] at hok; cases hok
  rw [if_neg hmax]
  by_cases hk : s.k < k
  · simp only [hk, h3, h4, decide_true, Option.isNone_some, Bool.and_false, Bool.false_eq_true, if_true, if_false]
    refine ⟨t, _, rfl, rfl, hhead _ (List.Sublist.refl _), ?_⟩
    intro _ i j
    exact hgoal _ (List.Sublist.refl _) i j
  · simp only [hk, decide_false, Bool.false_and, Bool.false_eq_true, if_false, h4, h2]
    refine ⟨t, _, rfl, rfl, hhead g h6, ?_⟩
    intro hfull i j
    cases hfull
    exact hgoal _ (List.Sublist.refl _) i j

/-- Samples 0, 1, 3, repeated; every motion between different samples is accepted. -/
def gapWorld : World ℚ ℚ := lineWorld (fun p q => decide (p ≠ q)) fun i => if i % 3 = 1 then 0 else if i % 3 = 2 then 1 else 3

/-- C34 fails: with samples 0, 1, 3 built with two neighbours, `set_nearest_neighbors(1)` leaves the edge 0 - 1 only, whereas the
roadmap built with one neighbour also has the edge 1 - 3 (the nearest neighbour of 3 is 1). -/
theorem C34_neighbors_false :
    ((Knn.init 2 false 0).run gapWorld [.grow 3, .setNeighbors 1]).samples =
      ((Knn.init 1 false 0).run gapWorld [.grow 3]).samples ∧
    ((Knn.init 2 false 0).run gapWorld [.grow 3, .setNeighbors 1]).graph.map NkGraph.edges = some [⟨0, 1, 1⟩] ∧
    ((Knn.init 1 false 0).run gapWorld [.grow 3]).graph.map NkGraph.edges = some [⟨0, 1, 1⟩, ⟨2, 1, 2⟩] := by
  decide +kernel

/-- C34 on the samples 0, 1, 3: `set_nearest_neighbors(1)` succeeds on the fresh untruncated PRM with three edges, a count of 3 is
refused. -/
theorem C34_nonvacuous : gapWorld.Sound ∧ ((Knn.init 2 false 0).run gapWorld [.grow 3]).samples = some [0, 1, 3] ∧
    ((Knn.init 2 false 0).run gapWorld [.grow 3]).graph.map NkGraph.edges = some [⟨0, 1, 1⟩, ⟨0, 2, 3⟩, ⟨1, 2, 2⟩] ∧
    (((Knn.init 2 false 0).run gapWorld [.grow 3]).setNeighbors 1).2 = .ok () ∧
    (((Knn.init 2 false 0).run gapWorld [.grow 3]).setNeighbors 3).2 = .error .arithmetic :=
  ⟨lineWorld_sound _ _, by decide +kernel, by decide +kernel, by decide +kernel, by decide +kernel⟩

/-- C35 (the edge generator does not skip edges): after a successful growth, two sequences of radius changes and queries that end
with the same radius give the same edges. -/
theorem C35_history_independent_partial {w : World P K} (hw : w.Sound) (hv : w.VisitsAll) (k : ℕ) (tr : Bool) (d₀ : ℕ)
    (ops : List (Knn.Op P K)) (n : ℕ) (hok : (((Knn.init k tr d₀).run w ops).grow w n).2 = .ok ())
    (rs rs' : List (Knn.Op P K)) (hrs : RadiusChanges rs) (hrs' : RadiusChanges rs') (r : K) :
    ∃ g g', ((Knn.init k tr d₀).run w (ops ++ .grow n :: rs ++ [.setRadius r])).graph = some g ∧
      ((Knn.init k tr d₀).run w (ops ++ .grow n :: rs' ++ [.setRadius r])).graph = some g' ∧ g.edges = g'.edges := by
  have hrun : ∀ rs, (Knn.init k tr d₀).run w (ops ++ .grow n :: rs ++ [.setRadius r]) =
      (((((Knn.init k tr d₀).run w ops).grow w n).1.run w rs).setRadius w r).1 := by
    simp [Knn.run, Knn.step]
  rw [hrun, hrun]
  obtain ⟨S, k', x, hc, hn, hcut, _⟩ := Knn.grow_cut hw hv hok
  have ht := hw.knn_true S k'
  obtain ⟨⟨_, _, _, _, g, h5, _, h7⟩, h8⟩ := Knn.cut_setRadius hv ht (knn_cut_run hw hv ht hrs hcut) r
  obtain ⟨⟨_, _, _, _, g', h5', _, h7'⟩, h8'⟩ := Knn.cut_setRadius hv ht (knn_cut_run hw hv ht hrs' hcut) r
  rw [h8] at h7
  rw [h8'] at h7'
  exact ⟨g, g', h5, h5', h7.trans h7'.symm⟩

/-- C35 needs its assumption on the generator: with removal by swapping in the last entry, going through radius 20 before 10 leaves
the edge of length 11 between samples 0 and 3, setting 10 directly does not. -/
theorem C35_swap_removal_false :
    ((Knn.init 3 true 0).run arrayWorld [.grow 4, .setRadius 10]).graph.map NkGraph.edges =
      some [⟨0, 1, 1⟩, ⟨1, 2, 9⟩, ⟨2, 3, 1⟩] ∧
    ((Knn.init 3 true 0).run arrayWorld [.grow 4, .setRadius 20, .setRadius 10]).graph.map NkGraph.edges =
      some [⟨0, 1, 1⟩, ⟨0, 3, 11⟩, ⟨1, 2, 9⟩, ⟨2, 3, 1⟩] := by
  decide +kernel

/-- C35 needs the restriction to radius changes: after a refused growth the radius is forgotten and raising it does not bring the
edges back. -/
theorem C35_refused_growth_false :
    ((Knn.init 2 true 0).run gapWorld [.grow 3, .setRadius (1 / 2), .setRadius 2]).graph.map NkGraph.edges = some [⟨0, 1, 1⟩] ∧
    ((Knn.init 2 true 0).run gapWorld [.grow 3, .setRadius (1 / 2), .grow 3, .setRadius 2]).graph.map NkGraph.edges = some [] := by
  decide +kernel

/-- C37 for the k-NN PRM: after any history the number of vertices is the number of samples. -/
theorem C37_knn {w : World P K} (hw : w.Sound) (k : ℕ) (tr : Bool) (d₀ : ℕ) (ops : List (Knn.Op P K)) :
    numVertices ((Knn.init k tr d₀).run w ops).graph = ((((Knn.init k tr d₀).run w ops).samples).map List.length).getD 0 := by
  rcases knn_state hw k tr d₀ ops with ⟨h1, h2, _⟩ | ⟨S, g, t, k', h1, h2, _, _, _, _, h7, _⟩
  · rw [h1, h2]; rfl
  · rw [h1, h2]
    refine numberOfNodes_of_lt (n := S.length) ?_
    intro v
    rw [Bool.eq_iff_iff, h7]; simp

/-- C40 for the k-NN PRM, the part that holds: if the neighbour count is the one of construction, then growing after `reset()` gives
exactly what growing a newly constructed PRM gives. -/
theorem C40_knn_partial (w : World P K) (s : Knn P K) (hk : s.k = s.maxK) (hd : 0 < s.drawn) (n : ℕ) :
    s.reset.grow w n = (Knn.init s.maxK s.truncate (s.drawn - 1)).grow w n := by
  unfold Knn.grow Knn.reset Knn.init Knn.rebuild
  simp only [hk, Nat.sub_add_cancel hd]

theorem knn_setRadius_kept (w : World P K) (r : K) (s : Knn P K) :
    (s.setRadius w r).1.maxK = s.maxK ∧ (s.setRadius w r).1.k = s.k ∧ (s.setRadius w r).1.drawn = s.drawn := by
  unfold Knn.setRadius
  dsimp only
  generalize (if Knn.mustReload s.connR r = true then s.cache else s.graph) = start
  repeat' split
  all_goals exact ⟨rfl, rfl, rfl⟩

theorem knn_rebuild_kept (w : World P K) (s : Knn P K) (S : List P) :
    (s.rebuild w S).1.maxK = s.maxK ∧ (s.rebuild w S).1.k = s.k ∧ (s.rebuild w S).1.drawn = s.drawn := by
  unfold Knn.rebuild
  dsimp only
  split
  · exact ⟨rfl, rfl, rfl⟩
  · split
    · exact ⟨rfl, rfl, rfl⟩
    · split
      · exact knn_setRadius_kept w _ _
      · exact ⟨rfl, rfl, rfl⟩

/-- No call changes the largest neighbour count, gives draws back, or changes the neighbour count except `set_nearest_neighbors`. -/
theorem knn_step_kept (w : World P K) (s : Knn P K) (o : Knn.Op P K) :
    (s.step w o).maxK = s.maxK ∧ s.drawn ≤ (s.step w o).drawn ∧ ((∀ m, o ≠ .setNeighbors m) → (s.step w o).k = s.k) := by
  cases o with
  | grow n =>
    simp only [Knn.step, Knn.grow]
    split
    · have h := knn_rebuild_kept w { s with connR := none, drawn := s.drawn + n } (w.fresh s.drawn n)
      exact ⟨h.1, by rw [h.2.2]; simp, fun _ => h.2.1⟩
    · next old _ =>
      split
      · exact ⟨rfl, le_rfl, fun _ => rfl⟩
      · have h := knn_rebuild_kept w { s with connR := none, drawn := s.drawn + (n - old.length) } (old ++ w.fresh s.drawn (n - old.length))
        exact ⟨h.1, by rw [h.2.2]; simp, fun _ => h.2.1⟩
  | setRadius r =>
    have h := knn_setRadius_kept w r s
    exact ⟨h.1, h.2.2.ge, fun _ => h.2.1⟩
  | setNeighbors m =>
    have h : (s.setNeighbors m).1.maxK = s.maxK ∧ (s.setNeighbors m).1.drawn = s.drawn := by
      unfold Knn.setNeighbors
      dsimp only
      have h : (if s.k < m then { s with graph := s.cache } else s).maxK = s.maxK ∧
          (if s.k < m then { s with graph := s.cache } else s).drawn = s.drawn := by split <;> exact ⟨rfl, rfl⟩
      generalize (if s.k < m then { s with graph := s.cache } else s) = s1 at h ⊢
      repeat' split
      all_goals first | exact ⟨rfl, rfl⟩ | exact h
    exact ⟨h.1, h.2.ge, fun h => absurd rfl (h m)⟩
  | query a b =>
    simp only [Knn.step, Knn.query]
    repeat' split
    all_goals exact ⟨rfl, le_rfl, fun _ => rfl⟩
  | reset => exact ⟨rfl, le_rfl, fun _ => rfl⟩

theorem knn_run_kept (w : World P K) (ops : List (Knn.Op P K)) : ∀ s : Knn P K,
    (s.run w ops).maxK = s.maxK ∧ s.drawn ≤ (s.run w ops).drawn ∧ ((∀ m, Knn.Op.setNeighbors m ∉ ops) → (s.run w ops).k = s.k) := by
  induction ops with
  | nil => exact fun s => ⟨rfl, le_rfl, fun _ => rfl⟩
  | cons o ops ih =>
    intro s
    obtain ⟨h1, h2, h3⟩ := knn_step_kept w s o
    obtain ⟨i1, i2, i3⟩ := ih (s.step w o)
    refine ⟨i1.trans h1, h2.trans i2, fun h => (i3 fun m hm => h m (List.mem_cons_of_mem _ hm)).trans (h3 fun m hm => h m ?_)⟩
    rw [hm]; exact List.mem_cons_self

/-- C40 for the k-NN PRM, for all histories: whatever is called before `reset()` and after the growth that follows it, all later states
are those of a newly constructed PRM that draws from where the sampler stands, except that the neighbour count is the one before the
reset. That count is the one of construction if `set_nearest_neighbors` was never called; then nothing survives. -/
theorem C40_knn_histories (w : World P K) (k : ℕ) (tr : Bool) (d₀ : ℕ) (ops ops' : List (Knn.Op P K)) (n : ℕ) :
    (Knn.init k tr d₀).run w (ops ++ .reset :: .grow n :: ops') =
      ({ Knn.init k tr (((Knn.init k tr d₀).run w ops).drawn - 1) with k := ((Knn.init k tr d₀).run w ops).k } : Knn P K).run w
        (.grow n :: ops') ∧
    ((∀ m, Knn.Op.setNeighbors m ∉ ops) → (Knn.init k tr d₀).run w (ops ++ .reset :: .grow n :: ops') =
      (Knn.init k tr (((Knn.init k tr d₀).run w ops).drawn - 1)).run w (.grow n :: ops')) := by
  obtain ⟨h1, h2, h3⟩ := knn_run_kept w ops (Knn.init k tr d₀ : Knn P K)
  have ht := run_truncate w (Knn.init k tr d₀ : Knn P K) ops
  have hrun : (Knn.init k tr d₀).run w (ops ++ .reset :: .grow n :: ops') =
      (((Knn.init k tr d₀).run w ops).reset.grow w n).1.run w ops' := by
    simp only [Knn.run, List.foldl_append, List.foldl_cons, Knn.step]
  generalize hs : (Knn.init k tr d₀ : Knn P K).run w ops = s at *
  have hd : 0 < s.drawn := lt_of_lt_of_le (Nat.succ_pos d₀) h2
  have key : s.reset.grow w n = ({ Knn.init k tr (s.drawn - 1) with k := s.k } : Knn P K).grow w n := by
    have e1 : s.maxK = k := h1
    have e2 : s.truncate = tr := ht
    unfold Knn.grow Knn.reset Knn.init Knn.rebuild
    simp only [e1, e2, Nat.sub_add_cancel hd]
  refine ⟨?_, fun hno => ?_⟩
  · rw [hrun, key]; rfl
  · rw [hrun, key, h3 hno]; rfl

/-- C40 on a PRM that has been grown and queried: its neighbour count is the one of construction. -/
theorem C40_knn_nonvacuous : ((Knn.init 2 true 0).run gapWorld [.grow 3, .setRadius 1, .query 0 3]).k = 2 ∧
    ((Knn.init 2 true 0).run gapWorld [.grow 3, .setRadius 1, .query 0 3]).maxK = 2 ∧
    ((Knn.init 2 true 0).run gapWorld [.grow 3, .setRadius 1, .query 0 3]).drawn = 4 := by
  decide +kernel

/-- C40 fails for the k-NN PRM: the neighbour count set by `set_nearest_neighbors` survives `reset()`. -/
theorem C40_knn_false :
    ((Knn.init 2 false 0).run gapWorld [.grow 3, .setNeighbors 1, .reset, .grow 3]).samples =
      ((Knn.init 2 false 3).run gapWorld [.grow 3]).samples ∧
    numEdges ((Knn.init 2 false 0).run gapWorld [.grow 3, .setNeighbors 1, .reset, .grow 3]).graph = 2 ∧
    numEdges ((Knn.init 2 false 3).run gapWorld [.grow 3]).graph = 3 := by
  decide +kernel

end Verif.Props
