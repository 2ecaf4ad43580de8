import Verif.Spec.Generator
import Verif.Model.NkArrays
import Verif.Lemmas.PrmKnn

/-! The k-NN PRM when the edge generator may skip edges: no edge below the current radius is lost. -/

namespace Verif.Prm

variable {P K : Type*} [LinearOrder K] [AddCommGroup K]

theorem World.VisitsAll.existing {w : World P K} (h : w.VisitsAll) : w.VisitsExisting :=
  fun E r e he => ⟨e, (h E r).1 e he, by simp [Edge.joins], rfl⟩

theorem cutGraph_keeps {w : World P K} (hv : w.VisitsExisting) (r : K) {g : NkGraph K} (hs : Simple g) :
    (cutGraph w r g).edges.Sublist g.edges ∧ ∀ e ∈ g.edges, e.w < r → e ∈ (cutGraph w r g).edges := by
  unfold cutGraph
  rw [removeAll_edges _ hs]
  refine ⟨List.filter_sublist, fun e he hlt => List.mem_filter.2 ⟨he, ?_⟩⟩
  rw [List.all_eq_true]
  rintro p hp
  obtain ⟨f, hf, rfl⟩ := List.mem_map.1 hp
  obtain ⟨hf1, hf2⟩ := List.mem_filter.1 hf
  rw [Bool.not_eq_true', Bool.eq_false_iff]
  intro hj
  obtain ⟨f', hf', hjf, hwf⟩ := hv g.edges r f hf1
  have := simple_eq hs he hf' (by rw [joins_iff] at hj hjf ⊢; omega)
  subst this
  rw [hwf] at hlt
  exact absurd (by simpa using hf2) (not_le.2 hlt)

/-- After a growth and radius changes or queries: a part of the table roadmap with all its edges below the current radius. -/
def Knn.Kept (w : World P K) (S : List P) (t : Table K) (x : K) (s : Knn P K) : Prop :=
  s.samples = some S ∧ s.cache = some (tabGraph w S t) ∧ s.master = some t ∧ s.certified = some x ∧
    ∃ g, s.graph = some g ∧ S.length ≤ g.bound ∧ g.edges.Sublist (tabGraph w S t).edges ∧
      ∀ e ∈ (tabGraph w S t).edges, (∀ r, s.connR = some r → e.w < r) → e ∈ g.edges

theorem Knn.kept_setRadius {w : World P K} (hv : w.VisitsExisting) {S : List P} {t : Table K} {x : K} (ht : w.TrueTable S t)
    {s : Knn P K} (h : s.Kept w S t x) (r : K) : (s.setRadius w r).1.Kept w S t x ∧ (s.setRadius w r).1.connR = some r := by
  obtain ⟨h1, h2, h3, h4, g, h5, h6, h7, h8⟩ := h
  rw [Knn.setRadius_eq h5 h2 h4]
  refine ⟨⟨h1, h2, h3, h4, _, rfl, ?_, ?_, ?_⟩, rfl⟩
  · unfold cutGraph
    rw [removeAll_bound]
    split
    · rw [tabGraph_bound ht]
    · exact h6
  · split
    · exact (cutGraph_keeps hv r (tabGraph_simple ..)).1
    · exact (cutGraph_keeps hv r (List.Pairwise.sublist h7 (tabGraph_simple w S t))).1.trans h7
  · intro e he hlt
    have hlt := hlt r rfl
    split
    · exact (cutGraph_keeps hv r (tabGraph_simple ..)).2 e he hlt
    · rename_i hm
      refine (cutGraph_keeps hv r (List.Pairwise.sublist h7 (tabGraph_simple w S t))).2 e (h8 e he ?_) hlt
      intro c hc
      rw [hc] at hm
      simp only [Knn.mustReload, decide_eq_true_eq, not_lt] at hm
      exact lt_of_lt_of_le hlt hm

theorem Knn.kept_query {w : World P K} (hw : w.Sound) {S : List P} {t : Table K} {x : K} (ht : w.TrueTable S t)
    {s : Knn P K} (h : s.Kept w S t x) (a b : P) : (s.query w a b).1.Kept w S t x ∧ (s.query w a b).1.connR = s.connR := by
  obtain ⟨h1, h2, h3, h4, g, h5, h6, h7, h8⟩ := h
  have hck : w.Checked S g := Checked.sublist (fun e he => h7.subset he) (tabGraph_checked hw ht)
  have hr : ∃ r, s.connR.or s.certified = some r := by
    rw [h4]; cases s.connR <;> simp
  obtain ⟨r, hr⟩ := hr
  obtain ⟨d, pts, he, _⟩ := Knn.query_eq hw h1 h5 hr hck h6 a b
  rw [he]
  refine ⟨⟨h1, h2, h3, h4, _, rfl, ?_, ?_, ?_⟩, rfl⟩
  · rw [afterQuery_bound]; omega
  · rw [afterQuery_edges (Checked.inBound hck h6)]; exact h7
  · rw [afterQuery_edges (Checked.inBound hck h6)]; exact h8

theorem Knn.rebuild_kept {w : World P K} (hw : w.Sound) (hv : w.VisitsExisting) {s : Knn P K} (hs : s.connR = none) {S : List P}
    (hok : (Knn.rebuild w s S).2 = .ok ()) :
    ∃ x, Knn.certify (w.knn S (min (S.length - 1) s.k)) = .ok x ∧
      (Knn.rebuild w s S).1.Kept w S (w.knn S (min (S.length - 1) s.k)) x ∧
      (Knn.rebuild w s S).1.connR = (if s.truncate then some x else none) := by
  have ht := hw.knn_true S (min (S.length - 1) s.k)
  unfold Knn.rebuild at hok ⊢
  simp only [tableGraph_ok ht] at hok ⊢
  cases hc : Knn.certify (w.knn S (min (S.length - 1) s.k)) with
  | error e => rw [hc] at hok; cases hok
  | ok x =>
    refine ⟨x, rfl, ?_⟩
    have hcut : ∀ s' : Knn P K, s'.samples = some S →
        s'.cache = some (tabGraph w S (w.knn S (min (S.length - 1) s.k))) →
        s'.graph = some (tabGraph w S (w.knn S (min (S.length - 1) s.k))) →
        s'.master = some (w.knn S (min (S.length - 1) s.k)) → s'.certified = some x →
        s'.Kept w S (w.knn S (min (S.length - 1) s.k)) x :=
      fun s' a1 a2 a3 a4 a5 => ⟨a1, a2, a4, a5, _, a3, (tabGraph_bound ht).ge, List.Sublist.refl _, fun e he _ => he⟩
    simp only
    split
    · refine Knn.kept_setRadius hv ht ?_ x
      apply hcut
      all_goals rfl
    · refine ⟨?_, hs⟩
      apply hcut
      all_goals rfl

/-- A growth that does not truncate removes no edges: nothing is asked of the generator. -/
theorem Knn.rebuild_cut_of {w : World P K} (hw : w.Sound) {s : Knn P K} (hv : s.truncate = true → w.VisitsAll) (hs : s.connR = none) {S : List P}
    (hok : (Knn.rebuild w s S).2 = .ok ()) :
    ∃ x, Knn.certify (w.knn S (min (S.length - 1) s.k)) = .ok x ∧
      (Knn.rebuild w s S).1.Cut w S (w.knn S (min (S.length - 1) s.k)) x ∧
      (Knn.rebuild w s S).1.connR = (if s.truncate then some x else none) := by
  cases htr : s.truncate with
  | true =>
    obtain ⟨x, h1, h2, h3⟩ := Knn.rebuild_cut hw (hv htr) hs hok
    rw [htr] at h3
    exact ⟨x, h1, h2, h3⟩
  | false =>
    have ht := hw.knn_true S (min (S.length - 1) s.k)
    unfold Knn.rebuild at hok ⊢
    simp only [tableGraph_ok ht] at hok ⊢
    cases hc : Knn.certify (w.knn S (min (S.length - 1) s.k)) with
    | error e => rw [hc] at hok; cases hok
    | ok x =>
      simp only [htr, Bool.false_eq_true, if_false]
      refine ⟨x, rfl, ⟨rfl, rfl, rfl, rfl, _, rfl, (tabGraph_bound ht).ge, ?_⟩, hs⟩
      rw [hs]
      rfl

theorem Knn.grow_kept {w : World P K} (hw : w.Sound) (hv : w.VisitsExisting) {s : Knn P K} {n : ℕ} (hok : (s.grow w n).2 = .ok ()) :
    ∃ S k x, Knn.certify (w.knn S k) = .ok x ∧ S.length = n ∧ (s.grow w n).1.Kept w S (w.knn S k) x ∧
      (s.grow w n).1.connR = (if s.truncate then some x else none) := by
  unfold Knn.grow at hok ⊢
  simp only at hok ⊢
  split
  · rename_i h
    rw [h] at hok
    obtain ⟨x, h1, h2, h3⟩ := Knn.rebuild_kept hw hv (s := { s with connR := none, samples := none, drawn := s.drawn + n }) rfl hok
    exact ⟨_, _, x, h1, by simp [World.fresh], h2, h3⟩
  · rename_i old h
    rw [h] at hok
    simp only at hok
    split at hok
    · cases hok
    · rename_i hn
      rw [if_neg hn]
      obtain ⟨x, h1, h2, h3⟩ := Knn.rebuild_kept hw hv
        (s := { s with connR := none, samples := some old, drawn := s.drawn + (n - old.length) }) rfl hok
      exact ⟨_, _, x, h1, by simp [World.fresh]; omega, h2, h3⟩

/-! ### The generator that runs over adjacency arrays -/

/-- Every entry stands for one of the edges. -/
def Stands (E : List (Edge K)) (a : Adjacency K) : Prop :=
  ∀ u l, a[u]? = some l → ∀ c ∈ l, ∃ f ∈ E, f.joins u c.1 = true ∧ f.w = c.2

theorem stands_modify {E : List (Edge K)} {a : Adjacency K} (h : Stands E a) (u : ℕ) {f : List (ℕ × K) → List (ℕ × K)}
    (hf : ∀ l, ∀ c ∈ f l, c ∈ l ∨ ∃ e ∈ E, e.joins u c.1 = true ∧ e.w = c.2) : Stands E (a.modify u f) := by
  intro v l hl c hc
  rw [List.getElem?_modify] at hl
  split at hl
  · rename_i huv
    subst huv
    obtain ⟨l', hl', rfl⟩ := Option.map_eq_some_iff.1 hl
    rcases hf l' c hc with h' | h'
    · exact h _ l' hl' c h'
    · exact h'
  · rw [Option.map_eq_map, Option.map_id'] at hl
    exact h v l hl c hc

theorem mem_swapErase {l : List (ℕ × K)} {i : ℕ} {c : ℕ × K} (h : c ∈ swapErase l i) : c ∈ l := by
  unfold swapErase at h
  split at h
  · exact h
  · rename_i x hx
    rcases List.mem_or_eq_of_mem_set ((List.dropLast_sublist _).subset h) with h | rfl
    · exact h
    · exact List.mem_of_getLast? hx

theorem stands_remove {E : List (Edge K)} {a : Adjacency K} (h : Stands E a) (u v i : ℕ) : Stands E (arraysRemove a u v i) := by
  unfold arraysRemove
  have h1 : Stands E (a.modify u (swapErase · i)) := stands_modify h u fun l c hc => .inl (mem_swapErase hc)
  simp only
  split
  · exact h1
  · exact stands_modify h1 v fun l c hc => .inl (mem_swapErase hc)

theorem stands_arrays (n : ℕ) (E : List (Edge K)) : Stands E (arraysOf n E) := by
  unfold arraysOf
  have key : ∀ (L : List (Edge K)) (a : Adjacency K), (∀ e ∈ L, e ∈ E) → Stands E a →
      Stands E (L.foldl (fun a e => if e.u = e.v then pushAt a e.u (e.v, e.w) else pushAt (pushAt a e.u (e.v, e.w)) e.v (e.u, e.w)) a) := by
    intro L
    induction L with
    | nil => exact fun a _ h => h
    | cons e L ih =>
      intro a hL h
      refine ih _ (fun e he => hL e (by simp [he])) ?_
      have he := hL e (by simp)
      have h1 : Stands E (pushAt a e.u (e.v, e.w)) := stands_modify h e.u fun l c hc => by
        rcases List.mem_append.1 hc with hc | hc
        · exact .inl hc
        · obtain rfl := List.mem_singleton.1 hc
          exact .inr ⟨e, he, by simp [Edge.joins], rfl⟩
      show Stands E (if e.u = e.v then pushAt a e.u (e.v, e.w) else pushAt (pushAt a e.u (e.v, e.w)) e.v (e.u, e.w))
      split
      · exact h1
      · exact stands_modify h1 e.v fun l c hc => by
          rcases List.mem_append.1 hc with hc | hc
          · exact .inl hc
          · obtain rfl := List.mem_singleton.1 hc
            exact .inr ⟨e, he, by simp [Edge.joins], rfl⟩
  refine key E _ (fun e he => he) ?_
  intro u l hl c hc
  rw [List.getElem?_replicate] at hl
  split at hl
  · cases hl
    simp at hc
  · cases hl

theorem arrayRun_stands {E : List (Edge K)} (r : K) (fuel : ℕ) {a : Adjacency K} (h : Stands E a) (u i : ℕ) :
    ∀ e ∈ arrayRun r fuel a u i, ∃ f ∈ E, f.joins e.u e.v = true ∧ f.w = e.w := by
  induction fuel generalizing a u i with
  | zero => simp [arrayRun]
  | succ fuel ih =>
    unfold arrayRun
    split
    · simp
    · rename_i l hl
      split
      · exact ih h _ _
      · rename_i v x hx
        split
        · exact ih h _ _
        · intro e he
          rcases List.mem_cons.1 he with rfl | he
          · exact h u l hl (v, x) (List.mem_of_getElem? hx)
          · refine ih ?_ _ _ e he
            split
            · exact stands_remove h _ _ _
            · exact h

/-- The generator over adjacency arrays, which does skip edges, yields only existing ones. -/
theorem arrayVisits_existing {w : World P K} (h : w.visits = arrayVisits) : w.VisitsExisting := by
  intro E r
  rw [h]
  exact arrayRun_stands r _ (stands_arrays _ E) 0 0

end Verif.Prm
