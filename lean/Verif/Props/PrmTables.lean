import Mathlib.Algebra.Order.Ring.Rat
import Mathlib.Data.List.Nodup
import Mathlib.Data.List.Perm.Subperm
import Verif.Model.PrmTables
import Verif.Lemmas.Prm
import Verif.Lemmas.PrmQuery

/-! Entry/exit pairs and the table of graph distances: C38, C39. -/

namespace Verif.Props

open Verif.Prm

set_option linter.unusedSectionVars false

variable {P K : Type} [LinearOrder K]

/-! ### C38 -/

theorem tile_length {α : Type*} (l : List α) (m : ℕ) : (tile l m).length = m * l.length := by
  simp [tile]

theorem repeatEach_length {α : Type*} (l : List α) (m : ℕ) : (repeatEach l m).length = l.length * m := by
  induction l with
  | nil => simp [repeatEach]
  | cons a l ih =>
    have : repeatEach (a :: l) m = List.replicate m a ++ repeatEach l m := rfl
    rw [this, List.length_append, ih, List.length_replicate, List.length_cons, Nat.add_mul, Nat.one_mul, Nat.add_comm]

theorem inAndOuts_eq (sn gn : List ℕ) : inAndOuts sn gn = gn.flatMap fun b => sn.map fun a => (a, b) := by
  unfold inAndOuts
  induction gn with
  | nil => rfl
  | cons b gn ih =>
    have h1 : tile sn (b :: gn).length = sn ++ tile sn gn.length := by simp [tile, List.replicate_succ]
    have h2 : repeatEach (b :: gn) sn.length = List.replicate sn.length b ++ repeatEach gn sn.length := rfl
    rw [h1, h2, List.zip_append (by simp), ih, List.flatMap_cons]
    congr 1
    clear ih h1 h2
    induction sn with
    | nil => rfl
    | cons a sn ih => rw [List.length_cons, List.replicate_succ, List.zip_cons_cons, ih, List.map_cons]

theorem takeAll_ok {α : Type*} (l : List α) (ids : List ℕ) (h : ∀ i ∈ ids, i < l.length) :
    takeAll l ids = .ok (ids.filterMap (l[·]?)) := by
  unfold takeAll
  induction ids with
  | nil => rfl
  | cons i ids ih =>
    have hi := h i (by simp)
    rw [List.mapM_cons, ih (fun j hj => h j (List.mem_cons_of_mem _ hj))]
    simp [List.getElem?_eq_getElem hi, bind, pure, Except.bind, Except.pure]

/-- C38: whatever the distances are, for duplicate-free neighbour lists (as `_query_samples` gives them, `C38_ids_nodup`) the call
lists every (start neighbour, goal neighbour) pair exactly once, and the reported points are the samples of the pairs, in the same
order. -/
theorem C38_pairs (samples : List P) (sn gn : List ℕ) (hs : sn.Nodup) (hg : gn.Nodup) (hsn : ∀ i ∈ sn, i < samples.length)
    (hgn : ∀ i ∈ gn, i < samples.length) (dig : List ℕ → List ℕ → Except PyErr (Distances K)) {points : List (P × P)}
    {ds : Distances K} {pairs : List (ℕ × ℕ)} (h : queryAll samples sn gn dig = .ok (points, ds, pairs)) :
    pairs.Nodup ∧ (∀ a b, (a, b) ∈ pairs ↔ a ∈ sn ∧ b ∈ gn) ∧ pairs.length = sn.length * gn.length ∧
      List.Forall₂ (fun (c : ℕ × ℕ) (x : P × P) => samples[c.1]? = some x.1 ∧ samples[c.2]? = some x.2) pairs points ∧
      dig (pairs.map (·.1)) (pairs.map (·.2)) = .ok ds := by
  have hmem : ∀ a b, (a, b) ∈ inAndOuts sn gn ↔ a ∈ sn ∧ b ∈ gn := by
    intro a b
    rw [inAndOuts_eq]
    simp only [List.mem_flatMap, List.mem_map, Prod.mk.injEq]
    constructor
    · rintro ⟨b', hb, a', ha, rfl, rfl⟩; exact ⟨ha, hb⟩
    · rintro ⟨ha, hb⟩; exact ⟨b, hb, a, ha, rfl, rfl⟩
  have h1 : ∀ i ∈ (inAndOuts sn gn).map (·.1), i < samples.length := by
    intro i hi
    obtain ⟨⟨a, b⟩, hc, rfl⟩ := List.mem_map.1 hi
    exact hsn a ((hmem a b).1 hc).1
  have h2 : ∀ i ∈ (inAndOuts sn gn).map (·.2), i < samples.length := by
    intro i hi
    obtain ⟨⟨a, b⟩, hc, rfl⟩ := List.mem_map.1 hi
    exact hgn b ((hmem a b).1 hc).2
  unfold queryAll at h
  simp only [takeAll_ok _ _ h1, takeAll_ok _ _ h2] at h
  cases hd : dig ((inAndOuts sn gn).map (·.1)) ((inAndOuts sn gn).map (·.2)) with
  | error e => rw [hd] at h; cases h
  | ok ds' =>
    rw [hd] at h
    simp only [bind, pure, Except.bind, Except.pure, Except.ok.injEq, Prod.mk.injEq] at h
    obtain ⟨hp, rfl, rfl⟩ := h
    refine ⟨?_, hmem, ?_, ?_, hd⟩
    · rw [inAndOuts_eq, List.nodup_flatMap]
      refine ⟨?_, ?_⟩
      · intro b _
        exact hs.map fun a a' h => (Prod.mk.inj h).1
      · refine hg.imp ?_
        intro b b' hne
        rw [Function.onFun, List.disjoint_left]
        intro c hc hc'
        obtain ⟨a, _, rfl⟩ := List.mem_map.1 hc
        obtain ⟨a', _, h⟩ := List.mem_map.1 hc'
        exact hne (Prod.mk.inj h).2.symm
    · unfold inAndOuts
      rw [List.length_zip, tile_length, repeatEach_length, Nat.mul_comm, Nat.min_self, Nat.mul_comm]
    · rw [← hp]
      clear hp hd hmem
      revert h1 h2
      generalize inAndOuts sn gn = l
      intro h1 h2
      induction l with
      | nil => exact List.Forall₂.nil
      | cons c l ih =>
        have hc1 := h1 c.1 (by simp)
        have hc2 := h2 c.2 (by simp)
        rw [List.map_cons, List.map_cons, List.filterMap_cons_some (List.getElem?_eq_getElem hc1),
          List.filterMap_cons_some (List.getElem?_eq_getElem hc2), List.zip_cons_cons]
        refine List.Forall₂.cons ⟨List.getElem?_eq_getElem hc1, List.getElem?_eq_getElem hc2⟩ (ih ?_ ?_)
        · intro i hi; exact h1 i (by rw [List.map_cons]; exact List.mem_cons_of_mem _ hi)
        · intro i hi; exact h2 i (by rw [List.map_cons]; exact List.mem_cons_of_mem _ hi)

/-- C38: the neighbour lists of `_query_samples` are duplicate free and name existing samples. -/
theorem C38_ids_nodup (w : World P K) (samples : List P) (r : K) (q : P) :
    ((w.querySamples samples r q).map (·.1)).Nodup ∧ ∀ i ∈ (w.querySamples samples r q).map (·.1), i < samples.length := by
  constructor
  · unfold World.querySamples
    rw [List.map_map]
    have h : ((fun c : ℕ × K => c.1) ∘ fun c : P × ℕ => (c.2, w.dist c.1 q)) = fun c => c.2 := rfl
    rw [h]
    refine List.Nodup.sublist (List.Sublist.map _ List.filter_sublist) ?_
    rw [List.zipIdx_map_snd]
    exact List.nodup_range'
  · intro i hi
    obtain ⟨⟨j, d⟩, hc, rfl⟩ := List.mem_map.1 hi
    obtain ⟨p, hp, _⟩ := (mem_querySamples w samples r q j d).1 hc
    exact lt_of_some hp

/-- A remark to C38: with the full radius PRM the call does not raise; the place of the distances is taken by an exception object. -/
theorem C38_full_returns_exception (samples : List P) (sn gn : List ℕ) (hsn : ∀ i ∈ sn, i < samples.length)
    (hgn : ∀ i ∈ gn, i < samples.length) :
    ∃ points, queryAll samples sn gn (fullDistanceInGraph (K := K)) =
      .ok (points, .exceptionObject .notImplemented, inAndOuts sn gn) := by
  have h1 : ∀ i ∈ (inAndOuts sn gn).map (·.1), i < samples.length := by
    intro i hi
    obtain ⟨⟨a, b⟩, hc, rfl⟩ := List.mem_map.1 hi
    rw [inAndOuts_eq] at hc
    simp only [List.mem_flatMap, List.mem_map, Prod.mk.injEq] at hc
    obtain ⟨b', hb, a', ha, rfl, rfl⟩ := hc
    exact hsn _ ha
  have h2 : ∀ i ∈ (inAndOuts sn gn).map (·.2), i < samples.length := by
    intro i hi
    obtain ⟨⟨a, b⟩, hc, rfl⟩ := List.mem_map.1 hi
    rw [inAndOuts_eq] at hc
    simp only [List.mem_flatMap, List.mem_map, Prod.mk.injEq] at hc
    obtain ⟨b', hb, a', ha, rfl, rfl⟩ := hc
    exact hgn _ hb
  unfold queryAll fullDistanceInGraph
  simp only [takeAll_ok _ _ h1, takeAll_ok _ _ h2]
  exact ⟨_, rfl⟩

/-- Three start neighbours and two goal neighbours. -/
theorem C38_nonvacuous : queryAll [(10 : ℚ), 11, 12, 13, 14] [0, 2, 3] [1, 4] (fullDistanceInGraph (K := ℚ)) =
    .ok ([(10, 11), (12, 11), (13, 11), (10, 14), (12, 14), (13, 14)], .exceptionObject .notImplemented,
      [(0, 1), (2, 1), (3, 1), (0, 4), (2, 4), (3, 4)]) := by
  decide +kernel

/-! ### C39 -/

theorem lookupIndices_length (n : ℕ) (sel : List ℕ) : (lookupIndices n sel).length = n := by
  unfold lookupIndices
  have : ∀ (cs : List (ℕ × ℕ)) (a : List ℕ), (cs.foldl (fun a c => a.set c.1 c.2) a).length = a.length := by
    intro cs
    induction cs with
    | nil => intro a; rfl
    | cons c cs ih => intro a; rw [List.foldl_cons, ih, List.length_set]
  rw [this, List.length_replicate]

theorem scatter_get (cs : List (ℕ × ℕ)) (hnd : (cs.map (·.1)).Nodup) (a : List ℕ) (s : ℕ) (hs : s < a.length) :
    (∀ i, (s, i) ∈ cs → (cs.foldl (fun a c => a.set c.1 c.2) a)[s]? = some i) ∧
      (s ∉ cs.map (·.1) → (cs.foldl (fun a c => a.set c.1 c.2) a)[s]? = a[s]?) := by
  induction cs generalizing a with
  | nil => exact ⟨fun i h => by simp at h, fun _ => rfl⟩
  | cons c cs ih =>
    rw [List.map_cons, List.nodup_cons] at hnd
    obtain ⟨ih1, ih2⟩ := ih hnd.2 (a.set c.1 c.2) (by rw [List.length_set]; exact hs)
    rw [List.foldl_cons]
    constructor
    · intro i hi
      rw [List.mem_cons] at hi
      rcases hi with rfl | hi
      · rw [ih2 hnd.1]
        simp [hs]
      · exact ih1 i hi
    · intro hn
      rw [List.map_cons, List.mem_cons, not_or] at hn
      rw [ih2 hn.2, List.getElem?_set_ne (Ne.symm hn.1)]

theorem lookupIndices_get (n : ℕ) (sel : List ℕ) (hnd : sel.Nodup) (s : ℕ) (hs : s < n) :
    (∀ i : ℕ, sel[i]? = some s → (lookupIndices n sel)[s]? = some i) ∧ (s ∉ sel → (lookupIndices n sel)[s]? = some n) := by
  have hmap : sel.zipIdx.map (·.1) = sel := List.zipIdx_map_fst 0 sel
  obtain ⟨h1, h2⟩ := scatter_get sel.zipIdx (by rw [hmap]; exact hnd) (List.replicate n n) s (by simpa using hs)
  rw [hmap] at h2
  refine ⟨fun i hi => h1 i ((mem_zipIdx' _ _ _).2 hi), fun hn => ?_⟩
  rw [show (lookupIndices n sel)[s]? = _ from h2 hn]
  simp [hs]

/-- C39: a table for the samples `sel` of a PRM with `n` samples. The distance of a pair of selected samples is the entry of that very
pair; a lookup with any other vertex number raises IndexError. -/
theorem C39_lookup (D : ℕ → ℕ → WithTop K) (n : ℕ) (sel : List ℕ) (hnd : sel.Nodup) (hsel : ∀ i ∈ sel, i < n) (s g : ℕ) :
    (s ∈ sel → g ∈ sel → (computeSpsp D n sel).entry s g = .ok (D s g)) ∧
      (¬ (s ∈ sel ∧ g ∈ sel) → (computeSpsp D n sel).entry s g = .error .index) := by
  have hlen : sel.length ≤ n := by
    have := (List.Nodup.subperm hnd (l₂ := List.range n) fun i hi => List.mem_range.2 (hsel i hi)).length_le
    simpa using this
  have hout : ∀ s, s ∉ sel → (lookupIndices n sel)[s]? = some n ∨ (lookupIndices n sel)[s]? = none := by
    intro s hs
    by_cases h : s < n
    · exact Or.inl ((lookupIndices_get n sel hnd s h).2 hs)
    · exact Or.inr (List.getElem?_eq_none (by rw [lookupIndices_length]; omega))
  have hin : ∀ s, s ∈ sel → ∃ i : ℕ, sel[i]? = some s ∧ (lookupIndices n sel)[s]? = some i := by
    intro s hs
    obtain ⟨i, hi⟩ := List.mem_iff_getElem?.1 hs
    exact ⟨i, hi, (lookupIndices_get n sel hnd s (hsel s hs)).1 i hi⟩
  constructor
  · intro hs hg
    obtain ⟨i, hi, hi'⟩ := hin s hs
    obtain ⟨j, hj, hj'⟩ := hin g hg
    unfold Lookup.entry computeSpsp
    simp [hi', hj', List.getElem?_map, hi, hj]
  · intro hn
    unfold Lookup.entry computeSpsp
    simp only
    by_cases hs : s ∈ sel
    · have hg : g ∉ sel := fun hg => hn ⟨hs, hg⟩
      obtain ⟨i, hi, hi'⟩ := hin s hs
      rcases hout g hg with h | h
      · have hnone : (sel.map fun b => D s b)[n]? = none := List.getElem?_eq_none (by simpa using hlen)
        simp [hi', h, hi, List.getElem?_map, List.getElem?_eq_none hlen]
      · simp [hi', h]
    · rcases hout s hs with h | h
      · rw [h]
        have hnone : (sel.map fun a => sel.map fun b => D a b)[n]? = none := List.getElem?_eq_none (by simpa using hlen)
        cases (lookupIndices n sel)[g]? with
        | none => rfl
        | some j => simp [List.getElem?_eq_none hlen]
      · rw [h]

theorem mapM_entry_ok (f : ℕ × ℕ → Except PyErr (WithTop K)) (D : ℕ → ℕ → WithTop K) (l : List (ℕ × ℕ))
    (h : ∀ c ∈ l, f c = .ok (D c.1 c.2)) : l.mapM f = .ok (l.map fun c => D c.1 c.2) := by
  induction l with
  | nil => rfl
  | cons c l ih =>
    rw [List.mapM_cons, h c (by simp), ih (fun c' h' => h c' (List.mem_cons_of_mem _ h'))]
    rfl

theorem mapM_error {α β : Type*} (f : α → Except PyErr β) (e : PyErr) (l : List α) (h : ∀ c ∈ l, (∃ b, f c = .ok b) ∨ f c = .error e)
    (hbad : ∃ c ∈ l, f c = .error e) : l.mapM f = .error e := by
  induction l with
  | nil => obtain ⟨c, hc, _⟩ := hbad; simp at hc
  | cons c l ih =>
    rw [List.mapM_cons]
    rcases h c (by simp) with ⟨b, hb⟩ | hb
    · rw [hb]
      have : l.mapM f = .error e := by
        refine ih (fun c' h' => h c' (List.mem_cons_of_mem _ h')) ?_
        obtain ⟨c', hc', hf⟩ := hbad
        rw [List.mem_cons] at hc'
        rcases hc' with rfl | hc'
        · rw [hb] at hf; cases hf
        · exact ⟨c', hc', hf⟩
      rw [this]; rfl
    · rw [hb]; rfl

/-- C39 for a whole array of lookups: it raises IndexError as soon as one vertex was not selected, and otherwise gives the distance of
each pair. Without the experiment mode it raises NotImplementedError. -/
theorem C39_distance_in_graph (D : ℕ → ℕ → WithTop K) (n : ℕ) (sel : List ℕ) (hnd : sel.Nodup) (hsel : ∀ i ∈ sel, i < n)
    (starts goals : List ℕ) :
    ((∀ c ∈ starts.zip goals, c.1 ∈ sel ∧ c.2 ∈ sel) →
        distanceInGraph true (some (computeSpsp D n sel)) starts goals = .ok (.array ((starts.zip goals).map fun c => D c.1 c.2))) ∧
      ((∃ c ∈ starts.zip goals, ¬ (c.1 ∈ sel ∧ c.2 ∈ sel)) →
        distanceInGraph true (some (computeSpsp D n sel)) starts goals = .error .index) ∧
      ∀ l : Option (Lookup K), distanceInGraph false l starts goals = .error .notImplemented := by
  refine ⟨?_, ?_, fun _ => rfl⟩
  · intro h
    unfold distanceInGraph
    have := mapM_entry_ok (fun c => (computeSpsp D n sel).entry c.1 c.2) D (starts.zip goals)
      (fun c hc => (C39_lookup D n sel hnd hsel c.1 c.2).1 (h c hc).1 (h c hc).2)
    simp only [Bool.true_eq_false, if_false, this]
    rfl
  · rintro ⟨c, hc, hbad⟩
    unfold distanceInGraph
    have := mapM_error (fun c => (computeSpsp D n sel).entry c.1 c.2) .index (starts.zip goals)
      (fun c _ => by
        by_cases h : c.1 ∈ sel ∧ c.2 ∈ sel
        · exact Or.inl ⟨_, (C39_lookup D n sel hnd hsel c.1 c.2).1 h.1 h.2⟩
        · exact Or.inr ((C39_lookup D n sel hnd hsel c.1 c.2).2 h))
      ⟨c, hc, (C39_lookup D n sel hnd hsel c.1 c.2).2 hbad⟩
    simp only [Bool.true_eq_false, if_false, this]
    rfl

/-- C39 in use: the table is built for the samples within `r` of the path, the query uses the same radius, and start and goal are on
the path (their distance to a sample is at least the sample's distance to the path). Then every reported pair has its own distance and
nothing is raised. -/
theorem C39_queries_covered (w : World P K) (D : ℕ → ℕ → WithTop K) (sdf : P → K) (samples : List P) (r : K) (start goal : P)
    (hs : ∀ p ∈ samples, sdf p ≤ w.dist p start) (hg : ∀ p ∈ samples, sdf p ≤ w.dist p goal) :
    ∃ points pairs, queryAll samples ((w.querySamples samples r start).map (·.1)) ((w.querySamples samples r goal).map (·.1))
      (distanceInGraph true (some (computeSpsp D samples.length (nearPath sdf samples r)))) =
        .ok (points, .array (pairs.map fun c => D c.1 c.2), pairs) := by
  have hnear : ∀ i, i ∈ nearPath sdf samples r ↔ ∃ p, samples[i]? = some p ∧ sdf p ≤ r := by
    intro i
    unfold nearPath
    simp only [List.mem_map, List.mem_filter, Prod.exists, decide_eq_true_eq]
    constructor
    · rintro ⟨p, i', ⟨hm, hd⟩, rfl⟩; exact ⟨p, (mem_zipIdx' _ _ _).1 hm, hd⟩
    · rintro ⟨p, hp, hd⟩; exact ⟨p, i, ⟨(mem_zipIdx' _ _ _).2 hp, hd⟩, rfl⟩
  have hnd : (nearPath sdf samples r).Nodup := by
    unfold nearPath
    refine List.Nodup.sublist (List.Sublist.map _ List.filter_sublist) ?_
    rw [List.zipIdx_map_snd]
    exact List.nodup_range'
  have hlt : ∀ i ∈ nearPath sdf samples r, i < samples.length := by
    intro i hi
    obtain ⟨p, hp, _⟩ := (hnear i).1 hi
    exact lt_of_some hp
  have hsel : ∀ q, (∀ p ∈ samples, sdf p ≤ w.dist p q) → ∀ i ∈ (w.querySamples samples r q).map (·.1), i ∈ nearPath sdf samples r := by
    intro q hq i hi
    obtain ⟨⟨j, d⟩, hc, rfl⟩ := List.mem_map.1 hi
    obtain ⟨p, hp, hd, _⟩ := (mem_querySamples w samples r q j d).1 hc
    exact (hnear j).2 ⟨p, hp, (hq p (List.mem_of_getElem? hp)).trans hd⟩
  generalize hsn : (w.querySamples samples r start).map (·.1) = sn
  generalize hgn : (w.querySamples samples r goal).map (·.1) = gn
  have hsn' := hsel start hs
  have hgn' := hsel goal hg
  rw [hsn] at hsn'
  rw [hgn] at hgn'
  have hmem : ∀ c ∈ inAndOuts sn gn, c.1 ∈ sn ∧ c.2 ∈ gn := by
    rintro ⟨a, b⟩ hc
    rw [inAndOuts_eq] at hc
    simp only [List.mem_flatMap, List.mem_map, Prod.mk.injEq] at hc
    obtain ⟨b', hb, a', ha, rfl, rfl⟩ := hc
    exact ⟨ha, hb⟩
  have hzip : ((inAndOuts sn gn).map (·.1)).zip ((inAndOuts sn gn).map (·.2)) = inAndOuts sn gn := by
    generalize inAndOuts sn gn = l
    induction l with
    | nil => rfl
    | cons c l ih => rw [List.map_cons, List.map_cons, List.zip_cons_cons, ih]
  have hd := (C39_distance_in_graph D samples.length (nearPath sdf samples r) hnd hlt ((inAndOuts sn gn).map (·.1))
    ((inAndOuts sn gn).map (·.2))).1 (by
      rw [hzip]
      intro c hc
      exact ⟨hsn' _ (hmem c hc).1, hgn' _ (hmem c hc).2⟩)
  rw [hzip] at hd
  have h1 : ∀ i ∈ (inAndOuts sn gn).map (·.1), i < samples.length := by
    intro i hi
    obtain ⟨c, hc, rfl⟩ := List.mem_map.1 hi
    exact hlt _ (hsn' _ (hmem c hc).1)
  have h2 : ∀ i ∈ (inAndOuts sn gn).map (·.2), i < samples.length := by
    intro i hi
    obtain ⟨c, hc, rfl⟩ := List.mem_map.1 hi
    exact hlt _ (hgn' _ (hmem c hc).2)
  unfold queryAll
  simp only [hd, takeAll_ok _ _ h1, takeAll_ok _ _ h2]
  exact ⟨_, _, rfl⟩

/-- Five samples of which 1, 3 and 4 were selected. -/
theorem C39_nonvacuous :
    (computeSpsp (K := ℚ) (fun a b => ((10 * a + b : ℕ) : ℚ)) 5 [1, 3, 4]).entry 3 4 = .ok ((34 : ℚ) : WithTop ℚ) ∧
    (computeSpsp (K := ℚ) (fun a b => ((10 * a + b : ℕ) : ℚ)) 5 [1, 3, 4]).entry 3 2 = .error .index ∧
    (computeSpsp (K := ℚ) (fun a b => ((10 * a + b : ℕ) : ℚ)) 5 [1, 3, 4]).entry 0 3 = .error .index := by
  decide +kernel

end Verif.Props
