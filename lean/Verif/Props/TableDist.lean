import Verif.Lemmas.Tagged
import Mathlib.Topology.MetricSpace.Basic

/-! C142: planners whose neighbour tables carry the distances of the nearest-neighbour library. -/

namespace Verif.Props

open Verif.Prm

section Exact

variable {P K : Type*} [LinearOrder K] [AddCommGroup K] {w : World P K} {td : P → P → K}

omit [LinearOrder K] [AddCommGroup K] in
theorem untagged_ok {d : WithTop K} {pts : List (P × Bool)} {x : Except PyErr (WithTop K × List P)}
    (h : (x.map fun a => (a.1, a.2.map tag)) = .ok (d, pts)) : ∃ pts₀, x = .ok (d, pts₀) ∧ pts = pts₀.map tag := by
  cases x with
  | error e => cases h
  | ok a =>
    obtain ⟨d', pts₀⟩ := a
    simp only [Except.map, Except.ok.injEq, Prod.mk.injEq] at h
    exact ⟨pts₀, by rw [h.1], h.2.symm⟩

/-- What an answer is worth, from tagged points back to points. -/
theorem untagged_answer {S : List P} {g : NkGraph K} {r : K} {a b : P} {x : Except PyErr (WithTop K × List P)}
    (h28 : ∃ d pts, (x.map fun a => (a.1, a.2.map tag)) = .ok (d, pts) ∧
      (pts ≠ [] → (∀ p ∈ pts, p ∈ S.map tag) ∧ (ask a :: pts ++ [ask b]).IsChain (w.tagged td).Accepted ∧
        d = (pathLength (w.tagged td).dist (ask a :: pts ++ [ask b]) : K)))
    (h29 : ∃ d pts, (x.map fun a => (a.1, a.2.map tag)) = .ok (d, pts) ∧
      (pts = [] ↔ ¬ ∃ ids pts', (w.tagged td).Route (S.map tag) g r (ask a) (ask b) ids pts') ∧ (pts = [] ↔ d = ⊤) ∧
      ∀ ids pts', (w.tagged td).Route (S.map tag) g r (ask a) (ask b) ids pts' →
        d ≤ (pathLength (w.tagged td).dist (ask a :: pts' ++ [ask b]) : K)) :
    ∃ d pts, x = .ok (d, pts) ∧
      (pts ≠ [] → (∀ p ∈ pts, p ∈ S) ∧ (a :: pts ++ [b]).IsChain w.Accepted ∧ d = (routeLength w.dist td a b pts : K)) ∧
      (pts = [] ↔ ¬ ∃ ids pts', w.Route S g r a b ids pts') ∧ (pts = [] ↔ d = ⊤) ∧
      ∀ ids pts', w.Route S g r a b ids pts' → d ≤ (routeLength w.dist td a b pts' : K) := by
  obtain ⟨d, pts, h1, h2⟩ := h28
  obtain ⟨d', pts', h1', h3, h4, h5⟩ := h29
  rw [h1] at h1'
  simp only [Except.ok.injEq, Prod.mk.injEq] at h1'
  obtain ⟨rfl, rfl⟩ := h1'
  obtain ⟨pts₀, rfl, rfl⟩ := untagged_ok h1
  refine ⟨d, pts₀, rfl, fun hne => ?_, ?_, ?_, fun ids pts' hr => ?_⟩
  · obtain ⟨e1, e2, e3⟩ := h2 (by simpa using hne)
    refine ⟨fun p hp => ?_, ?_, ?_⟩
    · obtain ⟨q, hq, hqp⟩ := List.mem_map.1 (e1 (tag p) (List.mem_map_of_mem hp))
      have hqp' : q = p := congrArg Prod.fst hqp
      exact hqp' ▸ hq
    · have := isChain_accepted_untagged _ e2
      simpa [tag, ask, Function.comp_def] using this
    · rw [e3, tagged_length _ _ hne]
  · rw [← List.map_eq_nil_iff (f := tag), h3, not_iff_not]
    constructor
    · rintro ⟨ids, pts', hr⟩
      obtain ⟨q, -, hq⟩ := route_untagged hr
      exact ⟨ids, q, hq⟩
    · rintro ⟨ids, pts', hr⟩
      exact ⟨ids, _, tagged_route hr⟩
  · rw [← List.map_eq_nil_iff (f := tag), h4]
  · have hne : pts' ≠ [] := by
      rintro rfl
      have := hr.points
      cases this
      exact hr.nonempty rfl
    rw [← tagged_length (td := td) a b hne]
    exact h5 ids _ (tagged_route hr)

/-- C142: the edges of the k-NN PRM, after any history, when the tables have distances of their own: every edge joins two samples, has the
library's distance as weight, and its motion was accepted. -/
theorem C142_edges_knn (hw : w.SoundWith td) (k : ℕ) (tr : Bool) (d : ℕ) (ops : List (Knn.Op P K)) {S : List P} {g : NkGraph K}
    (hS : ((Knn.init k tr d).run w ops).samples = some S) (hg : ((Knn.init k tr d).run w ops).graph = some g) :
    ∀ i j x, g.AdjW i j x → ∃ p q, S[i]? = some p ∧ S[j]? = some q ∧ x = td p q ∧ w.Accepted p q := by
  have hr := knn_run_tagged w td (Knn.init k tr d) ops
  rw [knn_init_tagged] at hr
  intro i j x hx
  obtain ⟨p, q, h1, h2, h3, h4⟩ := C25_knn (tagged_sound hw) k tr d (ops.map Knn.Op.tagged) (S := S.map tag) (g := g)
    (by rw [hr]; simp [Knn.tagged, hS]) (by rw [hr]; simp [Knn.tagged, hg]) i j x hx
  rw [List.getElem?_map, Option.map_eq_some_iff] at h1 h2
  obtain ⟨p', hp, rfl⟩ := h1
  obtain ⟨q', hq, rfl⟩ := h2
  exact ⟨p', q', hp, hq, h3, h4⟩

/-- C142: the same for the radius PRM. -/
theorem C142_edges_rad (hw : w.SoundWith td) (r : K) (maxK d : ℕ) (ops : List (Rad.Op P)) {S : List P} {g : NkGraph K}
    (hS : ((Rad.init r maxK d).run w ops).samples = some S) (hg : ((Rad.init r maxK d).run w ops).graph = some g) :
    ∀ i j x, g.AdjW i j x → ∃ p q, S[i]? = some p ∧ S[j]? = some q ∧ x = td p q ∧ w.Accepted p q := by
  have hr := rad_run_tagged w td (Rad.init r maxK d) ops
  rw [rad_init_tagged] at hr
  intro i j x hx
  obtain ⟨p, q, h1, h2, h3, h4⟩ := C25_rad (tagged_sound hw) r maxK d (ops.map Rad.Op.tagged) (S := S.map tag) (g := g)
    (by rw [hr]; simp [Rad.tagged, hS]) (by rw [hr]; simp [Rad.tagged, hg]) i j x hx
  rw [List.getElem?_map, Option.map_eq_some_iff] at h1 h2
  obtain ⟨p', hp, rfl⟩ := h1
  obtain ⟨q', hq, rfl⟩ := h2
  exact ⟨p', q', hp, hq, h3, h4⟩

/-- C142: the queries of the k-NN PRM, after any history, when the tables have distances of their own. A path is made of samples and accepted motions, and the
distance is its length in the library's distances between samples and the planner's distances at the ends; there is a path exactly if there is a route
through the roadmap, and no route is shorter. -/
theorem C142_query_knn (hw : w.SoundWith td) (k : ℕ) (tr : Bool) (d₀ : ℕ) (ops : List (Knn.Op P K)) {S : List P} {r : K}
    (hS : ((Knn.init k tr d₀).run w ops).samples = some S)
    (hr : ((Knn.init k tr d₀).run w ops).connR.or ((Knn.init k tr d₀).run w ops).certified = some r) (a b : P) :
    ∃ g d pts, ((Knn.init k tr d₀).run w ops).graph = some g ∧ (((Knn.init k tr d₀).run w ops).query w a b).2 = .ok (d, pts) ∧
      (pts ≠ [] → (∀ p ∈ pts, p ∈ S) ∧ (a :: pts ++ [b]).IsChain w.Accepted ∧ d = (routeLength w.dist td a b pts : K)) ∧
      (pts = [] ↔ ¬ ∃ ids pts', w.Route S g r a b ids pts') ∧ (pts = [] ↔ d = ⊤) ∧
      ∀ ids pts', w.Route S g r a b ids pts' → d ≤ (routeLength w.dist td a b pts' : K) := by
  have hrun := knn_run_tagged w td (Knn.init k tr d₀) ops
  rw [knn_init_tagged] at hrun
  have hS' : ((Knn.init k tr d₀).run (w.tagged td) (ops.map Knn.Op.tagged)).samples = some (S.map tag) := by
    rw [hrun]; simp [Knn.tagged, hS]
  have hr' : ((Knn.init k tr d₀).run (w.tagged td) (ops.map Knn.Op.tagged)).connR.or
      ((Knn.init k tr d₀).run (w.tagged td) (ops.map Knn.Op.tagged)).certified = some r := by
    rw [hrun]; exact hr
  have h28 := C28_knn (tagged_sound hw) k tr d₀ (ops.map Knn.Op.tagged) hS' hr' (ask a) (ask b)
  obtain ⟨g, d, pts, hg, h29⟩ := C29_knn (tagged_sound hw) k tr d₀ (ops.map Knn.Op.tagged) hS' hr' (ask a) (ask b)
  rw [hrun, knn_query_tagged] at h28 h29
  rw [hrun] at hg
  obtain ⟨d', pts', h⟩ := untagged_answer h28 ⟨d, pts, h29⟩
  exact ⟨g, d', pts', hg, h⟩

/-- C142: the same for the radius PRM. -/
theorem C142_query_rad (hw : w.SoundWith td) (r : K) (maxK d₀ : ℕ) (ops : List (Rad.Op P)) {S : List P}
    (hS : ((Rad.init r maxK d₀).run w ops).samples = some S) (a b : P) :
    ∃ g d pts, ((Rad.init r maxK d₀).run w ops).graph = some g ∧ (((Rad.init r maxK d₀).run w ops).query w a b).2 = .ok (d, pts) ∧
      (pts ≠ [] → (∀ p ∈ pts, p ∈ S) ∧ (a :: pts ++ [b]).IsChain w.Accepted ∧ d = (routeLength w.dist td a b pts : K)) ∧
      (pts = [] ↔ ¬ ∃ ids pts', w.Route S g r a b ids pts') ∧ (pts = [] ↔ d = ⊤) ∧
      ∀ ids pts', w.Route S g r a b ids pts' → d ≤ (routeLength w.dist td a b pts' : K) := by
  have hrun := rad_run_tagged w td (Rad.init r maxK d₀) ops
  rw [rad_init_tagged] at hrun
  have hS' : ((Rad.init r maxK d₀).run (w.tagged td) (ops.map Rad.Op.tagged)).samples = some (S.map tag) := by
    rw [hrun]; simp [Rad.tagged, hS]
  have h28 := C28_rad (tagged_sound hw) r maxK d₀ (ops.map Rad.Op.tagged) hS' (ask a) (ask b)
  obtain ⟨g, d, pts, hg, h29⟩ := C29_rad (tagged_sound hw) r maxK d₀ (ops.map Rad.Op.tagged) hS' (ask a) (ask b)
  rw [hrun, rad_query_tagged] at h28 h29
  rw [hrun] at hg
  obtain ⟨d', pts', h⟩ := untagged_answer h28 ⟨d, pts, h29⟩
  exact ⟨g, d', pts', hg, h⟩

end Exact

/-! ### Errors -/

section Errors

variable {P : Type*} [PseudoMetricSpace P] {dw td : P → P → ℝ} {κ α : ℝ} {B : Set P}

theorem pathLength_near (h : ∀ p ∈ B, ∀ q ∈ B, |td p q - dist p q| ≤ κ * dist p q + α) (l : List P) (hl : ∀ q ∈ l, q ∈ B) : ∀ p ∈ B,
    |pathLength td (p :: l) - pathLength dist (p :: l)| ≤ κ * pathLength dist (p :: l) + l.length * α := by
  induction l with
  | nil => intro p _; simp [pathLength]
  | cons q l ih =>
    intro p hp
    have h1 : pathLength td (p :: q :: l) = td p q + pathLength td (q :: l) := rfl
    have h2 : pathLength dist (p :: q :: l) = dist p q + pathLength dist (q :: l) := rfl
    have hq := hl q (by simp)
    have h3 := abs_le.1 (h p hp q hq)
    have h4 := abs_le.1 (ih (fun q hq => hl q (by simp [hq])) q hq)
    rw [h1, h2, List.length_cons, abs_le]
    push_cast
    constructor <;> linarith [h3.1, h3.2, h4.1, h4.2]

omit [PseudoMetricSpace P] in
theorem pathLength_snoc (d : P → P → ℝ) (b : P) (l : List P) : ∀ p : P,
    pathLength d ((p :: l) ++ [b]) = pathLength d (p :: l) + d ((p :: l).getLast (List.cons_ne_nil p l)) b := by
  induction l with
  | nil => intro p; simp [pathLength]
  | cons q l ih =>
    intro p
    have h1 : pathLength d ((p :: q :: l) ++ [b]) = d p q + pathLength d ((q :: l) ++ [b]) := rfl
    have h2 : pathLength d (p :: q :: l) = d p q + pathLength d (q :: l) := rfl
    rw [h1, ih, h2, List.getLast_cons (List.cons_ne_nil q l), add_assoc]

/-- The planner's length of a chain and its true length. -/
theorem routeLength_near (hd : ∀ p ∈ B, ∀ q ∈ B, |dw p q - dist p q| ≤ κ * dist p q + α) (h : ∀ p ∈ B, ∀ q ∈ B, |td p q - dist p q| ≤ κ * dist p q + α) {a b : P}
    (ha : a ∈ B) (hb : b ∈ B) {pts : List P} (hne : pts ≠ []) (hpts : ∀ p ∈ pts, p ∈ B) :
    |routeLength dw td a b pts - pathLength dist (a :: pts ++ [b])| ≤ κ * pathLength dist (a :: pts ++ [b]) + (pts.length + 1) * α := by
  cases pts with
  | nil => exact absurd rfl hne
  | cons p l =>
    have h1 : pathLength dist (a :: (p :: l) ++ [b]) = dist a p + pathLength dist ((p :: l) ++ [b]) := rfl
    rw [h1, pathLength_snoc]
    simp only [routeLength]
    have h2 := abs_le.1 (hd a ha p (hpts p (by simp)))
    have h3 := abs_le.1 (hd ((p :: l).getLast (List.cons_ne_nil p l)) (hpts _ (List.getLast_mem _)) b hb)
    have h4 := abs_le.1 (pathLength_near h l (fun q hq => hpts q (by simp [hq])) p (hpts p (by simp)))
    rw [abs_le, List.length_cons]
    push_cast
    constructor <;> linarith [h2.1, h2.2, h3.1, h3.2, h4.1, h4.2]

/-- An answer and its error. -/
theorem answer_near (hd : ∀ p ∈ B, ∀ q ∈ B, |dw p q - dist p q| ≤ κ * dist p q + α) (h : ∀ p ∈ B, ∀ q ∈ B, |td p q - dist p q| ≤ κ * dist p q + α) {a b : P}
    (ha : a ∈ B) (hb : b ∈ B) {d : WithTop ℝ} {pts : List P} (hne : pts ≠ []) (hpts : ∀ p ∈ pts, p ∈ B) (hlen : d = (routeLength dw td a b pts : ℝ)) :
    ∃ len : ℝ, d = len ∧ |len - pathLength dist (a :: pts ++ [b])| ≤ κ * pathLength dist (a :: pts ++ [b]) + (pts.length + 1) * α ∧
      ∀ pts' : List P, pts' ≠ [] → (∀ p ∈ pts', p ∈ B) → d ≤ (routeLength dw td a b pts' : ℝ) →
        (1 - κ) * pathLength dist (a :: pts ++ [b]) ≤ (1 + κ) * pathLength dist (a :: pts' ++ [b]) + (pts.length + pts'.length + 2) * α := by
  refine ⟨_, hlen, routeLength_near hd h ha hb hne hpts, fun pts' hne' hpts' hle => ?_⟩
  rw [hlen] at hle
  have h1 := abs_le.1 (routeLength_near hd h ha hb hne hpts)
  have h2 := abs_le.1 (routeLength_near hd h ha hb hne' hpts')
  have h3 := WithTop.coe_le_coe.1 hle
  linarith [h1.1, h2.2]

omit [PseudoMetricSpace P] in
theorem route_points {w : World P ℝ} {S : List P} {g : NkGraph ℝ} {r : ℝ} {a b : P} {ids : List ℕ} {pts : List P} (h : w.Route S g r a b ids pts) :
    pts ≠ [] ∧ ∀ p ∈ pts, p ∈ S := by
  constructor
  · rintro rfl
    have := h.points
    cases this
    exact h.nonempty rfl
  · intro p hp
    have hf := h.points
    clear h
    induction hf with
    | nil => cases hp
    | cons h1 _ ih =>
      rcases List.mem_cons.1 hp with rfl | hp
      · exact List.mem_of_getElem? h1
      · exact ih hp

/-- C142: distances with a relative error `κ` and an absolute error `α` between points of `B`, where the samples and the ends are. The length that the k-NN PRM reports is that of the returned path up to these errors, and
up to these errors no route through the roadmap is shorter than the returned one. -/
theorem C142_length_knn {w : World P ℝ} (hw : w.SoundWith td) (hd : ∀ p ∈ B, ∀ q ∈ B, |w.dist p q - dist p q| ≤ κ * dist p q + α)
    (ht : ∀ p ∈ B, ∀ q ∈ B, |td p q - dist p q| ≤ κ * dist p q + α) (k : ℕ) (tr : Bool) (d₀ : ℕ) (ops : List (Knn.Op P ℝ)) {S : List P} {r : ℝ}
    (hS : ((Knn.init k tr d₀).run w ops).samples = some S)
    (hr : ((Knn.init k tr d₀).run w ops).connR.or ((Knn.init k tr d₀).run w ops).certified = some r)
    (hSB : ∀ p ∈ S, p ∈ B) {a b : P} (ha : a ∈ B) (hb : b ∈ B) {d : WithTop ℝ} {pts : List P}
    (h : (((Knn.init k tr d₀).run w ops).query w a b).2 = .ok (d, pts)) (hne : pts ≠ []) :
    ∃ (len : ℝ) (g : NkGraph ℝ), d = len ∧ ((Knn.init k tr d₀).run w ops).graph = some g ∧
      |len - pathLength dist (a :: pts ++ [b])| ≤ κ * pathLength dist (a :: pts ++ [b]) + (pts.length + 1) * α ∧
      ∀ ids pts', w.Route S g r a b ids pts' →
        (1 - κ) * pathLength dist (a :: pts ++ [b]) ≤ (1 + κ) * pathLength dist (a :: pts' ++ [b]) + (pts.length + pts'.length + 2) * α := by
  obtain ⟨g, d', pts', hg, hq, h1, -, -, h2⟩ := C142_query_knn hw k tr d₀ ops hS hr a b
  rw [h] at hq
  simp only [Except.ok.injEq, Prod.mk.injEq] at hq
  obtain ⟨rfl, rfl⟩ := hq
  obtain ⟨len, e1, e2, e3⟩ := answer_near hd ht ha hb hne (fun p hp => hSB p ((h1 hne).1 p hp)) (h1 hne).2.2
  exact ⟨len, g, e1, hg, e2, fun ids pts' hroute =>
    e3 pts' (route_points hroute).1 (fun p hp => hSB p ((route_points hroute).2 p hp)) (h2 ids pts' hroute)⟩

/-- C142: the same for the radius PRM. -/
theorem C142_length_rad {w : World P ℝ} (hw : w.SoundWith td) (hd : ∀ p ∈ B, ∀ q ∈ B, |w.dist p q - dist p q| ≤ κ * dist p q + α)
    (ht : ∀ p ∈ B, ∀ q ∈ B, |td p q - dist p q| ≤ κ * dist p q + α) (r : ℝ) (maxK d₀ : ℕ) (ops : List (Rad.Op P)) {S : List P}
    (hS : ((Rad.init r maxK d₀).run w ops).samples = some S) (hSB : ∀ p ∈ S, p ∈ B) {a b : P} (ha : a ∈ B) (hb : b ∈ B) {d : WithTop ℝ} {pts : List P}
    (h : (((Rad.init r maxK d₀).run w ops).query w a b).2 = .ok (d, pts)) (hne : pts ≠ []) :
    ∃ (len : ℝ) (g : NkGraph ℝ), d = len ∧ ((Rad.init r maxK d₀).run w ops).graph = some g ∧
      |len - pathLength dist (a :: pts ++ [b])| ≤ κ * pathLength dist (a :: pts ++ [b]) + (pts.length + 1) * α ∧
      ∀ ids pts', w.Route S g r a b ids pts' →
        (1 - κ) * pathLength dist (a :: pts ++ [b]) ≤ (1 + κ) * pathLength dist (a :: pts' ++ [b]) + (pts.length + pts'.length + 2) * α := by
  obtain ⟨g, d', pts', hg, hq, h1, -, -, h2⟩ := C142_query_rad hw r maxK d₀ ops hS a b
  rw [h] at hq
  simp only [Except.ok.injEq, Prod.mk.injEq] at hq
  obtain ⟨rfl, rfl⟩ := hq
  obtain ⟨len, e1, e2, e3⟩ := answer_near hd ht ha hb hne (fun p hp => hSB p ((h1 hne).1 p hp)) (h1 hne).2.2
  exact ⟨len, g, e1, hg, e2, fun ids pts' hroute =>
    e3 pts' (route_points hroute).1 (fun p hp => hSB p ((route_points hroute).2 p hp)) (h2 ids pts' hroute)⟩

end Errors

end Verif.Props
