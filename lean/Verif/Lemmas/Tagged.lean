import Verif.Spec.TableDist
import Verif.Props.PrmKnn
import Verif.Props.PrmRad

/-!
A planner with two distances behaves like one with a single distance in which samples and query points are told apart by a tag.
-/

namespace Verif.Prm

set_option linter.unusedSectionVars false

variable {P K : Type*} [LinearOrder K]

/-- A sample. -/
def tag (p : P) : P × Bool := (p, true)

/-- A query point. -/
def ask (p : P) : P × Bool := (p, false)

/-- The planner on points with a tag: the distance between two samples is that of the tables. -/
def World.tagged (w : World P K) (td : P → P → K) : World (P × Bool) K where
  check p q := w.check p.1 q.1
  draw i := tag (w.draw i)
  dist p q := if p.2 && q.2 then td p.1 q.1 else w.dist p.1 q.1
  knn S k := if S.all (·.2) then w.knn (S.map Prod.fst) k else List.replicate S.length []
  knnUpdate S new k := if (S ++ new).all (·.2) then w.knnUpdate (S.map Prod.fst) (new.map Prod.fst) k else List.replicate (S ++ new).length []
  shortest := w.shortest
  visits := w.visits

variable (w : World P K) (td : P → P → K)

theorem all_tag (S : List P) : (S.map tag).all (·.2) = true := by
  simp [tag]

theorem map_tag_fst (S : List P) : (S.map tag).map Prod.fst = S := by
  simp [tag, Function.comp_def]

theorem tagged_knn (S : List P) (k : ℕ) : (w.tagged td).knn (S.map tag) k = w.knn S k := by
  simp only [World.tagged, all_tag, if_true, map_tag_fst]

theorem tagged_knnUpdate (S new : List P) (k : ℕ) : (w.tagged td).knnUpdate (S.map tag) (new.map tag) k = w.knnUpdate S new k := by
  simp only [World.tagged, ← List.map_append, all_tag, if_true, map_tag_fst]

theorem tagged_fresh (c n : ℕ) : (w.tagged td).fresh c n = (w.fresh c n).map tag := by
  simp [World.fresh, World.tagged, Function.comp_def]

theorem tagged_accepts (S : List P) (i j : ℕ) : (w.tagged td).accepts (S.map tag) i j = w.accepts S i j := by
  unfold World.accepts
  rw [List.getElem?_map, List.getElem?_map]
  cases S[i]? <;> cases S[j]? <;> rfl

theorem tagged_tableGraph (S : List P) (t : Table K) (start : ℕ) (thr : Option K) :
    (w.tagged td).tableGraph (S.map tag) t start thr = w.tableGraph S t start thr := by
  unfold World.tableGraph World.connect
  simp only [List.length_map, tagged_accepts]

theorem tagged_querySamples (S : List P) (r : K) (q : P) :
    (w.tagged td).querySamples (S.map tag) r (ask q) = w.querySamples S r q := by
  unfold World.querySamples
  rw [List.zipIdx_map, List.filter_map, List.map_map]
  rfl

theorem tagged_solve (S : List P) (g : NkGraph K) (sn gn : List (ℕ × K)) :
    (w.tagged td).solve (S.map tag) g sn gn =
      ((w.solve S g sn gn).1, (w.solve S g sn gn).2.map fun a => (a.1, a.2.map tag)) := by
  unfold World.solve
  simp only [List.length_map]
  have hsh : (w.tagged td).shortest = w.shortest := rfl
  rw [hsh]
  split
  · simp only [Except.map, List.map_filterMap, List.getElem?_map]
  · rfl

/-! ### k-NN PRM -/

/-- The object with tagged samples. -/
def Knn.tagged (s : Knn P K) : Knn (P × Bool) K :=
  ⟨s.maxK, s.k, s.truncate, s.connR, s.certified, s.samples.map (List.map tag), s.graph, s.master, s.cache, s.drawn⟩

/-- The call with tagged points. -/
def Knn.Op.tagged : Knn.Op P K → Knn.Op (P × Bool) K
  | .grow n => .grow n
  | .setRadius r => .setRadius r
  | .setNeighbors k => .setNeighbors k
  | .query a b => .query (ask a) (ask b)
  | .reset => .reset

theorem knn_setRadius_tagged (r : K) (s : Knn P K) :
    s.tagged.setRadius (w.tagged td) r = ((s.setRadius w r).1.tagged, (s.setRadius w r).2) := by
  obtain ⟨maxK, k, tr, connR, cert, S, g, m, c, dr⟩ := s
  unfold Knn.setRadius Knn.tagged
  cases cert with
  | none => rfl
  | some x =>
    simp only
    split
    · rfl
    · split
      · rfl
      · rfl

theorem knn_rebuild_tagged (s : Knn P K) (S : List P) :
    s.tagged.rebuild (w.tagged td) (S.map tag) = ((s.rebuild w S).1.tagged, (s.rebuild w S).2) := by
  unfold Knn.rebuild
  simp only [List.length_map, tagged_knn, tagged_tableGraph]
  have hk : s.tagged.k = s.k := rfl
  rw [hk]
  cases w.tableGraph S (w.knn S (min (S.length - 1) s.k)) 0 none with
  | error e => rfl
  | ok g =>
    simp only
    cases Knn.certify (w.knn S (min (S.length - 1) s.k)) with
    | error e => rfl
    | ok c =>
      simp only
      have ht : s.tagged.truncate = s.truncate := rfl
      rw [ht]
      split
      · exact knn_setRadius_tagged w td c
          ⟨s.maxK, s.k, s.truncate, s.connR, some c, some S, some g, some (w.knn S (min (S.length - 1) s.k)), some g, s.drawn⟩
      · rfl

theorem knn_grow_tagged (n : ℕ) (s : Knn P K) : s.tagged.grow (w.tagged td) n = ((s.grow w n).1.tagged, (s.grow w n).2) := by
  obtain ⟨maxK, k, tr, connR, cert, S, g, m, c, dr⟩ := s
  unfold Knn.grow
  cases S with
  | none =>
    simp only [Knn.tagged, Option.map_none, tagged_fresh]
    exact knn_rebuild_tagged w td ⟨maxK, k, tr, none, cert, none, g, m, c, dr + n⟩ (w.fresh dr n)
  | some old =>
    simp only [Knn.tagged, Option.map_some, tagged_fresh, List.length_map, ← List.map_append]
    split
    · rfl
    · exact knn_rebuild_tagged w td ⟨maxK, k, tr, none, cert, some old, g, m, c, dr + (n - old.length)⟩ (old ++ w.fresh dr (n - old.length))

theorem knn_setNeighbors_tagged (k' : ℕ) (s : Knn P K) : s.tagged.setNeighbors k' = ((s.setNeighbors k').1.tagged, (s.setNeighbors k').2) := by
  obtain ⟨maxK, k, tr, connR, cert, S, g, m, c, dr⟩ := s
  unfold Knn.setNeighbors Knn.tagged
  simp only
  split
  · rfl
  · split
    · rfl
    · by_cases hk : k < k'
      · simp only [hk, if_true]
        cases m with
        | none => rfl
        | some t =>
          cases c with
          | none => simp only; split <;> rfl
          | some g => rfl
      · simp only [hk, if_false]
        cases m with
        | none => rfl
        | some t =>
          cases g with
          | none => simp only; split <;> rfl
          | some g => rfl

theorem knn_query_tagged (a b : P) (s : Knn P K) :
    s.tagged.query (w.tagged td) (ask a) (ask b) =
      ((s.query w a b).1.tagged, (s.query w a b).2.map fun x => (x.1, x.2.map tag)) := by
  obtain ⟨maxK, k, tr, connR, cert, S, g, m, c, dr⟩ := s
  unfold Knn.query Knn.tagged
  cases S with
  | none => rfl
  | some S =>
    cases h : connR.or cert with
    | none => rfl
    | some r =>
      cases g with
      | none => rfl
      | some g =>
        simp only [Option.map_some, tagged_querySamples, tagged_solve]

theorem knn_step_tagged (s : Knn P K) (o : Knn.Op P K) : s.tagged.step (w.tagged td) o.tagged = (s.step w o).tagged := by
  cases o with
  | grow n => exact congrArg Prod.fst (knn_grow_tagged w td n s)
  | setRadius r => exact congrArg Prod.fst (knn_setRadius_tagged w td r s)
  | setNeighbors k => exact congrArg Prod.fst (knn_setNeighbors_tagged k s)
  | query a b => exact congrArg Prod.fst (knn_query_tagged w td a b s)
  | reset => rfl

theorem knn_run_tagged (s : Knn P K) (ops : List (Knn.Op P K)) : s.tagged.run (w.tagged td) (ops.map Knn.Op.tagged) = (s.run w ops).tagged := by
  induction ops generalizing s with
  | nil => rfl
  | cons o ops ih =>
    have h1 : s.tagged.run (w.tagged td) ((o :: ops).map Knn.Op.tagged) = (s.tagged.step (w.tagged td) o.tagged).run (w.tagged td) (ops.map Knn.Op.tagged) := rfl
    rw [h1, knn_step_tagged, ih]
    rfl

theorem knn_init_tagged (k : ℕ) (tr : Bool) (d : ℕ) : (Knn.init k tr d : Knn P K).tagged = Knn.init k tr d := rfl

/-! ### Radius PRM -/

/-- The object with tagged samples. -/
def Rad.tagged (s : Rad P K) : Rad (P × Bool) K :=
  ⟨s.connR, s.k, s.maxK, s.samples.map (List.map tag), s.graph, s.ann.map fun a => (a.1.map tag, a.2), s.drawn⟩

/-- The call with tagged points. -/
def Rad.Op.tagged : Rad.Op P → Rad.Op (P × Bool)
  | .grow n => .grow n
  | .query a b => .query (ask a) (ask b)
  | .reset => .reset

theorem indexBody_tagged (r : K) (maxK : ℕ) (S : List P) : Rad.indexBody (w.tagged td) r maxK (S.map tag) = Rad.indexBody w r maxK S := by
  funext k
  unfold Rad.indexBody
  simp only [tagged_knn, List.length_map]

theorem rad_grow_tagged (n : ℕ) (s : Rad P K) : s.tagged.grow (w.tagged td) n = ((s.grow w n).1.tagged, (s.grow w n).2) := by
  obtain ⟨connR, k, maxK, S, g, ann, dr⟩ := s
  unfold Rad.grow Rad.tagged
  cases S with
  | none =>
    simp only [Option.map_none, tagged_fresh, indexBody_tagged]
    cases loop (Rad.indexBody w connR maxK (w.fresh dr n)) (n + 1) k with
    | none => rfl
    | some x =>
      obtain ⟨t, k'⟩ := x
      simp only [tagged_tableGraph]
      cases w.tableGraph (w.fresh dr n) t 0 none <;> rfl
  | some old =>
    simp only [Option.map_some, tagged_fresh, List.length_map, ← List.map_append]
    split
    · rfl
    · cases ann with
      | none => rfl
      | some x =>
        obtain ⟨data, ka⟩ := x
        simp only [Option.map_some, tagged_knnUpdate, tagged_tableGraph, ← List.map_append, tagged_knn]
        split
        · cases g with
          | none => rfl
          | some g =>
            simp only
            cases w.tableGraph (old ++ w.fresh dr (n - old.length)) (w.knnUpdate data (w.fresh dr (n - old.length)) ka) old.length (some connR) <;> rfl
        · cases w.tableGraph (old ++ w.fresh dr (n - old.length)) (w.knn (old ++ w.fresh dr (n - old.length)) (k * 2)) 0 (some connR) <;> rfl

theorem rad_query_tagged (a b : P) (s : Rad P K) :
    s.tagged.query (w.tagged td) (ask a) (ask b) =
      ((s.query w a b).1.tagged, (s.query w a b).2.map fun x => (x.1, x.2.map tag)) := by
  obtain ⟨connR, k, maxK, S, g, ann, dr⟩ := s
  unfold Rad.query Rad.tagged
  cases S with
  | none => rfl
  | some S =>
    cases g with
    | none => rfl
    | some g => simp only [Option.map_some, tagged_querySamples, tagged_solve]

theorem rad_step_tagged (s : Rad P K) (o : Rad.Op P) : s.tagged.step (w.tagged td) o.tagged = (s.step w o).tagged := by
  cases o with
  | grow n => exact congrArg Prod.fst (rad_grow_tagged w td n s)
  | query a b => exact congrArg Prod.fst (rad_query_tagged w td a b s)
  | reset => rfl

theorem rad_run_tagged (s : Rad P K) (ops : List (Rad.Op P)) : s.tagged.run (w.tagged td) (ops.map Rad.Op.tagged) = (s.run w ops).tagged := by
  induction ops generalizing s with
  | nil => rfl
  | cons o ops ih =>
    have h1 : s.tagged.run (w.tagged td) ((o :: ops).map Rad.Op.tagged) = (s.tagged.step (w.tagged td) o.tagged).run (w.tagged td) (ops.map Rad.Op.tagged) := rfl
    rw [h1, rad_step_tagged, ih]
    rfl

theorem rad_init_tagged (r : K) (maxK d : ℕ) : (Rad.init r maxK d : Rad P K).tagged = Rad.init r maxK d := rfl

/-! ### Specifications -/

section
variable [AddCommGroup K] {w td}

theorem untagged_table (S : List (P × Bool)) : (w.tagged td).TrueTable S (List.replicate S.length []) := by
  refine ⟨by simp, fun i row hi c hc => ?_⟩
  rw [List.getElem?_replicate] at hi
  split at hi
  · cases hi
    cases hc
  · cases hi

theorem tagged_table {S : List (P × Bool)} (hS : S.all (·.2) = true) {t : Table K} (h : TableOf td (S.map Prod.fst) t) :
    (w.tagged td).TrueTable S t := by
  refine ⟨by rw [h.1, List.length_map], fun i row hi c hc => ?_⟩
  obtain ⟨p, q, hp, hq, hd⟩ := h.2 i row hi c hc
  rw [List.getElem?_map, Option.map_eq_some_iff] at hp hq
  obtain ⟨p', hp', rfl⟩ := hp
  obtain ⟨q', hq', rfl⟩ := hq
  refine ⟨p', q', hp', hq', ?_⟩
  rw [List.all_eq_true] at hS
  simp only [World.tagged, hS p' (List.mem_of_getElem? hp'), hS q' (List.mem_of_getElem? hq'), Bool.and_self, if_true, hd]

theorem tagged_sound (h : w.SoundWith td) : (w.tagged td).Sound where
  dist_symm p q := by
    simp only [World.tagged, Bool.and_comm q.2 p.2, h.td_symm q.1 p.1, h.dist_symm q.1 p.1]
  dist_nonneg p q := by
    simp only [World.tagged]
    split
    · exact h.td_nonneg _ _
    · exact h.dist_nonneg _ _
  dijkstra := h.dijkstra
  knn_true S k := by
    simp only [World.tagged]
    split
    · rename_i hS
      exact tagged_table hS (h.knn _ _)
    · exact untagged_table S
  knnUpdate_true S new k := by
    simp only [World.tagged]
    split
    · rename_i hS
      refine tagged_table hS ?_
      rw [List.map_append]
      exact h.knnUpdate _ _ _
    · exact untagged_table _

theorem tagged_accepted (p q : P) (i j : Bool) : (w.tagged td).Accepted (p, i) (q, j) ↔ w.Accepted p q := Iff.rfl

theorem tagged_linked {S : List P} {r : K} {q : P} {i : ℕ} : (w.tagged td).Linked (S.map tag) r (ask q) i ↔ w.Linked S r q i := by
  unfold World.Linked
  constructor
  · rintro ⟨p, hp, h1, h2⟩
    rw [List.getElem?_map, Option.map_eq_some_iff] at hp
    obtain ⟨p', hp', rfl⟩ := hp
    exact ⟨p', hp', h1, h2⟩
  · rintro ⟨p, hp, h1, h2⟩
    refine ⟨tag p, by rw [List.getElem?_map, hp]; rfl, h1, h2⟩

theorem points_tagged {S : List P} {ids : List ℕ} {pts : List (P × Bool)} (h : List.Forall₂ (fun i p => (S.map tag)[i]? = some p) ids pts) :
    ∃ pts₀, pts = pts₀.map tag ∧ List.Forall₂ (fun i p => S[i]? = some p) ids pts₀ := by
  induction h with
  | nil => exact ⟨[], rfl, .nil⟩
  | cons h1 h2 ih =>
    obtain ⟨pts₀, rfl, h3⟩ := ih
    rw [List.getElem?_map, Option.map_eq_some_iff] at h1
    obtain ⟨p, hp, rfl⟩ := h1
    exact ⟨p :: pts₀, rfl, .cons hp h3⟩

theorem tagged_route {S : List P} {g : NkGraph K} {r : K} {a b : P} {ids : List ℕ} {pts : List P} (h : w.Route S g r a b ids pts) :
    (w.tagged td).Route (S.map tag) g r (ask a) (ask b) ids (pts.map tag) := by
  refine ⟨h.nonempty, ?_, fun i hi => tagged_linked.2 (h.first i hi), fun i hi => tagged_linked.2 (h.last i hi), h.edges⟩
  rw [List.forall₂_map_right_iff]
  exact h.points.imp fun i p hp => by rw [List.getElem?_map, hp]; rfl

theorem route_untagged {S : List P} {g : NkGraph K} {r : K} {a b : P} {ids : List ℕ} {pts : List (P × Bool)}
    (h : (w.tagged td).Route (S.map tag) g r (ask a) (ask b) ids pts) : ∃ pts₀, pts = pts₀.map tag ∧ w.Route S g r a b ids pts₀ := by
  obtain ⟨pts₀, rfl, h1⟩ := points_tagged h.points
  exact ⟨pts₀, rfl, h.nonempty, h1, fun i hi => tagged_linked.1 (h.first i hi), fun i hi => tagged_linked.1 (h.last i hi), h.edges⟩

theorem tagged_length_to (b : P) (l : List P) : ∀ p : P,
    pathLength (w.tagged td).dist ((p :: l).map tag ++ [ask b]) = pathLength td (p :: l) + w.dist ((p :: l).getLast (List.cons_ne_nil p l)) b := by
  induction l with
  | nil => intro p; simp [pathLength, World.tagged, tag, ask]
  | cons q l ih =>
    intro p
    have h1 : pathLength (w.tagged td).dist ((p :: q :: l).map tag ++ [ask b]) =
        td p q + pathLength (w.tagged td).dist ((q :: l).map tag ++ [ask b]) := rfl
    have h2 : pathLength td (p :: q :: l) = td p q + pathLength td (q :: l) := rfl
    rw [h1, ih, h2, List.getLast_cons (List.cons_ne_nil q l), add_assoc]

theorem tagged_length (a b : P) {pts : List P} (h : pts ≠ []) :
    pathLength (w.tagged td).dist (ask a :: pts.map tag ++ [ask b]) = routeLength w.dist td a b pts := by
  cases pts with
  | nil => exact absurd rfl h
  | cons p l =>
    have h1 : pathLength (w.tagged td).dist (ask a :: (p :: l).map tag ++ [ask b]) =
        w.dist a p + pathLength (w.tagged td).dist ((p :: l).map tag ++ [ask b]) := rfl
    rw [h1, tagged_length_to]
    simp only [routeLength, add_assoc]

theorem isChain_accepted_untagged (l : List (P × Bool)) (h : l.IsChain (w.tagged td).Accepted) : (l.map Prod.fst).IsChain w.Accepted := by
  rw [List.isChain_map]
  exact h

end

end Verif.Prm
