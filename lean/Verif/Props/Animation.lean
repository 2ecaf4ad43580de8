import Verif.Model.Animation
import Verif.Props.PrmKnn

/-! C113: the animation of a roadmap. -/

namespace Verif.Props

open Verif Verif.Anim Verif.Prm

variable {P : Type*}

/-- The lines of the edges `E` between the samples `S`, in this order. -/
def EdgeLines (S : List P) (E : List (ℕ × ℕ)) (L : List (P × P)) : Prop :=
  List.Forall₂ (fun e l => S[e.1]? = some l.1 ∧ S[e.2]? = some l.2) E L

/-- The segments of a path. -/
def segments (sol : List P) : List (P × P) := sol.zip sol.tail

theorem play_append (S sol : List P) (f g : List Frame) (c : Canvas P) :
    play S sol (f ++ g) c = match play S sol f c with
      | .error e => .error e
      | .ok c' => play S sol g c' := by
  induction f generalizing c with
  | nil => rfl
  | cons x f ih =>
    rw [List.cons_append, play, play]
    cases update S sol c x with
    | error e => rfl
    | ok c' => exact ih c'

theorem slices_all (E : List (ℕ × ℕ)) (b k : ℕ) : (List.range k).flatMap (slice E b) = E.take (k * b) := by
  induction k with
  | zero => simp
  | succ k ih =>
    rw [List.range_succ, List.flatMap_append, ih, Nat.succ_mul, List.take_add]
    simp [slice]

theorem drawEdges_lines (S : List P) (E : List (ℕ × ℕ)) (L : List (P × P)) (h : EdgeLines S E L) (c : Canvas P) :
    drawEdges S E c = .ok { c with lines := c.lines ++ L.map fun l => (l, .blue) } := by
  induction h generalizing c with
  | nil => simp [drawEdges]
  | cons h _ ih =>
    unfold drawEdges
    rw [h.1, h.2]
    dsimp only
    rw [ih]
    simp

theorem drawEdges_append (S : List P) (E F : List (ℕ × ℕ)) (c : Canvas P) :
    drawEdges S (E ++ F) c = match drawEdges S E c with
      | .error e => .error e
      | .ok c' => drawEdges S F c' := by
  induction E generalizing c with
  | nil => rfl
  | cons e E ih =>
    rw [List.cons_append, drawEdges, drawEdges]
    cases S[e.1]? with
    | none => rfl
    | some u =>
      cases S[e.2]? with
      | none => rfl
      | some v => exact ih _

theorem play_connecting (S sol : List P) (fs : List (List (ℕ × ℕ))) (c : Canvas P) :
    play S sol (fs.map Frame.connecting) c = drawEdges S fs.flatten c := by
  induction fs generalizing c with
  | nil => rfl
  | cons es fs ih =>
    rw [List.map_cons, List.flatten_cons, drawEdges_append, play]
    change (match drawEdges S es c with
      | .error e => _
      | .ok c' => _) = _
    cases drawEdges S es c with
    | error e => rfl
    | ok c' => exact ih c'

theorem edgeLines_exist (S : List P) (E : List (ℕ × ℕ)) (h : ∀ e ∈ E, e.1 < S.length ∧ e.2 < S.length) : ∃ L, EdgeLines S E L := by
  induction E with
  | nil => exact ⟨[], .nil⟩
  | cons e E ih =>
    obtain ⟨L, hL⟩ := ih fun x hx => h x (by simp [hx])
    obtain ⟨h1, h2⟩ := h e (by simp)
    exact ⟨(S[e.1], S[e.2]) :: L, .cons ⟨List.getElem?_eq_getElem h1, List.getElem?_eq_getElem h2⟩ hL⟩

theorem play_sampling (S sol : List P) (k b : ℕ) (c : Canvas P) :
    play S sol ((List.range (k + 1)).map fun i => Frame.sampling ((i + 1) * b)) c = .ok { c with points := S.take ((k + 1) * b) } := by
  induction k with
  | zero => rfl
  | succ k ih =>
    rw [List.range_succ, List.map_append, play_append, ih]
    rfl

theorem play_path (S sol : List P) (k : ℕ) (hk : k + 1 ≤ sol.length) (c : Canvas P) :
    play S sol ((List.range k).map Frame.pathing) c = .ok { c with lines := c.lines ++ ((segments sol).take k).map fun l => (l, .lime) } := by
  induction k with
  | zero => simp [play]
  | succ k ih =>
    rw [List.range_succ, List.map_append, play_append, ih (by omega)]
    dsimp only
    have h1 : k < sol.length := by omega
    have h2 : k + 1 < sol.length := by omega
    have h3 : (segments sol)[k]? = some (sol[k], sol[k + 1]) := by
      unfold segments
      rw [List.getElem?_zip_eq_some]
      refine ⟨List.getElem?_eq_getElem h1, ?_⟩
      rw [List.getElem?_tail, List.getElem?_eq_getElem h2]
    simp only [List.map_cons, List.map_nil, play, update, List.getElem?_eq_getElem h1, List.getElem?_eq_getElem h2]
    rw [List.take_add_one, h3]
    simp

theorem play_hold (S sol : List P) (k : ℕ) (c : Canvas P) : play S sol (List.replicate k .hold) c = .ok c := by
  induction k with
  | zero => rfl
  | succ k ih => rw [List.replicate_succ, play]; exact ih

theorem play_red (S sol : List P) (k : ℕ) (c : Canvas P) : play S sol (List.replicate (k + 1) .nonPathing) c =
    .ok ⟨c.points, .red, c.lines.map fun l => (l.1, .red)⟩ := by
  induction k generalizing c with
  | zero => rfl
  | succ k ih =>
    rw [List.replicate_succ, play]
    dsimp only [update]
    rw [ih]
    simp

theorem length_segments (sol : List P) : (segments sol).length = sol.length - 1 := by
  simp [segments]

/-- C113: the animation ends with all samples, all edges, each drawn once, and all segments of the solution; without a solution
everything is red. -/
theorem C113_final (S : List P) (E : List (ℕ × ℕ)) (hE : ∀ e ∈ E, e.1 < S.length ∧ e.2 < S.length) (sol : List P) {nb eb : ℕ}
    (hn : 0 < nb) (he : 0 < eb) :
    ∃ L, EdgeLines S E L ∧ animate S S.length E sol nb eb = .ok
      (if sol = [] then ⟨S, .red, L.map fun l => (l, .red)⟩
        else ⟨S, .blue, (L.map fun l => (l, .blue)) ++ (segments sol).map fun l => (l, .lime)⟩) := by
  obtain ⟨L, hL⟩ := edgeLines_exist S E hE
  refine ⟨L, hL, ?_⟩
  have htake : S.take ((S.length / nb + 1) * nb) = S := by
    apply List.take_of_length_le
    have := Nat.lt_div_mul_add hn (a := S.length)
    rw [Nat.succ_mul]
    omega
  have hslices : ((List.range (E.length / eb + 1)).map (slice E eb)).flatten = E := by
    rw [← List.flatMap_def, slices_all]
    apply List.take_of_length_le
    have := Nat.lt_div_mul_add he (a := E.length)
    rw [Nat.succ_mul]
    omega
  have hhead : ∀ (rest : List Frame) (k b : ℕ), (((List.range (k + 1)).map fun i => Frame.sampling ((i + 1) * b)) ++ rest).head?.toList =
      [Frame.sampling b] := by
    intro rest k b
    rw [List.range_succ_eq_map]
    simp
  unfold animate frames
  rw [if_neg (by omega), if_neg (by omega)]
  dsimp only
  rw [List.append_assoc, List.append_assoc, hhead, List.singleton_append, play]
  dsimp only [update]
  rw [play_append, play_sampling, htake]
  dsimp only
  have hconn : (List.range (E.length / eb + 1)).map (fun i => Frame.connecting (slice E eb i)) =
      ((List.range (E.length / eb + 1)).map (slice E eb)).map Frame.connecting := by rw [List.map_map]; rfl
  rw [play_append, hconn, play_connecting, hslices, drawEdges_lines S E L hL]
  dsimp only [Canvas.empty]
  rw [play_append]
  cases sol with
  | nil =>
    rw [if_neg (by simp), if_pos rfl, play_red]
    dsimp only
    rw [play_hold]
    simp
  | cons p sol =>
    rw [if_pos (by simp), if_neg (by simp), play_path S (p :: sol) _ (by simp)]
    dsimp only
    rw [play_hold, List.take_of_length_le (Nat.le_of_eq (length_segments _))]
    simp

theorem update_lines {S sol : List P} {c c' : Canvas P} {f : Frame} (h : update S sol c f = .ok c') :
    c.lines.map Prod.fst <+: c'.lines.map Prod.fst := by
  have hd : ∀ (es : List (ℕ × ℕ)) (c c' : Canvas P), drawEdges S es c = .ok c' → c.lines.map Prod.fst <+: c'.lines.map Prod.fst := by
    intro es
    induction es with
    | nil => intro c c' h; cases h; exact List.prefix_rfl
    | cons e es ih =>
      intro c c' h
      unfold drawEdges at h
      split at h
      · exact List.IsPrefix.trans (by simp) (ih _ _ h)
      · cases h
  cases f with
  | sampling k => cases h; exact List.prefix_rfl
  | connecting es => exact hd es c c' h
  | pathing i =>
    rw [update] at h
    split at h
    · cases h; simp
    · cases h
  | nonPathing => cases h; simp [Function.comp_def]
  | hold => cases h; exact List.prefix_rfl

theorem play_lines {S sol : List P} (fs : List Frame) {c c' : Canvas P} (h : play S sol fs c = .ok c') :
    c.lines.map Prod.fst <+: c'.lines.map Prod.fst := by
  induction fs generalizing c with
  | nil => cases h; exact List.prefix_rfl
  | cons f fs ih =>
    rw [play] at h
    cases hu : update S sol c f with
    | error e => rw [hu] at h; cases h
    | ok d =>
      rw [hu] at h
      exact (update_lines hu).trans (ih h)

theorem play_only_sampling (S sol : List P) (fs : List Frame) (hs : ∀ f ∈ fs, ∃ k, f = .sampling k) {c c' : Canvas P} (h0 : c.points <+: S)
    (h : play S sol fs c = .ok c') : c'.points <+: S ∧ c'.lines = c.lines := by
  induction fs generalizing c with
  | nil => cases h; exact ⟨h0, rfl⟩
  | cons f fs ih =>
    obtain ⟨k, rfl⟩ := hs f (by simp)
    exact ih (c := { c with points := S.take k }) (fun f hf => hs f (by simp [hf])) (List.take_prefix k S) h

theorem play_no_sampling (S sol : List P) (fs : List Frame) (hs : ∀ f ∈ fs, ∀ k, f ≠ .sampling k) {c c' : Canvas P}
    (h : play S sol fs c = .ok c') : c'.points = c.points := by
  have hd : ∀ (es : List (ℕ × ℕ)) (c c' : Canvas P), drawEdges S es c = .ok c' → c'.points = c.points := by
    intro es
    induction es with
    | nil => intro c c' h; cases h; rfl
    | cons e es ih =>
      intro c c' h
      rw [drawEdges] at h
      split at h
      · have := ih _ _ h
        exact this
      · cases h
  induction fs generalizing c with
  | nil => cases h; rfl
  | cons f fs ih =>
    rw [play] at h
    cases hu : update S sol c f with
    | error e => rw [hu] at h; cases h
    | ok d =>
      rw [hu] at h
      rw [ih (fun f hf => hs f (by simp [hf])) h]
      cases f with
      | sampling k => exact absurd rfl (hs _ (by simp) k)
      | connecting es => exact hd es c d hu
      | pathing i =>
        rw [update] at hu
        split at hu
        · cases hu; rfl
        · cases hu
      | nonPathing => cases hu; rfl
      | hold => cases hu; rfl

/-- C113: at every moment of the animation only samples, edges and segments of the solution are shown, in their order, and lines appear
only after all samples are shown. -/
theorem C113_moments (S : List P) (E : List (ℕ × ℕ)) (hE : ∀ e ∈ E, e.1 < S.length ∧ e.2 < S.length) (sol : List P) {nb eb : ℕ}
    (hn : 0 < nb) (he : 0 < eb) {fs : List Frame} (hf : frames S.length E sol.length nb eb = .ok fs) (k : ℕ) :
    ∃ c L, play S sol ((fs.head?.toList ++ fs).take k) .empty = .ok c ∧ EdgeLines S E L ∧ c.points <+: S ∧
      c.lines.map Prod.fst <+: L ++ segments sol ∧ (c.lines ≠ [] → c.points = S) := by
  obtain ⟨L, hL, hall⟩ := C113_final S E hE sol hn he
  unfold animate at hall
  rw [hf] at hall
  dsimp only at hall
  generalize hc : (if sol = [] then (⟨S, .red, L.map fun l => (l, .red)⟩ : Canvas P)
    else ⟨S, .blue, (L.map fun l => (l, .blue)) ++ (segments sol).map fun l => (l, .lime)⟩) = cf at hall
  have hcf : cf.points = S ∧ cf.lines.map Prod.fst <+: L ++ segments sol := by
    subst hc
    split_ifs with h
    · simp [Function.comp_def]
    · simp [Function.comp_def]
  rw [← List.take_append_drop k (fs.head?.toList ++ fs), play_append] at hall
  cases hp : play S sol ((fs.head?.toList ++ fs).take k) Canvas.empty with
  | error e => rw [hp] at hall; cases hall
  | ok c =>
    rw [hp] at hall
    have hpre := (play_lines _ hall).trans hcf.2
    have hpts : c.points <+: S ∧ (c.lines ≠ [] → c.points = S) := by
      unfold frames at hf
      rw [if_neg (by omega), if_neg (by omega)] at hf
      cases hf
      rw [List.append_assoc, List.append_assoc] at hp hall
      generalize hA : (List.range (S.length / nb + 1)).map (fun i => Frame.sampling ((i + 1) * nb)) = A at hp hall
      generalize hB : (List.range (E.length / eb + 1)).map (fun i => Frame.connecting (slice E eb i)) ++
        ((if 0 < sol.length then (List.range (sol.length - 1)).map Frame.pathing else List.replicate 10 Frame.nonPathing) ++
          List.replicate 20 Frame.hold) = B at hp hall
      have hAs : ∀ f ∈ A, ∃ k, f = .sampling k := by
        subst hA
        intro f hf
        obtain ⟨i, -, rfl⟩ := List.mem_map.1 hf
        exact ⟨_, rfl⟩
      have hBs : ∀ f ∈ B, ∀ k, f ≠ .sampling k := by
        subst hB
        intro f hf k hk
        subst hk
        rcases List.mem_append.1 hf with hf | hf
        · obtain ⟨i, -, h⟩ := List.mem_map.1 hf
          cases h
        · rcases List.mem_append.1 hf with hf | hf
          · split_ifs at hf
            · obtain ⟨i, -, h⟩ := List.mem_map.1 hf
              cases h
            · cases (List.mem_replicate.1 hf).2
          · cases (List.mem_replicate.1 hf).2
      have hhd : ∀ f ∈ (A ++ B).head?.toList, ∃ k, f = .sampling k := by
        subst hA
        rw [List.range_succ_eq_map]
        intro f hf
        simp at hf
        exact ⟨_, hf⟩
      generalize (A ++ B).head?.toList = H at hp hall hhd
      rw [← List.append_assoc] at hp hall
      have hHA : ∀ f ∈ H ++ A, ∃ k, f = .sampling k := by
        intro f hf
        rcases List.mem_append.1 hf with hf | hf
        · exact hhd f hf
        · exact hAs f hf
      by_cases hk : k ≤ (H ++ A).length
      · rw [List.take_append_of_le_length hk] at hp
        obtain ⟨q1, q2⟩ := play_only_sampling S sol _ (fun f hf => hHA f (List.mem_of_mem_take hf)) (by simp [Canvas.empty]) hp
        exact ⟨q1, fun h => absurd q2 h⟩
      · have hd := play_no_sampling S sol _ (fun f hf => hBs f (by
          rw [List.drop_append, List.drop_of_length_le (by omega), List.nil_append] at hf
          exact List.mem_of_mem_drop hf)) hall
        rw [hcf.1] at hd
        rw [← hd]
        exact ⟨List.prefix_rfl, fun _ => rfl⟩
    exact ⟨c, L, rfl, hL, hpts.1, hpre, hpts.2⟩

/-- `iterEdges()` gives every edge once, in any order and direction. -/
def EdgeOrder {K : Type*} (g : NkGraph K) (E : List (ℕ × ℕ)) : Prop :=
  ∃ L, L.Perm g.edges ∧ List.Forall₂ (fun e x => x = (e.u, e.v) ∨ x = (e.v, e.u)) L E

/-- C113 for k-NN roadmaps: after any history with samples, the animation shows all samples and a blue line for each edge, between two
samples with an accepted motion, and then the segments of the solution. -/
theorem C113_roadmap {P K : Type} [LinearOrder K] [AddCommGroup K] {w : World P K} (hw : w.Sound) (k : ℕ) (tr : Bool) (d : ℕ)
    (ops : List (Knn.Op P K)) {S : List P} {g : NkGraph K} (hS : ((Knn.init k tr d).run w ops).samples = some S)
    (hg : ((Knn.init k tr d).run w ops).graph = some g) {E : List (ℕ × ℕ)} (hE : EdgeOrder g E) (sol : List P) (hsol : sol ≠ []) {nb eb : ℕ}
    (hn : 0 < nb) (he : 0 < eb) :
    ∃ L : List (P × P), animate S (numVertices ((Knn.init k tr d).run w ops).graph) E sol nb eb = .ok
        ⟨S, .blue, (L.map fun l => (l, .blue)) ++ (segments sol).map fun l => (l, .lime)⟩ ∧
      L.length = numEdges ((Knn.init k tr d).run w ops).graph ∧
      ∀ l ∈ L, l.1 ∈ S ∧ l.2 ∈ S ∧ (w.check l.1 l.2 = true ∨ w.check l.2 l.1 = true) := by
  have hck := C25_knn hw k tr d ops hS hg
  have hv := C37_knn hw k tr d ops
  rw [hS] at hv
  rw [hv]
  obtain ⟨G, hG, hGE⟩ := hE
  have hadj : ∀ x ∈ E, ∃ p q, S[x.1]? = some p ∧ S[x.2]? = some q ∧ w.Accepted p q := by
    intro x hx
    obtain ⟨i, hi⟩ := List.mem_iff_getElem?.1 hx
    have hlen := hGE.length_eq
    have hiE := (List.getElem?_eq_some_iff.1 hi).1
    have hrel := (List.forall₂_iff_get.1 hGE).2 i (by omega) hiE
    have hxe : E.get ⟨i, hiE⟩ = x := (List.getElem?_eq_some_iff.1 hi).2
    rw [hxe] at hrel
    have hmem : G.get ⟨i, by omega⟩ ∈ g.edges := hG.mem_iff.1 (List.get_mem ..)
    generalize G.get ⟨i, by omega⟩ = e at hrel hmem
    rcases hrel with rfl | rfl
    · obtain ⟨p, q, h1, h2, -, h4⟩ := hck e.u e.v e.w ⟨e, hmem, by simp, rfl⟩
      exact ⟨p, q, h1, h2, h4⟩
    · obtain ⟨p, q, h1, h2, -, h4⟩ := hck e.v e.u e.w ⟨e, hmem, by simp, rfl⟩
      exact ⟨p, q, h1, h2, h4⟩
  obtain ⟨L, hL, hall⟩ := C113_final S E (fun x hx => by
    obtain ⟨p, q, h1, h2, -⟩ := hadj x hx
    exact ⟨(List.getElem?_eq_some_iff.1 h1).1, (List.getElem?_eq_some_iff.1 h2).1⟩) sol hn he
  rw [if_neg hsol] at hall
  refine ⟨L, hall, ?_, ?_⟩
  · rw [hg]
    change L.length = g.edges.length
    rw [← hL.length_eq, ← hGE.length_eq, hG.length_eq]
  · intro l hl
    obtain ⟨i, hi⟩ := List.mem_iff_getElem?.1 hl
    have hiL := (List.getElem?_eq_some_iff.1 hi).1
    have hlen := hL.length_eq
    have hrel := (List.forall₂_iff_get.1 hL).2 i (by omega) hiL
    have hle : L.get ⟨i, hiL⟩ = l := (List.getElem?_eq_some_iff.1 hi).2
    rw [hle] at hrel
    obtain ⟨p, q, h1, h2, h3⟩ := hadj (E.get ⟨i, by omega⟩) (List.get_mem ..)
    rw [hrel.1] at h1; cases h1
    rw [hrel.2] at h2; cases h2
    exact ⟨List.mem_of_getElem? hrel.1, List.mem_of_getElem? hrel.2, h3⟩

/-- C113 is not vacuous: five samples, three edges, batches of two, with and without a solution; and a batch size of zero. -/
theorem C113_nonvacuous : (∀ e ∈ [(0, 1), (1, 2), (3, 4)], e.1 < [10, 11, 12, 13, 14].length ∧ e.2 < [10, 11, 12, 13, 14].length) ∧
    animate [10, 11, 12, 13, 14] 5 [(0, 1), (1, 2), (3, 4)] [9, 11, 12] 2 2 = .ok ⟨[10, 11, 12, 13, 14], .blue,
      [((10, 11), .blue), ((11, 12), .blue), ((13, 14), .blue), ((9, 11), .lime), ((11, 12), .lime)]⟩ ∧
    animate [10, 11, 12, 13, 14] 5 [(0, 1), (1, 2), (3, 4)] [] 2 2 = .ok ⟨[10, 11, 12, 13, 14], .red,
      [((10, 11), .red), ((11, 12), .red), ((13, 14), .red)]⟩ ∧
    animate [10, 11, 12, 13, 14] 5 [(0, 1)] [] 2 0 = .error .zeroDivision := by
  refine ⟨by decide, by decide +kernel, by decide +kernel, by decide +kernel⟩

end Verif.Props
