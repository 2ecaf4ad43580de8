import Verif.Lemmas.Tagged
import Verif.Lemmas.KnnRoute
import Verif.Spec.NearWorld

/-! The k-NN PRM with two distances: chains of samples are found. -/

namespace Verif.Net

open Verif.Prm Verif.Spec Verif.Props

section General

variable {P K : Type*} [LinearOrder K] [AddCommGroup K] {w : World P K} {td : P → P → K}

theorem tagged_exact {S : List P} {k : ℕ} (h : { w with dist := td }.ExactTable S k (w.knn S k)) :
    (w.tagged td).ExactTable (S.map tag) k ((w.tagged td).knn (S.map tag) k) := by
  rw [tagged_knn]
  refine ⟨fun i j row p q hi hp hq hij hno c hc => ?_, fun i row hi => ?_, h.distinct⟩
  · rw [List.getElem?_map, Option.map_eq_some_iff] at hp hq
    obtain ⟨p', hp', rfl⟩ := hp
    obtain ⟨q', hq', rfl⟩ := hq
    exact h.near i j row p' q' hi hp' hq' hij hno c hc
  · rw [List.length_map]
    exact h.full i row hi

/-- The query after a growth, for a chain of samples in which the library's distances are below the certified radius. -/
theorem knn_route_with (hw : w.SoundWith td) (hv : w.VisitsExisting) (hd : ∀ p, w.dist p p = 0) (ht : ∀ p, td p p = 0) {k m d : ℕ}
    (hx : { w with dist := td }.ExactTable (w.fresh (d + 1) m) (min (m - 1) k) (w.knn (w.fresh (d + 1) m) (min (m - 1) k)))
    {ops rs : List (Knn.Op P K)} {tr : Bool} {r : K}
    (hops : ∀ o ∈ ops, o ≠ .reset ∧ ∀ k', o ≠ .setNeighbors k') (hok : (((Knn.init k tr d).run w ops).grow w m).2 = .ok ())
    (hrs : ∀ o ∈ rs, (∃ r', o = .setRadius r' ∧ r ≤ r') ∨ ∃ a b, o = .query a b)
    (hcert : ∀ x, Knn.certify (w.knn (w.fresh (d + 1) m) (min (m - 1) k)) = .ok x → r ≤ x) {a b : P} {pts : List P}
    (hne : pts ≠ []) (hmem : ∀ p ∈ pts, p ∈ w.fresh (d + 1) m)
    (hfirst : ∀ p, pts.head? = some p → w.dist p a ≤ r ∧ w.check a p = true)
    (hlast : ∀ p, pts.getLast? = some p → w.dist p b ≤ r ∧ w.check b p = true)
    (hhops : pts.IsChain fun p q => td p q < r ∧ w.Accepted p q) :
    ∃ (len : K) (pts' : List P),
      (((Knn.init k tr d).run w (ops ++ .grow m :: rs)).query w a b).2 = .ok ((len : WithTop K), pts') ∧ pts' ≠ [] ∧
      len ≤ routeLength w.dist td a b pts := by
  have hrun := fun l => knn_run_tagged w td (Knn.init k tr d) l
  simp only [knn_init_tagged] at hrun
  obtain ⟨len, pts', h1, h2, h3⟩ := knn_route (w := w.tagged td) (tagged_sound hw) hv (k := k) (m := m) (d := d)
    (ops := ops.map Knn.Op.tagged) (rs := rs.map Knn.Op.tagged) (tr := tr) (r := r) (a := ask a) (b := ask b) (pts := pts.map tag)
    (by
      rintro ⟨p, t⟩
      simp only [World.tagged]
      split
      · exact ht p
      · exact hd p)
    (by rw [tagged_fresh]; exact tagged_exact hx)
    (by
      intro o ho
      obtain ⟨o', ho', rfl⟩ := List.mem_map.1 ho
      obtain ⟨e1, e2⟩ := hops o' ho'
      cases o' with
      | reset => exact absurd rfl e1
      | setNeighbors k' => exact absurd rfl (e2 k')
      | _ => exact ⟨by simp [Knn.Op.tagged], by simp [Knn.Op.tagged]⟩)
    (by rw [hrun, knn_grow_tagged]; exact hok)
    (by
      intro o ho
      obtain ⟨o', ho', rfl⟩ := List.mem_map.1 ho
      rcases hrs o' ho' with ⟨r', rfl, hr'⟩ | ⟨a, b, rfl⟩
      · exact .inl ⟨r', rfl, hr'⟩
      · exact .inr ⟨ask a, ask b, rfl⟩)
    (by rw [tagged_fresh, tagged_knn]; exact hcert)
    (by
      rw [tagged_fresh]
      refine ⟨by simpa using hne, ?_, ?_, ?_, ?_⟩
      · intro p hp
        obtain ⟨p', hp', rfl⟩ := List.mem_map.1 hp
        exact List.mem_map_of_mem (hmem p' hp')
      · intro p hp
        rw [List.head?_map, Option.map_eq_some_iff] at hp
        obtain ⟨p', hp', rfl⟩ := hp
        exact hfirst p' hp'
      · intro p hp
        rw [List.getLast?_map, Option.map_eq_some_iff] at hp
        obtain ⟨p', hp', rfl⟩ := hp
        exact hlast p' hp'
      · rw [List.isChain_map]
        exact hhops.imp fun p q h => ⟨h.1.le, h.2⟩)
    (by
      rw [List.isChain_map]
      exact hhops.imp fun p q h => h.1)
  have hl : ops.map Knn.Op.tagged ++ .grow m :: rs.map Knn.Op.tagged = (ops ++ .grow m :: rs).map Knn.Op.tagged := by
    simp [Knn.Op.tagged]
  rw [hl, hrun, knn_query_tagged] at h1
  rw [tagged_length a b hne] at h3
  cases hq : (((Knn.init k tr d).run w (ops ++ .grow m :: rs)).query w a b).2 with
  | error e => rw [hq] at h1; cases h1
  | ok x =>
    obtain ⟨len', pts₀⟩ := x
    rw [hq] at h1
    simp only [Except.map, Except.ok.injEq, Prod.mk.injEq] at h1
    obtain ⟨rfl, rfl⟩ := h1
    exact ⟨len, pts₀, rfl, by simpa using h2, h3⟩
/-- The certified radius after a growth, with two distances. -/
theorem certified_with (hw : w.SoundWith td) (hv : w.VisitsExisting) {k m d : ℕ} {ops rs : List (Knn.Op P K)} {tr : Bool}
    (hops : ∀ o ∈ ops, o ≠ .reset ∧ ∀ k', o ≠ .setNeighbors k') (hok : (((Knn.init k tr d).run w ops).grow w m).2 = .ok ()) (hrs : RadiusChanges rs) :
    ∃ x, Knn.certify (w.knn (w.fresh (d + 1) m) (min (m - 1) k)) = .ok x ∧
      ((Knn.init k tr d).run w (ops ++ .grow m :: rs)).certified = some x ∧
      ((Knn.init k tr d).run w (ops ++ .grow m :: rs)).samples = some (w.fresh (d + 1) m) := by
  have hrunT := fun l => knn_run_tagged w td (Knn.init k tr d) l
  simp only [knn_init_tagged] at hrunT
  have hsT := tagged_sound hw
  obtain ⟨x, h1, h2, -⟩ := grow_kept' (w := w.tagged td) hsT hv
    (knnDraws_run (knnDraws_init (w.tagged td) k tr d) (ops.map Knn.Op.tagged) (by
      intro o ho
      obtain ⟨o', ho', rfl⟩ := List.mem_map.1 ho
      obtain ⟨e1, e2⟩ := hops o' ho'
      cases o' with
      | reset => exact absurd rfl e1
      | setNeighbors k' => exact absurd rfl (e2 k')
      | _ => exact ⟨by simp [Knn.Op.tagged], by simp [Knn.Op.tagged]⟩)) (n := m) (by rw [hrunT, knn_grow_tagged]; exact hok)
  have hrs' : RadiusChanges (rs.map Knn.Op.tagged) := by
    intro o ho
    obtain ⟨o', ho', rfl⟩ := List.mem_map.1 ho
    rcases hrs o' ho' with ⟨r', rfl⟩ | ⟨a, b, rfl⟩
    · exact .inl ⟨r', rfl⟩
    · exact .inr ⟨ask a, ask b, rfl⟩
  have h3 := knn_kept_run hsT hv (hsT.knn_true _ _) hrs' h2
  have hrun : (Knn.init k tr d).run w (ops ++ .grow m :: rs) = (((Knn.init k tr d).run w ops).grow w m).1.run w rs := by
    simp [Knn.run, Knn.step]
  refine ⟨x, by rwa [tagged_fresh, tagged_knn] at h1, ?_⟩
  have h4 := h3.2.2.2.1
  rw [hrunT, knn_grow_tagged, knn_run_tagged] at h4
  have h5 := h3.1
  rw [hrunT, knn_grow_tagged, knn_run_tagged, tagged_fresh] at h5
  rw [hrun]
  refine ⟨h4, ?_⟩
  obtain ⟨S, hS, hm⟩ := Option.map_eq_some_iff.1 (show Option.map (List.map tag) _ = _ from h5)
  rw [hS, List.map_injective_iff.2 (fun p q h => congrArg Prod.fst h) hm]

end General

/-- If the certified radius is below `r`, some sample has `k` or more others closer than `s`, when `r` exceeds `s` by the errors. -/
theorem many_near_with {Ω E P : Type*} [PseudoMetricSpace E] {X : ℕ → Ω → E} {ω : Ω} {w : World P ℝ} {td : P → P → ℝ} (hw : w.SoundWith td) {d n k : ℕ}
    (hk : k + 1 ≤ n) {x r s : ℝ} (hnear : ∀ i < n, ∀ j < n, td (w.draw (d + i)) (w.draw (d + j)) < r → dist (X (d + j) ω) (X (d + i) ω) < s)
    (hx : { w with dist := td }.ExactTable (w.fresh d n) (min (n - 1) k) (w.knn (w.fresh d n) (min (n - 1) k)))
    (hsort : SortedRows (w.knn (w.fresh d n) (min (n - 1) k)))
    (hc : Knn.certify (w.knn (w.fresh d n) (min (n - 1) k)) = .ok x) (hlt : x < r) : ∃ i < n, k ≤ neighbours X d n s ω i := by
  refine many_near (w := w.tagged td) (tagged_sound hw) hk (x := x) (r := r) ?_ ?_ ?_ ?_ hlt
  · intro i hi j hj h
    exact hnear i hi j hj h
  · rw [tagged_fresh]
    exact tagged_exact hx
  · rw [tagged_fresh, tagged_knn]
    exact hsort
  · rw [tagged_fresh, tagged_knn]
    exact hc

end Verif.Net
