import Verif.Lemmas.Batch
import Verif.Props.PrmKnn

/-! Whatever a planning call with a batch checker answers, the motions of the path were accepted. -/

namespace Verif.Prm

variable {P K : Type*} [LinearOrder K] [AddCommGroup K]

theorem tableGraphB_checked {w : World P K} (hw : w.Sound) {check : Batch P} {lo hi : P → P → Bool} (hb : check.Between lo hi) {S : List P} {t : Table K}
    (ht : w.TrueTable S t) {g : NkGraph K} (h : tableGraphB check S t 0 none = .ok g) : (w.withCheck hi).Checked S g ∧ S.length ≤ g.bound := by
  unfold tableGraphB at h
  simp only at h
  split at h
  · rename_i hall
    rw [List.all_eq_true] at hall
    obtain ⟨hlen, hget⟩ := ends_getElem (samples := S) (cs := (candidates t 0).filter fun c => within none c.2.2) (by
      intro c hc
      have := hall c hc
      simpa using this)
    split at h
    · cases h
    · rename_i rs hrs
      have hl := hb.length _ _ hrs
      rw [hlen] at hl
      rw [select_ok hl] at h
      simp only [Except.map, Except.ok.injEq] at h
      subst h
      refine ⟨?_, ?_⟩
      · rintro i j d ⟨e, he, hj, rfl⟩
        rcases addAll_mem he with he | he
        · simp [NkGraph.new] at he
        · obtain ⟨n, h1, h2⟩ := mem_select.1 he
          obtain ⟨p, q, hp, hq, hpq⟩ := hget n _ h1
          simp only at hp hq
          have hacc := hb.upper _ _ _ _ _ hrs hpq h2
          have hc := List.mem_of_mem_filter (List.mem_of_getElem? h1)
          obtain ⟨_, row, hrow, hm⟩ := (mem_candidates ..).1 hc
          obtain ⟨p', q', hp', hq', hd⟩ := ht.2 _ row hrow _ hm
          simp only at hq' hd
          rw [hp] at hp'; cases hp'
          rw [hq] at hq'; cases hq'
          rcases hj with ⟨rfl, rfl⟩ | ⟨rfl, rfl⟩
          · exact ⟨p, q, hp, hq, by first | exact hd | (rw [hd]; exact hw.dist_symm _ _), .inl hacc⟩
          · exact ⟨q, p, hq, hp, by first | exact hd | (rw [hd]; exact hw.dist_symm _ _), .inr hacc⟩
      · have : (addAll (NkGraph.new t.length : NkGraph K) (((candidates t 0).filter fun c => within none c.2.2).zip rs |>.filterMap fun c => if c.2 then some c.1 else none)).bound = S.length := by
          rw [addAll_bound, ← ht.1]; rfl
        exact this.ge
  · cases h

namespace Knn

theorem rebuildB_checked {w : World P K} (hw : w.Sound) {check : Batch P} {lo hi : P → P → Bool} (hb : check.Between lo hi) {s : Knn P K} {S : List P}
    (h : (s.rebuildB w check S).2 = .ok ()) :
    (s.rebuildB w check S).1.samples = some S ∧ ∃ g, (s.rebuildB w check S).1.graph = some g ∧ (w.withCheck hi).Checked S g ∧ S.length ≤ g.bound := by
  unfold rebuildB at h ⊢
  simp only at h ⊢
  split at h
  · cases h
  · rename_i g hg
    obtain ⟨h1, h2⟩ := tableGraphB_checked hw hb (hw.knn_true S _) hg
    split at h
    · cases h
    · rename_i c hc
      split at h
      · rename_i htr
        rw [if_pos htr, Knn.setRadius_eq (g := g) (c := g) (x := c) rfl rfl rfl]
        refine ⟨rfl, _, rfl, Checked.sublist (h := g) ?_ h1, ?_⟩
        · intro e he
          rw [ite_self] at he
          exact (removeAll_sublist _ _).subset he
        · unfold cutGraph
          rw [removeAll_bound, ite_self]
          exact h2
      · rename_i htr
        rw [if_neg htr]
        exact ⟨rfl, g, rfl, h1, h2⟩

theorem growB_checked {w : World P K} (hw : w.Sound) {check : Batch P} {lo hi : P → P → Bool} (hb : check.Between lo hi) {s : Knn P K} {n : ℕ}
    (h : (s.growB w check n).2 = .ok ()) :
    ∃ S g, (s.growB w check n).1.samples = some S ∧ (s.growB w check n).1.graph = some g ∧ (w.withCheck hi).Checked S g ∧ S.length ≤ g.bound := by
  unfold growB at h ⊢
  simp only at h ⊢
  split at h
  · obtain ⟨h1, g, h2, h3⟩ := rebuildB_checked hw hb h
    exact ⟨_, g, h1, h2, h3⟩
  · split at h
    · cases h
    · rename_i hn
      rw [if_neg hn]
      obtain ⟨h1, g, h2, h3⟩ := rebuildB_checked hw hb h
      exact ⟨_, g, h1, h2, h3⟩

omit [AddCommGroup K] in
theorem querySamplesB_upper {w : World P K} {check : Batch P} {lo hi : P → P → Bool} (hb : check.Between lo hi) {S : List P} {r : K} {q : P} {sn : List (ℕ × K)}
    (h : w.querySamplesB check S r q = .ok sn) : ∀ c ∈ sn, c ∈ (w.withCheck hi).querySamples S r q := by
  by_cases hr : w.InReach S r q
  · obtain ⟨sn', h1, -, h2⟩ := querySamplesB_ok hb hr
    rw [h] at h1
    cases h1
    exact h2
  · have h0 : w.near S r q = [] := by
      unfold World.near
      rw [List.filter_eq_nil_iff]
      rintro ⟨p, i⟩ hm hd
      exact hr ⟨p, List.mem_of_getElem? ((mem_zipIdx' _ _ _).1 hm), by simpa using hd⟩
    unfold World.querySamplesB at h
    rw [h0] at h
    split at h
    · cases h
    · rename_i rs hrs
      have hl := hb.length _ _ hrs
      rw [select_ok (by simpa using hl)] at h
      simp only [Except.map, List.zip_nil_left, List.filterMap_nil, List.map_nil, Except.ok.injEq] at h
      subst h
      simp

theorem queryB_checked {w : World P K} (hw : w.Sound) {check : Batch P} {lo hi : P → P → Bool} (hb : check.Between lo hi) {s : Knn P K} {S : List P} {g : NkGraph K}
    (hS : s.samples = some S) (hg : s.graph = some g) (hck : (w.withCheck hi).Checked S g) (hbd : S.length ≤ g.bound) {a b : P} {c : WithTop K} {pts : List P}
    (h : (s.queryB w check a b).2 = .ok (c, pts)) (hne : pts ≠ []) : (a :: pts ++ [b]).IsChain (w.withCheck hi).Accepted := by
  unfold queryB at h
  rw [hS] at h
  split at h
  · cases h
  · cases h
  · rename_i S' r hS' hr
    cases hS'
    split at h
    · cases h
    · rename_i sn hsn
      split at h
      · cases h
      · rename_i gn hgn
        rw [hg] at h
        simp only at h
        have never : ∀ q, (w.withCheck fun _ _ => false).querySamples S r q = [] := by
          intro q
          rw [List.eq_nil_iff_forall_not_mem]
          rintro ⟨j, d⟩ hc
          obtain ⟨p, _, _, h2, _⟩ := (mem_querySamples ..).1 hc
          cases h2
        obtain ⟨d, pts', e, hsol⟩ := solve_between (lo := fun _ _ => false) (gl := NkGraph.new 0) (r := r) (start := a) (goal := b) hw
          (by rintro i j d ⟨e, he, _⟩; simp [NkGraph.new] at he) (fun i j d h => h) (by rintro i j d ⟨e, he, _⟩; simp [NkGraph.new] at he) hck hbd
          (by rw [never]; simp) (querySamplesB_upper hb hsn) (by rw [never]; simp) (querySamplesB_upper hb hgn)
        rw [e] at h
        simp only [Except.ok.injEq, Prod.mk.injEq] at h
        obtain ⟨rfl, rfl⟩ := h
        rcases hsol with ⟨ids, hr', -, -⟩ | ⟨-, h, -⟩
        · exact (Props.route_hops (hw.withCheck hi) hck hr').2.1
        · exact absurd h hne

end Knn

end Verif.Prm

namespace Verif.Anytime

open Verif.Prm

variable {P K F : Type*} [LinearOrder K] [AddCommGroup K] [Field F] [LinearOrder F] [FloorSemiring F]

theorem loopB_sound {w : World P K} (hw : w.Sound) {check : Batch P} {lo hi : P → P → Bool} (hb : check.Between lo hi) {a b : P} {maxS : ℕ} {scale : F → F} {fuel : ℕ} :
    ∀ {s s' : Vars P K F}, (∀ pts, s.path = some pts → pts = []) → loop (bodyB w check a b maxS scale) fuel s = some (s', .ok ()) →
      ∀ pts, s'.path = some pts → pts ≠ [] → (a :: pts ++ [b]).IsChain (w.withCheck hi).Accepted := by
  induction fuel with
  | zero => intro s s' _ h; cases h
  | succ fuel ih =>
    intro s s' h0 h pts hp hne
    unfold loop at h
    cases hbody : bodyB w check a b maxS scale s with
    | done r =>
      rw [hbody] at h
      simp only [Option.some.injEq] at h
      subst h
      unfold bodyB at hbody
      simp only at hbody
      split at hbody
      · split at hbody
        · cases hbody
        · rename_i hok
          split at hbody
          · cases hbody
          · rename_i c path hq
            split at hbody
            · cases hbody
              simp only [Option.some.injEq] at hp
              subst hp
              obtain ⟨S, g, h1, h2, h3, h4⟩ := Knn.growB_checked hw hb hok
              exact Knn.queryB_checked hw hb h1 h2 h3 h4 hq hne
            · cases hbody
      · cases hbody
        exact absurd (h0 pts hp) hne
    | next s1 =>
      rw [hbody] at h
      refine ih ?_ h pts hp hne
      unfold bodyB at hbody
      simp only at hbody
      split at hbody
      · split at hbody
        · cases hbody
        · split at hbody
          · cases hbody
          · split at hbody
            · cases hbody
            · rename_i hlen
              cases hbody
              intro pts' hp'
              simp only [Option.some.injEq] at hp'
              subst hp'
              exact List.length_eq_zero_iff.1 (by omega)
      · cases hbody

theorem planB_sound {w : World P K} (hw : w.Sound) {check : Batch P} {lo hi : P → P → Bool} (hb : check.Between lo hi) {a b : P} {minS maxS : ℕ} {scale : F → F}
    {k : ℕ} {tr : Bool} {d fuel : ℕ} {counts : List ℕ} {path : List P} (h : planB w check a b minS maxS scale k tr d fuel = some (counts, .ok (some path))) :
    ∃ pts, path = a :: pts ++ [b] ∧ pts ≠ [] ∧ (a :: pts ++ [b]).IsChain (w.withCheck hi).Accepted := by
  unfold planB at h
  split at h
  · cases h
  · split at h
    · cases h
    · split at h
      · cases h
      · cases h
      · rename_i s hs
        simp only [Option.some.injEq, Prod.mk.injEq] at h
        obtain ⟨-, h⟩ := h
        unfold finish at h
        split at h
        · cases h
        · cases h
        · rename_i p l hp
          cases h
          exact ⟨p :: l, rfl, by simp, loopB_sound hw hb (by intro pts hp; cases hp) hs _ hp (by simp)⟩

end Verif.Anytime
