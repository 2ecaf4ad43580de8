import Verif.Spec.LineTrial
import Verif.Props.NarrowTrialKnn
import Verif.Lemmas.KnnRadius

/-! C111: the straight-line trial. -/

namespace Verif.Props

open Verif Verif.Prm Verif.Exps

variable {P K : Type} [AddCommGroup K] [LinearOrder K]

omit [AddCommGroup K] in
theorem certify_last {t : Table K} {x : K} (h : Knn.certify t = .ok x) (r : K) :
    r ≤ x ↔ ∀ row ∈ t, ∀ c, row.getLast? = some c → r ≤ c.2 := by
  have hfold : ∀ (cs : List (ℕ × K)) (m : K), r ≤ cs.foldl (fun m d => min m d.2) m ↔ r ≤ m ∧ ∀ c ∈ cs, r ≤ c.2 := by
    intro cs
    induction cs with
    | nil => simp
    | cons c cs ih =>
      intro m
      rw [List.foldl_cons, ih, le_min_iff]
      simp only [List.mem_cons, forall_eq_or_imp]
      tauto
  have hmap : ∀ (t : Table K) (l : List (ℕ × K)), t.mapM (fun row => row.getLast?) = some l →
      ∀ r : K, (∀ c ∈ l, r ≤ c.2) ↔ ∀ row ∈ t, ∀ c, row.getLast? = some c → r ≤ c.2 := by
    intro t
    induction t with
    | nil => intro l hl r; simp at hl; subst hl; simp
    | cons row t ih =>
      intro l hl r
      rw [List.mapM_cons] at hl
      cases h1 : row.getLast? with
      | none => rw [h1] at hl; cases hl
      | some c =>
        rw [h1] at hl
        cases h2 : t.mapM (fun row => row.getLast?) with
        | none => rw [h2] at hl; cases hl
        | some l' =>
          rw [h2] at hl
          cases hl
          simp only [List.mem_cons, forall_eq_or_imp, h1, Option.some.injEq, forall_eq', ih l' h2 r]
  unfold Knn.certify at h
  cases hm : t.mapM (fun row => row.getLast?) with
  | none => rw [hm] at h; cases h
  | some l =>
    rw [hm] at h
    cases l with
    | nil => cases h
    | cons c cs =>
      cases h
      rw [hfold, ← hmap t _ hm r]
      simp

theorem truncateTo_unique (ds : List K) (eff : K) :
    (truncateTo (unique ds) eff).Pairwise (· < ·) ∧ ∀ r, r ∈ truncateTo (unique ds) eff ↔ r ∈ ds ∧ r ≤ eff := by
  refine ⟨(unique_sorted ds).sublist (List.takeWhile_sublist _), fun r => ?_⟩
  rw [C48_truncated _ ((unique_sorted ds).imp fun h => h.le), List.mem_filter, mem_unique]
  simp

/-- The state before a growth to more than `m` samples. -/
structure LineAt (w : World P K) (maxK d : ℕ) (s : Knn P K) (m : ℕ) : Prop where
  k : s.k = maxK
  trunc : s.truncate = true
  drawn : s.drawn = d + 1 + m
  samples : s.samples = some (w.fresh (d + 1) m) ∨ (s.samples = none ∧ m = 0)

theorem line_grow {w : World P K} (hw : w.Sound) (hfull : ∀ (S : List P) (k : ℕ), ∀ row ∈ w.knn S k, row.length = min k (S.length - 1))
    {maxK d m : ℕ} (hmax : 1 ≤ maxK) {s : Knn P K} (h : LineAt w maxK d s m) (n : ℕ) (hn : m < n) (hn2 : 2 ≤ n) :
    ∃ s' rads, lineGrow w n s = (s', .ok rads) ∧ LineAt w maxK d s' n ∧ w.KeptRadii (w.fresh (d + 1) n) maxK rads := by
  obtain ⟨h1, h2, h3, h4⟩ := h
  have ht := hw.knn_true (w.fresh (d + 1) n) (min (n - 1) maxK)
  obtain ⟨c, hc⟩ := certify_full_ok (w.knn (w.fresh (d + 1) n) (min (n - 1) maxK)) (by
      intro hc
      have := ht.1
      rw [hc, fresh_length] at this
      simp at this
      omega) (by
      intro row hrow hc
      have := hfull _ _ row hrow
      rw [hc, fresh_length] at this
      simp at this
      omega)
  have key : ∃ s0 : Knn P K, s0.k = maxK ∧ s0.truncate = true ∧ s0.connR = none ∧ s0.drawn = d + 1 + n ∧
      s.grow w n = Knn.rebuild w s0 (w.fresh (d + 1) n) := by
    rcases h4 with h4 | ⟨h4, rfl⟩
    · refine ⟨{ s with connR := none, drawn := s.drawn + (n - m) }, h1, h2, rfl, by simp only; omega, ?_⟩
      unfold Knn.grow
      simp only [h4, fresh_length]
      rw [if_neg (by omega), h3, fresh_append _ _ _ _ hn.le]
    · refine ⟨{ s with connR := none, drawn := s.drawn + n }, h1, h2, rfl, by simp only; omega, ?_⟩
      unfold Knn.grow
      simp only [h4, h3, Nat.add_zero]
  obtain ⟨s0, e1, e2, e3, e4, e5⟩ := key
  have hreb : ∃ g r, Knn.rebuild w s0 (w.fresh (d + 1) n) =
      ({ s0 with
          samples := some (w.fresh (d + 1) n)
          master := some (w.knn (w.fresh (d + 1) n) (min (n - 1) maxK))
          cache := some (tabGraph w (w.fresh (d + 1) n) (w.knn (w.fresh (d + 1) n) (min (n - 1) maxK)))
          graph := g
          connR := r
          certified := some c }, .ok ()) := by
    unfold Knn.rebuild
    simp only [fresh_length, e1, tableGraph_ok ht, hc, e2, if_true]
    unfold Knn.setRadius
    simp only [Knn.mustReload, e3, Bool.false_and, Bool.false_eq_true, if_false]
    exact ⟨_, _, rfl⟩
  obtain ⟨g, r, hreb⟩ := hreb
  refine ⟨(Knn.rebuild w s0 (w.fresh (d + 1) n)).1,
    truncateTo (unique ((w.knn (w.fresh (d + 1) n) (min (n - 1) maxK)).flatten.map Prod.snd)) c, ?_, ?_, ?_⟩
  · unfold lineGrow
    rw [e5, hreb]
    simp only [e2]
  · rw [hreb]
    exact ⟨e1, e2, e4, Or.inl rfl⟩
  · obtain ⟨t1, t2⟩ := truncateTo_unique ((w.knn (w.fresh (d + 1) n) (min (n - 1) maxK)).flatten.map Prod.snd) c
    refine ⟨t1, fun r => ?_⟩
    rw [t2, certify_last hc]
    unfold World.KeptRadius
    simp only [fresh_length, List.mem_map, List.mem_flatten, Prod.exists, exists_eq_right]
    constructor
    · rintro ⟨⟨j, row, hrow, hj⟩, h⟩
      exact ⟨⟨row, hrow, j, hj⟩, h⟩
    · rintro ⟨⟨row, hrow, j, hj⟩, h⟩
      exact ⟨⟨j, row, hrow, hj⟩, h⟩

omit [AddCommGroup K] in
theorem keptRadii_unique {w : World P K} {S : List P} {maxK : ℕ} {l l' : List K} (h : w.KeptRadii S maxK l) (h' : w.KeptRadii S maxK l') : l = l' := by
  have hp : l.Perm l' := by
    rw [List.perm_ext_iff_of_nodup (h.1.imp fun h => h.ne) (h'.1.imp fun h => h.ne)]
    intro r
    rw [h.2, h'.2]
  exact hp.eq_of_pairwise (fun a b _ _ h1 h2 => absurd h2 (lt_asymm h1)) h.1 h'.1

/-- What the bisection has learnt. -/
def Learnt (rads : List K) (check : K → Except PyErr (Bool × String)) (lb ub : ℤ) : Prop :=
  1 ≤ lb ∧ lb ≤ ub ∧ ub ≤ (rads.length : ℤ) - 1 ∧
    (lb = 1 ∨ ∃ r info, pyGet rads lb = .ok r ∧ check r = .ok (false, info)) ∧
    (ub = (rads.length : ℤ) - 1 ∨ ∃ r info, pyGet rads ub = .ok r ∧ check r = .ok (true, info))

omit [AddCommGroup K] [LinearOrder K] in
theorem line_bisect (rads : List K) (note : K → String) (check : K → Except PyErr (Bool × String)) :
    ∀ (fuel : ℕ) (lb ub : ℤ) (info : String), Learnt rads check lb ub → lb < ub →
      ∀ x y t, loop (lineCheckBody rads note check) fuel (lb, ub, info) = some (.ok (x, y, t)) →
        Learnt rads check x y ∧ y = x + 1 := by
  intro fuel
  induction fuel with
  | zero => intro lb ub info _ _ x y t h; cases h
  | succ fuel ih =>
    intro lb ub info hl hlt x y t h
    rw [loop] at h
    unfold lineCheckBody at h
    simp only at h
    split_ifs at h with h1 h2
    · simp only [Option.some.injEq, Except.ok.injEq, Prod.mk.injEq] at h
      obtain ⟨rfl, rfl, rfl⟩ := h
      exact ⟨hl, h1.symm⟩
    · omega
    · have hm1 : lb < middle lb ub := by unfold middle; omega
      have hm2 : middle lb ub < ub := by unfold middle; omega
      obtain ⟨k1, k2, k3, k4, k5⟩ := hl
      cases hr : pyGet rads (middle lb ub) with
      | error e => rw [hr] at h; cases h
      | ok r =>
        rw [hr] at h
        simp only at h
        cases hc : check r with
        | error e => rw [hc] at h; cases h
        | ok bi =>
          obtain ⟨b, i⟩ := bi
          rw [hc] at h
          cases b with
          | true =>
            simp only [if_true] at h
            exact ih _ _ _ ⟨k1, hm1.le, by omega, k4, Or.inr ⟨r, i, hr, hc⟩⟩ hm1 _ _ _ h
          | false =>
            simp only [Bool.false_eq_true, if_false] at h
            exact ih _ _ _ ⟨by omega, hm2.le, k3, Or.inr ⟨r, i, hr, hc⟩, k5⟩ hm2 _ _ _ h

omit [AddCommGroup K] [LinearOrder K] in
theorem pyGet_inside (l : List K) (i : ℤ) (h0 : 0 ≤ i) (h1 : i < l.length) : ∃ r, pyGet l i = .ok r ∧ l[i.toNat]? = some r := by
  unfold pyGet
  rw [if_neg (by omega), if_neg (by omega)]
  have : i.toNat < l.length := by omega
  rw [List.getElem?_eq_getElem this]
  exact ⟨_, rfl, rfl⟩

omit [AddCommGroup K] [LinearOrder K] in
theorem line_total (rads : List K) (note : K → String) (check : K → Except PyErr (Bool × String)) (hcheck : ∀ r, ∃ b, check r = .ok b) :
    ∀ (fuel : ℕ) (lb ub : ℤ) (info : String), 1 ≤ lb → ub ≤ (rads.length : ℤ) - 1 → ub - lb + 1 ≤ fuel → 1 ≤ fuel →
      ∃ z, loop (lineCheckBody rads note check) fuel (lb, ub, info) = some (.ok z) := by
  intro fuel
  induction fuel with
  | zero => intros; omega
  | succ fuel ih =>
    intro lb ub info h1 h2 h3 _
    rw [loop]
    unfold lineCheckBody
    simp only
    split_ifs with c1 c2
    · exact ⟨_, rfl⟩
    · exact ⟨_, rfl⟩
    · have hm1 : lb < middle lb ub := by unfold middle; omega
      have hm2 : middle lb ub < ub := by unfold middle; omega
      obtain ⟨r, hr, -⟩ := pyGet_inside rads (middle lb ub) (by omega) (by omega)
      obtain ⟨⟨b, i⟩, hb⟩ := hcheck r
      rw [hr]
      simp only [hb]
      cases b with
      | true =>
        simp only [if_true]
        exact ih _ _ _ h1 (by omega) (by push_cast at h3; omega) (by push_cast at h3; omega)
      | false =>
        simp only [Bool.false_eq_true, if_false]
        exact ih _ _ _ (by omega) h2 (by push_cast at h3; omega) (by push_cast at h3; omega)

omit [AddCommGroup K] [LinearOrder K] in
theorem lineAt_init (w : World P K) (maxK d : ℕ) : LineAt w maxK d (Knn.init maxK true d) 0 := ⟨rfl, rfl, rfl, Or.inr ⟨rfl, rfl⟩⟩

/-- C111, partial (the second smallest and the largest radius are recorded without a check): with any completeness check, a row names neighbouring kept radii, the lower one the second smallest or found incomplete, the
upper one the largest or found complete; with two radii the row names the larger one twice. -/
theorem C111_rows_partial {w : World P K} (hw : w.Sound) (hfull : ∀ (S : List P) (k : ℕ), ∀ row ∈ w.knn S k, row.length = min k (S.length - 1))
    {maxK : ℕ} (hmax : 1 ≤ maxK) (note : K → String) (check : Knn P K → K → Except PyErr (Bool × String)) (sched : List ℕ)
    (hs : sched.Pairwise (· < ·)) (h2 : ∀ n ∈ sched, 2 ≤ n) (d : ℕ) {rows : List (LineRow K)}
    (h : lineRows w note check sched (Knn.init maxK true d) = .ok rows) :
    List.Forall₂ (fun n row => row.samples = n ∧ ∃ (s : Knn P K) (kept : List K) (i j : ℕ),
      s.samples = some (w.fresh (d + 1) n) ∧ w.KeptRadii (w.fresh (d + 1) n) maxK kept ∧ kept[i]? = some row.lb ∧ kept[j]? = some row.ub ∧
        ((kept.length = 2 ∧ i = 1 ∧ j = 1) ∨
          (j = i + 1 ∧ 1 ≤ i ∧ (i = 1 ∨ ∃ t, check s row.lb = .ok (false, t)) ∧
            (j + 1 = kept.length ∨ ∃ t, check s row.ub = .ok (true, t))))) sched rows := by
  have key : ∀ (sched : List ℕ), sched.Pairwise (· < ·) → (∀ n ∈ sched, 2 ≤ n) → ∀ (m : ℕ) (s : Knn P K), LineAt w maxK d s m →
      (∀ n ∈ sched, m < n) → ∀ rows, lineRows w note check sched s = .ok rows →
      List.Forall₂ (fun n row => row.samples = n ∧ ∃ (s : Knn P K) (kept : List K) (i j : ℕ),
      s.samples = some (w.fresh (d + 1) n) ∧ w.KeptRadii (w.fresh (d + 1) n) maxK kept ∧ kept[i]? = some row.lb ∧ kept[j]? = some row.ub ∧
        ((kept.length = 2 ∧ i = 1 ∧ j = 1) ∨
          (j = i + 1 ∧ 1 ≤ i ∧ (i = 1 ∨ ∃ t, check s row.lb = .ok (false, t)) ∧
            (j + 1 = kept.length ∨ ∃ t, check s row.ub = .ok (true, t))))) sched rows := by
    clear h rows hs h2 sched
    intro sched
    induction sched with
    | nil => intro _ _ m s _ _ rows h; cases h; exact .nil
    | cons n ns ih =>
      intro hs h2 m s hat hm rows h
      obtain ⟨hn, hs⟩ := List.pairwise_cons.1 hs
      obtain ⟨s', rads, g1, g2, g3⟩ := line_grow hw hfull hmax hat n (hm n (by simp)) (h2 n (by simp))
      have hsam : s'.samples = some (w.fresh (d + 1) n) := by
        rcases g2.samples with h | ⟨-, h⟩
        · exact h
        · have := h2 n (by simp); omega
      unfold lineRows at h
      cases hr : lineRound w note check n s with
      | mk s'' o =>
        rw [hr] at h
        cases o with
        | error e => cases h
        | ok row =>
          simp only at h
          cases ht : lineRows w note check ns s'' with
          | error e => rw [ht] at h; cases h
          | ok rest =>
            rw [ht] at h
            cases h
            unfold lineRound at hr
            rw [g1] at hr
            simp only at hr
            cases hl : loop (lineCheckBody rads note (check s')) (rads.length + 1) (1, (rads.length : ℤ) - 1, "") with
            | none => rw [hl] at hr; cases hr
            | some r =>
              rw [hl] at hr
              cases r with
              | error e => cases hr
              | ok z =>
                obtain ⟨x, y, t⟩ := z
                simp only at hr
                cases hx : pyGet rads x with
                | error e => rw [hx] at hr; cases hr
                | ok lo =>
                  rw [hx] at hr
                  simp only at hr
                  cases hy : pyGet rads y with
                  | error e => rw [hy] at hr; cases hr
                  | ok hi =>
                    rw [hy] at hr
                    simp only [Prod.mk.injEq, Except.ok.injEq] at hr
                    obtain ⟨rfl, rfl⟩ := hr
                    refine .cons ⟨rfl, s', rads, x.toNat, y.toNat, hsam, g3, ?_⟩ (ih hs (fun k hk => h2 k (by simp [hk])) n s' g2 hn _ ht)
                    by_cases hlen : (1 : ℤ) < (rads.length : ℤ) - 1
                    · obtain ⟨⟨b1, b2, b3, b4, b5⟩, hyx⟩ := line_bisect rads note (check s') _ _ _ _
                        ⟨le_refl _, hlen.le, le_refl _, Or.inl rfl, Or.inl rfl⟩ hlen _ _ _ hl
                      obtain ⟨lo', e1, e2⟩ := pyGet_inside rads x (by omega) (by omega)
                      obtain ⟨hi', e3, e4⟩ := pyGet_inside rads y (by omega) (by omega)
                      rw [hx] at e1; cases e1
                      rw [hy] at e3; cases e3
                      refine ⟨e2, e4, Or.inr ⟨by omega, by omega, ?_, ?_⟩⟩
                      · rcases b4 with h | ⟨r, t, k1, k2⟩
                        · left; omega
                        · rw [hx] at k1; cases k1; exact Or.inr ⟨t, k2⟩
                      · rcases b5 with h | ⟨r, t, k1, k2⟩
                        · left; omega
                        · rw [hy] at k1; cases k1; exact Or.inr ⟨t, k2⟩
                    · rw [loop] at hl
                      unfold lineCheckBody at hl
                      dsimp only at hl
                      rw [if_neg (by omega), if_pos (by omega)] at hl
                      simp only [Option.some.injEq, Except.ok.injEq, Prod.mk.injEq] at hl
                      obtain ⟨rfl, rfl, -⟩ := hl
                      have h2' : rads.length = 2 := by
                        by_contra hne
                        have : rads[1]? = none := by rw [List.getElem?_eq_none_iff]; omega
                        unfold pyGet at hx
                        simp [this] at hx
                      obtain ⟨lo', e1, e2⟩ := pyGet_inside rads 1 (by omega) (by omega)
                      rw [hx] at e1; cases e1
                      have hy' : ((rads.length : ℤ) - 1) = 1 := by omega
                      rw [hy'] at hy ⊢
                      rw [hx] at hy; cases hy
                      exact ⟨e2, e2, Or.inl ⟨h2', rfl, rfl⟩⟩
  exact key sched hs h2 0 _ (lineAt_init w maxK d) (fun n hn => by have := h2 n hn; omega) rows h

/-- C111: with a check that answers, the trial ends with a row per number of samples, if at least two radii are kept each time. -/
theorem C111_total {w : World P K} (hw : w.Sound) (hfull : ∀ (S : List P) (k : ℕ), ∀ row ∈ w.knn S k, row.length = min k (S.length - 1))
    {maxK : ℕ} (hmax : 1 ≤ maxK) (note : K → String) (check : Knn P K → K → Except PyErr (Bool × String))
    (hcheck : ∀ s r, ∃ b, check s r = .ok b) (sched : List ℕ) (hs : sched.Pairwise (· < ·)) (h2 : ∀ n ∈ sched, 2 ≤ n) (d : ℕ)
    (hk : ∀ n ∈ sched, ∃ r r', r ≠ r' ∧ w.KeptRadius (w.fresh (d + 1) n) maxK r ∧ w.KeptRadius (w.fresh (d + 1) n) maxK r') :
    ∃ rows, lineRows w note check sched (Knn.init maxK true d) = .ok rows := by
  have key : ∀ (sched : List ℕ), sched.Pairwise (· < ·) → (∀ n ∈ sched, 2 ≤ n) →
      (∀ n ∈ sched, ∃ r r', r ≠ r' ∧ w.KeptRadius (w.fresh (d + 1) n) maxK r ∧ w.KeptRadius (w.fresh (d + 1) n) maxK r') →
      ∀ (m : ℕ) (s : Knn P K), LineAt w maxK d s m →
      (∀ n ∈ sched, m < n) → ∃ rows, lineRows w note check sched s = .ok rows := by
    clear hk hs h2 sched
    intro sched
    induction sched with
    | nil => intro _ _ _ m s _ _; exact ⟨[], rfl⟩
    | cons n ns ih =>
      intro hs h2 hk m s hat hm
      obtain ⟨hn, hs⟩ := List.pairwise_cons.1 hs
      obtain ⟨s', rads, g1, g2, g3⟩ := line_grow hw hfull hmax hat n (hm n (by simp)) (h2 n (by simp))
      have hlen : 2 ≤ rads.length := by
        obtain ⟨r, r', hne, k1, k2⟩ := hk n (by simp)
        rw [← g3.2] at k1 k2
        by_contra hlt
        match rads, hlt, k1, k2 with
        | [], _, k1, _ => cases k1
        | [a], _, k1, k2 => simp at k1 k2; exact hne (k1.trans k2.symm)
        | _ :: _ :: _, hlt, _, _ => simp at hlt
      obtain ⟨rest, hrest⟩ := ih hs (fun k hk => h2 k (by simp [hk])) (fun k h => hk k (by simp [h])) n s' g2 hn
      obtain ⟨⟨x, y, t⟩, hz⟩ := line_total rads note (check s') (hcheck s') (rads.length + 1) 1 ((rads.length : ℤ) - 1) "" (le_refl _)
        (le_refl _) (by push_cast; omega) (by omega)
      have hin : 0 ≤ x ∧ x < rads.length ∧ 0 ≤ y ∧ y < rads.length := by
        by_cases hlt : (1 : ℤ) < (rads.length : ℤ) - 1
        · obtain ⟨⟨b1, b2, b3, b4, b5⟩, hyx⟩ := line_bisect rads note (check s') _ _ _ _
            ⟨le_refl _, hlt.le, le_refl _, Or.inl rfl, Or.inl rfl⟩ hlt _ _ _ hz
          omega
        · have hz' := hz
          rw [loop] at hz'
          unfold lineCheckBody at hz'
          dsimp only at hz'
          rw [if_neg (by omega), if_pos (by omega)] at hz'
          simp only [Option.some.injEq, Except.ok.injEq, Prod.mk.injEq] at hz'
          omega
      obtain ⟨i1, i2, i3, i4⟩ := hin
      obtain ⟨lo, e1, -⟩ := pyGet_inside rads x i1 i2
      obtain ⟨hi, e2, -⟩ := pyGet_inside rads y i3 i4
      refine ⟨⟨n, lo, hi, t⟩ :: rest, ?_⟩
      unfold lineRows lineRound
      simp only [g1, hz, e1, e2, hrest]
  exact key sched hs h2 hk 0 _ (lineAt_init w maxK d) (fun n hn => by have := h2 n hn; omega)

section Now

variable {P K : Type} [Field K] [LinearOrder K]

/-- The result for the kept radii. -/
def lineNow (n : ℕ) : List K → Except PyErr (LineRow K)
  | [] | [_] => .error .index
  | [_, b] => .ok ⟨n, b, b, "something went wrong... rad_lb is not supposed to be >= rad_ub"⟩
  | [_, b, c] => .ok ⟨n, b, c, ""⟩
  | _ => .error .notImplemented

omit [Field K] in
theorem line_round_now {w : World P K} {note : K → String} {n : ℕ} {s s' : Knn P K} {rads : List K} (hg : lineGrow w n s = (s', .ok rads))
    (check : Knn P K → K → Except PyErr (Bool × String)) (hcheck : ∀ s r, check s r = .error .notImplemented) :
    lineRound w note check n s = (s', lineNow n rads) := by
  unfold lineRound
  rw [hg]
  clear hg
  match rads with
  | [] => rfl
  | [_] => rfl
  | [_, b] => rfl
  | [_, b, c] => rfl
  | a :: b :: c :: e :: l =>
    have h : loop (lineCheckBody (a :: b :: c :: e :: l) note (check s')) ((a :: b :: c :: e :: l).length + 1)
        (1, ((a :: b :: c :: e :: l).length : ℤ) - 1, "") = some (.error .notImplemented) := by
      have hlen : 4 ≤ (a :: b :: c :: e :: l).length := by simp
      generalize a :: b :: c :: e :: l = rads at hlen
      rw [loop]
      unfold lineCheckBody
      dsimp only
      rw [if_neg (by omega), if_neg (by omega)]
      obtain ⟨r, hr, -⟩ := pyGet_inside rads (middle 1 ((rads.length : ℤ) - 1)) (by unfold middle; omega) (by unfold middle; omega)
      rw [hr]
      simp only [hcheck]
    dsimp only
    rw [h]
    rfl

/-- C111: the completeness check of the straight line raises, and so the trial ends with an error at the first number of samples for which
other than two or three radii are kept; it gives rows only if there is none, and no recorded radius was ever checked. -/
theorem C111_outcome {w : World P K} (hw : w.Sound) (hfull : ∀ (S : List P) (k : ℕ), ∀ row ∈ w.knn S k, row.length = min k (S.length - 1))
    {dim : ℕ} {Args : Type} (e : Envs.StraightLine K dim) (tol : K → K) (note : K → String) (rest : Args) {maxK : ℕ} (hmax : 1 ≤ maxK)
    (sched : List ℕ) (hs : sched.Pairwise (· < ·)) (h2 : ∀ n ∈ sched, 2 ≤ n) (d : ℕ) :
    ∃ kept : ℕ → List K, (∀ n ∈ sched, w.KeptRadii (w.fresh (d + 1) n) maxK (kept n)) ∧
      (lineTrial w e tol note rest maxK sched d = .error .notImplemented ↔ FirstOther kept sched (4 ≤ ·)) ∧
      (lineTrial w e tol note rest maxK sched d = .error .index ↔ FirstOther kept sched (· ≤ 1)) ∧
      ∀ rows, lineTrial w e tol note rest maxK sched d = .ok rows ↔ List.Forall₂ (fun n row => row.samples = n ∧
        ((∃ a, kept n = [a, row.lb] ∧ row.ub = row.lb ∧ row.info = "something went wrong... rad_lb is not supposed to be >= rad_ub") ∨
          ∃ a, kept n = [a, row.lb, row.ub] ∧ row.info = "")) sched rows := by
  have hkept : ∀ n : ℕ, ∃ l : List K, 2 ≤ n → w.KeptRadii (w.fresh (d + 1) n) maxK l := by
    intro n
    by_cases hn : 2 ≤ n
    · obtain ⟨_, rads, -, -, h⟩ := line_grow hw hfull hmax (lineAt_init w maxK d) n (by omega) hn
      exact ⟨rads, fun _ => h⟩
    · exact ⟨[], fun h => absurd h hn⟩
  choose kept hkept using hkept
  refine ⟨kept, fun n hn => hkept n (h2 n hn), ?_⟩
  unfold lineTrial
  have key : ∀ (sched : List ℕ), sched.Pairwise (· < ·) → (∀ n ∈ sched, 2 ≤ n) → ∀ (m : ℕ) (s : Knn P K), LineAt w maxK d s m →
      (∀ n ∈ sched, m < n) → ∀ o, lineRows w note (fun prm r => e.isPrmEpsilonDeltaComplete prm (tol r) rest) sched s = o →
      (o = .error .notImplemented ∧ FirstOther kept sched (4 ≤ ·)) ∨ (o = .error .index ∧ FirstOther kept sched (· ≤ 1)) ∨
      ∃ rows, o = .ok rows ∧ List.Forall₂ (fun n row => row.samples = n ∧
        ((∃ a, kept n = [a, row.lb] ∧ row.ub = row.lb ∧ row.info = "something went wrong... rad_lb is not supposed to be >= rad_ub") ∨
          ∃ a, kept n = [a, row.lb, row.ub] ∧ row.info = "")) sched rows := by
    clear hs h2 sched
    intro sched
    induction sched with
    | nil => intro _ _ m s _ _ o h; cases h; exact Or.inr (Or.inr ⟨[], rfl, .nil⟩)
    | cons n ns ih =>
      intro hs h2 m s hat hm o ho
      obtain ⟨hn, hs⟩ := List.pairwise_cons.1 hs
      obtain ⟨s', rads, g1, g2, g3⟩ := line_grow hw hfull hmax hat n (hm n (by simp)) (h2 n (by simp))
      have hrads : rads = kept n := keptRadii_unique g3 (hkept n (h2 n (by simp)))
      have hround := line_round_now (note := note) g1 (fun prm r => e.isPrmEpsilonDeltaComplete prm (tol r) rest) (fun _ _ => rfl)
      unfold lineRows at ho
      rw [hround] at ho
      have hlater : ∀ p : ℕ → Prop, ((kept n).length = 2 ∨ (kept n).length = 3) → FirstOther kept ns p → FirstOther kept (n :: ns) p := by
        rintro p hl ⟨pre, k, post, e1, e2, e3⟩
        refine ⟨n :: pre, k, post, by rw [e1]; rfl, ?_, e3⟩
        rintro x hx
        rcases List.mem_cons.1 hx with rfl | hx
        · exact hl
        · exact e2 x hx
      have ih' := ih hs (fun k hk => h2 k (by simp [hk])) n s' g2 hn _ rfl
      clear hround g1 g3
      match rads, hrads, ho with
      | [], hr, ho => exact Or.inr (Or.inl ⟨ho.symm, [], n, ns, rfl, by simp, by simp [← hr], by simp [← hr], by simp [← hr]⟩)
      | [a], hr, ho => exact Or.inr (Or.inl ⟨ho.symm, [], n, ns, rfl, by simp, by simp [← hr], by simp [← hr], by simp [← hr]⟩)
      | [a, b], hr, ho =>
        rcases ih' with ⟨h1, h3⟩ | ⟨h1, h3⟩ | ⟨rows, h1, h3⟩
        · simp only [lineNow, h1] at ho
          exact Or.inl ⟨ho.symm, hlater _ (by simp [← hr]) h3⟩
        · simp only [lineNow, h1] at ho
          exact Or.inr (Or.inl ⟨ho.symm, hlater _ (by simp [← hr]) h3⟩)
        · simp only [lineNow, h1] at ho
          exact Or.inr (Or.inr ⟨_, ho.symm, .cons ⟨rfl, Or.inl ⟨a, hr.symm, rfl, rfl⟩⟩ h3⟩)
      | [a, b, c], hr, ho =>
        rcases ih' with ⟨h1, h3⟩ | ⟨h1, h3⟩ | ⟨rows, h1, h3⟩
        · simp only [lineNow, h1] at ho
          exact Or.inl ⟨ho.symm, hlater _ (by simp [← hr]) h3⟩
        · simp only [lineNow, h1] at ho
          exact Or.inr (Or.inl ⟨ho.symm, hlater _ (by simp [← hr]) h3⟩)
        · simp only [lineNow, h1] at ho
          exact Or.inr (Or.inr ⟨_, ho.symm, .cons ⟨rfl, Or.inr ⟨a, hr.symm, rfl⟩⟩ h3⟩)
      | a :: b :: c :: f :: l, hr, ho =>
        exact Or.inl ⟨ho.symm, [], n, ns, rfl, by simp, by simp [← hr], by simp [← hr], by simp [← hr]⟩
  -- the three outcomes exclude each other
  have hex : ∀ (p : ℕ → Prop), FirstOther kept sched p → ∃ n ∈ sched, ¬ ((kept n).length = 2 ∨ (kept n).length = 3) := by
    rintro p ⟨pre, n, post, rfl, -, h3, h4, -⟩
    exact ⟨n, by simp, by tauto⟩
  have hex2 : ¬ (FirstOther kept sched (4 ≤ ·) ∧ FirstOther kept sched (· ≤ 1)) := by
    rintro ⟨⟨pre, n, post, e1, e2, e3, e4, e5⟩, ⟨pre', n', post', f1, f2, f3, f4, f5⟩⟩
    rw [e1] at f1
    rcases List.append_eq_append_iff.1 f1 with ⟨l, h1, h3⟩ | ⟨l, h1, h3⟩
    · cases l with
      | nil => simp at h3; rw [h3.1] at e5; omega
      | cons x l =>
        simp at h3
        have := f2 n (by rw [h1, h3.1]; simp)
        omega
    · cases l with
      | nil => simp at h3; rw [h3.1] at f5; omega
      | cons x l =>
        simp at h3
        have := e2 n' (by rw [h1, h3.1]; simp)
        omega
  have hall : ∀ rows : List (LineRow K), List.Forall₂ (fun n row => row.samples = n ∧
        ((∃ a, kept n = [a, row.lb] ∧ row.ub = row.lb ∧ row.info = "something went wrong... rad_lb is not supposed to be >= rad_ub") ∨
          ∃ a, kept n = [a, row.lb, row.ub] ∧ row.info = "")) sched rows → ∀ n ∈ sched, (kept n).length = 2 ∨ (kept n).length = 3 := by
    intro rows h
    clear hs h2 hex hex2 key
    induction h with
    | nil => simp
    | cons h _ ih =>
      intro n hn
      rcases List.mem_cons.1 hn with rfl | hn
      · rcases h.2 with ⟨a, h, -⟩ | ⟨a, h, -⟩ <;> simp [h]
      · exact ih n hn
  have huniq : ∀ rows rows' : List (LineRow K), List.Forall₂ (fun n row => row.samples = n ∧
        ((∃ a, kept n = [a, row.lb] ∧ row.ub = row.lb ∧ row.info = "something went wrong... rad_lb is not supposed to be >= rad_ub") ∨
          ∃ a, kept n = [a, row.lb, row.ub] ∧ row.info = "")) sched rows → List.Forall₂ (fun n row => row.samples = n ∧
        ((∃ a, kept n = [a, row.lb] ∧ row.ub = row.lb ∧ row.info = "something went wrong... rad_lb is not supposed to be >= rad_ub") ∨
          ∃ a, kept n = [a, row.lb, row.ub] ∧ row.info = "")) sched rows' → rows = rows' := by
    intro rows rows' h h'
    clear hs h2 hex hex2 hall key
    induction h generalizing rows' with
    | nil => cases h'; rfl
    | @cons n row ns rows h _ ih =>
      cases h' with
      | @cons _ row' _ rows' h' ht =>
        rw [ih _ ht]
        congr 1
        obtain ⟨n1, lb, ub, info⟩ := row
        obtain ⟨n2, lb', ub', info'⟩ := row'
        obtain ⟨rfl, h⟩ := h
        obtain ⟨h0, h'⟩ := h'
        simp only at h0 h h'
        subst h0
        rcases h with ⟨a, h, h4, h5⟩ | ⟨a, h, h4⟩ <;> rcases h' with ⟨a', h', h4', h5'⟩ | ⟨a', h', h4'⟩ <;> rw [h] at h' <;> simp_all
  rcases key sched hs h2 0 _ (lineAt_init w maxK d) (fun n hn => by have := h2 n hn; omega) _ rfl with ⟨h1, h3⟩ | ⟨h1, h3⟩ | ⟨rows, h1, h3⟩
  · rw [h1]
    refine ⟨by simp [h3], ?_, fun rows => ?_⟩
    · simp only [Except.error.injEq, reduceCtorEq, false_iff]
      exact fun h => hex2 ⟨h3, h⟩
    · simp only [reduceCtorEq, false_iff]
      intro h
      obtain ⟨n, hn, hne⟩ := hex _ h3
      exact hne (hall rows h n hn)
  · rw [h1]
    refine ⟨?_, by simp [h3], fun rows => ?_⟩
    · simp only [Except.error.injEq, reduceCtorEq, false_iff]
      exact fun h => hex2 ⟨h, h3⟩
    · simp only [reduceCtorEq, false_iff]
      intro h
      obtain ⟨n, hn, hne⟩ := hex _ h3
      exact hne (hall rows h n hn)
  · rw [h1]
    refine ⟨?_, ?_, fun rows' => ?_⟩
    · simp only [reduceCtorEq, false_iff]
      intro h
      obtain ⟨n, hn, hne⟩ := hex _ h
      exact hne (hall rows h3 n hn)
    · simp only [reduceCtorEq, false_iff]
      intro h
      obtain ⟨n, hn, hne⟩ := hex _ h
      exact hne (hall rows h3 n hn)
    · rw [Except.ok.injEq]
      exact ⟨fun h => h ▸ h3, fun h => huniq _ _ h3 h⟩

/-- C111: as soon as no sample is equally far from two others, a trial that begins with five samples or more (the default: ten) and lets
four neighbours or more be connected ends with the error of the unfinished check. -/
theorem C111_general_false {w : World P K} (hw : w.Sound) (hfull : ∀ (S : List P) (k : ℕ), w.ExactTable S k (w.knn S k))
    (hsort : ∀ (S : List P) (k : ℕ), SortedRows (w.knn S k))
    {dim : ℕ} {Args : Type} (e : Envs.StraightLine K dim) (tol : K → K) (note : K → String) (rest : Args) {maxK : ℕ} (hmax : 4 ≤ maxK)
    (n : ℕ) (hn : 5 ≤ n) (sched : List ℕ) (hs : (n :: sched).Pairwise (· < ·)) (d : ℕ)
    (hgen : ∀ (i j k : ℕ) (p q r : P), (w.fresh (d + 1) n)[i]? = some p → (w.fresh (d + 1) n)[j]? = some q → (w.fresh (d + 1) n)[k]? = some r →
      i ≠ j → i ≠ k → w.dist p q = w.dist p r → j = k) :
    lineTrial w e tol note rest maxK (n :: sched) d = .error .notImplemented := by
  have hfull' : ∀ (S : List P) (k : ℕ), ∀ row ∈ w.knn S k, row.length = min k (S.length - 1) := by
    intro S k row hrow
    obtain ⟨i, hi⟩ := List.mem_iff_getElem?.1 hrow
    exact (hfull S k).full i row hi
  have hlt := (List.pairwise_cons.1 hs).1
  obtain ⟨kept, h1, h2, -⟩ := C111_outcome hw hfull' e tol note rest (le_trans (by norm_num) hmax) (n :: sched) hs
    (by
      intro m hm
      rcases List.mem_cons.1 hm with rfl | hm
      · omega
      · have := hlt m hm; omega) d
  rw [h2]
  suffices h4 : 4 ≤ (kept n).length from ⟨[], n, sched, rfl, by simp, by omega, by omega, h4⟩
  have hk := h1 n (by simp)
  have ht := hw.knn_true (w.fresh (d + 1) n) (min (n - 1) maxK)
  have hrows : ∀ row ∈ w.knn (w.fresh (d + 1) n) (min (n - 1) maxK), 4 ≤ row.length := by
    intro row hrow
    rw [hfull' _ _ row hrow, fresh_length]
    omega
  obtain ⟨c, hc⟩ := certify_full_ok (w.knn (w.fresh (d + 1) n) (min (n - 1) maxK)) (by
      intro hc
      have := ht.1
      rw [hc, fresh_length] at this
      simp at this
      omega) (by
      intro row hrow hc
      have := hrows row hrow
      rw [hc] at this
      simp at this)
  obtain ⟨row, hrow, x, hx, rfl⟩ := Net.certify_mem hc
  have hlast := (certify_last hc x.2).1 le_rfl
  have hle : ∀ a ∈ row, a.2 ≤ x.2 := by
    intro a ha
    have hp := hsort _ _ row hrow
    obtain ⟨l, rfl⟩ := List.getLast?_eq_some_iff.1 hx
    rcases List.mem_append.1 ha with ha | ha
    · exact (List.pairwise_append.1 hp).2.2 a ha x (by simp)
    · simp at ha; rw [ha]
  have hsub : ∀ r ∈ row.map Prod.snd, r ∈ kept n := by
    intro r hr
    obtain ⟨a, ha, rfl⟩ := List.mem_map.1 hr
    rw [hk.2]
    unfold World.KeptRadius
    simp only [fresh_length]
    exact ⟨⟨row, hrow, a.1, ha⟩, fun row' hrow' y hy => (hle a ha).trans (hlast row' hrow' y hy)⟩
  have hnd : (row.map Prod.snd).Nodup := by
    obtain ⟨i, hi⟩ := List.mem_iff_getElem?.1 hrow
    obtain ⟨d1, d2⟩ := (hfull _ _).distinct i row hi
    have hrow' : row.Nodup := List.Nodup.of_map _ d1
    refine List.Nodup.map_on ?_ hrow'
    intro a ha b hb hab
    obtain ⟨p, q, e1, e2, e3⟩ := ht.2 i row hi a ha
    obtain ⟨p', q', f1, f2, f3⟩ := ht.2 i row hi b hb
    rw [e1] at f1; cases f1
    have := hgen i a.1 b.1 p q q' e1 e2 f2 (d2 a ha).symm (d2 b hb).symm (by rw [← e3, ← f3, hab])
    exact Prod.ext this hab
  calc 4 ≤ row.length := hrows row hrow
    _ = (row.map Prod.snd).length := by simp
    _ ≤ (kept n).length := (hnd.subperm hsub).length_le

end Now

/-- Samples on the line at the powers of two. -/
def powerWorld : World ℚ ℚ := lineWorld (fun _ _ => true) fun i => 2 ^ i

theorem powerWorld_full (S : List ℚ) (k : ℕ) : ∀ row ∈ powerWorld.knn S k, row.length = min k (S.length - 1) := by
  intro row hrow
  obtain ⟨i, hi⟩ := List.mem_iff_getElem?.1 hrow
  exact (lineWorld_table _ _ S k).full i row hi

/-- C111, the claim itself: false that a recorded radius was checked. The check answers for no radius, and the trial with three samples
gives a row all the same. -/
theorem C111_checked_false : powerWorld.Sound ∧ (∀ (S : List ℚ) (k : ℕ), ∀ row ∈ powerWorld.knn S k, row.length = min k (S.length - 1)) ∧
    (∀ (e : Envs.StraightLine ℚ 1) (s : Knn ℚ ℚ) (r : ℚ), e.isPrmEpsilonDeltaComplete s r () = .error .notImplemented) ∧
    ∀ e : Envs.StraightLine ℚ 1, lineTrial powerWorld e id (fun _ => "") () 254 [3] 0 =
      .ok [⟨3, 4, 4, "something went wrong... rad_lb is not supposed to be >= rad_ub"⟩] ∧
      lineTrial powerWorld e id (fun _ => "") () 254 [2] 0 = .error .index ∧
      lineTrial powerWorld e id (fun _ => "") () 254 [4] 0 = .error .notImplemented :=
  ⟨lineWorld_sound _ _, powerWorld_full, fun _ _ _ => rfl, fun _ =>
    have h : lineTrial powerWorld (⟨0, 0, 0, 0⟩ : Envs.StraightLine ℚ 1) id (fun _ => "") () 254 [3] 0 =
        .ok [⟨3, 4, 4, "something went wrong... rad_lb is not supposed to be >= rad_ub"⟩] ∧
      lineTrial powerWorld (⟨0, 0, 0, 0⟩ : Envs.StraightLine ℚ 1) id (fun _ => "") () 254 [2] 0 = .error .index ∧
      lineTrial powerWorld (⟨0, 0, 0, 0⟩ : Envs.StraightLine ℚ 1) id (fun _ => "") () 254 [4] 0 = .error .notImplemented := by decide +kernel
    h⟩

theorem powerWorld_get {n i : ℕ} {p : ℚ} (h : (powerWorld.fresh 1 n)[i]? = some p) : i < n ∧ p = 2 ^ (1 + i) := by
  obtain ⟨hi, rfl⟩ := List.getElem?_eq_some_iff.1 h
  rw [fresh_length] at hi
  refine ⟨hi, ?_⟩
  simp [World.fresh, powerWorld, lineWorld]

/-- C111 is not vacuous: the default schedule on samples at different distances, and a check that answers. -/
theorem C111_nonvacuous : powerWorld.Sound ∧ (∀ (S : List ℚ) (k : ℕ), powerWorld.ExactTable S k (powerWorld.knn S k)) ∧
    (∀ (S : List ℚ) (k : ℕ), SortedRows (powerWorld.knn S k)) ∧ [10, 100, 1000].Pairwise (· < ·) ∧
    (∀ (i j k : ℕ) (p q r : ℚ), (powerWorld.fresh (0 + 1) 10)[i]? = some p → (powerWorld.fresh (0 + 1) 10)[j]? = some q →
      (powerWorld.fresh (0 + 1) 10)[k]? = some r → i ≠ j → i ≠ k → powerWorld.dist p q = powerWorld.dist p r → j = k) ∧
    lineRows powerWorld (fun _ => "") (fun _ r => .ok (decide (5 ≤ r), "")) [3, 5] (Knn.init 254 true 0) =
      .ok [⟨3, 4, 4, "something went wrong... rad_lb is not supposed to be >= rad_ub"⟩, ⟨5, 4, 6, ""⟩] := by
  refine ⟨lineWorld_sound _ _, lineWorld_table _ _, ?_, by decide, ?_, by decide +kernel⟩
  · intro S k row hrow
    change row ∈ exactKnn (fun p q : ℚ => |p - q|) S k at hrow
    unfold exactKnn at hrow
    obtain ⟨a, -, rfl⟩ := List.mem_map.1 hrow
    exact ((List.pairwise_insertionSort _ _)).sublist (List.take_sublist _ _)
  · intro i j k p q r hi hj hk hij hik h
    obtain ⟨hi', rfl⟩ := powerWorld_get hi
    obtain ⟨hj', rfl⟩ := powerWorld_get hj
    obtain ⟨hk', rfl⟩ := powerWorld_get hk
    have key : ∀ i j k : Fin 10, i ≠ j → i ≠ k → |(2 : ℚ) ^ (1 + (i : ℕ)) - 2 ^ (1 + (j : ℕ))| = |2 ^ (1 + (i : ℕ)) - 2 ^ (1 + (k : ℕ))| → j = k := by
      decide +kernel
    exact Fin.mk.inj_iff.1 (key ⟨i, hi'⟩ ⟨j, hj'⟩ ⟨k, hk'⟩ (by simpa using hij) (by simpa using hik) h)

end Verif.Props
