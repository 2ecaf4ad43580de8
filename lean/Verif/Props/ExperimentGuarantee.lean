import Verif.Lemmas.HopLengths
import Verif.Props.EnvGuarantee
import Verif.Props.LineTrial
import Verif.Props.NarrowTrial

/-! The guarantee in the tables of the narrow-passage experiment, C119, and the outcome of the straight-line experiment, C111. -/

namespace Verif.Props

open MeasureTheory ProbabilityTheory Verif.Prm Verif.Exps Verif.Envs Verif.Spec Verif.Bound Verif.Net

variable {n : ℕ} {Ω : Type*} [MeasurableSpace Ω] {Pr : Measure Ω} [IsProbabilityMeasure Pr]

/-- What a row says if the problem is solved over far points with radius `r`. -/
theorem row_solved {w : World (Space n) ℝ} (hd : ∀ p q, w.dist p q = dist p q) {S : List (Space n)} {start goal : Space n} {maxR r : ℝ}
    {m : ℕ} {row : List (Val (WithTop ℝ))} (h : RadiusRow w S start goal maxR m row) (hr : r ≤ maxR) (hsol : w.Solvable S start goal r)
    (hfar : 3 * r < dist start goal) (hgen : ∀ p ∈ S, ∀ q ∈ S, ∀ s ∈ S, p ≠ s → q ≠ s → dist p q ≠ dist q s) :
    ∃ lo hi, HasNum row "conn_lb" lo ∧ HasNum row "conn_ub" hi ∧ lo < r ∧ lo < hi ∧ hi ≤ maxR := by
  obtain ⟨pts, hp⟩ := hsol
  have hconn : ∀ p q, p ∈ S → q ∈ S → (w.dist p q ≤ r ∧ w.Accepted p q) → w.Connection S maxR (dist p q) := by
    rintro p q hpS hqS ⟨h1, h2⟩
    obtain ⟨i, hi⟩ := List.mem_iff_getElem?.1 hpS
    obtain ⟨j, hj⟩ := List.mem_iff_getElem?.1 hqS
    rw [hd] at h1
    rcases h2 with h2 | h2
    · exact ⟨i, j, p, q, hi, hj, h2, hd _ _, h1.trans hr⟩
    · exact ⟨j, i, q, p, hj, hi, h2, by rw [hd, dist_comm], h1.trans hr⟩
  cases pts with
  | nil => exact absurd rfl hp.nonempty
  | cons x l =>
    rcases chain_two_hops x l hp.hops with ⟨y, hy, hall⟩ | ⟨p, q, s, h1, h2, h3, h4, h5, h6, h7, h8⟩
    · exfalso
      have hx := (hp.first x rfl).1
      obtain ⟨z, hz⟩ : ∃ z, (x :: l).getLast? = some z := ⟨_, List.getLast?_eq_some_getLast (by simp)⟩
      have hz1 := (hp.last z hz).1
      rw [hd] at hx hz1
      have hxz : dist x z ≤ r := by
        have hr0 : 0 ≤ r := dist_nonneg.trans hx
        rcases hall z (List.mem_of_getLast? hz) with rfl | rfl
        · rw [dist_self]; exact hr0
        · rcases hy with rfl | hy
          · rw [dist_self]; exact hr0
          · rw [← hd]; exact hy.1
      have t1 := dist_triangle start x goal
      have t2 := dist_triangle x z goal
      rw [dist_comm start x] at t1
      linarith
    · have hpS := hp.samples p h6
      have hqS := hp.samples q h7
      have hsS := hp.samples s h8
      have c1 := hconn p q hpS hqS h4
      have c2 := hconn q s hqS hsS h5
      have l1 : dist p q ≤ r := by rw [← hd]; exact h4.1
      have l2 : dist q s ≤ r := by rw [← hd]; exact h5.1
      have hne : dist p q ≠ dist q s := hgen p hpS q hqS s hsS h3 h2
      have hmax : w.Solvable S start goal maxR := solvable_mono (fun _ h => h) hr ⟨_, hp⟩
      have key : ∃ a b, w.Connection S maxR a ∧ w.Connection S maxR b ∧ a < b ∧ b ≤ r := by
        rcases lt_or_gt_of_ne hne with h | h
        · exact ⟨_, _, c1, c2, h, l2⟩
        · exact ⟨_, _, c2, c1, h, l1⟩
      obtain ⟨a, b, ca, cb, hab, hbr⟩ := key
      obtain ⟨lo, hi, e1, e2, -, e3, e4, -, e5, -⟩ := (h.many a b ca cb hab).2 hmax
      refine ⟨lo, hi, e1, e2, ?_, e4, ?_⟩
      · by_contra hlo
        rw [not_lt] at hlo
        have := e5 (solvable_mono (fun _ h => h) hlo ⟨_, hp⟩) a ca
        linarith
      · obtain ⟨-, -, -, -, -, -, -, -, e⟩ := e3
        exact e

/-- C119. The narrow-passage experiment with samples and radius from the bound: with probability at least `p`, in the table of every
trial whose sample sizes ascend and whose largest radius is at least the returned radius `r`, every row with at least the returned count
of samples has the problem as solved, and the lower end of the interval in which the row places the smallest sufficient radius is below
`r`. The radius is to be less than a third of the distance between start and goal. -/
theorem C119_rows {c : ℝ} (hc : 0 < c) (hc2 : c < 1 / 2) {R : ℕ → Ω → Region} {U : ℕ → Ω → Fin (n + 1) → ℝ}
    (hU : ChoiceDraws Pr (narrowWeight n c) R U) {p : ℝ} {tol : Option ℝ} {fuel N : ℕ} {r : ℝ} (ht : TolNonneg tol)
    (h : numericalBound c p (NarrowPassage.init n c).volume (n + 1) tol fuel = some (.ok (N, r))) {maxR : ℝ} (hr : r ≤ maxR)
    (hfar : 3 * r < dist (WithLp.toLp 2 (Envs.narrowStart n c) : Space (n + 1)) (WithLp.toLp 2 (narrowGoal n c))) (dim : ℕ) (δ : ℝ) (seed : ℤ)
    (times : ℕ → WithTop ℝ × WithTop ℝ) (d : ℕ) :
    Pr.real {ω | ¬ ∀ w : World (Space (n + 1)) ℝ,
      EnvWorld w (NarrowPassage.init n c).isMotionValid (fun i => (NarrowPassage.init n c).sample (R i ω) (U i ω)) →
      ∀ sched : List ℕ, sched.IsChain (· ≤ ·) → ∃ rows,
        radiusTrial w (WithLp.toLp 2 (Envs.narrowStart n c)) (WithLp.toLp 2 (narrowGoal n c)) dim δ seed maxR times sched d =
          dataFrame narrowColumns rows ∧
        List.Forall₂ (fun m row => N ≤ m → ∃ lo hi, HasNum row "conn_lb" lo ∧ HasNum row "conn_ub" hi ∧ lo < r ∧ lo < hi ∧ hi ≤ maxR)
          sched rows} ≤ 1 - p := by
  have hX := C84_narrow (n := n) hc.le hU
  refine le_trans (measureReal_mono (fun ω hω => ?_) (measure_ne_top _ _) |>.trans (measureReal_union_le _ _)) (?_ :
    Pr.real {ω | ¬ ∀ w : World (Space (n + 1)) ℝ,
      EnvWorld w (NarrowPassage.init n c).isMotionValid (fun i => (NarrowPassage.init n c).sample (R i ω) (U i ω)) → ∀ m, N ≤ m →
      ∃ len pts, (((Full.init r d).run w [.grow m]).query w (WithLp.toLp 2 (Envs.narrowStart n c)) (WithLp.toLp 2 (narrowGoal n c))).2 =
        .ok (len, pts) ∧ pts ≠ []} +
    Pr.real {ω | ∃ i j k, i ≠ k ∧ j ≠ k ∧
      dist (WithLp.toLp 2 ((NarrowPassage.init n c).sample (R i ω) (U i ω)) : Space (n + 1))
          (WithLp.toLp 2 ((NarrowPassage.init n c).sample (R j ω) (U j ω))) =
        dist (WithLp.toLp 2 ((NarrowPassage.init n c).sample (R j ω) (U j ω)) : Space (n + 1))
          (WithLp.toLp 2 ((NarrowPassage.init n c).sample (R k ω) (U k ω)))} ≤ 1 - p)
  · by_contra hnot
    rw [Set.mem_union, not_or] at hnot
    apply hω
    intro w hw sched hsched
    obtain ⟨rows, e1, e2⟩ := C108_rows_partial hw.sound (WithLp.toLp 2 (Envs.narrowStart n c)) (WithLp.toLp 2 (narrowGoal n c)) maxR dim δ
      seed times d sched hsched
    refine ⟨rows, e1, e2.imp fun m row hrow hm => ?_⟩
    refine row_solved hw.dist hrow hr ?_ hfar ?_
    · obtain ⟨len, pts, h1, h2⟩ := not_not.1 hnot.1 w hw m hm
      have hT : ((Full.init r d).run w [.grow m]).samples = some (w.fresh (d + 1) m) := rfl
      obtain ⟨len', pts', h5, h6, -, -⟩ := C29_full hw.sound r d [.grow m] hT (WithLp.toLp 2 (Envs.narrowStart n c))
        (WithLp.toLp 2 (narrowGoal n c))
      rw [h1] at h5
      cases h5
      by_contra hno
      exact h2 (h6.2 hno)
    · have hk : ∀ q ∈ w.fresh (d + 1) m, ∃ k, q = WithLp.toLp 2 ((NarrowPassage.init n c).sample (R k ω) (U k ω)) := by
        intro q hq
        obtain ⟨k, -, rfl⟩ := List.mem_map.1 hq
        exact ⟨_, hw.draw _⟩
      intro a ha b hb s hs has hbs he
      obtain ⟨i, rfl⟩ := hk a ha
      obtain ⟨j, rfl⟩ := hk b hb
      obtain ⟨k, rfl⟩ := hk s hs
      exact hnot.2 ⟨i, j, k, fun e => has (by rw [e]), fun e => hbs (by rw [e]), he⟩
  · have h0 : Pr.real {ω | ∃ i j k, i ≠ k ∧ j ≠ k ∧
      dist (WithLp.toLp 2 ((NarrowPassage.init n c).sample (R i ω) (U i ω)) : Space (n + 1))
          (WithLp.toLp 2 ((NarrowPassage.init n c).sample (R j ω) (U j ω))) =
        dist (WithLp.toLp 2 ((NarrowPassage.init n c).sample (R j ω) (U j ω)) : Space (n + 1))
          (WithLp.toLp 2 ((NarrowPassage.init n c).sample (R k ω) (U k ω)))} = 0 := by
      rw [Measure.real, hops_ae hX]
      rfl
    rw [h0, add_zero]
    exact C87_experiment hc hc2 hU ht h d

/-- The hypotheses of C119 are met by the planar narrow passage of clearance 1/4, success probability 1/2; the radius 1/2 is less than a
third of the distance. -/
theorem C119_nonvacuous :
    (∃ fuel N r, numericalBound (1 / 4) (1 / 2) (NarrowPassage.init 1 (1 / 4 : ℝ)).volume 2 none fuel = some (.ok (N, r)) ∧ r = 1 / 2 ∧
      3 * r < dist (WithLp.toLp 2 (Envs.narrowStart 1 (1 / 4)) : Space 2) (WithLp.toLp 2 (narrowGoal 1 (1 / 4)))) ∧
    (∃ Pr : Measure (ℕ → Region × (Fin 2 → ℝ)), IsProbabilityMeasure Pr ∧
      ChoiceDraws Pr (narrowWeight 1 (1 / 4)) (fun i x => (x i).1) (fun i x => (x i).2)) ∧
    ∀ x, EnvWorld (envWorld (NarrowPassage.init 1 (1 / 4 : ℝ)).isMotionValid x) (NarrowPassage.init 1 (1 / 4 : ℝ)).isMotionValid x := by
  obtain ⟨⟨fuel, N, r, h⟩, -, h2, h3, -⟩ := C87_nonvacuous
  refine ⟨⟨fuel, N, r, h, ?_⟩, h2, h3⟩
  obtain ⟨-, -, hr, -⟩ := numericalBound_ok h
  have hr' : r = 1 / 2 := by
    rw [hr]
    norm_num [alpha]
  refine ⟨hr', ?_⟩
  rw [hr', EuclideanSpace.dist_eq, Fin.sum_univ_two]
  have e0 : Envs.narrowStart 1 (1 / 4 : ℝ) 0 = -5 / 4 := by norm_num [Envs.narrowStart, headRest]
  have e1 : Envs.narrowStart 1 (1 / 4 : ℝ) 1 = -1 / 4 := by norm_num [Envs.narrowStart, headRest]
  have e2 : narrowGoal 1 (1 / 4 : ℝ) 0 = 5 / 4 := by norm_num [narrowGoal, headRest]
  have e3 : narrowGoal 1 (1 / 4 : ℝ) 1 = 1 / 4 := by norm_num [narrowGoal, headRest]
  apply Real.lt_sqrt_of_sq_lt
  show (3 * (1 / 2)) ^ 2 < dist (Envs.narrowStart 1 (1 / 4 : ℝ) 0) (narrowGoal 1 (1 / 4 : ℝ) 0) ^ 2 +
    dist (Envs.narrowStart 1 (1 / 4 : ℝ) 1) (narrowGoal 1 (1 / 4 : ℝ) 1) ^ 2
  rw [e0, e1, e2, e3, Real.dist_eq, Real.dist_eq, sq_abs, sq_abs]
  norm_num

/-- C111, with the sampler of the environment and exact neighbour search: almost surely, every trial that begins with five samples or more
(the default: ten) and lets four neighbours or more be connected ends with the error of the unfinished check. -/
theorem C111_sampler_false {delta length : ℝ} (hd : 0 < delta) (hl : 0 ≤ length) {e : StraightLine ℝ n}
    (he : StraightLine.init n delta length = .ok e) {U : ℕ → Ω → Fin (n + 1) → ℝ} (hU : UnitDraws Pr U) {Args : Type} (tol : ℝ → ℝ)
    (note : ℝ → String) (rest : Args) {maxK : ℕ} (hmax : 4 ≤ maxK) (d : ℕ) :
    Pr {ω | ¬ ∀ w : World (Space (n + 1)) ℝ, EnvWorld w e.isMotionValid (fun i => e.sample (U i ω)) → KnnWorld w →
      ∀ (m : ℕ) (sched : List ℕ), 5 ≤ m → (m :: sched).Pairwise (· < ·) →
        lineTrial w e tol note rest maxK (m :: sched) d = .error .notImplemented} = 0 := by
  refine measure_mono_null (fun ω hω => ?_) (hops_ae (C84_straight hd hl he hU))
  by_contra hnot
  apply hω
  intro w hw hk m sched hm hs
  refine C111_general_false hw.sound hk.exact hk.sorted e tol note rest hmax m hm sched hs d ?_
  have hget : ∀ (i : ℕ) (p : Space (n + 1)), (w.fresh (d + 1) m)[i]? = some p → p = WithLp.toLp 2 (e.sample (U (d + 1 + i) ω)) := by
    intro i p hp
    unfold World.fresh at hp
    rw [List.getElem?_map] at hp
    obtain ⟨k, hk, rfl⟩ := Option.map_eq_some_iff.1 hp
    obtain ⟨hi, rfl⟩ := List.getElem?_eq_some_iff.1 hk
    rw [hw.draw]
    simp
  intro i j k p q s hi hj hk' hij hik hdist
  by_contra hjk
  rw [hget i p hi, hget j q hj, hget k s hk', hw.dist, hw.dist] at hdist
  refine hnot ⟨d + 1 + j, d + 1 + i, d + 1 + k, by omega, by omega, ?_⟩
  rw [dist_comm]
  exact hdist

/-- The hypotheses are met by the planar corridor of clearance 1 and length 2. -/
theorem C111_sampler_nonvacuous : ∃ e : StraightLine ℝ 1, StraightLine.init 1 1 2 = .ok e ∧
    (∃ Pr : Measure (ℕ → Fin 2 → ℝ), IsProbabilityMeasure Pr ∧ UnitDraws Pr (fun i x => x i)) ∧
    ∀ x : ℕ → Fin 2 → ℝ, EnvWorld (envWorld e.isMotionValid fun i => e.sample (x i)) e.isMotionValid (fun i => e.sample (x i)) ∧
      KnnWorld (envWorld e.isMotionValid fun i => e.sample (x i)) := by
  obtain ⟨e, he, -, -, Pr, h1, h2, h3⟩ := C86_nonvacuous
  exact ⟨e, he, ⟨Pr, h1, h2⟩, fun x => ⟨h3 x, envWorld_knn _ _⟩⟩

end Verif.Props
