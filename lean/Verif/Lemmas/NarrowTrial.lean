import Verif.Lemmas.Py
import Verif.Props.ExpTrials
import Verif.Lemmas.PrmFull
import Verif.Props.PrmFull
import Verif.Spec.NarrowTrial

/-! The bisection of the narrow-passage trial on a stateful roadmap. -/

namespace Verif.Exps

open Verif.Prm Verif.Props

set_option linter.unusedSectionVars false

/-- Total correctness with the number of steps. -/
theorem loop_measure {σ β : Type _} {body : σ → Step σ β} (I : σ → Prop) (Q : β → Prop) (μ : σ → ℕ)
    (hstep : ∀ s, I s → (∃ b, body s = .done b ∧ Q b) ∨ (∃ s', body s = .next s' ∧ I s' ∧ μ s' < μ s)) :
    ∀ (k : ℕ) (s : σ), I s → μ s ≤ k → ∃ b, loop body (k + 1) s = some b ∧ Q b := by
  intro k
  induction k with
  | zero =>
    intro s hs hk
    rcases hstep s hs with ⟨b, hb, hq⟩ | ⟨s', h', hs', hlt⟩
    · exact ⟨b, loop_done hb 0, hq⟩
    · omega
  | succ k ih =>
    intro s hs hk
    rcases hstep s hs with ⟨b, hb, hq⟩ | ⟨s', h', hs', hlt⟩
    · exact ⟨b, loop_done hb _, hq⟩
    · obtain ⟨b, hb, hq⟩ := ih s' hs' (by omega)
      exact ⟨b, by rw [loop_next h']; exact hb, hq⟩

variable {σ C P K : Type} [LinearOrder K]

theorem bisect_loop (D : Driver σ C P K) (t : PrmType) (conns : List C) (hlen : 2 ≤ conns.length) (maxConn : C) (I : σ → Prop)
    (Out : C → Option (WithTop K × ℕ) → Prop)
    (htest : ∀ s, I s → ∀ c, (c = maxConn ∨ ∃ i, 0 < i ∧ i + 1 < conns.length ∧ conns[i]? = some c) →
      ∃ s' a, D.test c s = (s', .ok a) ∧ I s' ∧ Out c (answer a)) (s : σ) (hs : I s) :
    ∃ s' f, loop (trialBody D t conns maxConn) (conns.length + 1) (s, narrowStart conns) = some (s', .ok f) ∧ I s' ∧
      ((f.lb = some ((conns.length : ℤ) - 1) ∧ f.ub = none ∧ f.path = none ∧ Out maxConn none) ∨
        ∃ (i : ℕ) (lo hi : C) (p : WithTop K × ℕ), f.lb = some (i : ℤ) ∧ f.ub = some ((i : ℤ) + 1) ∧ conns[i]? = some lo ∧
          conns[i + 1]? = some hi ∧ (i = 0 ∨ Out lo none) ∧ f.path = some p ∧ f.info = "" ∧
          (i + 2 < conns.length → Out hi (some p)) ∧ (i + 2 = conns.length → Out maxConn (some p))) := by
  have key := loop_measure (body := trialBody D t conns maxConn)
    (fun x => I x.1 ∧ ∃ i j : ℕ, i < j ∧ j < conns.length ∧ x.2.lb = i ∧ x.2.ub = j ∧
      (i = 0 ∨ ∃ lo, conns[i]? = some lo ∧ Out lo none) ∧ (j + 1 = conns.length → x.2.path = none) ∧
      (j + 1 < conns.length → ∃ hi p, x.2.path = some p ∧ conns[j]? = some hi ∧ Out hi (some p)))
    (fun b => ∃ s' f, b = (s', .ok f) ∧ I s' ∧
      ((f.lb = some ((conns.length : ℤ) - 1) ∧ f.ub = none ∧ f.path = none ∧ Out maxConn none) ∨
        ∃ (i : ℕ) (lo hi : C) (p : WithTop K × ℕ), f.lb = some (i : ℤ) ∧ f.ub = some ((i : ℤ) + 1) ∧ conns[i]? = some lo ∧
          conns[i + 1]? = some hi ∧ (i = 0 ∨ Out lo none) ∧ f.path = some p ∧ f.info = "" ∧
          (i + 2 < conns.length → Out hi (some p)) ∧ (i + 2 = conns.length → Out maxConn (some p))))
    (fun x => (x.2.ub - x.2.lb).toNat) ?_ conns.length (s, narrowStart conns) ?_ ?_
  · obtain ⟨b, hb, s', f, rfl, hI, hf⟩ := key
    exact ⟨s', f, hb, hI, hf⟩
  · rintro ⟨y, lb, ub, path⟩ ⟨hI, i, j, hij, hj, h1, h2, hlo, hnone, hsome⟩
    simp only at h1 h2 hnone hsome hI
    subst h1 h2
    unfold trialBody
    simp only
    by_cases hadj : (i : ℤ) + 1 = (j : ℤ)
    · rw [if_pos hadj]
      have hj' : j = i + 1 := by omega
      subst hj'
      obtain ⟨lo, hgi⟩ : ∃ lo, conns[i]? = some lo := ⟨_, List.getElem?_eq_getElem (by omega)⟩
      obtain ⟨hi, hgj⟩ : ∃ hi, conns[i + 1]? = some hi := ⟨_, List.getElem?_eq_getElem hj⟩
      have hlo' : i = 0 ∨ Out lo none := by
        rcases hlo with h | ⟨lo', h, h'⟩
        · exact Or.inl h
        · rw [hgi, Option.some.injEq] at h; subst h; exact Or.inr h'
      by_cases hlast : i + 1 + 1 = conns.length
      · rw [if_pos (by push_cast; omega)]
        left
        obtain ⟨z, a, hz, hIz, hout⟩ := htest y hI maxConn (Or.inl rfl)
        rw [hz]
        simp only
        cases hsol : answer a with
        | none =>
          rw [hsol] at hout
          exact ⟨_, rfl, z, _, rfl, hIz, Or.inl ⟨rfl, rfl, hnone hlast, hout⟩⟩
        | some p =>
          rw [hsol] at hout
          refine ⟨_, rfl, z, _, rfl, hIz, Or.inr ⟨i, lo, hi, p, rfl, by push_cast; rfl, hgi, hgj, hlo', rfl, rfl, ?_, fun _ => hout⟩⟩
          intro h; omega
      · rw [if_neg (by push_cast; omega)]
        left
        obtain ⟨hi', p, hs1, hg', hs2⟩ := hsome (by omega)
        rw [hgj, Option.some.injEq] at hg'
        subst hg'
        refine ⟨_, rfl, y, _, rfl, hI, Or.inr ⟨i, lo, hi, p, rfl, by push_cast; rfl, hgi, hgj, hlo', hs1, rfl, fun _ => hs2, ?_⟩⟩
        intro h; omega
    · rw [if_neg hadj, if_neg (by omega)]
      have hm1 : i < (i + j) / 2 := by omega
      have hm2 : (i + j) / 2 < j := by omega
      obtain ⟨c, hc⟩ : ∃ c, conns[(i + j) / 2]? = some c := ⟨_, List.getElem?_eq_getElem (by omega)⟩
      rw [middle_nat, pyGet_nat _ _ _ hc]
      right
      obtain ⟨z, a, hz, hIz, hout⟩ := htest y hI c (Or.inr ⟨_, by omega, by omega, hc⟩)
      simp only [hz]
      cases hsol : answer a with
      | none =>
        rw [hsol] at hout
        refine ⟨_, rfl, ⟨hIz, (i + j) / 2, j, hm2, hj, rfl, rfl, Or.inr ⟨c, hc, hout⟩, hnone, hsome⟩, ?_⟩
        simp only
        omega
      | some p =>
        rw [hsol] at hout
        refine ⟨_, rfl, ⟨hIz, i, (i + j) / 2, hm1, by omega, rfl, rfl, hlo, ?_, ?_⟩, ?_⟩
        · intro h; omega
        · intro _; exact ⟨c, p, rfl, hc, hout⟩
        · simp only
          omega
  · refine ⟨hs, 0, conns.length - 1, by omega, by omega, rfl, ?_, Or.inl rfl, fun _ => rfl, ?_⟩
    · simp only [narrowStart]; omega
    · intro h; omega
  · simp only [narrowStart]; omega

theorem single_loop (D : Driver σ C P K) (c maxConn : C) (I : σ → Prop) (Out : C → Option (WithTop K × ℕ) → Prop)
    (htest : ∀ s, I s → ∃ s' a, D.test c s = (s', .ok a) ∧ I s' ∧ Out c (answer a)) (s : σ) (hs : I s) :
    ∃ s' f, loop (trialBody D .radius [c] maxConn) 2 (s, narrowStart [c]) = some (s', .ok f) ∧ I s' ∧
      ((f.lb = some 0 ∧ f.ub = none ∧ f.path = none ∧ Out c none) ∨
        ∃ p, f.lb = none ∧ f.ub = some 0 ∧ f.path = some p ∧ Out c (some p)) := by
  obtain ⟨s', a, ha, hI, hout⟩ := htest s hs
  have hb : trialBody D .radius [c] maxConn (s, narrowStart [c]) = match answer a with
      | none => .done (s', .ok ⟨some 0, none, none, "only one connection; and no path found."⟩)
      | some p => .done (s', .ok ⟨none, some 0, some p, "only one connection; and path found!"⟩) := by
    unfold trialBody narrowStart
    simp [pyGet, ha]
    cases answer a <;> rfl
  cases hsol : answer a with
  | none =>
    rw [hsol] at hout hb
    exact ⟨s', _, loop_done hb 1, hI, Or.inl ⟨rfl, rfl, rfl, hout⟩⟩
  | some p =>
    rw [hsol] at hout hb
    exact ⟨s', _, loop_done hb 1, hI, Or.inr ⟨p, rfl, rfl, rfl, hout⟩⟩

end Verif.Exps
