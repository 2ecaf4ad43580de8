import Mathlib.Tactic.Linarith
import Mathlib.Tactic.FieldSimp
import Verif.Model.PlotErrors
import Verif.Props.Plots

/-! The error bars of the plot: C109. -/

namespace Verif.Props

open Verif Verif.Plots

theorem sum_deviation (os : List (Bool × ℝ)) (m : ℝ) :
    ((os.map fun o => if o.1 then (1 : ℤ) else 0).map fun (s : ℤ) => ((s : ℝ) - m) ^ 2).sum =
      ((os.filter fun o => o.1).length : ℝ) * (1 - m) ^ 2 + ((os.length : ℝ) - ((os.filter fun o => o.1).length : ℝ)) * m ^ 2 := by
  induction os with
  | nil => simp
  | cons o os ih =>
    rw [List.map_cons, List.map_cons, List.sum_cons, ih]
    cases h : o.1 <;> simp [h] <;> ring

/-- C109, the error bars: for logs with different names in the expected format, the error bar at a success rate `r` of `n` runs is the root of `r (1 - r) / n`, and that at the mean of the
times the root of the sum of the squared deviations from it, divided by `n`. Missing: as for `C109_groups_partial`. -/
theorem C109_errors_partial (P : Parser ℝ) (files : List File) (runs : List (Run ℝ))
    (hlog : List.Forall₂ (fun x r => Logged P x.2 r) (files.filter isLog) runs) (hname : ((files.filter isLog).map Prod.fst).Nodup) :
    ∃ p, plot P files = .ok p ∧ (errorBars p).map Prod.fst = (bars p).map Prod.fst ∧
      ∀ g rate time e1 e2, (g, rate, time) ∈ bars p → (g, e1, e2) ∈ errorBars p →
        e1 = √(rate * (1 - rate) / ((outcomes runs g).length : ℝ)) ∧
        e2 = √(((outcomes runs g).map fun o => (o.2 - time) ^ 2).sum) / ((outcomes runs g).length : ℝ) := by
  obtain ⟨p, hp, hk, hs, ht⟩ := C109_groups_partial P files runs hlog hname
  obtain ⟨p', hp', _, hb⟩ := C109_rates_partial P files runs hlog hname
  rw [hp] at hp'
  cases hp'
  refine ⟨p, hp, by simp [bars, errorBars, Function.comp_def], ?_⟩
  intro g rate time e1 e2 hbar herr
  obtain ⟨hne, hrate, htime⟩ := (hb g rate time).1 hbar
  obtain ⟨⟨g, xs⟩, hx, he⟩ := List.mem_map.1 herr
  cases he
  have hget := get_mem _ hk hx
  rw [hs, if_neg hne] at hget
  cases hget
  have hn : (0 : ℝ) < ((outcomes runs g).length : ℝ) := by
    exact_mod_cast List.length_pos_iff.2 hne
  have hmean : mean (((outcomes runs g).map fun o => if o.1 then (1 : ℤ) else 0).map fun (s : ℤ) => (s : ℝ)) = rate := by
    rw [mean, sum_solved, hrate]
    simp
  set n := ((outcomes runs g).length : ℝ) with hnd
  refine ⟨?_, ?_⟩
  · rw [std, hmean]
    have : mean ((((outcomes runs g).map fun o => if o.1 then (1 : ℤ) else 0).map fun (s : ℤ) => (s : ℝ)).map fun x => (x - rate) ^ 2) = rate * (1 - rate) := by
      rw [mean, List.map_map]
      have e := sum_deviation (outcomes runs g) rate
      simp only [Function.comp_def] at e ⊢
      rw [e]
      simp only [List.length_map]
      rw [← hnd]
      have hc : ((((outcomes runs g).filter fun o => o.1).length : ℕ) : ℝ) = rate * n := by
        rw [hrate]; field_simp
      rw [hc]
      field_simp
      ring
    rw [this]
    simp only [List.length_map]
    rw [← hnd, Real.sqrt_div' _ hn.le]
  · rw [ht, if_neg hne]
    simp only [Option.getD_some]
    have hm : mean ((outcomes runs g).map fun o => o.2) = time := by
      rw [mean, htime, List.length_map]
    rw [std, hm, mean, List.map_map]
    simp only [Function.comp_def, List.length_map]
    rw [← hnd, Real.sqrt_div' _ hn.le, div_div, Real.mul_self_sqrt hn.le]

theorem Logged_map {K K' : Type} (P : Parser K) (f : K → K') {log : List Line} {r : Run K} (h : Logged P log r) :
    Logged ⟨P.int, fun t => (P.float t).map f⟩ log ⟨r.minSamples, r.maxSamples, r.adaptive, r.outcome.map fun o => (o.1, f o.2)⟩ := by
  obtain ⟨a, args, b, h1, h2, h3⟩ := h
  refine ⟨a, args, b, ⟨h1.tag, h1.start, h1.adaptive, h1.min, h1.max⟩, h2, ?_⟩
  cases ho : r.outcome with
  | none =>
    rw [ho] at h3
    simpa using h3
  | some o =>
    obtain ⟨solved, time⟩ := o
    rw [ho] at h3
    obtain ⟨c, d, t, h4, h5, h6⟩ := h3
    exact ⟨c, d, t, h4, by simp [h5], h6⟩

/-- Two logs, one of a solved run of 2.5 s and one of a run of 1.5 s that is not solved: the error bars. -/
theorem C109_errors_nonvacuous : ∃ P : Parser ℝ, List.Forall₂ (fun (x : File) r => Logged P x.2 r)
      (List.filter isLog [("1.log".toList, oldLog true), ("2.log".toList, oldLog false)])
      [⟨10, 20, false, some (true, 5 / 2)⟩, ⟨10, 20, false, some (false, 3 / 2)⟩] ∧
    ∃ p, plot P [("1.log".toList, oldLog true), ("2.log".toList, oldLog false)] = .ok p ∧ ((10, 20, 0), √(1 / 8), √(1 / 2) / 2) ∈ errorBars p := by
  have hf : List.filter isLog [("1.log".toList, oldLog true), ("2.log".toList, oldLog false)] =
    [("1.log".toList, oldLog true), ("2.log".toList, oldLog false)] := by decide +kernel
  have hlog : List.Forall₂ (fun (x : File) r => Logged (⟨smallParser.int, fun t => (smallParser.float t).map fun q : ℚ => (q : ℝ)⟩ : Parser ℝ) x.2 r)
      (List.filter isLog [("1.log".toList, oldLog true), ("2.log".toList, oldLog false)])
      [⟨10, 20, false, some (true, 5 / 2)⟩, ⟨10, 20, false, some (false, 3 / 2)⟩] := by
    rw [hf]
    have h1 := Logged_map smallParser (fun q : ℚ => (q : ℝ)) (oldLog_logged true)
    have h2 := Logged_map smallParser (fun q : ℚ => (q : ℝ)) (oldLog_logged false)
    simp only [Option.map_some, if_true] at h1 h2
    norm_num at h1 h2
    exact List.Forall₂.cons h1 (List.Forall₂.cons h2 List.Forall₂.nil)
  refine ⟨_, hlog, ?_⟩
  have hname : ((List.filter isLog [("1.log".toList, oldLog true), ("2.log".toList, oldLog false)]).map Prod.fst).Nodup := by rw [hf]; decide +kernel
  obtain ⟨p, hp, hk, he⟩ := C109_errors_partial _ _ _ hlog hname
  obtain ⟨p', hp', _, hb⟩ := C109_rates_partial _ _ _ hlog hname
  rw [hp] at hp'
  cases hp'
  refine ⟨p, hp, ?_⟩
  have ho : outcomes [⟨10, 20, false, some (true, 5 / 2)⟩, (⟨10, 20, false, some (false, 3 / 2)⟩ : Run ℝ)] (10, 20, 0) = [(true, 5 / 2), (false, 3 / 2)] := by
    simp [outcomes, Run.group]
  have hbar : ((10, 20, 0), 1 / 2, 2) ∈ bars p := by
    rw [hb, ho]
    refine ⟨by simp, ?_, ?_⟩ <;> norm_num [List.filter]
  have hmem : (10, 20, 0) ∈ (errorBars p).map Prod.fst := by
    rw [hk]
    exact List.mem_map.2 ⟨_, hbar, rfl⟩
  obtain ⟨⟨g, e1, e2⟩, hx, rfl⟩ := List.mem_map.1 hmem
  have := he _ _ _ e1 e2 hbar hx
  rw [ho] at this
  norm_num at this
  obtain ⟨rfl, rfl⟩ := this
  norm_num
  exact hx

end Verif.Props
