import Verif.Lemmas.Py
import Verif.Spec.Jobs
import Mathlib.Data.List.Count
import Mathlib.Tactic.Linarith
import Mathlib.Tactic.FinCases
import Mathlib.Tactic.Ring

/-! Experiment scripts: C102 (submit, resume), C103 (aggregate), C104 (tune), C105 (deploy). -/

namespace Verif.Props

open Verif.Spec Verif.Jobs

variable {α : Type*}

theorem latest_spec (dirs : List (Dir α)) : (latest dirs = none ↔ dirs = []) ∧ ∀ d, latest dirs = some d → d ∈ dirs ∧ ∀ d' ∈ dirs, d'.mtime ≤ d.mtime := by
  induction dirs with
  | nil => simp [latest]
  | cons a rest ih =>
    rw [latest]
    obtain ⟨i1, i2⟩ := ih
    cases hl : latest rest with
    | none =>
      have := i1.1 hl
      subst this
      simp
    | some e =>
      obtain ⟨j1, j2⟩ := i2 e hl
      simp only
      split
      · rename_i hlt
        refine ⟨by simp, fun d hd => ?_⟩
        cases hd
        refine ⟨List.mem_cons_self, fun d' hd' => ?_⟩
        rcases List.mem_cons.1 hd' with rfl | hd'
        · exact le_rfl
        · exact (j2 d' hd').trans hlt.le
      · rename_i hlt
        refine ⟨by simp, fun d hd => ?_⟩
        cases hd
        refine ⟨List.mem_cons_of_mem _ j1, fun d' hd' => ?_⟩
        rcases List.mem_cons.1 hd' with rfl | hd'
        · exact not_lt.1 hlt
        · exact j2 d' hd'

theorem latestOf_spec (name : Name) (dirs : List (Dir α)) : (latestOf name dirs = none ↔ ∀ d ∈ dirs, ¬ name <+: d.path) ∧
    ∀ d, latestOf name dirs = some d → Newest dirs (fun d => name <+: d.path) d := by
  obtain ⟨h1, h2⟩ := latest_spec (dirs.filter fun d => name.isPrefixOf d.path)
  refine ⟨?_, ?_⟩
  · rw [latestOf, h1, List.filter_eq_nil_iff]
    simp
  · intro d hd
    obtain ⟨j1, j2⟩ := h2 d hd
    obtain ⟨k1, k2⟩ := List.mem_filter.1 j1
    exact ⟨k1, by simpa using k2, fun d' hd' hp => j2 d' (List.mem_filter.2 ⟨hd', by simpa using hp⟩)⟩

/-- C102, submission: an experiment that exists is never changed; a new one gets its own directory, whose script runs the trials of the requested type with the configuration and the results in that directory, and the
job is submitted with the given triples. Without a new directory nothing is submitted. -/
theorem C102_new (kind : Kind) (name : Name) (params : α) (triples : ℤ × ℤ × ℤ) (stamp : Name) (now : ℕ) (dirs : List (Dir α)) :
    let r := submitNew kind name (some params) triples stamp now dirs
    (∀ d ∈ dirs, d ∈ r.2) ∧ ((dirs.map (·.path)).Nodup → (r.2.map (·.path)).Nodup) ∧
      ((r.1 = .exit1 ∧ r.2 = dirs ∧ ∃ d ∈ dirs, d.path = name ++ '_' :: stamp) ∨
        ∃ d ∈ r.2, d ∉ dirs ∧ Named name d ∧ r.1 = .submitted d.path triples ∧ d.config = some ⟨params, name, triples⟩ ∧
          ∃ s, d.script = some s ∧ s.configDir = d.path ∧ s.saveDir = d.path ∧
            s.trial = match kind with
              | .line => "run_straight_line_optimality_trial.py"
              | .knn => "run_knn_radius_trial.py"
              | .narrow => "run_narrow_passage_clearance_trial.py") := by
  simp only [submitNew]
  by_cases h : ∃ d ∈ dirs, d.path = name ++ '_' :: stamp
  · have h' : (dirs.any fun d => decide (d.path = name ++ '_' :: stamp)) = true := by simpa using h
    rw [if_pos h']
    exact ⟨fun d hd => hd, fun h => h, .inl ⟨rfl, rfl, h⟩⟩
  · have h' : ¬ (dirs.any fun d => decide (d.path = name ++ '_' :: stamp)) = true := by simpa using h
    rw [if_neg h']
    refine ⟨fun d hd => List.mem_append_left _ hd, ?_, .inr ⟨_, List.mem_append_right _ (List.mem_singleton.2 rfl), fun hd => h ⟨_, hd, rfl⟩, ⟨stamp, rfl⟩, rfl, rfl, _, rfl, rfl, rfl, ?_⟩⟩
    · intro hnd
      rw [List.map_append, List.nodup_append]
      refine ⟨hnd, by simp, ?_⟩
      intro a ha b hb
      obtain ⟨d, hd, rfl⟩ := List.mem_map.1 ha
      simp only [List.map_cons, List.map_nil, List.mem_singleton] at hb
      subst hb
      exact fun e => h ⟨d, hd, e⟩
    · cases kind <;> rfl

/-- C102, resume: the job of the most recently modified directory whose name begins with the given name is submitted again, with the triples that were saved there; there is none exactly if the script exits. -/
theorem C102_resume (name : Name) (dirs : List (Dir α)) :
    (submitResume name dirs = .exit1 ↔ ∀ d ∈ dirs, ¬ name <+: d.path) ∧
      ∀ p t, submitResume name dirs = .submitted p t → ∃ d c, Newest dirs (fun d => name <+: d.path) d ∧ d.path = p ∧ d.config = some c ∧ c.triples = t := by
  obtain ⟨h1, h2⟩ := latestOf_spec name dirs
  rw [submitResume]
  cases hl : latestOf name dirs with
  | none => exact ⟨by simpa using h1.1 hl, fun p t h => by simp at h⟩
  | some d =>
    have hn : ¬ ∀ d ∈ dirs, ¬ name <+: d.path := fun h => by rw [h1.2 h] at hl; simp at hl
    simp only
    cases hc : d.config with
    | none => exact ⟨by simpa using hn, fun p t h => by simp at h⟩
    | some c =>
      refine ⟨by simpa using hn, fun p t h => ?_⟩
      simp only [Outcome.submitted.injEq] at h
      exact ⟨d, c, h2 d hl, h.1, hc, h.2⟩

/-- C102, the right experiment: resuming continues the latest experiment with this name, if no other experiment's name continues the given one. Missing: such other experiments, see `C102_other_false`. -/
theorem C102_named_partial (name : Name) (dirs : List (Dir α)) (hn : ∀ d ∈ dirs, name <+: d.path → Named name d) {p : Name} {t : ℤ × ℤ × ℤ} (h : submitResume name dirs = .submitted p t) :
    ∃ d c, Newest dirs (Named name) d ∧ d.path = p ∧ d.config = some c ∧ c.triples = t := by
  obtain ⟨d, c, ⟨h1, h2, h3⟩, h4⟩ := (C102_resume name dirs).2 p t h
  refine ⟨d, c, ⟨h1, hn d h1 h2, fun d' hd' hn' => h3 d' hd' ?_⟩, h4⟩
  obtain ⟨s, hs⟩ := hn'
  exact hs ▸ List.prefix_append _ _

/-- C102, back again: resuming after a submission, with nothing modified since, submits the same job again. -/
theorem C102_back (kind : Kind) (name : Name) (params : α) (triples : ℤ × ℤ × ℤ) (stamp : Name) (now : ℕ) (dirs : List (Dir α)) (hnow : ∀ d ∈ dirs, d.mtime ≤ now)
    {o : Outcome} {dirs' : List (Dir α)} (h : submitNew kind name (some params) triples stamp now dirs = (o, dirs')) (ho : o ≠ .exit1) : submitResume name dirs' = o := by
  simp only [submitNew] at h
  split at h
  · simp only [Prod.mk.injEq] at h
    exact absurd h.1.symm ho
  · simp only [Prod.mk.injEq] at h
    obtain ⟨rfl, rfl⟩ := h
    have key : ∀ (l : List (Dir α)) (d : Dir α), (∀ e ∈ l, e.mtime ≤ d.mtime) → latest (l ++ [d]) = some d := by
      intro l d hl
      induction l with
      | nil => rfl
      | cons a l ih =>
        rw [List.cons_append, latest, ih fun e he => hl e (List.mem_cons_of_mem _ he)]
        simp only
        rw [if_neg (not_lt.2 (hl a List.mem_cons_self))]
    have hp : name.isPrefixOf (name ++ '_' :: stamp) = true := by simp
    simp only [submitResume, latestOf, List.filter_append, List.filter_cons, hp, if_true, List.filter_nil, Option.map_some]
    rw [key _ _ fun e he => hnow e (List.mem_filter.1 he).1]

/-- C102, other experiments: false that resuming continues an experiment with the given name: after submitting `knn` and then `knn2`, resuming `knn` runs `knn2`. -/
theorem C102_other_false : ∃ dirs : List (Dir Unit),
    dirs = (submitNew .narrow "knn2".toList (some ()) (1, 2, 3) "20240102-000000".toList 2 (submitNew .knn "knn".toList (some ()) (1, 1, 1) "20240101-000000".toList 1 []).2).2 ∧
      ∃ p t, submitResume "knn".toList dirs = .submitted p t ∧ ∀ d ∈ dirs, Named "knn".toList d → d.path ≠ p := by
  refine ⟨_, rfl, "knn2_20240102-000000".toList, (1, 2, 3), by decide, ?_⟩
  intro d hd hn
  have : d ∈ [(⟨"knn_20240101-000000".toList, 1, some ⟨(), "knn".toList, (1, 1, 1)⟩, some ⟨trialScript .knn, "knn_20240101-000000".toList, "knn_20240101-000000".toList⟩⟩ : Dir Unit),
      ⟨"knn2_20240102-000000".toList, 2, some ⟨(), "knn2".toList, (1, 2, 3)⟩, some ⟨trialScript .narrow, "knn2_20240102-000000".toList, "knn2_20240102-000000".toList⟩⟩] := hd
  simp only [List.mem_cons, List.not_mem_nil, or_false] at this
  rcases this with rfl | rfl
  · decide
  · obtain ⟨s, hs⟩ := hn
    simp at hs

/-- The general form of `C102_other_false`: after a submission, with nothing modified since, resuming under any name that the new name begins with runs the new experiment, whatever experiments with exactly
that name there are. -/
theorem C102_other (kind : Kind) (name name' : Name) (hpre : name <+: name') (params : α) (triples : ℤ × ℤ × ℤ) (stamp : Name) (now : ℕ) (dirs : List (Dir α)) (hnow : ∀ d ∈ dirs, d.mtime ≤ now)
    {o : Outcome} {dirs' : List (Dir α)} (h : submitNew kind name' (some params) triples stamp now dirs = (o, dirs')) (ho : o ≠ .exit1) :
    submitResume name dirs' = o ∧ o = .submitted (name' ++ '_' :: stamp) triples := by
  simp only [submitNew] at h
  split at h
  · simp only [Prod.mk.injEq] at h
    exact absurd h.1.symm ho
  · simp only [Prod.mk.injEq] at h
    obtain ⟨rfl, rfl⟩ := h
    refine ⟨?_, rfl⟩
    have key : ∀ (l : List (Dir α)) (d : Dir α), (∀ e ∈ l, e.mtime ≤ d.mtime) → latest (l ++ [d]) = some d := by
      intro l d hl
      induction l with
      | nil => rfl
      | cons a l ih =>
        rw [List.cons_append, latest, ih fun e he => hl e (List.mem_cons_of_mem _ he)]
        simp only
        rw [if_neg (not_lt.2 (hl a List.mem_cons_self))]
    have hp : name.isPrefixOf (name' ++ '_' :: stamp) = true := List.isPrefixOf_iff_prefix.2 (hpre.trans (List.prefix_append _ _))
    simp only [submitResume, latestOf, List.filter_append, List.filter_cons, hp, if_true, List.filter_nil, Option.map_some]
    rw [key _ _ fun e he => hnow e (List.mem_filter.1 he).1]

/-- C102, configuration: false that a submitted job has its configuration: if the given file does not exist the job is submitted without one, and cannot be resumed. -/
theorem C102_config_false (kind : Kind) (name : Name) (triples : ℤ × ℤ × ℤ) (stamp : Name) (now : ℕ) :
    ∃ d : Dir α, submitNew kind name none triples stamp now [] = (.submitted d.path triples, [d]) ∧ d.config = none ∧ submitResume name [d] = .raised := by
  refine ⟨⟨name ++ '_' :: stamp, now, none, some ⟨trialScript kind, name ++ '_' :: stamp, name ++ '_' :: stamp⟩⟩, rfl, rfl, ?_⟩
  have hp : name.isPrefixOf (name ++ '_' :: stamp) = true := by simp
  simp [submitResume, latestOf, latest, hp]

/-- C102 is not vacuous. -/
theorem C102_nonvacuous : ∃ dirs : List (Dir ℕ), dirs.length = 2 ∧ (∀ d ∈ dirs, "line".toList <+: d.path → Named "line".toList d) ∧
    ∃ p, submitResume "line".toList dirs = .submitted p (1, 4, 2) := by
  refine ⟨[⟨"line_2".toList, 5, some ⟨7, "line".toList, (1, 4, 2)⟩, none⟩, ⟨"line_1".toList, 3, none, none⟩], rfl, ?_, _, rfl⟩
  intro d hd _
  simp only [List.mem_cons, List.not_mem_nil, or_false] at hd
  rcases hd with rfl | rfl
  · exact ⟨['2'], rfl⟩
  · exact ⟨['1'], rfl⟩

/-! ### C103 -/

variable {ρ : Type*}

theorem agg_not_out {n : Name} (h : ¬ "out".toList <+: n) (rows : List ρ) : outFiles [(⟨n, rows⟩ : Csv ρ)] = [] := by
  rw [outFiles, List.filter_eq_nil_iff]
  intro f hf
  rw [List.mem_singleton.1 hf, Bool.and_eq_true, List.isPrefixOf_iff_prefix]
  exact fun h' => h h'.1

theorem outFiles_without {n : Name} (h : ¬ "out".toList <+: n) (files : List (Csv ρ)) : outFiles (files.filter fun f => ¬ f.name = n) = outFiles files := by
  rw [outFiles, outFiles, List.filter_filter]
  refine List.filter_congr fun f _ => ?_
  by_cases hf : f.name = n
  · have : ("out".toList.isPrefixOf f.name) = false := by
      rw [Bool.eq_false_iff, ne_eq, List.isPrefixOf_iff_prefix, hf]
      exact h
    rw [this, Bool.false_and, Bool.false_and]
  · rw [decide_eq_true hf, Bool.and_true]

/-- C103, contents: the aggregate contains the rows of the result files `out*.csv`, every one once, and no other file changes; it fails exactly if there are no result files. -/
theorem C103_rows (prefix_ : Name) (files : List (Csv ρ)) :
    ((∃ f ∈ files, ∃ mid, f.name = "out".toList ++ mid ++ ".csv".toList) → ∃ files', aggregate prefix_ files = .ok files') ∧
    ∀ files', aggregate prefix_ files = .ok files' →
      (∃ f, f ∈ files' ∧ f.name = prefix_ ++ "_agg_out.csv".toList ∧ (∀ g ∈ files', g.name = f.name → g = f) ∧
        ∃ parts : List (Csv ρ), parts.Sublist files ∧ (∀ g ∈ files, g ∈ parts ↔ ∃ mid, g.name = "out".toList ++ mid ++ ".csv".toList) ∧ f.rows = (parts.map (·.rows)).flatten) ∧
      ∀ g : Csv ρ, g.name ≠ prefix_ ++ "_agg_out.csv".toList → (g ∈ files' ↔ g ∈ files) := by
  have hmem : ∀ g ∈ files, g ∈ outFiles files ↔ ∃ mid, g.name = "out".toList ++ mid ++ ".csv".toList := by
    intro g hg
    rw [outFiles, List.mem_filter, Bool.and_eq_true, List.isPrefixOf_iff_prefix, List.isSuffixOf_iff_suffix]
    constructor
    · rintro ⟨-, ⟨t, ht⟩, s, hs⟩
      refine ⟨s, ?_⟩
      rw [← ht] at hs ⊢
      rw [List.append_assoc, hs]
      simp
    · rintro ⟨mid, hm⟩
      refine ⟨hg, ⟨mid ++ ".csv".toList, by rw [hm, List.append_assoc]⟩, ⟨mid, ?_⟩⟩
      rw [hm, List.append_assoc]
      simp
  refine ⟨?_, ?_⟩
  · rintro ⟨f, hf, hm⟩
    have : outFiles files ≠ [] := List.ne_nil_of_mem ((hmem f hf).2 hm)
    exact ⟨_, by rw [aggregate]; exact if_neg this⟩
  · intro files' h
    simp only [aggregate] at h
    generalize prefix_ ++ "_agg_out.csv".toList = n at h ⊢
    split at h
    · simp at h
    · simp only [Except.ok.injEq] at h
      subst h
      refine ⟨⟨_, List.mem_append_right _ (List.mem_singleton.2 rfl), rfl, ?_, outFiles files, List.filter_sublist, hmem, rfl⟩, ?_⟩
      · intro g hg hn
        rcases List.mem_append.1 hg with hg | hg
        · have := (List.mem_filter.1 hg).2
          simp only [decide_eq_true_eq] at this
          exact absurd hn this
        · exact List.mem_singleton.1 hg
      · intro g hg
        rw [List.mem_append, List.mem_filter, List.mem_singleton]
        constructor
        · rintro (h | h)
          · exact h.1
          · exact absurd (by rw [h]) hg
        · exact fun h => .inl ⟨h, by simpa using hg⟩

/-- C103, repetition: aggregating again changes nothing, if the name for the aggregate does not itself begin with `out`. Missing: such names, see `C103_again_false`. -/
theorem C103_again_partial (prefix_ : Name) (hp : ¬ "out".toList <+: prefix_ ++ "_agg_out.csv".toList) (files : List (Csv ρ)) {files' : List (Csv ρ)} (h : aggregate prefix_ files = .ok files') :
    aggregate prefix_ files' = .ok files' ∧ timed files' = timed files := by
  have key : outFiles files' = outFiles files := by
    simp only [aggregate] at h
    split at h
    · simp at h
    · simp only [Except.ok.injEq] at h
      subst h
      have h1 := agg_not_out hp ((outFiles files).map (·.rows)).flatten
      have h2 := outFiles_without hp files
      rw [outFiles] at h1 h2 ⊢
      rw [List.filter_append, h1, h2, List.append_nil]
  refine ⟨?_, by rw [timed, timed, key]⟩
  simp only [aggregate, key] at h ⊢
  generalize prefix_ ++ "_agg_out.csv".toList = n at h ⊢
  split at h
  · simp at h
  · rename_i hne
    rw [if_neg hne]
    simp only [Except.ok.injEq] at h ⊢
    subst h
    rw [List.filter_append, List.filter_filter]
    simp

/-- C103, repetition: false with a name that begins with `out`: the second aggregate contains every row twice. (For all names and files: `C103_again_repeats`.) -/
theorem C103_again_false : ∃ (files f1 f2 : List (Csv ℕ)), aggregate "out".toList files = .ok f1 ∧ aggregate "out".toList f1 = .ok f2 ∧
    (∃ f ∈ f1, f.name = "out_agg_out.csv".toList ∧ f.rows = [3, 4]) ∧ ∃ f ∈ f2, f.name = "out_agg_out.csv".toList ∧ f.rows = [3, 4, 3, 4] :=
  ⟨[⟨"out_0.csv".toList, [3, 4]⟩], [⟨"out_0.csv".toList, [3, 4]⟩, ⟨"out_agg_out.csv".toList, [3, 4]⟩], [⟨"out_0.csv".toList, [3, 4]⟩, ⟨"out_agg_out.csv".toList, [3, 4, 3, 4]⟩],
    rfl, rfl, ⟨⟨"out_agg_out.csv".toList, [3, 4]⟩, by simp, rfl, rfl⟩, ⟨⟨"out_agg_out.csv".toList, [3, 4, 3, 4]⟩, by simp, rfl, rfl⟩⟩

theorem drop_out (l : List Char) : ("out".toList ++ l).drop 3 = l := rfl

/-- The same as in `C103_again_repeats`, for any function that replaces the file `N` by the rows of all result files, of which `N` is one. -/
theorem repeats_of (g : List (Csv ρ) → Except PyErr (List (Csv ρ))) (N : Name) (files : List (Csv ρ))
    (hg : ∀ fs, outFiles fs ≠ [] → g fs = .ok (fs.filter (fun f => ¬ f.name = N) ++ [⟨N, ((outFiles fs).map (·.rows)).flatten⟩]))
    (hout : outFiles files ≠ []) (hfresh : ∀ f ∈ files, f.name ≠ N)
    (hname : ∀ rows : List ρ, outFiles (files ++ [⟨N, rows⟩]) = outFiles files ++ [⟨N, rows⟩]) (n : ℕ) :
    (fun fs => fs >>= g)^[n + 1] (.ok files) = .ok (files ++ [⟨N, (List.replicate (n + 1) ((outFiles files).map (·.rows)).flatten).flatten⟩]) := by
  have hkeep : files.filter (fun f => ¬ f.name = N) = files := List.filter_eq_self.2 fun f hf => by simpa using hfresh f hf
  induction n with
  | zero =>
    change g files = _
    rw [hg files hout, hkeep]
    simp
  | succ n ih =>
    rw [Function.iterate_succ_apply', ih]
    change g _ = _
    rw [hg _ (by rw [hname]; simp), hname, List.filter_append, hkeep]
    rw [List.replicate_succ (n := n + 1), List.flatten_cons]
    simp

/-- C103, repetition, for every name that begins with `out`, and any files: every further aggregation adds all rows once more, so that after `n + 1` aggregations every row is
in the aggregate `n + 1` times. -/
theorem C103_again_repeats (prefix_ : Name) (hp : "out".toList <+: prefix_) (files : List (Csv ρ)) (hfresh : ∀ f ∈ files, f.name ≠ prefix_ ++ "_agg_out.csv".toList)
    (hne : ∃ f ∈ files, ∃ mid, f.name = "out".toList ++ mid ++ ".csv".toList) (n : ℕ) :
    (fun fs => fs >>= aggregate prefix_)^[n + 1] (.ok files) =
      .ok (files ++ [⟨prefix_ ++ "_agg_out.csv".toList, (List.replicate (n + 1) ((outFiles files).map (·.rows)).flatten).flatten⟩]) := by
  have hout : outFiles files ≠ [] := by
    obtain ⟨f, hf, mid, e⟩ := hne
    have : f ∈ outFiles files := by
      rw [outFiles, List.mem_filter]
      refine ⟨hf, ?_⟩
      rw [e, Bool.and_eq_true, List.isPrefixOf_iff_prefix, List.isSuffixOf_iff_suffix]
      refine ⟨by rw [List.append_assoc]; exact List.prefix_append .., ?_⟩
      rw [List.append_assoc, drop_out]
      exact List.suffix_append ..
    exact List.ne_nil_of_mem this
  have hname : ∀ rows : List ρ, outFiles [(⟨prefix_ ++ "_agg_out.csv".toList, rows⟩ : Csv ρ)] = [⟨prefix_ ++ "_agg_out.csv".toList, rows⟩] := by
    intro rows
    rw [outFiles, List.filter_cons_of_pos]
    · rfl
    · obtain ⟨t, rfl⟩ := hp
      rw [Bool.and_eq_true, List.isPrefixOf_iff_prefix, List.isSuffixOf_iff_suffix]
      refine ⟨by rw [List.append_assoc]; exact List.prefix_append .., ?_⟩
      have : ("out".toList ++ t ++ "_agg_out.csv".toList).drop 3 = t ++ "_agg_out".toList ++ ".csv".toList := by
        rw [List.append_assoc, drop_out, List.append_assoc]
        rfl
      rw [this]
      exact List.suffix_append ..
  refine repeats_of (aggregate prefix_) _ files (fun fs hfs => ?_) hout hfresh (fun rows => ?_) n
  · simp only [aggregate]
    rw [if_neg hfs]
  · have := hname rows
    rw [outFiles] at this
    rw [outFiles, List.filter_append, this]
    rfl

/-- C103, statistics: the printed times leave out the first row of every result file and nothing else. -/
theorem C103_timed (files : List (Csv ρ)) (hne : ∀ f ∈ outFiles files, f.rows ≠ []) :
    (timed files).length + (outFiles files).length = ((outFiles files).map (·.rows)).flatten.length ∧
      ∀ f ∈ outFiles files, ∀ i, (h : i + 1 < f.rows.length) → f.rows[i + 1] ∈ timed files := by
  refine ⟨?_, ?_⟩
  · rw [timed]
    generalize outFiles files = l at hne ⊢
    induction l with
    | nil => rfl
    | cons f l ih =>
      have hf := List.length_pos_iff.2 (hne f List.mem_cons_self)
      have := ih fun g hg => hne g (List.mem_cons_of_mem _ hg)
      simp only [List.map_cons, List.flatten_cons, List.length_append, List.length_tail, List.length_cons] at this ⊢
      omega
  · intro f hf i h
    refine List.mem_flatten.2 ⟨f.rows.tail, List.mem_map.2 ⟨f, hf, rfl⟩, ?_⟩
    rw [← List.getElem_tail (by simp; omega)]
    exact List.getElem_mem _

/-- C103, selection: false that the experiment with the given name is aggregated: for two experiments of one tuning run the prefix of the one with 2 threads selects the one with 24. -/
theorem C103_prefix_false : ∃ (dirs : List (Dir Unit)) (d : Dir Unit), (∀ t ∈ [(1, 1, 2), (1, 1, 24)], t ∈ tuned true 1) ∧
    dirs.map (·.path) = ["line-triples-tune-threads_1-1-2_20240101-000000".toList, "line-triples-tune-threads_1-1-24_20240101-000001".toList] ∧
    latestOf "line-triples-tune-threads_1-1-2".toList dirs = some d ∧ Named "line-triples-tune-threads_1-1-24".toList d ∧ ¬ Named "line-triples-tune-threads_1-1-2".toList d := by
  refine ⟨[⟨_, 1, none, none⟩, ⟨_, 2, none, none⟩], _, by decide, rfl, rfl, ⟨"20240101-000001".toList, rfl⟩, ?_⟩
  rintro ⟨s, hs⟩
  have h1 : some '4' = (("line-triples-tune-threads_1-1-2".toList ++ '_' :: s)[31]?) := congrArg (fun l : Name => l[31]?) hs
  have h2 : ("line-triples-tune-threads_1-1-2".toList ++ '_' :: s)[31]? = some '_' := rfl
  rw [h2] at h1
  exact absurd h1 (by decide)

/-- C103 is not vacuous. -/
theorem C103_nonvacuous : ∃ (files files' : List (Csv ℕ)), ¬ "out".toList <+: "line".toList ++ "_agg_out.csv".toList ∧ aggregate "line".toList files = .ok files' ∧ timed files = [4, 6] ∧
    (∀ f ∈ outFiles files, f.rows ≠ []) ∧ files'.length = 4 :=
  ⟨[⟨"config.json".toList, []⟩, ⟨"out_0.csv".toList, [3, 4]⟩, ⟨"out_1.csv".toList, [5, 6]⟩], _, by decide, rfl, rfl, by
    intro f hf
    have : f ∈ [(⟨"out_0.csv".toList, [3, 4]⟩ : Csv ℕ), ⟨"out_1.csv".toList, [5, 6]⟩] := hf
    simp only [List.mem_cons, List.not_mem_nil, or_false] at this
    rcases this with rfl | rfl <;> simp, rfl⟩

/-! ### C104 -/

/-- C104: the tuner submits one node with the given number in one position and each of 1, 2, 4, 8, 16, 24, 32, 48 in the other, provided that processes times threads is at most 48; never more, and each once. -/
theorem C104_tuned (threads : Bool) (other : ℤ) (t : ℤ × ℤ × ℤ) : (t ∈ tuned threads other ↔
    t.1 = 1 ∧ (if threads then t.2.1 = other ∧ t.2.2 ∈ [1, 2, 4, 8, 16, 24, 32, 48] else t.2.2 = other ∧ t.2.1 ∈ [1, 2, 4, 8, 16, 24, 32, 48]) ∧ t.2.1 * t.2.2 ≤ 48) ∧
    (tuned threads other).Nodup := by
  obtain ⟨a, b, c⟩ := t
  have hn : toTest.Nodup := by decide
  cases threads
  · simp only [tuned, Bool.false_eq_true, if_false, List.mem_map, List.mem_filter, Prod.mk.injEq, decide_eq_true_eq, not_lt]
    refine ⟨⟨?_, ?_⟩, ?_⟩
    · rintro ⟨n, ⟨h1, h2⟩, rfl, rfl, rfl⟩
      exact ⟨rfl, ⟨rfl, h1⟩, h2⟩
    · rintro ⟨rfl, ⟨rfl, h1⟩, h2⟩
      exact ⟨b, ⟨h1, h2⟩, rfl, rfl, rfl⟩
    · exact (hn.filter _).map fun a b h => by simpa using h
  · simp only [tuned, if_true, List.mem_map, List.mem_filter, Prod.mk.injEq, decide_eq_true_eq, not_lt]
    refine ⟨⟨?_, ?_⟩, ?_⟩
    · rintro ⟨n, ⟨h1, h2⟩, rfl, rfl, rfl⟩
      exact ⟨rfl, ⟨rfl, h1⟩, by rw [mul_comm]; exact h2⟩
    · rintro ⟨rfl, ⟨rfl, h1⟩, h2⟩
      exact ⟨c, ⟨h1, by rw [mul_comm]; exact h2⟩, rfl, rfl, rfl⟩
    · exact (hn.filter _).map fun a b h => by simpa using h

/-- C104, nothing to test: no job is submitted exactly if the given number exceeds 48. -/
theorem C104_empty (threads : Bool) (other : ℤ) : tuned threads other = [] ↔ 48 < other := by
  constructor
  · intro h
    by_contra hlt
    have := ((C104_tuned threads other (if threads then (1, other, 1) else (1, 1, other))).1).2 (by cases threads <;> simp <;> omega)
    rw [h] at this
    simp at this
  · intro h
    rw [List.eq_nil_iff_forall_not_mem]
    intro t ht
    obtain ⟨-, h1, h2⟩ := ((C104_tuned threads other t).1).1 ht
    have hpos : ∀ n : ℤ, n ∈ [1, 2, 4, 8, 16, 24, 32, 48] → 1 ≤ n := by
      intro n hn
      simp only [List.mem_cons, List.not_mem_nil, or_false] at hn
      omega
    cases threads
    · simp only [Bool.false_eq_true, if_false] at h1
      have := hpos _ h1.2
      rw [h1.1] at h2
      nlinarith
    · simp only [if_true] at h1
      have := hpos _ h1.2
      rw [h1.1] at h2
      nlinarith

/-- C104, valid sizes: false that only positive numbers of processes and threads are submitted: nothing checks the given number. -/
theorem C104_positive_false : ∀ threads, (tuned threads 0).length = 8 ∧ ∀ t ∈ tuned threads 0, t.2.1 * t.2.2 = 0 := by
  decide

/-- C104 is not vacuous. -/
theorem C104_nonvacuous : tuned true 2 = [(1, 2, 1), (1, 2, 2), (1, 2, 4), (1, 2, 8), (1, 2, 16), (1, 2, 24)] ∧ tuned false 30 = [(1, 1, 30)] := by
  decide

/-! ### C105 -/

variable {A : Type*}

theorem count_queue (e : Env) (st : State A) (he : e.fails st.looks = false) : (count e st).2.queue ≤ (count e st).1 ∧ (count e st).2.deployed = st.deployed ∧ (count e st).2.queue ≤ st.queue := by
  simp only [count, he, Bool.false_eq_true, if_false]
  split
  · simp
  · simp

theorem count_deployed (e : Env) (st : State A) : (count e st).2.deployed = st.deployed := by
  simp only [count]
  split
  · rfl
  · split <;> rfl

theorem wait_deployed (e : Env) (fuel : ℕ) (s : ℕ × State A) {st : State A} (h : loop (waitStep e) fuel s = some st) : st.deployed = s.2.deployed := by
  induction fuel generalizing s with
  | zero => simp [loop] at h
  | succ n ih =>
    simp only [loop, waitStep] at h
    by_cases hw : s.1 > maxTotal - runsPer - 1
    · simp only [hw, if_true] at h
      rw [ih _ h, count_deployed]
    · simp only [hw, if_false, Option.some.injEq] at h
      rw [h]

theorem wait_queue (e : Env) (he : ∀ k, e.fails k = false) (fuel : ℕ) (s : ℕ × State A) (hs : s.2.queue ≤ s.1) {st : State A} (h : loop (waitStep e) fuel s = some st) : st.queue ≤ 49 := by
  induction fuel generalizing s with
  | zero => simp [loop] at h
  | succ n ih =>
    simp only [loop, waitStep] at h
    by_cases hw : s.1 > maxTotal - runsPer - 1
    · simp only [hw, if_true] at h
      exact ih _ (count_queue e s.2 (he _)).1 h
    · simp only [hw, if_false, Option.some.injEq] at h
      subst h
      have : maxTotal - runsPer - 1 = 49 := rfl
      omega

theorem deployAll_deployed (e : Env) (fuel : ℕ) (batches : List (List A)) {st st' : State A} (h : deployAll e fuel batches st = some st') : st'.deployed = batches.flatten.reverse ++ st.deployed := by
  induction batches generalizing st with
  | nil =>
    simp only [deployAll, Option.some.injEq] at h
    simp [h]
  | cons b rest ih =>
    rw [deployAll] at h
    split at h
    · simp at h
    · rename_i st1 h1
      rw [ih h, wait_deployed e fuel _ h1, count_deployed]
      simp

/-- C105, the load: if `squeue` never fails, the number of queued jobs stays below the limit of 100 after every submission of at most 50 jobs. As this holds for every list of batches, it holds at every point of a run.
Missing: failing calls of `squeue`, see `C105_load_false`. -/
theorem C105_load_partial (e : Env) (he : ∀ k, e.fails k = false) (fuel : ℕ) (batches : List (List A)) (hb : ∀ b ∈ batches, b.length ≤ 50) (hne : batches ≠ []) {st st' : State A}
    (h : deployAll e fuel batches st = some st') : st'.queue < 100 := by
  induction batches generalizing st with
  | nil => exact absurd rfl hne
  | cons b rest ih =>
    rw [deployAll] at h
    split at h
    · simp at h
    · rename_i st1 h1
      have hq := wait_queue e he fuel _ (count_queue e st (he _)).1 h1
      have hl := hb b List.mem_cons_self
      cases rest with
      | nil =>
        simp only [deployAll, Option.some.injEq] at h
        subst h
        show st1.queue + b.length < 100
        omega
      | cons c rest => exact ih (fun b hb' => hb b (List.mem_cons_of_mem _ hb')) (by simp) h

/-- C105, the load: false if `squeue` fails: it counts as an empty queue, and any number of jobs is submitted. -/
theorem C105_load_false (n : ℕ) : ∃ e : Env, ∃ st', deployAll e 1 (arrays (List.range n)) ⟨0, 0, 0, []⟩ = some st' ∧ st'.queue = 50 * n := by
  refine ⟨⟨fun _ => 0, fun _ => true, fun _ => false⟩, ?_⟩
  have key : ∀ (l : List ℕ) (st : State ℕ), ∃ st', deployAll ⟨fun _ => 0, fun _ => true, fun _ => false⟩ 1 (arrays l) st = some st' ∧ st'.queue = st.queue + 50 * l.length := by
    intro l
    induction l with
    | nil => exact fun st => ⟨st, rfl, by simp⟩
    | cons a l ih =>
      intro st
      obtain ⟨st', h1, h2⟩ := ih { st with looks := st.looks + 1, queue := st.queue + 50, deployed := (List.replicate runsPer a).reverse ++ st.deployed }
      refine ⟨st', ?_, ?_⟩
      · rw [← h1]
        simp [arrays, deployAll, loop, waitStep, count, runsPer]
      · rw [h2, List.length_cons]
        show st.queue + 50 + 50 * l.length = _
        ring
  obtain ⟨st', h1, h2⟩ := key (List.range n) ⟨0, 0, 0, []⟩
  exact ⟨st', h1, by rw [h2, List.length_range, zero_add]⟩

/-- C105, the turtlebot experiments: when the script ends, every argument set was submitted 50 times as often as it is listed, in order. -/
theorem C105_arrays [DecidableEq A] (e : Env) (fuel : ℕ) (args : List A) {st st' : State A} (hst : st.deployed = []) (h : deployAll e fuel (arrays args) st = some st') :
    st'.deployed.reverse = (args.map fun a => List.replicate 50 a).flatten ∧ ∀ a, st'.deployed.count a = 50 * args.count a := by
  have h1 := deployAll_deployed e fuel _ h
  rw [hst, List.append_nil] at h1
  refine ⟨by rw [h1, List.reverse_reverse]; rfl, fun a => ?_⟩
  rw [h1, List.count_reverse]
  clear h h1
  induction args with
  | nil => rfl
  | cons b l ih =>
    have : (arrays (b :: l)).flatten = List.replicate 50 b ++ (arrays l).flatten := rfl
    rw [this, List.count_append, ih, List.count_replicate, List.count_cons]
    split <;> omega

theorem chunks_flatten (l : List A) : (chunks l).flatten = l ∧ ∀ b ∈ chunks l, b.length ≤ 50 := by
  induction l using chunks.induct with
  | case1 => simp [chunks]
  | case2 a l ih =>
    rw [chunks]
    refine ⟨by rw [List.flatten_cons, ih.1, List.take_append_drop], ?_⟩
    intro b hb
    rcases List.mem_cons.1 hb with rfl | hb
    · exact List.length_take_le _ _
    · exact ih.2 b hb

/-- C105, the kuka experiments: when the script ends, the shuffled queue was submitted in its order, each entry once; and if `squeue` never fails fewer than 100 jobs are queued. -/
theorem C105_chunks (e : Env) (fuel : ℕ) (queue : List A) {st st' : State A} (hst : st.deployed = []) (h : deployAll e fuel (chunks queue) st = some st') :
    st'.deployed.reverse = queue ∧ ((∀ k, e.fails k = false) → queue ≠ [] → st'.queue < 100) := by
  have h1 := deployAll_deployed e fuel _ h
  rw [hst, List.append_nil, (chunks_flatten queue).1] at h1
  refine ⟨by rw [h1, List.reverse_reverse], fun he hne => C105_load_partial e he fuel _ (chunks_flatten queue).2 (fun h0 => hne ?_) h⟩
  rw [← (chunks_flatten queue).1, h0]
  rfl

/-- C105, held jobs: false that every submitted job stays submitted: if all jobs in the queue are held at a look they are cancelled, and not submitted again. -/
theorem C105_cancelled_false : ∃ (e : Env) (st' : State ℕ), (∀ k, e.fails k = false) ∧ deployAll e 2 (arrays [1, 2]) ⟨0, 0, 0, []⟩ = some st' ∧ st'.deployed.length = 100 ∧ st'.cancelled = 50 := by
  refine ⟨⟨fun _ => 0, fun _ => false, fun k => k == 1⟩, _, fun _ => rfl, rfl, rfl, rfl⟩

theorem count_kept (e : Env) (st : State A) : (count e st).2.queue + (count e st).2.cancelled ≤ st.queue + st.cancelled ∧
    ((∀ k, e.done k = 0) → (count e st).2.queue + (count e st).2.cancelled = st.queue + st.cancelled) ∧
    st.cancelled ≤ (count e st).2.cancelled ∧ ((∀ k, e.held k = false) → (count e st).2.cancelled = st.cancelled) := by
  simp only [count]
  split
  · exact ⟨by simp only; omega, fun h => by simp [h], le_rfl, fun _ => rfl⟩
  · split
    · rename_i hh
      exact ⟨by simp only; omega, fun h => by simp [h, add_comm], by simp, fun h => by simp [h] at hh⟩
    · exact ⟨by simp only; omega, fun h => by simp [h], le_rfl, fun _ => rfl⟩

theorem wait_kept (e : Env) (fuel : ℕ) (s : ℕ × State A) {st : State A} (h : loop (waitStep e) fuel s = some st) :
    st.queue + st.cancelled ≤ s.2.queue + s.2.cancelled ∧ ((∀ k, e.done k = 0) → st.queue + st.cancelled = s.2.queue + s.2.cancelled) ∧
    s.2.cancelled ≤ st.cancelled ∧ ((∀ k, e.held k = false) → st.cancelled = s.2.cancelled) := by
  induction fuel generalizing s with
  | zero => simp [loop] at h
  | succ n ih =>
    simp only [loop, waitStep] at h
    by_cases hw : s.1 > maxTotal - runsPer - 1
    · simp only [hw, if_true] at h
      obtain ⟨a1, a2, a3, a4⟩ := ih _ h
      obtain ⟨b1, b2, b3, b4⟩ := count_kept e s.2
      exact ⟨a1.trans b1, fun h => (a2 h).trans (b2 h), b3.trans a3, fun h => (a4 h).trans (b4 h)⟩
    · simp only [hw, if_false, Option.some.injEq] at h
      subst h
      exact ⟨le_rfl, fun _ => rfl, le_rfl, fun _ => rfl⟩

/-- C105, held jobs: what becomes of the submitted jobs: each is queued, cancelled or has ended; as long as no job ends, each is queued or cancelled; and none is cancelled unless all jobs
are held at some look. -/
theorem C105_kept (e : Env) (fuel : ℕ) (batches : List (List A)) {st st' : State A} (h : deployAll e fuel batches st = some st') :
    st'.queue + st'.cancelled ≤ st.queue + st.cancelled + batches.flatten.length ∧
    ((∀ k, e.done k = 0) → st'.queue + st'.cancelled = st.queue + st.cancelled + batches.flatten.length) ∧
    st.cancelled ≤ st'.cancelled ∧ ((∀ k, e.held k = false) → st'.cancelled = st.cancelled) := by
  induction batches generalizing st with
  | nil =>
    simp only [deployAll, Option.some.injEq] at h
    subst h
    simp
  | cons b rest ih =>
    rw [deployAll] at h
    split at h
    · simp at h
    · rename_i st1 h1
      obtain ⟨a1, a2, a3, a4⟩ := ih h
      obtain ⟨b1, b2, b3, b4⟩ := wait_kept e fuel _ h1
      obtain ⟨c1, c2, c3, c4⟩ := count_kept e st
      simp only at a1 a2 a3 a4
      rw [List.flatten_cons, List.length_append]
      exact ⟨by omega, fun h => by rw [a2 h, ← c2 h, ← b2 h]; omega, by omega, fun h => by rw [a4 h, b4 h, c4 h]⟩

/-- C105, waiting: the script waits as long as 50 or more jobs are queued: if they never end nothing more is submitted. -/
theorem C105_waits (e : Env) (st : State A) (hq : 50 ≤ st.queue) (hd : ∀ k, e.done k = 0) (hf : ∀ k, e.fails k = false) (hh : ∀ k, e.held k = false) (batch : List A) (rest : List (List A)) (fuel : ℕ) :
    deployAll e fuel (batch :: rest) st = none := by
  have hc : ∀ st : State A, count e st = (st.queue, { st with looks := st.looks + 1 }) := by
    intro st
    simp [count, hf, hh, hd]
  have : LoopDiverges (waitStep e) (count e st) := by
    refine LoopDiverges.of_invariant (fun s => 50 ≤ s.1 ∧ 50 ≤ s.2.queue) ?_ (by rw [hc]; exact ⟨hq, hq⟩)
    rintro ⟨n, s⟩ ⟨h1, h2⟩
    simp only at h1 h2
    refine ⟨count e s, ?_, by rw [hc]; exact ⟨h2, h2⟩⟩
    have : n > maxTotal - runsPer - 1 := by
      show 49 < n
      omega
    simp [waitStep, this]
  rw [deployAll, this fuel]

/-- C105, submissions: if `squeue` never fails, the last batch of any deployment was submitted to a queue of fewer than 50 jobs. As this holds for every list of batches, it holds for every submission of a run. -/
theorem C105_submissions (e : Env) (he : ∀ k, e.fails k = false) (fuel : ℕ) (before : List (List A)) (b : List A) {st st' : State A}
    (h : deployAll e fuel (before ++ [b]) st = some st') : b.length ≤ st'.queue ∧ st'.queue < b.length + 50 := by
  induction before generalizing st with
  | nil =>
    rw [List.nil_append, deployAll] at h
    split at h
    · simp at h
    · rename_i st1 h1
      have hq := wait_queue e he fuel _ (count_queue e st (he _)).1 h1
      simp only [deployAll, Option.some.injEq] at h
      subst h
      show b.length ≤ st1.queue + b.length ∧ st1.queue + b.length < b.length + 50
      omega
  | cons c rest ih =>
    rw [List.cons_append, deployAll] at h
    split at h
    · simp at h
    · exact ih h

theorem deployAll_mono (e : Env) {fuel : ℕ} (more : ℕ) (batches : List (List A)) {st st' : State A} (h : deployAll e fuel batches st = some st') :
    deployAll e (fuel + more) batches st = some st' := by
  induction batches generalizing st with
  | nil => exact h
  | cons b rest ih =>
    rw [deployAll] at h ⊢
    split at h
    · simp at h
    · rename_i st1 h1
      rw [loop_mono h1 more]
      exact ih h

theorem wait_ends (e : Env) (hd : ∀ k, ∃ m, k ≤ m ∧ 0 < e.done m) (st : State A) (c : ℕ) : ∃ fuel st', loop (waitStep e) fuel (c, st) = some st' := by
  have small : ∀ (c : ℕ) (st : State A), c ≤ 49 → ∃ fuel st', loop (waitStep e) fuel (c, st) = some st' := by
    intro c st hc
    refine ⟨1, st, ?_⟩
    have : ¬ c > maxTotal - runsPer - 1 := by show ¬ 49 < c; omega
    simp [loop, waitStep, this]
  have key : ∀ (q : ℕ) (m : ℕ) (st : State A) (c : ℕ), st.queue ≤ q → 0 < e.done (st.looks + m) → ∃ fuel st', loop (waitStep e) fuel (c, st) = some st' := by
    intro q
    induction q using Nat.strong_induction_on with
    | _ q ihq =>
      intro m
      induction m with
      | zero =>
        intro st c hq hm
        by_cases hc : c ≤ 49
        · exact small c st hc
        · have hnext : ∃ fuel st', loop (waitStep e) fuel (count e st) = some st' := by
            unfold count
            simp only
            split
            · exact small 0 _ (by omega)
            · split
              · rename_i hh
                obtain ⟨m, hm1, hm2⟩ := hd (st.looks + 1)
                refine ihq 0 (by rw [Nat.add_zero] at hm; omega) (m - (st.looks + 1)) _ _ le_rfl ?_
                show 0 < e.done (st.looks + 1 + (m - (st.looks + 1)))
                rwa [Nat.add_sub_cancel' hm1]
              · by_cases h0 : st.queue - e.done st.looks = 0
                · rw [h0]
                  exact small 0 _ (by omega)
                · obtain ⟨m, hm1, hm2⟩ := hd (st.looks + 1)
                  refine ihq (st.queue - e.done st.looks) (by rw [Nat.add_zero] at hm; omega) (m - (st.looks + 1)) _ _ le_rfl ?_
                  show 0 < e.done (st.looks + 1 + (m - (st.looks + 1)))
                  rwa [Nat.add_sub_cancel' hm1]
          obtain ⟨fuel, st', h⟩ := hnext
          refine ⟨fuel + 1, st', ?_⟩
          have : c > maxTotal - runsPer - 1 := by show 49 < c; omega
          simp only [loop, waitStep, this, if_true]
          exact h
      | succ m ihm =>
        intro st c hq hm
        by_cases hc : c ≤ 49
        · exact small c st hc
        · have hm' : 0 < e.done (st.looks + 1 + m) := by rwa [Nat.add_assoc, Nat.add_comm 1 m]
          have hnext : ∃ fuel st', loop (waitStep e) fuel (count e st) = some st' := by
            unfold count
            simp only
            split
            · exact small 0 _ (by omega)
            · split
              · exact ihm _ _ (Nat.zero_le q) hm'
              · exact ihm _ _ ((Nat.sub_le _ _).trans hq) hm'
          obtain ⟨fuel, st', h⟩ := hnext
          refine ⟨fuel + 1, st', ?_⟩
          have : c > maxTotal - runsPer - 1 := by show 49 < c; omega
          simp only [loop, waitStep, this, if_true]
          exact h
  obtain ⟨m, hm1, hm2⟩ := hd st.looks
  exact key st.queue (m - st.looks) st c le_rfl (by rwa [Nat.add_sub_cancel' hm1])

/-- C105, the end: if jobs keep ending, the script ends, whatever is in the queue at first, and whether or not `squeue` fails at times. -/
theorem C105_ends (e : Env) (hd : ∀ k, ∃ m, k ≤ m ∧ 0 < e.done m) (batches : List (List A)) (st : State A) : ∃ fuel st', deployAll e fuel batches st = some st' := by
  induction batches generalizing st with
  | nil => exact ⟨0, st, rfl⟩
  | cons b rest ih =>
    obtain ⟨f1, st1, h1⟩ := wait_ends e hd (count e st).2 (count e st).1
    obtain ⟨f2, st', h2⟩ := ih { st1 with queue := st1.queue + b.length, deployed := b.reverse ++ st1.deployed }
    refine ⟨f1 + f2, st', ?_⟩
    rw [deployAll, show loop (waitStep e) (f1 + f2) (count e st) = some st1 from loop_mono h1 f2]
    simp only
    rw [Nat.add_comm]
    exact deployAll_mono e f1 rest h2

/-- C105 is not vacuous: two arrays are submitted, waiting for the first to end. -/
theorem C105_nonvacuous : ∃ (e : Env) (st' : State ℕ), (∀ k, e.fails k = false) ∧ deployAll e 3 (arrays [7, 8]) ⟨0, 0, 0, []⟩ = some st' ∧ st'.looks = 4 ∧ st'.queue = 50 ∧ (∀ b ∈ arrays [7, 8], b.length ≤ 50) := by
  refine ⟨⟨fun k => if k = 3 then 50 else 0, fun _ => false, fun _ => false⟩, _, fun _ => rfl, rfl, rfl, rfl, ?_⟩
  intro b hb
  obtain ⟨a, -, rfl⟩ := List.mem_map.1 hb
  simp [runsPer]

end Verif.Props
