import Verif.Model.Jobs
import Mathlib.Data.List.Count
import Mathlib.Data.List.Nodup
import Mathlib.Data.List.Range
import Mathlib.Data.Nat.Init
import Mathlib.Tactic.Ring

/-! C110: the seeds of deployed runs. -/

namespace Verif.Props

open Verif Verif.Jobs

variable {A : Type*}

theorem taskSeeds_fold (task n start : ℕ) (acc : List ℕ) :
    (List.range' start n).foldl (fun s seed => (s.1 + 1, if s.1 = task then s.2 ++ [seed] else s.2)) (start, acc) =
      (start + n, acc ++ if start ≤ task ∧ task < start + n then [task] else []) := by
  induction n generalizing start acc with
  | zero => simp
  | succ n ih =>
    rw [List.range'_succ, List.foldl_cons]
    simp only
    rw [ih]
    by_cases h : start = task
    · subst h
      rw [if_pos rfl, if_neg (by omega), if_pos (by omega)]
      simp; ring
    · rw [if_neg h]
      congr 1
      · ring
      · congr 1
        by_cases h' : start + 1 ≤ task ∧ task < start + 1 + n
        · rw [if_pos h', if_pos (by omega)]
        · rw [if_neg h', if_neg (by omega)]

/-- C110, one task: task `n` of a job array makes one run, with seed `n`, for `n` from 1 to 200; other tasks make no run. -/
theorem C110_task (n : ℕ) : taskSeeds n = if 1 ≤ n ∧ n ≤ 200 then [n] else [] := by
  unfold taskSeeds
  rw [taskSeeds_fold]
  simp only [List.nil_append]
  by_cases h : 1 ≤ n ∧ n ≤ 200
  · rw [if_pos h, if_pos (by omega)]
  · rw [if_neg h, if_neg (by omega)]

theorem arrayRuns_eq (size : ℕ) (h : size ≤ 200) (a : A) : arrayRuns size a = (List.range' 1 size).map fun seed => (a, seed) := by
  unfold arrayRuns
  have : ∀ l : List ℕ, (∀ n ∈ l, 1 ≤ n ∧ n ≤ 200) → (l.flatMap fun task => (taskSeeds task).map fun seed => (a, seed)) = l.map fun seed => (a, seed) := by
    intro l hl
    induction l with
    | nil => rfl
    | cons n l ih =>
      rw [List.flatMap_cons, ih fun m hm => hl m (by simp [hm]), C110_task, if_pos (hl n (by simp))]
      rfl
  apply this
  intro n hn
  rw [List.mem_range'_1] at hn
  omega

/-- C110, the turtlebot experiments: for every list of argument sets, each argument set is run with each seed from 1 to 50 as often as it
is listed, and with no other seed. Missing: the kuka experiments, for which it is false (`C110_kuka_false`). -/
theorem C110_turtlebot_partial [DecidableEq A] (args : List A) (a : A) (seed : ℕ) :
    (turtlebotRuns args).count (a, seed) = if 1 ≤ seed ∧ seed ≤ 50 then args.count a else 0 := by
  unfold turtlebotRuns
  induction args with
  | nil => simp
  | cons b args ih =>
    rw [List.flatMap_cons, List.count_append, ih, show runsPer = 50 from rfl, arrayRuns_eq 50 (by omega)]
    have hcount : ((List.range' 1 50).map fun s => (b, s)).count (a, seed) = if b = a ∧ 1 ≤ seed ∧ seed ≤ 50 then 1 else 0 := by
      by_cases h : b = a ∧ 1 ≤ seed ∧ seed ≤ 50
      · obtain ⟨rfl, h⟩ := h
        rw [if_pos ⟨rfl, h⟩]
        apply List.count_eq_one_of_mem
        · exact (List.nodup_range' ..).map fun x y hxy => by injection hxy
        · rw [List.mem_map]
          exact ⟨seed, by rw [List.mem_range'_1]; omega, rfl⟩
      · rw [if_neg h, List.count_eq_zero]
        intro hc
        obtain ⟨s, hs, he⟩ := List.mem_map.1 hc
        injection he with h1 h2
        subst h1 h2
        rw [List.mem_range'_1] at hs
        exact h ⟨rfl, by omega⟩
    rw [hcount, List.count_cons]
    by_cases h1 : 1 ≤ seed ∧ seed ≤ 50
    · by_cases h2 : b = a
      · simp [h1, h2, add_comm]
      · simp [h1, h2]
    · simp [h1]

/-- C110 is false for the kuka experiments: whatever the queue, every run has the seed 1, so the repetitions of an experiment all have the
same seed. -/
theorem C110_kuka_false (queue : List A) : kukaRuns queue = queue.map fun a => (a, 1) := by
  unfold kukaRuns
  induction queue with
  | nil => rfl
  | cons a queue ih => rw [List.flatMap_cons, ih, arrayRuns_eq 1 (by omega)]; rfl

/-- C110, the adaptive kuka experiments: the assertion holds, each of the 18 settings is submitted 5 times (with the same seed, see
`C110_kuka_false`), in all 90 jobs; the queue of jobs is not looked at. -/
theorem C110_adaptive : ∃ queue, adaptiveQueue = .ok queue ∧ queue.length = 90 ∧ (∀ d ∈ [2, 3, 4], ∀ b ∈ [2, 3, 4], ∀ t ∈ [18, 32],
    queue.count (d, b, t) = 5) ∧ ∀ x ∈ queue, x.1 ∈ [2, 3, 4] ∧ x.2.1 ∈ [2, 3, 4] ∧ x.2.2 ∈ [18, 32] := by
  refine ⟨(List.replicate 5 adaptiveArgs).flatten, by decide +kernel, by decide +kernel, by decide +kernel, by decide +kernel⟩

/-- Two argument sets: 100 runs with the turtlebot script, the first one with seed 1 and the second one with seed 50 among them; two runs
with the kuka script. -/
theorem C110_nonvacuous : (turtlebotRuns ["a", "b"]).length = 100 ∧ ("a", 1) ∈ turtlebotRuns ["a", "b"] ∧ ("b", 50) ∈ turtlebotRuns ["a", "b"] ∧
    kukaRuns ["a", "a"] = [("a", 1), ("a", 1)] := by
  refine ⟨by decide +kernel, by decide +kernel, by decide +kernel, by decide +kernel⟩

end Verif.Props
