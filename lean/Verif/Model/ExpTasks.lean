import Mathlib.Data.List.Dedup
import Verif.Model.Py

/-!
Model of the task scheduling code of the experiment scripts (run_straight_line_optimality_trial.py:144-199,
run_narrow_passage_clearance_trial.py:221-289, run_knn_radius_trial.py:52-100).
-/

namespace Verif.Exps

/-- `l[::T]` for `T` at least one. -/
def strided {α : Type*} (T : ℕ) : List α → List α
  | [] => []
  | a :: l => a :: strided T (l.drop (T - 1))
termination_by l => l.length
decreasing_by simp; omega

/-- `exp_combos[task_id:len(exp_combos):num_tasks]` (straight_line:162, narrow:251, knn:70), for a task id that is not negative. A step of
zero is a ValueError. -/
def tasksOf {α : Type*} (combos : List α) (taskId numTasks : ℕ) : Except PyErr (List α) :=
  if numTasks = 0 then .error .value else .ok (strided numTasks (combos.drop taskId))

/-- `itertools.product` of two lists. -/
def product {α β : Type*} (as : List α) (bs : List β) : List (α × β) := as.flatMap fun a => bs.map fun b => (a, b)

/-- The parameter combinations of the straight-line and k-NN experiments (straight_line:156-159, knn:64-67). -/
def lineCombos {D : Type*} (dims : List D) (nTrials : ℕ) : List (D × ℕ) := product dims (List.range nTrials)

/-- The roadmap types. -/
inductive PrmType where
  | radius
  | knn
deriving DecidableEq

/-- The parameter combinations of the narrow-passage experiment (narrow:233-248). -/
def narrowCombos {Δ D : Type*} (deltas : List Δ) (radiusDims knnDims : List D) (nTrials : ℕ) : List (PrmType × Δ × D × ℕ) :=
  product [.radius] (product deltas (product radiusDims (List.range nTrials))) ++
    product [.knn] (product deltas (product knnDims (List.range nTrials)))

/-- A recorded row; of its columns only the task it belongs to and the seed matter here. -/
structure Row (τ σ : Type*) where
  task : τ
  seed : σ
deriving DecidableEq

variable {τ σ : Type*}

/-- The successive contents of the result file during one session: the loop over the tasks, writing the whole table after each trial.
A session that is interrupted leaves one of these; a write is taken to be atomic. `rowsPer` is the number of rows of a trial, `seeds i`
the number drawn for the `i`-th trial of the session: the generator starts anew, with the task id as its seed, in each session
(straight_line:165, 175-199; narrow:254, 271-289; knn:73, 83-100). -/
def states (rowsPer : τ → ℕ) (seeds : ℕ → σ) : List (Row τ σ) → ℕ → List τ → List (List (Row τ σ))
  | file, _, [] => [file]
  | file, i, t :: ts => file :: states rowsPer seeds (file ++ List.replicate (rowsPer t) ⟨t, seeds i⟩) (i + 1) ts

/-- Skipping by the number of rows (straight_line:171, knn:79). A missing file is the same as one without rows. -/
def skipRows (file : List (Row τ σ)) : ℕ := file.length

/-- Skipping by the number of different seeds (narrow:263-264). -/
def skipSeeds [DecidableEq σ] (file : List (Row τ σ)) : ℕ := (file.map (·.seed)).dedup.length

/-- The contents of the file during a session that finds `file`. -/
def session (skip : List (Row τ σ) → ℕ) (rowsPer : τ → ℕ) (seeds : ℕ → σ) (tasks : List τ) (file : List (Row τ σ)) :
    List (List (Row τ σ)) :=
  states rowsPer seeds file 0 (tasks.drop (skip file))

/-- The file after any number of interrupted sessions. -/
inductive Interrupted (skip : List (Row τ σ) → ℕ) (rowsPer : τ → ℕ) (seeds : ℕ → σ) (tasks : List τ) : List (Row τ σ) → Prop
  | start : Interrupted skip rowsPer seeds tasks []
  | crash {file file' : List (Row τ σ)} (h : Interrupted skip rowsPer seeds tasks file) (h' : file' ∈ session skip rowsPer seeds tasks file) :
      Interrupted skip rowsPer seeds tasks file'

/-- The file after a session that ends regularly. -/
def complete (skip : List (Row τ σ) → ℕ) (rowsPer : τ → ℕ) (seeds : ℕ → σ) (tasks : List τ) (file : List (Row τ σ)) : List (Row τ σ) :=
  (session skip rowsPer seeds tasks file).getLastD file

end Verif.Exps
