import Mathlib.Data.List.Basic
import Mathlib.Data.List.Infix
import Verif.Model.Py

/-!
Model of the scripts that submit, resume, tune, aggregate and deploy experiments: exps/submit_and_run_experiment_job.py, exps/aggregate_runtimes_for_tuning.py,
exps/tune_experiment_triples.py, exps/tamp_environment/deploy_tamp_experiments.py and deploy_tamp_experiments_kuka.py.
Names are lists of characters without the special characters of `glob`, so that `glob('./results/name*')` gives the directories that begin with `name`.
-/

namespace Verif.Jobs

abbrev Name := List Char

/-- `--type` (submit_and_run_experiment_job.py:28). -/
inductive Kind where
  | narrow | line | knn
  deriving DecidableEq

/-- The contents of config.json: what the given file contains, with `name` and `triples` set (submit_and_run_experiment_job.py:60-61). -/
structure Config (α : Type*) where
  params : α
  name : Name
  triples : ℤ × ℤ × ℤ

/-- The generated shell script (submit_and_run_experiment_job.py:14-25, 84-85): the trial script, and the directory whose config.json and itself are its arguments. -/
structure Script where
  trial : String
  configDir : Name
  saveDir : Name
  deriving DecidableEq

/-- A directory in results/ (submit_and_run_experiment_job.py:41-48). `mtime` is its time of modification, which also changes when results are written into it. -/
structure Dir (α : Type*) where
  path : Name
  mtime : ℕ
  config : Option (Config α)
  script : Option Script

/-- What a run of the submission script ends with (submit_and_run_experiment_job.py:50-55, 98-110): `sys.exit(1)`, an exception, or a submitted job, given by the directory of its script and the triples. -/
inductive Outcome where
  | exit1
  | raised
  | submitted (dir : Name) (triples : ℤ × ℤ × ℤ)
  deriving DecidableEq

/-- `script_name` (submit_and_run_experiment_job.py:76-82). -/
def trialScript : Kind → String
  | .line => "run_straight_line_optimality_trial.py"
  | .knn => "run_knn_radius_trial.py"
  | .narrow => "run_narrow_passage_clearance_trial.py"

/-- The last entry after `sort(key=os.path.getmtime)` (submit_and_run_experiment_job.py:95-96): sorting is stable, so it is the last one of those with the greatest time. -/
def latest {α : Type*} : List (Dir α) → Option (Dir α)
  | [] => none
  | d :: rest =>
    match latest rest with
    | none => some d
    | some e => if e.mtime < d.mtime then some d else some e

variable {α : Type*}

/-- Submission without `--resume` (submit_and_run_experiment_job.py:41-91, 109-110). `params` is the content of the config file, `none` if it is not found; `stamp` is the time as text and `now` as a number. The
directory results/ exists. -/
def submitNew (kind : Kind) (name : Name) (params : Option α) (triples : ℤ × ℤ × ℤ) (stamp : Name) (now : ℕ) (dirs : List (Dir α)) : Outcome × List (Dir α) :=
  let path := name ++ '_' :: stamp
  if dirs.any fun d => decide (d.path = path) then (.exit1, dirs)
  else
    let config := params.map fun p => ⟨p, name, triples⟩
    let script := ⟨trialScript kind, path, path⟩
    (.submitted path triples, dirs ++ [⟨path, now, config, some script⟩])

/-- The directory that `--resume` and the aggregation use (submit_and_run_experiment_job.py:94-96; aggregate_runtimes_for_tuning.py:17-19); `dirs` in the order of `glob`, `none`: IndexError. -/
def latestOf (name : Name) (dirs : List (Dir α)) : Option (Dir α) := latest (dirs.filter fun d => name.isPrefixOf d.path)

/-- Submission with `--resume` (submit_and_run_experiment_job.py:92-110). -/
def submitResume (name : Name) (dirs : List (Dir α)) : Outcome :=
  match latestOf name dirs with
  | none => .exit1
  | some d =>
    match d.config with
    | none => .raised
    | some c => .submitted d.path c.triples

/-- `nppns_to_test`, `n_threads_to_test` (tune_experiment_triples.py:9-10). -/
def toTest : List ℤ := [1, 2, 4, 8, 16, 24, 32, 48]

/-- The triples that the tuner submits (tune_experiment_triples.py:19-43): `threads` says which of the two is tested. -/
def tuned (threads : Bool) (other : ℤ) : List (ℤ × ℤ × ℤ) :=
  if threads then (toTest.filter fun n => ¬ n * other > 48).map fun n => (1, other, n)
  else (toTest.filter fun n => ¬ n * other > 48).map fun n => (1, n, other)

/-- A CSV file: name and rows (aggregate_runtimes_for_tuning.py:21-22). -/
structure Csv (ρ : Type*) where
  name : Name
  rows : List ρ

/-- `glob.glob(latest_exp_dir + '/out*.csv')` (aggregate_runtimes_for_tuning.py:21). -/
def outFiles {ρ : Type*} (files : List (Csv ρ)) : List (Csv ρ) :=
  files.filter fun f => ("out".toList.isPrefixOf f.name) && (".csv".toList.isSuffixOf (f.name.drop 3))

/-- The aggregation (aggregate_runtimes_for_tuning.py:21-28): the file that is written, replacing one of the same name; `pd.concat` raises ValueError if there is nothing to concatenate. -/
def aggregate {ρ : Type*} (prefix_ : Name) (files : List (Csv ρ)) : Except PyErr (List (Csv ρ)) :=
  let out := outFiles files
  if out = [] then .error .value
  else
    let name := prefix_ ++ "_agg_out.csv".toList
    .ok (files.filter (fun f => ¬ f.name = name) ++ [⟨name, (out.map (·.rows)).flatten⟩])

/-- The rows behind the printed statistics (aggregate_runtimes_for_tuning.py:30-32): all but the first row of every file. -/
def timed {ρ : Type*} (files : List (Csv ρ)) : List ρ := ((outFiles files).map fun f => f.rows.tail).flatten

/-- What happens outside while the deployment script runs (deploy_tamp_experiments.py:9-30): before its `k`-th look at the queue `done k` jobs have ended; `fails k` says that `squeue` fails, `held k` that all jobs are held. -/
structure Env where
  done : ℕ → ℕ
  fails : ℕ → Bool
  held : ℕ → Bool

/-- State of the deployment (deploy_tamp_experiments.py:53-66): jobs in the queue, number of looks so far, jobs cancelled, and what was deployed, last first. -/
structure State (A : Type*) where
  queue : ℕ
  looks : ℕ
  cancelled : ℕ
  deployed : List A

variable {A : Type*}

/-- `count_lines_of_command_output` (deploy_tamp_experiments.py:9-30): squeue prints a header and one line per job. A failing `scancel` is
not considered. -/
def count (e : Env) (st : State A) : ℕ × State A :=
  let q := st.queue - e.done st.looks
  let st' := { st with queue := q, looks := st.looks + 1 }
  if e.fails st.looks then (0, st')
  else if e.held st.looks ∧ q > 0 then (q, { st' with queue := 0, cancelled := st.cancelled + q })
  else (q, st')

/-- `MAX_TOTAL`, `NUM_RUNS_PER` (deploy_tamp_experiments.py:6-7). -/
def maxTotal : ℕ := 100
@[inherit_doc maxTotal] def runsPer : ℕ := 50

/-- One pass of the waiting loop (deploy_tamp_experiments.py:58-62); the state includes the last answer. -/
def waitStep (e : Env) (s : ℕ × State A) : Step (ℕ × State A) (State A) :=
  if s.1 > maxTotal - runsPer - 1 then .next (count e s.2) else .done s.2

/-- The deployment of batches (deploy_tamp_experiments.py:53-66; deploy_tamp_experiments_kuka.py:53-76): look, wait, submit the jobs of the batch. `none`: still waiting after `fuel` passes. -/
def deployAll (e : Env) (fuel : ℕ) : List (List A) → State A → Option (State A)
  | [], st => some st
  | batch :: rest, st =>
    match loop (waitStep e) fuel (count e st) with
    | none => none
    | some st => deployAll e fuel rest { st with queue := st.queue + batch.length, deployed := batch.reverse ++ st.deployed }

/-- Batches of the turtlebot script: every argument set is one array of `NUM_RUNS_PER` jobs (deploy_tamp_experiments.py:32-34). -/
def arrays (args : List A) : List (List A) := args.map fun a => List.replicate runsPer a

/-- Batches of the kuka script (deploy_tamp_experiments_kuka.py:66-68): `queue[:50]`, `queue[50:]`. -/
def chunks : List A → List (List A)
  | [] => []
  | a :: l => (a :: l).take 50 :: chunks ((a :: l).drop 50)
  termination_by l => l.length
  decreasing_by simp; omega

/-- The seeds of the runs that a task of a job array starts (deploy_experiments.sh:6-24; deploy_experiments_kuka.sh:6-24;
deploy_experiments_kuka_adaptive.sh:6-19): a loop over the seeds from 1 to 200 with a counter from 1 on, a run where the counter is
`SLURM_ARRAY_TASK_ID`. (The loop over the algorithms has one pass.) -/
def taskSeeds (task : ℕ) : List ℕ :=
  ((List.range' 1 200).foldl (fun s seed => (s.1 + 1, if s.1 = task then s.2 ++ [seed] else s.2)) (1, [])).2

/-- The runs, with their seeds, of a submission with `--array=1-size`. -/
def arrayRuns (size : ℕ) (a : A) : List (A × ℕ) := (List.range' 1 size).flatMap fun task => (taskSeeds task).map fun seed => (a, seed)

/-- The runs of the turtlebot script (deploy_tamp_experiments.py:32-34, 53-65). -/
def turtlebotRuns (args : List A) : List (A × ℕ) := args.flatMap (arrayRuns runsPer)

/-- The runs of the kuka scripts (deploy_tamp_experiments_kuka.py:32-36, 66-71; deploy_tamp_adaptive_kuka.py:33-37, 58-59). -/
def kukaRuns (queue : List A) : List (A × ℕ) := queue.flatMap (arrayRuns 1)

/-- `arg_sets` of the adaptive kuka script (deploy_tamp_adaptive_kuka.py:47-52): clearance and buffer in hundredths, and the number by which
pi is divided. -/
def adaptiveArgs : List (ℕ × ℕ × ℕ) := [2, 3, 4].flatMap fun delta => [2, 3, 4].flatMap fun cb => [18, 32].map fun t => (delta, cb, t)

/-- `queue` of the adaptive kuka script (deploy_tamp_adaptive_kuka.py:56-57), and whether the assertion holds. -/
def adaptiveQueue : Except PyErr (List (ℕ × ℕ × ℕ)) :=
  let queue := (List.replicate 5 adaptiveArgs).flatten
  if queue.length < 200 then .ok queue else .error .assertion

end Verif.Jobs
