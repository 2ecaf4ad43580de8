import Mathlib.Data.List.Infix
import Mathlib.Algebra.Field.Defs
import Verif.Model.Py

/-!
Model of the plots of logged runs: exps/tamp_environment/turtlebot_move/time_success_plot.py, bound_plot.py, and the lines that
turtlebot_move/run.py prints. Lines are lists of characters, without the line break. Drawing is not modelled, nor the error bars.
`os.walk` gives the files in any order, each with the name in its directory only.
-/

namespace Verif.Plots

abbrev Line := List Char

/-- A file found by `os.walk`: its name without the directory, and its lines (time_success_plot.py:20-26). -/
abbrev File := Line × List Line

/-- `int` and `float` of a text, `none`: ValueError (time_success_plot.py:32, 34, 38). -/
structure Parser (K : Type*) where
  int : Line → Option ℤ
  float : Line → Option K

/-- `sub in line` (time_success_plot.py:28, 36). -/
def occurs (sub line : Line) : Bool := decide (sub <:+: line)

/-- `str.strip` (time_success_plot.py:36, 38). -/
def strip (l : Line) : Line := ((l.dropWhile Char.isWhitespace).reverse.dropWhile Char.isWhitespace).reverse

/-- `str.replace(sub, "")` (time_success_plot.py:38) from the place after `skip` characters. -/
def deleteFrom (sub : Line) : ℕ → Line → Line
  | _, [] => []
  | skip + 1, _ :: l => deleteFrom sub skip l
  | 0, c :: l => if sub.isPrefixOf (c :: l) then deleteFrom sub (sub.length - 1) l else c :: deleteFrom sub 0 l

/-- The regular expression `key=([^ ,]+),` at the beginning of the text (time_success_plot.py:29, 31, 33): the value goes up to the first
space or comma, which must be a comma. -/
def matchAt (key text : Line) : Option Line :=
  if (key ++ ['=']).isPrefixOf text then
    let rest := text.drop (key.length + 1)
    let value := rest.takeWhile fun c => !(c == ' ' || c == ',')
    if value ≠ [] ∧ (rest.drop value.length).head? = some ',' then some value else none
  else none

/-- `re.search` (time_success_plot.py:29, 31, 33): the first place that matches. -/
def search (key : Line) : Line → Option Line
  | [] => none
  | c :: l =>
    match matchAt key (c :: l) with
    | some v => some v
    | none => search key l

/-- A dictionary, in the order of insertion (time_success_plot.py:11-15). -/
abbrev Dict (α β : Type*) := List (α × β)

section

variable {α β : Type*} [DecidableEq α]

/-- `d[k]`, `none`: KeyError (time_success_plot.py:50-51). -/
def Dict.get : Dict α β → α → Option β
  | [], _ => none
  | (a, b) :: d, k => if a = k then some b else Dict.get d k

/-- `d[k] = v` (time_success_plot.py:30-38). -/
def Dict.put : Dict α β → α → β → Dict α β
  | [], k, v => [(k, v)]
  | (a, b) :: d, k, v => if a = k then (a, v) :: d else (a, b) :: Dict.put d k v

/-- `d[k].append(v)` for `defaultdict(list)` (time_success_plot.py:50-51). -/
def Dict.push {γ : Type*} (d : Dict α (List γ)) (k : α) (v : γ) : Dict α (List γ) := d.put k ((d.get k).getD [] ++ [v])

end

/-- `adaptive_n`, `min_samples`, `max_samples`, `successes`, `times` (time_success_plot.py:11-15). -/
structure Found (K : Type*) where
  adaptive : Dict Line ℤ
  minSamples : Dict Line ℤ
  maxSamples : Dict Line ℤ
  successes : Dict Line ℤ
  times : Dict Line K

variable {K : Type*}

/-- The arguments in a line (time_success_plot.py:28-34): `match` is `None` without a match, `match.group` then raises AttributeError. -/
def readArgs (P : Parser K) (file line : Line) (f : Found K) : Except PyErr (Found K) :=
  if occurs "Namespace".toList line then
    match search "adaptive_n".toList line with
    | none => .error .attribute
    | some a =>
      match search "min_samples".toList line with
      | none => .error .attribute
      | some m =>
        match P.int m with
        | none => .error .value
        | some m =>
          match search "max_samples".toList line with
          | none => .error .attribute
          | some n =>
            match P.int n with
            | none => .error .value
            | some n => .ok { f with
                adaptive := f.adaptive.put file (if a = "True".toList then 1 else 0)
                minSamples := f.minSamples.put file m
                maxSamples := f.maxSamples.put file n }
  else .ok f

/-- One line (time_success_plot.py:28-38). -/
def readLine (P : Parser K) (file : Line) (f : Found K) (line : Line) : Except PyErr (Found K) :=
  match readArgs P file line f with
  | .error e => .error e
  | .ok f =>
    let f := if "Solved:".toList.isPrefixOf line then
        { f with successes := f.successes.put file (if occurs "True".toList (strip line) then 1 else 0) } else f
    if "Time:".toList.isPrefixOf line then
      match P.float (deleteFrom "Time: ".toList 0 (strip line)) with
      | none => .error .value
      | some t => .ok { f with times := f.times.put file t }
    else .ok f

/-- The lines of a file (time_success_plot.py:26-38). -/
def readLines (P : Parser K) (file : Line) : List Line → Found K → Except PyErr (Found K)
  | [], f => .ok f
  | l :: ls, f =>
    match readLine P file f l with
    | .error e => .error e
    | .ok f => readLines P file ls f

/-- `file.endswith(".log")` (time_success_plot.py:23). -/
def isLog (file : File) : Bool := ".log".toList.isSuffixOf file.1

/-- All files (time_success_plot.py:20-38). -/
def readFiles (P : Parser K) : List File → Found K → Except PyErr (Found K)
  | [], f => .ok f
  | x :: xs, f =>
    if isLog x then
      match readLines P x.1 x.2 f with
      | .error e => .error e
      | .ok f => readFiles P xs f
    else readFiles P xs f

/-- `(min_samples[key], max_samples[key], adaptive_n[key])` (time_success_plot.py:50). -/
abbrev Group := ℤ × ℤ × ℤ

/-- `plot_successes`, `plot_times` (time_success_plot.py:47-48). -/
structure Plot (K : Type*) where
  successes : Dict Group (List ℤ)
  times : Dict Group (List K)

/-- The grouping (time_success_plot.py:49-51). -/
def group (f : Found K) : List (Line × K) → Plot K → Except PyErr (Plot K)
  | [], p => .ok p
  | (key, t) :: rest, p =>
    match f.minSamples.get key, f.maxSamples.get key, f.adaptive.get key, f.successes.get key with
    | some m, some n, some a, some s => group f rest ⟨p.successes.push (m, n, a) s, p.times.push (m, n, a) t⟩
    | _, _, _, _ => .error .key

/-- The script up to the groups (time_success_plot.py:8-51). -/
def plot (P : Parser K) (files : List File) : Except PyErr (Plot K) :=
  match readFiles P files ⟨[], [], [], [], []⟩ with
  | .error e => .error e
  | .ok f => group f f.times ⟨[], []⟩

/-- `np.mean` (time_success_plot.py:57, 59). -/
def mean [Field K] (xs : List K) : K := xs.sum / (xs.length : K)

/-- The heights of the bars (time_success_plot.py:57, 59, 70, 81): for every group the mean of its successes and of its times. -/
def bars [Field K] (p : Plot K) : List (Group × K × K) :=
  p.successes.map fun x => (x.1, mean (x.2.map fun (s : ℤ) => (s : K)), mean ((p.times.get x.1).getD []))

/-- `numbers`, `samples` of the other plot (bound_plot.py:11-12). -/
structure Marks (K : Type*) where
  numbers : Dict Line K
  samples : Dict Line K

/-- The lines of a file (bound_plot.py:22-28): the number is on the line after the one with the text. -/
def readMarks (P : Parser K) (file : Line) : List Line → Marks K → Except PyErr (Marks K)
  | [], m => .ok m
  | [_], m => .ok m
  | l :: next :: ls, m =>
    match (if occurs "Delta:".toList l then
        match P.float (strip next) with
        | none => Except.error PyErr.value
        | some x => .ok { m with numbers := m.numbers.put file x }
      else .ok m) with
    | .error e => .error e
    | .ok m =>
      match (if occurs "Found solution in".toList l then
          match P.float (strip next) with
          | none => Except.error PyErr.value
          | some x => .ok { m with samples := m.samples.put file x }
        else .ok m) with
      | .error e => .error e
      | .ok m => readMarks P file (next :: ls) m

/-- All files (bound_plot.py:17-28). -/
def readAllMarks (P : Parser K) : List File → Marks K → Except PyErr (Marks K)
  | [], m => .ok m
  | x :: xs, m =>
    if isLog x then
      match readMarks P x.1 x.2 m with
      | .error e => .error e
      | .ok m => readAllMarks P xs m
    else readAllMarks P xs m

/-- The points of the plot (bound_plot.py:37). -/
def points (m : Marks K) : List (Line × K) → Except PyErr (List (K × K))
  | [] => .ok []
  | (key, v) :: rest =>
    match m.numbers.get key with
    | none => .error .key
    | some x =>
      match points m rest with
      | .error e => .error e
      | .ok ps => .ok ((x, v) :: ps)

/-- The script (bound_plot.py:8-37). Its first line imports `compute_numerical_bound` from nonasymptotic.util, where it is not defined; the
model leaves that out. -/
def boundPlot (P : Parser K) (files : List File) : Except PyErr (List (K × K)) :=
  match readAllMarks P files ⟨[], []⟩ with
  | .error e => .error e
  | .ok m => points m m.samples

/-- `str` of the dictionary `vars(args)` (turtlebot_move/run.py:197): names and the text of the values. -/
def dictText : List (Line × Line) → Line
  | [] => "{}".toList
  | (k, v) :: rest => "{'".toList ++ k ++ "': ".toList ++ v ++ (rest.map fun x => ", '".toList ++ x.1 ++ "': ".toList ++ x.2).flatten ++ "}".toList

/-- What a run leaves in its log (turtlebot_move/run.py:196-246): the arguments as a dictionary, what the construction of the problem
prints, the clearance and the sample sizes, what the solver prints, and, unless an exception ended the run, the answer and the time. `err`
is the text of the exception. -/
def mainLog (args : List (Line × Line)) (world : List Line) (delta minSamples maxSamples : Line) (solver : List Line)
    (outcome : Option (Bool × List Line × Line)) (err : List Line) : List Line :=
  ["Experiment arguments:".toList, dictText args] ++ world ++
    ["Delta: ".toList ++ delta, "Min samples: ".toList ++ minSamples, "Max samples: ".toList ++ maxSamples] ++ solver ++
    match outcome with
    | none => err
    | some (solved, plan, time) =>
      ("Solved: ".toList ++ if solved then "True".toList else "False".toList) :: plan ++ ["Time: ".toList ++ time]

end Verif.Plots
