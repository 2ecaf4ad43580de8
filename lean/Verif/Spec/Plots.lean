import Verif.Model.Plots

/-! What a log says about its run, and the runs of a group. -/

namespace Verif.Plots

variable {K : Type*}

/-- A run: its settings, and, if no exception ended it, whether it was solved and the time it took. -/
structure Run (K : Type*) where
  minSamples : ℤ
  maxSamples : ℤ
  adaptive : Bool
  outcome : Option (Bool × K)

/-- The settings as a group. -/
def Run.group (r : Run K) : Group := (r.minSamples, r.maxSamples, if r.adaptive then 1 else 0)

/-- The text gives this value to the field: `key=value,`, and `key=` is nowhere before. -/
def HasField (key value text : Line) : Prop :=
  ∃ u v, text = u ++ key ++ '=' :: value ++ ',' :: v ∧ value ≠ [] ∧ ' ' ∉ value ∧ ',' ∉ value ∧
    ∀ u' v', text = u' ++ key ++ '=' :: v' → u.length ≤ u'.length

/-- A line with the arguments of the run. -/
structure ArgsLine (P : Parser K) (line : Line) (r : Run K) : Prop where
  tag : "Namespace".toList <:+: line
  start : ¬ "Solved:".toList <+: line ∧ ¬ "Time:".toList <+: line
  adaptive : HasField "adaptive_n".toList (if r.adaptive then "True".toList else "False".toList) line
  min : ∃ t, HasField "min_samples".toList t line ∧ P.int t = some r.minSamples
  max : ∃ t, HasField "max_samples".toList t line ∧ P.int t = some r.maxSamples

/-- A line about something else. -/
def Plain (line : Line) : Prop := ¬ "Namespace".toList <:+: line ∧ ¬ "Solved:".toList <+: line ∧ ¬ "Time:".toList <+: line

/-- The log of a run in the format that the plot expects: the arguments, the answer, the time, and other lines between them. A run that
ended with an exception has neither answer nor time. -/
def Logged (P : Parser K) (log : List Line) (r : Run K) : Prop :=
  ∃ a args b, ArgsLine P args r ∧ (∀ l ∈ a ++ b, Plain l) ∧
    match r.outcome with
    | none => log = a ++ args :: b
    | some (solved, time) => ∃ c d t, (∀ l ∈ c ++ d, Plain l) ∧ P.float t = some time ∧ t ≠ [] ∧ (∀ x ∈ t, x.isWhitespace = false) ∧
        ¬ "Namespace".toList <:+: "Time: ".toList ++ t ∧
        log = a ++ args :: b ++ ("Solved: ".toList ++ if solved then "True".toList else "False".toList) :: c ++ ("Time: ".toList ++ t) :: d

/-- What the runs of a group that were not ended by an exception say. -/
def outcomes (runs : List (Run K)) (g : Group) : List (Bool × K) := (runs.filter fun r => r.group = g).filterMap (·.outcome)

/-- A run as the other plot sees it: the clearance, and the number of samples if a solution was found. -/
structure MarkedRun (K : Type*) where
  delta : K
  samples : Option K

/-- A line that the other plot does not look at. -/
def Other (line : Line) : Prop := ¬ "Delta:".toList <:+: line ∧ ¬ "Found solution in".toList <:+: line

/-- A line with this number and nothing else. -/
def NumberLine (P : Parser K) (line : Line) (x : K) : Prop := line ≠ [] ∧ (∀ c ∈ line, c.isWhitespace = false) ∧ Other line ∧ P.float line = some x

/-- The log of a run in the format that the other plot expects: the clearance on the line after `Delta:`, the number of samples on the line after `Found solution in`, and
other lines between them. -/
def Marked (P : Parser K) (log : List Line) (r : MarkedRun K) : Prop :=
  ∃ a head num b, (∀ l ∈ a ++ b, Other l) ∧ "Delta:".toList <:+: head ∧ ¬ "Found solution in".toList <:+: head ∧ NumberLine P num r.delta ∧
    match r.samples with
    | none => log = a ++ head :: num :: b
    | some n => ∃ head' num' c, (∀ l ∈ c, Other l) ∧ "Found solution in".toList <:+: head' ∧ ¬ "Delta:".toList <:+: head' ∧ NumberLine P num' n ∧
        log = a ++ head :: num :: (b ++ head' :: num' :: c)

end Verif.Plots
