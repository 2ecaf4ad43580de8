import Mathlib.Analysis.SpecialFunctions.Pow.Real
import Verif.Model.Plots

/-! The error bars of the plot of successes and times. -/

namespace Verif.Plots

/-- `np.std` (time_success_plot.py:58, 60): the root of the mean squared deviation. -/
noncomputable def std (xs : List ℝ) : ℝ := Real.sqrt (mean (xs.map fun x => (x - mean xs) ^ 2))

/-- The error bars (time_success_plot.py:58, 60, 71, 82): the deviation divided by the root of the number of runs. -/
noncomputable def errorBars (p : Plot ℝ) : List (Group × ℝ × ℝ) :=
  p.successes.map fun x => (x.1, std (x.2.map fun (s : ℤ) => (s : ℝ)) / Real.sqrt x.2.length, std ((p.times.get x.1).getD []) / Real.sqrt x.2.length)

end Verif.Plots
