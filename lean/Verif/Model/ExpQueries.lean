import Verif.Model.Envs

/-! The query of the narrow-passage experiment. -/

namespace Verif.Envs

variable {K : Type*} [Field K] {n : ℕ}

/-- run_narrow_passage_clearance_trial.py:87-89 `query_start`. -/
def narrowStart (n : ℕ) (deltaClear : K) : Fin (n + 1) → K := fun i => headRest (-1) 0 i - (1 * (1 / 2) - deltaClear)

/-- run_narrow_passage_clearance_trial.py:87-90 `query_end`. -/
def narrowGoal (n : ℕ) (deltaClear : K) : Fin (n + 1) → K := fun i => headRest 1 0 i + (1 * (1 / 2) - deltaClear)

end Verif.Envs
