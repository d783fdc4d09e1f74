import Verif.Model.State

/-! # Specification vocabulary for the refinement phase -/

namespace Rbfopt

/-- "Unlimited refinement is active" (documentation of `thresh_unlimited_refinement` and
`thresh_unlimited_refinement_stalled`, rbfopt_settings.py): a fraction of one of the budgets
(iterations, evaluations, clock) or of the stalling limit has been used up. -/
def UnlimitedActive (P : Params) (iters evals : ℕ) (elapsed : ℚ) (stalled : ℕ) : Prop :=
  (iters : ℚ) ≥ P.maxIter * P.threshUnl ∨ (evals : ℚ) ≥ P.maxEval * P.threshUnl ∨
  ((elapsed : EVal) ≥ P.maxClock.map (· * P.threshUnl)) ∨
  (stalled : ℚ) ≥ P.maxStalled * P.threshUnlStalled

end Rbfopt
