import Verif.Model.TestFunctions

/-!
# What a declared optimum means

Written without reference to any formula: only the bounds, the types, the value returned for a point
and the two declared fields are used.
-/

namespace Rbfopt

variable {n : ℕ}

/-- The point respects the bounds, and its integer and categorical coordinates are integers. -/
def BundledFn.Feasible (T : BundledFn n) (x : Fin n → ℝ) : Prop :=
  ∀ i, ((T.vars i).lower : ℝ) ≤ x i ∧ x i ≤ ((T.vars i).upper : ℝ)
    ∧ ((T.vars i).type ≠ .R → ∃ k : ℤ, x i = k)

/-- Every feasible point gets a value. -/
def BundledFn.Total (T : BundledFn n) : Prop := ∀ x, T.Feasible x → ∃ v, T.eval x = some v

/-- The point `p` is feasible and its value is the declared one, up to `tol`. -/
def BundledFn.Attains (T : BundledFn n) (tol : ℝ) (p : Fin n → ℝ) : Prop :=
  T.Feasible p ∧ ∃ v, T.eval p = some v ∧ |v - T.optVal| ≤ tol

/-- No feasible point has a value below the declared one by more than `tol`. -/
def BundledFn.NoneBelow (T : BundledFn n) (tol : ℝ) : Prop :=
  ∀ x, T.Feasible x → ∀ v, T.eval x = some v → T.optVal - tol ≤ v

/-- The declared optimum is an optimum, up to `tol`: every feasible point has a value, the declared
point and the additional ones attain the declared value, and no feasible point does better. -/
structure BundledFn.OptimumIs (T : BundledFn n) (tol : ℝ) : Prop where
  total : T.Total
  attained : T.Attains tol T.optPoint
  also : ∀ p ∈ T.extraOptima, T.Attains tol p
  least : T.NoneBelow tol

end Rbfopt
