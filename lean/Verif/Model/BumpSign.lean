import Verif.Model.Bump
import Verif.Model.Rbf

/-!
# The bumpiness values compared by the local search

rbfopt_aux_problems.py:798 (`get_min_bump_node`) and 872-874 (`get_bump_new_node`): both compute
`np.dot(np.dot(rbf_l, Phi), rbf_l)`, without a sign.
-/

namespace Rbfopt

/-- `np.dot(np.dot(lam, Phi), lam)` (rbfopt_aux_problems.py:798, 872-874); `Phi` is a list of rows. -/
def dotForm (lam : List ℚ) (Phi : List (List ℚ)) : ℚ :=
  ((List.range lam.length).map (fun j =>
    ((List.range lam.length).map (fun i => lam.getD i 0 * (Phi.getD i []).getD j 0)).sum *
      lam.getD j 0)).sum

/-- rbfopt_aux_problems.py:718-803 `get_min_bump_node` with the computed bumpiness; `coef vals errs` are
the coefficients of the noisy interpolant (or of the exact one if the solver fails). -/
def minBumpNodeCode (coef : List ℚ → List ErrRow → List ℚ) (Phi : List (List ℚ)) (epsZero target : ℚ)
    (vals : List ℚ) (errs : List ErrRow) : BumpState :=
  minBumpNode (fun v e => dotForm (coef v e) Phi) epsZero target vals errs

/-- rbfopt_aux_problems.py:806-876 `get_bump_new_node`: `coef`, `Phi` belong to the nodes with the new
one. -/
def bumpNewNode (coef : List ℚ → List ErrRow → List ℚ) (Phi : List (List ℚ)) (vals : List ℚ)
    (errs : List ErrRow) (target : ℚ) : ℚ :=
  dotForm (coef (vals ++ [target]) (errs ++ [(0, 0)])) Phi

end Rbfopt
