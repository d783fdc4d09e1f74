import Verif.Model.Rbf
import Verif.Model.Scaling

/-!
# Underdetermined interpolants, and estimates for outstanding evaluations

rbfopt_utils.py:1308-1376 `get_rbf_coefficients_underdet`, 1520-1610 `bulk_compute_and_evaluate_rbf`,
rbfopt_algorithm.py:1261-1267, 1487-1497, 1546-1552, 1699-1705 (values used by the parallel engine
for points whose evaluation is running).  Exact real arithmetic.
-/

namespace Rbfopt

open Finset

/-- rbfopt_utils.py:1308-1376 `get_rbf_coefficients_underdet`; `lstsq m A b` is `np.linalg.lstsq`,
`none` its `LinAlgError`. -/
noncomputable def rbfCoefficientsUnderdet (lstsq : ℕ → (ℕ → ℕ → ℝ) → (ℕ → ℝ) → Option (ℕ → ℝ))
    (t : Rbf) (n k : ℕ) (A : ℕ → ℕ → ℝ) (val : ℕ → ℝ) (groups : List (List ℕ)) :
    Option ((ℕ → ℝ) × (ℕ → ℝ)) :=
  let rhs := fun i => if i < k then val i else 0
  let kept := keptIndices t n k groups
  match lstsq kept.length (fun i j => A (kept.getD i 0) (kept.getD j 0))
      (fun i => rhs (kept.getD i 0)) with
  | none => none
  | some x => some (fun i => scatterCoef kept x i, fun c => scatterCoef kept x (k + c))

/-- `np.linalg.solve` and `np.linalg.lstsq`. -/
structure LinAlg where
  solve : ℕ → (ℕ → ℕ → ℝ) → (ℕ → ℝ) → Option (ℕ → ℝ)
  lstsq : ℕ → (ℕ → ℕ → ℝ) → (ℕ → ℝ) → Option (ℕ → ℝ)

/-- The settings of the interpolant: `rbf`, `rbf_shape_parameter`, `eps_zero`. -/
structure RbfCfg where
  rbf : Rbf
  shape : ℝ
  epsZero : ℝ

/-- rbfopt_utils.py:1594-1608: the interpolant of the given values, underdetermined if there are fewer
than `n + 1` nodes. -/
noncomputable def fitRbf (L : LinAlg) (R : RbfCfg) (n k : ℕ) (nodes : ℕ → ℕ → ℝ) (val : ℕ → ℝ)
    (groups : List (List ℕ)) : Option ((ℕ → ℝ) × (ℕ → ℝ)) :=
  let A := rbfMatrix R.rbf R.shape R.epsZero n k nodes
  if k < n + 1 then rbfCoefficientsUnderdet L.lstsq R.rbf n k A val groups
  else rbfCoefficients L.solve R.rbf n k A val groups

/-- All entries present, or `none` (a `nan` in the right hand side makes all coefficients `nan`). -/
def allSome : List (Option ℝ) → Option (List ℝ)
  | [] => some []
  | none :: _ => none
  | some x :: xs =>
    match allSome xs with
    | none => none
    | some ys => some (x :: ys)

/-- rbfopt_utils.py:1520-1610 `bulk_compute_and_evaluate_rbf`: the function values are scaled, the
interpolant of the *scaled* values is evaluated at the points.  `none`: `LinAlgError` or `nan`. -/
noncomputable def bulkComputeEvaluate (L : LinAlg) (S : ScalingCfg) (R : RbfCfg) (n : ℕ)
    (nodes : ℕ → ℕ → ℝ) (vals : List ℝ) (fmin fmax : ℝ) (errs : List (ℝ × ℝ))
    (groups : List (List ℕ)) (points : List (ℕ → ℝ)) : Option (List ℝ) :=
  if points = [] then some []
  else
    match allSome (transformFunctionValues S vals fmin fmax errs).vals with
    | none => none
    | some sv =>
      match fitRbf L R n vals.length nodes (fun i => sv.getD i 0) groups with
      | none => none
      | some (lam, h) =>
        some ((List.range points.length).map
          (bulkEvaluateRbf R.rbf R.shape n vals.length nodes lam h
            (fun r => points.getD r (fun _ => 0))))

/-- `np.clip(x, lo, hi)`. -/
noncomputable def clipReal (x lo hi : ℝ) : ℝ := min hi (max x lo)

/-- rbfopt_algorithm.py:1261-1267, 1546-1552, 1699-1705: the values the parallel engine uses for the
points whose evaluation is running, clipped to the range of the (unscaled) known values. -/
noncomputable def outstandingEstimates (L : LinAlg) (S : ScalingCfg) (R : RbfCfg) (n : ℕ)
    (nodes : ℕ → ℕ → ℝ) (vals : List ℝ) (fmin fmax : ℝ) (errs : List (ℝ × ℝ))
    (groups : List (List ℕ)) (points : List (ℕ → ℝ)) : Option (List ℝ) :=
  match bulkComputeEvaluate L S R n nodes vals fmin fmax errs groups points with
  | none => none
  | some v => some (v.map (fun x => clipReal x fmin fmax))

end Rbfopt
