import Verif.Model.Basic
import Verif.Model.Rbf
import Verif.Model.Genetic

/-!
# Objective functions of the auxiliary problems

rbfopt_aux_problems.py:1257-1640 (classes `MetricSRSMObj`, `MaximinDistanceObj`, `GutmannHkObj`,
`GutmannMukObj`) and the search by sampling (rbfopt_aux_problems.py:134-147 and 453-469).
-/

namespace Rbfopt

/-- `MetricSRSMObj.__init__`: `obj_weight` (rbfopt_aux_problems.py:1317-1318). -/
def msrsmObjWeight (modified : Bool) (distWeight : ℚ) : ℚ := if modified then 1 else 1 - distWeight

/-- The denominators of the score (rbfopt_aux_problems.py:1345-1348): the range of the values, or 1
if the range does not exceed `eps_zero`. -/
def msrsmDenom (epsZero lo hi : ℚ) : ℚ := if hi > lo + epsZero then hi - lo else 1

/-- rbfopt_aux_problems.py:1321-1352 `MetricSRSMObj.evaluate`, given the interpolant values `obj` and
the minimum distances `dist` of the points (computed by `bulk_evaluate_rbf`, see `Model/Rbf.lean`).
`min`/`max` of an empty array raise ValueError. -/
def msrsmScores (epsZero minDist distWeight : ℚ) (modified : Bool) (obj dist : List ℚ) :
    Except PyErr (List EVal) :=
  match argminVal dist, argmaxVal dist, argminVal obj, argmaxVal obj with
  | some (minD, _), some (maxD, _), some (minO, _), some (maxO, _) =>
    let dd := msrsmDenom epsZero minD maxD
    let od := msrsmDenom epsZero minO maxO
    .ok (List.zipWith (fun o d =>
      if d ≤ minDist then ⊤
      else ((distWeight * (maxD - d) / dd +
        msrsmObjWeight modified distWeight * (o - minO) / od : ℚ) : EVal)) obj dist)
  | _, _, _, _ => .error .valueError

/-- rbfopt_aux_problems.py:1393-1411 `MaximinDistanceObj.evaluate`, one row: minus the distance from
the closest node; `none` models the failing assertion without nodes. -/
def maximinScore (dist : Pt → Pt → ℚ) (nodes : List Pt) (p : Pt) : Option ℚ :=
  (getMinDistance dist p nodes).map (fun d => -d)

/-- `global_search` / `pure_global_search` with `global_search_method == 'sampling'`
(rbfopt_aux_problems.py:134-147, 453-469): the best of the samples; `argmin` of an empty array raises
ValueError. -/
def samplingSearch (I : Internal) (objfun : List Pt → List EVal) (us : List Pt) : Except PyErr Pt :=
  let samples := us.map (samplePoint I)
  match argminVal (objfun samples) with
  | none => .error .valueError
  | some (_, i) => .ok (samples.getD i [])

open Finset

/-- One row of `u_pi_mat` (rbfopt_aux_problems.py:1521-1530, 1622-1629): the basis functions of the
distances to the nodes, followed by the coordinates and 1 (degree 1), by 1 (degree 0) or nothing. -/
noncomputable def uPi (t : Rbf) (g : ℝ) (n k : ℕ) (nodes : ℕ → ℕ → ℝ) (x : ℕ → ℝ) (j : ℕ) : ℝ :=
  if j < k then phi t g (euclid n x (nodes j))
  else if sizeP t n = n + 1 then (if j - k = n then 1 else x (j - k)) else 1

/-- `np.sum(np.dot(u_pi_mat, Amatinv) * u_pi_mat, axis=1)`, one row. -/
noncomputable def quadForm (m : ℕ) (B : ℕ → ℕ → ℝ) (u : ℕ → ℝ) : ℝ :=
  ∑ j ∈ range m, (∑ i ∈ range m, u i * B i j) * u j

/-- `sign = (-1)**degree` (rbfopt_aux_problems.py:1536, 1632); in Python `(-1)**(-1)` is `-1.0`. -/
noncomputable def muSign (t : Rbf) : ℝ := (-1 : ℝ) ^ degreePolynomial t

/-- rbfopt_aux_problems.py:1592-1636 `GutmannMukObj.evaluate`, one row. -/
noncomputable def gutmannMuk (t : Rbf) (g : ℝ) (n k : ℕ) (nodes : ℕ → ℕ → ℝ) (B : ℕ → ℕ → ℝ)
    (x : ℕ → ℝ) : ℝ :=
  -(muSign t * (quadForm (k + sizeP t n) B (uPi t g n k nodes x) + phi t g 0))

/-- rbfopt_aux_problems.py:1485-1541 `GutmannHkObj.evaluate`, one row. -/
noncomputable def gutmannHk (t : Rbf) (g eps : ℝ) (n k : ℕ) (nodes : ℕ → ℕ → ℝ) (lam h : ℕ → ℝ)
    (B : ℕ → ℕ → ℝ) (target : ℝ) (x : ℕ → ℝ) : ℝ :=
  -((muSign t * (quadForm (k + sizeP t n) B (uPi t g n k nodes x) - phi t g 0)) /
    max ((evaluateRbf t g n k nodes lam h x - target) ^ 2) eps)

end Rbfopt
