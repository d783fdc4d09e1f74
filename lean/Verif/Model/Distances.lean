import Verif.Model.State
import Mathlib.Analysis.InnerProductSpace.PiL2

/-!
# The distance functions of `rbfopt_utils`

Points are lists of real numbers (exact arithmetic); matrices are lists of rows, all of the same length.
-/

namespace Rbfopt

/-- `np.dot(p, p)`. -/
def dotSelf (p : List ℝ) : ℝ := (p.map (fun x => x * x)).sum

/-- rbfopt_utils.py:862-880 `norm`. -/
noncomputable def normPy (p : List ℝ) : ℝ := Real.sqrt (dotSelf p)

/-- The array `p1 - p2`, for arrays of the same length. -/
def subPy (p q : List ℝ) : List ℝ := List.zipWith (fun x y => x - y) p q

/-- rbfopt_utils.py:885-911 `distance`. -/
noncomputable def distancePy (p q : List ℝ) : Except PyErr ℝ :=
  if p.length = q.length then .ok (Real.sqrt (dotSelf (subPy p q))) else .error .assertionError

/-- `A.size` of a matrix with rows of the same length is not zero. -/
def hasEntries (A : List (List ℝ)) : Bool := A.any (fun r => !r.isEmpty)

/-- `scipy.spatial.distance.cdist`: all Euclidean distances; `ValueError` if the numbers of columns differ. -/
noncomputable def cdistPy (A B : List (List ℝ)) : Except PyErr (List (List ℝ)) :=
  if (∀ p ∈ A, ∀ q ∈ B, p.length = q.length) then
    .ok (A.map (fun p => B.map (fun q => Real.sqrt (dotSelf (subPy p q)))))
  else .error .valueError

/-- `np.amin(dist, 1)`: the smallest entry of each row. -/
noncomputable def amin1 (D : List (List ℝ)) : List ℝ :=
  D.filterMap (fun r => (argminVal r).map Prod.fst)

/-- `np.amax(dist, 1)`. -/
noncomputable def amax1 (D : List (List ℝ)) : List ℝ :=
  D.filterMap (fun r => (argmaxVal r).map Prod.fst)

/-- rbfopt_utils.py:914-941 `get_min_distance` (an array with one element). -/
noncomputable def getMinDistancePy (p : List ℝ) (others : List (List ℝ)) : Except PyErr (List ℝ) :=
  if (!p.isEmpty) = true ∧ hasEntries others = true then (cdistPy [p] others).map amin1 else .error .assertionError

/-- rbfopt_utils.py:944-973 `get_min_distance_and_index`. -/
noncomputable def getMinDistanceAndIndexPy (p : List ℝ) (others : List (List ℝ)) :
    Except PyErr (ℝ × ℕ) :=
  if (!p.isEmpty) = true ∧ hasEntries others = true then
    match cdistPy [p] others with
    | .error e => .error e
    | .ok D =>
      match argminVal (D.headD []) with
      | none => .error .valueError
      | some r => .ok r
  else .error .assertionError

/-- rbfopt_utils.py:975-1001 `get_max_distance`. -/
noncomputable def getMaxDistancePy (p : List ℝ) (others : List (List ℝ)) : Except PyErr (List ℝ) :=
  if (!p.isEmpty) = true ∧ hasEntries others = true then (cdistPy [p] others).map amax1 else .error .assertionError

/-- rbfopt_utils.py:1005-1034 `get_max_distance_and_index`. -/
noncomputable def getMaxDistanceAndIndexPy (p : List ℝ) (others : List (List ℝ)) :
    Except PyErr (ℝ × ℕ) :=
  if (!p.isEmpty) = true ∧ hasEntries others = true then
    match cdistPy [p] others with
    | .error e => .error e
    | .ok D =>
      match argmaxVal (D.headD []) with
      | none => .error .valueError
      | some r => .ok r
  else .error .assertionError

/-- rbfopt_utils.py:1038-1071 `bulk_get_min_distance`. -/
noncomputable def bulkMinDistancePy (points others : List (List ℝ)) : Except PyErr (List ℝ) :=
  if hasEntries points = true ∧ hasEntries others = true ∧ (points.headD []).length = (others.headD []).length then
    (cdistPy points others).map amin1
  else .error .assertionError

end Rbfopt
