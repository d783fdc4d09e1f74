import Mathlib.Analysis.SpecialFunctions.Log.Basic
import Mathlib.Analysis.SpecialFunctions.Sqrt
import Mathlib.Data.Real.Sign
import Mathlib.Algebra.BigOperators.Intervals
import Verif.Model.Basic

/-!
# Radial basis function interpolants

rbfopt_utils.py:33-163 (basis functions, degrees), 889-910 (`distance`), 1076-1140
(`get_rbf_matrix`), 1143-1220 (`get_matrix_inverse`), 1223-1305 (`get_rbf_coefficients`), 1379-1435
(`evaluate_rbf`), 1437-1513 (`bulk_evaluate_rbf`).

Arithmetic is exact over the real numbers.  A numpy array of shape `(k,)` or `(k, n)` is a function on
natural numbers of which only the entries below `k` (and `n`) are used.
-/

namespace Rbfopt

open Finset

/-- `settings.rbf` after resolution of `auto` (rbfopt_settings.py:367). -/
inductive Rbf | cubic | thinPlateSpline | linear | multiquadric | gaussian
  deriving DecidableEq, Repr

/-- rbfopt_utils.py:33-94 `get_rbf_function` and the basis functions; `g` is
`rbf_shape_parameter`; `xlogy(a, r)` is 0 for `a = 0`. -/
noncomputable def phi (t : Rbf) (g r : ℝ) : ℝ :=
  match t with
  | .cubic => r * r * r
  | .thinPlateSpline => r * r * (if Real.sign r = 0 then 0 else Real.sign r * Real.log r)
  | .linear => r
  | .multiquadric => Real.sqrt (r * r + g * g)
  | .gaussian => Real.exp (-g * r * r)

/-- rbfopt_utils.py:97-128 `get_degree_polynomial`. -/
def degreePolynomial : Rbf → ℤ
  | .cubic | .thinPlateSpline => 1
  | .linear | .multiquadric => 0
  | .gaussian => -1

/-- rbfopt_utils.py:131-163 `get_size_P_matrix`. -/
def sizeP (t : Rbf) (n : ℕ) : ℕ :=
  match t with
  | .cubic | .thinPlateSpline => n + 1
  | .linear | .multiquadric => 1
  | .gaussian => 0

/-- rbfopt_utils.py:889-910 `distance`, and the entries of scipy's `cdist`. -/
noncomputable def euclid (n : ℕ) (p q : ℕ → ℝ) : ℝ :=
  Real.sqrt (∑ i ∈ range n, (p i - q i) * (p i - q i))

/-- rbfopt_utils.py:1110-1124: matrix `P` (`np.insert(node_pos, n, 1, axis=1)` or a column of
ones). -/
def matP (t : Rbf) (n : ℕ) (nodes : ℕ → ℕ → ℝ) (i c : ℕ) : ℝ :=
  if sizeP t n = n + 1 then (if c = n then 1 else nodes i c) else 1

open Classical in
/-- `A[np.abs(A) < eps_zero] = 0`, on one entry (rbfopt_utils.py:1138, 1216). -/
noncomputable def zeroTiny (eps x : ℝ) : ℝ := if |x| < eps then 0 else x

/-- rbfopt_utils.py:1126-1135: `[Phi P; P^T 0]`. -/
noncomputable def rawMatrix (t : Rbf) (g : ℝ) (n k : ℕ) (nodes : ℕ → ℕ → ℝ) (i j : ℕ) : ℝ :=
  if i < k then
    (if j < k then phi t g (euclid n (nodes i) (nodes j)) else matP t n nodes i (j - k))
  else (if j < k then matP t n nodes j (i - k) else 0)

/-- rbfopt_utils.py:1076-1140 `get_rbf_matrix`, of size `k + sizeP t n`. -/
noncomputable def rbfMatrix (t : Rbf) (g eps : ℝ) (n k : ℕ) (nodes : ℕ → ℕ → ℝ) (i j : ℕ) : ℝ :=
  zeroTiny eps (rawMatrix t g n k nodes i j)

/-- rbfopt_utils.py:1184-1188, 1279-1283: the rows and columns kept: for polynomials of degree 1, the
column of the last binary of each categorical variable is dropped; `groups` are the lists of expanded
variables (`expansion`). -/
def keptIndices (t : Rbf) (n k : ℕ) (groups : List (List ℕ)) : List ℕ :=
  if sizeP t n = n + 1 then
    (List.range (k + sizeP t n)).filter (fun j => ∀ e ∈ groups, j ≠ k + e.getLastD 0)
  else List.range (k + sizeP t n)

/-- `new_solution[columns] = solution` (rbfopt_utils.py:1292-1294). -/
def scatterCoef (kept : List ℕ) (x : ℕ → ℝ) (j : ℕ) : ℝ := if j ∈ kept then x (kept.idxOf j) else 0

/-- rbfopt_utils.py:1223-1305 `get_rbf_coefficients`; `solve m A b` is `np.linalg.solve`, `none` its
`LinAlgError`.  Result: `solution[0:k]` and `solution[k:]`. -/
noncomputable def rbfCoefficients (solve : ℕ → (ℕ → ℕ → ℝ) → (ℕ → ℝ) → Option (ℕ → ℝ)) (t : Rbf)
    (n k : ℕ) (A : ℕ → ℕ → ℝ) (val : ℕ → ℝ) (groups : List (List ℕ)) :
    Option ((ℕ → ℝ) × (ℕ → ℝ)) :=
  let rhs := fun i => if i < k then val i else 0
  let kept := keptIndices t n k groups
  match solve kept.length (fun i j => A (kept.getD i 0) (kept.getD j 0))
      (fun i => rhs (kept.getD i 0)) with
  | none => none
  | some x => some (fun i => scatterCoef kept x i, fun c => scatterCoef kept x (k + c))

/-- rbfopt_utils.py:1143-1220 `get_matrix_inverse`; `inv m A` is `np.linalg.inv`. -/
noncomputable def matrixInverse (inv : ℕ → (ℕ → ℕ → ℝ) → Option (ℕ → ℕ → ℝ)) (t : Rbf) (eps : ℝ)
    (n k : ℕ) (A : ℕ → ℕ → ℝ) (groups : List (List ℕ)) : Option (ℕ → ℕ → ℝ) :=
  let kept := keptIndices t n k groups
  match inv kept.length (fun i j => A (kept.getD i 0) (kept.getD j 0)) with
  | none => none
  | some B => some (fun i j => zeroTiny eps
      (if i ∈ kept ∧ j ∈ kept then B (kept.idxOf i) (kept.idxOf j) else 0))

/-- rbfopt_utils.py:1379-1435 `evaluate_rbf` (`math.fsum` is an exact sum). -/
noncomputable def evaluateRbf (t : Rbf) (g : ℝ) (n k : ℕ) (nodes : ℕ → ℕ → ℝ) (lam h : ℕ → ℝ)
    (x : ℕ → ℝ) : ℝ :=
  let p := sizeP t n
  let part1 := ∑ i ∈ range k, lam i * phi t g (euclid n x (nodes i))
  let part2 := ∑ i ∈ range (p - 1), h i * x i
  part1 + part2 + (if p > 0 then h (p - 1) else 0)

/-- rbfopt_utils.py:1437-1513 `bulk_evaluate_rbf`, value at row `r` of `points`. -/
noncomputable def bulkEvaluateRbf (t : Rbf) (g : ℝ) (n k : ℕ) (nodes : ℕ → ℕ → ℝ) (lam h : ℕ → ℝ)
    (points : ℕ → ℕ → ℝ) (r : ℕ) : ℝ :=
  let distMat := fun r i => euclid n (points r) (nodes i)
  let part1 := ∑ i ∈ range k, phi t g (distMat r i) * lam i
  let part2 := if degreePolynomial t = 1 then ∑ c ∈ range (sizeP t n - 1), points r c * h c else 0
  let part3 := if sizeP t n > 0 then h (sizeP t n - 1) else 0
  part1 + part2 + part3

/-- `np.amin(dist_mat, 1)` (rbfopt_utils.py:1507), for `k ≥ 1` nodes. -/
noncomputable def bulkMinDistance (n : ℕ) (nodes : ℕ → ℕ → ℝ) (points : ℕ → ℕ → ℝ) (r : ℕ) :
    ℕ → ℝ
  | 0 => 0
  | 1 => euclid n (points r) (nodes 0)
  | k + 2 => min (bulkMinDistance n nodes points r (k + 1)) (euclid n (points r) (nodes (k + 1)))

end Rbfopt
