import Verif.Model.Rbf
import Verif.Model.AuxObj
import Mathlib.Analysis.SpecialFunctions.Pow.Real

/-!
# The mathematical models handed to the external solvers

rbfopt_degree1_models.py, rbfopt_degree0_models.py, rbfopt_degreem1_models.py: the optimization
problems built with Pyomo.  A model is given by its feasible set and its objective; the solver itself
is not modelled.  `δ` is `_DISTANCE_SHIFT` (`distanceShift`); `x` is a vector of which the first `n` coordinates
are used.  The three files contain the same code up to the basis function and the polynomial; the line
numbers below are those of the degree 1 file unless another one is named.
-/

namespace Rbfopt

open Finset

/-- `sum((x[j] - node[i, j])**2 for j in N)`. -/
noncomputable def sqDist (n : ℕ) (x y : ℕ → ℝ) : ℝ := ∑ j ∈ range n, (x j - y j) ^ 2

/-- `_DISTANCE_SHIFT`: 1e-14 in rbfopt_degree1_models.py:23, 1e-12 in rbfopt_degree0_models.py:23; it occurs
in the expressions of the cubic, thin plate spline and linear basis functions only. -/
noncomputable def distanceShift : Rbf → ℝ
  | .cubic | .thinPlateSpline => 1 / 10 ^ 14
  | .linear => 1 / 10 ^ 12
  | .multiquadric | .gaussian => 0

/-- The parameter `lambda_h` (rbfopt_degree1_models.py:104-110). -/
def lambdaH (k : ℕ) (lam h : ℕ → ℝ) (j : ℕ) : ℝ := if j < k then lam j else h (j - k)

/-- The expression that stands for the basis function, of the squared distance `s`
(rbfopt_degree1_models.py:968-970 and 976-978; rbfopt_degree0_models.py:979-981 and 987-988;
rbfopt_degreem1_models.py:913-914). -/
noncomputable def pyPhi (t : Rbf) (δ g s : ℝ) : ℝ :=
  match t with
  | .cubic => (δ + s) ^ (3 / 2 : ℝ)
  | .thinPlateSpline => s * (1 / 2) * Real.log (s + δ)
  | .linear => Real.sqrt (δ + s)
  | .multiquadric => Real.sqrt (g * g + s)
  | .gaussian => Real.exp (-g * s)

/-- The objective of `create_min_rbf_model` (minimized): `_min_rbf_obj_expression_*`
(rbfopt_degree1_models.py:966-981, rbfopt_degree0_models.py:977-989,
rbfopt_degreem1_models.py:911-915). -/
noncomputable def pyRbf (t : Rbf) (δ g : ℝ) (n k : ℕ) (nodes : ℕ → ℕ → ℝ) (lh : ℕ → ℝ)
    (x : ℕ → ℝ) : ℝ :=
  let radial := ∑ i ∈ range k, lh i * pyPhi t δ g (sqDist n x (nodes i))
  match t with
  | .cubic | .thinPlateSpline => radial + ∑ i ∈ range n, lh (k + i) * x i + lh (k + n)
  | .linear | .multiquadric => radial + lh k
  | .gaussian => radial

open Classical in
/-- The parameter `Ainv`: upper triangle with the off-diagonal elements doubled, default 0
(rbfopt_degree1_models.py:246-258). -/
noncomputable def pyAinv (B : ℕ → ℕ → ℝ) (i j : ℕ) : ℝ :=
  if i ≤ j then
    if |B i j| ≠ 0 then (if i = j then B i j else 2 * B i j) else 0
  else 0

/-- The expression for the product of two basis functions, of the squared distances
(rbfopt_degree1_models.py:989-993 and 1017-1023; rbfopt_degree0_models.py:996-999 and 1012-1016;
rbfopt_degreem1_models.py:921-924): for the cubic and the linear basis function the shift is applied
to the product of the squared distances. -/
noncomputable def pyProd (t : Rbf) (δ g s r : ℝ) : ℝ :=
  match t with
  | .cubic => (δ + s * r) ^ (3 / 2 : ℝ)
  | .thinPlateSpline => s * (1 / 2) * Real.log (s + δ) * r * (1 / 2) * Real.log (r + δ)
  | .linear => Real.sqrt (δ + s * r)
  | .multiquadric => Real.sqrt (g * g + s) * Real.sqrt (g * g + r)
  | .gaussian => Real.exp (-g * s - g * r)

/-- The quadratic expression in the objectives of `create_max_one_over_mu_model` and
`create_max_h_k_model`, by products of blocks (rbfopt_degree1_models.py:988-1012 and 1016-1044,
rbfopt_degree0_models.py:994-1007, rbfopt_degreem1_models.py:920-925). -/
noncomputable def pyQuad (t : Rbf) (δ g : ℝ) (n k : ℕ) (nodes : ℕ → ℕ → ℝ) (A : ℕ → ℕ → ℝ)
    (x : ℕ → ℝ) : ℝ :=
  let s := fun i => sqDist n x (nodes i)
  let kk := ∑ i ∈ range k, ∑ j ∈ range k, A i j * pyProd t δ g (s i) (s j)
  match t with
  | .cubic | .thinPlateSpline =>
    kk + ∑ i ∈ range k, ∑ j ∈ range n, A i (k + j) * x j * pyPhi t δ g (s i) +
      ∑ i ∈ range k, A i (k + n) * pyPhi t δ g (s i) +
      ∑ i ∈ range n, ∑ j ∈ range n, A (k + i) (k + j) * x i * x j +
      ∑ i ∈ range n, A (k + i) (k + n) * x i + A (k + n) (k + n)
  | .linear | .multiquadric => kk + ∑ j ∈ range k, A j k * pyPhi t δ g (s j) + A k k
  | .gaussian => kk

/-- The parameter `phi_0` (rbfopt_degree1_models.py:261-262; rbfopt_degree0_models.py:261-264;
rbfopt_degreem1_models.py:245-246). -/
def pyPhi0 (t : Rbf) (g : ℝ) : ℝ :=
  match t with
  | .cubic | .thinPlateSpline | .linear => 0
  | .multiquadric => g
  | .gaussian => 1

/-- The objective of `create_max_one_over_mu_model` (maximized): negated for degrees 1 and -1, not for
degree 0 (rbfopt_degree1_models.py:986-1044, rbfopt_degree0_models.py:993-1024,
rbfopt_degreem1_models.py:919-925). -/
noncomputable def pyOneOverMu (t : Rbf) (δ g : ℝ) (n k : ℕ) (nodes : ℕ → ℕ → ℝ) (B : ℕ → ℕ → ℝ)
    (x : ℕ → ℝ) : ℝ :=
  match t with
  | .linear | .multiquadric => pyQuad t δ g n k nodes (pyAinv B) x - pyPhi0 t g
  | _ => -(pyQuad t δ g n k nodes (pyAinv B) x - pyPhi0 t g)

/-- The objective of `create_max_h_k_model` (maximized) (rbfopt_degree1_models.py:1049-1107,
rbfopt_degree0_models.py:1028-1064, rbfopt_degreem1_models.py:930-940). -/
noncomputable def pyHk (t : Rbf) (δ g : ℝ) (n k : ℕ) (nodes : ℕ → ℕ → ℝ) (lam h : ℕ → ℝ)
    (B : ℕ → ℕ → ℝ) (fstar : ℝ) (x : ℕ → ℝ) : ℝ :=
  pyOneOverMu t δ g n k nodes B x / (pyRbf t δ g n k nodes (lambdaH k lam h) x - fstar) ^ 2

/-! ## Feasible sets -/

/-- Bounds of `x`, and the auxiliary integer variables `y` of `add_integrality_constraints`, with
their bounds and the equations (rbfopt_degree1_models.py:837-871, 925-926, 1147-1155). -/
def PyBoxInt (n : ℕ) (lo up : ℕ → ℝ) (iv : List ℕ) (x : ℕ → ℝ) : Prop :=
  (∀ i < n, lo i ≤ x i ∧ x i ≤ up i) ∧
  ∃ y : ℕ → ℤ, ∀ l (h : l < iv.length), (lo iv[l] ≤ y l ∧ y l ≤ up iv[l]) ∧ x iv[l] = y l

/-- `add_categorical_constraints`: for each categorical variable, with parameter `cat_vars` equal to 1
on its binaries and 0 elsewhere, the sum is 1 (rbfopt_degree1_models.py:876-919, 1158-1159). -/
def PyCat (n : ℕ) (groups : List (List ℕ)) (x : ℕ → ℝ) : Prop :=
  ∀ e ∈ groups, ∑ j ∈ range n, (if j ∈ e then 1 else 0) * x j = 1

/-- The auxiliary problems over points of the space. -/
inductive PyProblem | minRbf | maxOneOverMu | maxHk | maximin | minMsrsm
  deriving DecidableEq

/-- Does the function that builds the model call `add_categorical_constraints`?  All do, except
`create_max_h_k_model` of rbfopt_degree1_models.py (compare lines 435-439 there with
rbfopt_degree0_models.py:446-447 and rbfopt_degreem1_models.py:414-415). -/
def pyHasCat (p : PyProblem) (t : Rbf) : Bool :=
  match p with
  | .maxHk => decide (degreePolynomial t ≠ 1)
  | _ => true

/-- The feasible points `x` of the models, without the constraints on `mindistsq`. -/
def PyDomain (p : PyProblem) (t : Rbf) (n : ℕ) (lo up : ℕ → ℝ) (iv : List ℕ)
    (groups : List (List ℕ)) (x : ℕ → ℝ) : Prop :=
  PyBoxInt n lo up iv x ∧ (pyHasCat p t = true → PyCat n groups x)

/-- Domain, bounds and constraints of `mindistsq` in `create_maximin_dist_model` and
`create_min_msrsm_model` (rbfopt_degree1_models.py:638-645, 810-822, 957-959). -/
def PyMinDistSq (minDist : ℝ) (n k : ℕ) (nodes : ℕ → ℕ → ℝ) (x : ℕ → ℝ) (m : ℝ) : Prop :=
  0 ≤ m ∧ minDist ≤ m ∧ ∀ i < k, m ≤ sqDist n x (nodes i)

/-- Parameters of `create_min_msrsm_model` after the adjustment that avoids zero denominators
(rbfopt_degree1_models.py:787-801). -/
structure MsrsmParams where
  distMin : ℝ
  distMax : ℝ
  fmin : ℝ
  fmax : ℝ
  distWeight : ℝ
  objWeight : ℝ

open Classical in
/-- rbfopt_degree1_models.py:787-801. -/
noncomputable def msrsmParams (eps : ℝ) (modified : Bool) (w distMin distMax fmin fmax : ℝ) :
    MsrsmParams where
  fmax := if fmax ≤ fmin + eps then fmin + 1 else fmax
  distMin := if distMax ≤ distMin + eps then distMax - 1 else distMin
  distMax := distMax
  fmin := fmin
  distWeight := w
  objWeight := if modified then 1 else 1 - w

/-- The objective of `create_min_msrsm_model` (minimized) (rbfopt_degree1_models.py:1121-1144,
rbfopt_degree0_models.py:1077-1098, rbfopt_degreem1_models.py:953-961). -/
noncomputable def pyMsrsm (P : MsrsmParams) (t : Rbf) (δ g : ℝ) (n k : ℕ) (nodes : ℕ → ℕ → ℝ)
    (lam h : ℕ → ℝ) (x : ℕ → ℝ) (m : ℝ) : ℝ :=
  P.distWeight * (P.distMax - Real.sqrt m) / (P.distMax - P.distMin) +
    P.objWeight * (pyRbf t δ g n k nodes (lambdaH k lam h) x - P.fmin) / (P.fmax - P.fmin)

/-! ## The least bumpy interpolant through intervals -/

/-- The left-hand side of the interpolation constraints, `Phi lambda + P h`. -/
noncomputable def pyIntr (t : Rbf) (n k : ℕ) (Phi Pm : ℕ → ℕ → ℝ) (lam h : ℕ → ℝ) (i : ℕ) : ℝ :=
  ∑ j ∈ range k, Phi i j * lam j + ∑ c ∈ range (sizeP t n), Pm i c * h c

/-- The constraints of `create_min_bump_model` (rbfopt_degree1_models.py:508-548, 930-953): both
rules, and the unisolvence conditions (which the degree -1 file does not have). -/
def PyBumpFeasible (t : Rbf) (n k : ℕ) (Phi Pm : ℕ → ℕ → ℝ) (val errLo errUp : ℕ → ℝ)
    (lam h : ℕ → ℝ) : Prop :=
  (∀ i < k,
    let lower := val i + errLo i
    let upper := val i + errUp i
    (if lower ≥ upper then pyIntr t n k Phi Pm lam h i = lower
      else lower ≤ pyIntr t n k Phi Pm lam h i) ∧
    (¬ lower ≥ upper → pyIntr t n k Phi Pm lam h i ≤ upper)) ∧
  ∀ c < sizeP t n, ∑ j ∈ range k, Pm j c * lam j = 0

/-- The objective of `create_min_bump_model` (minimized): negated for degree 0
(rbfopt_degree1_models.py:1113-1115, rbfopt_degree0_models.py:1069-1071,
rbfopt_degreem1_models.py:945-947). -/
noncomputable def pyBump (t : Rbf) (k : ℕ) (Phi : ℕ → ℕ → ℝ) (lam : ℕ → ℝ) : ℝ :=
  match t with
  | .linear | .multiquadric => -∑ i ∈ range k, ∑ j ∈ range k, Phi i j * lam i * lam j
  | _ => ∑ i ∈ range k, ∑ j ∈ range k, Phi i j * lam i * lam j

/-- What is known of a run of the solver on a model with variables of type `α`: it fails, or stops
with a point that need not be optimal, or with an optimal point. -/
inductive SolverRun (α : Type) | failed | notOptimal | optimal (a : α)

/-- rbfopt_aux_problems.py:672-713 `get_noisy_rbf_coefficients`: the coefficients of the solver if it
reports an optimal solution, and otherwise the initial ones. -/
def noisyCoefficients (run : SolverRun ((ℕ → ℝ) × (ℕ → ℝ))) (init : Option ((ℕ → ℝ) × (ℕ → ℝ))) :
    Option ((ℕ → ℝ) × (ℕ → ℝ)) :=
  match run with
  | .optimal a => some a
  | _ => init

/-- rbfopt_aux_problems.py:305-316 (and 176-187, 505-516): `point` with the integer variables rounded
(`np.around`, `round1` rounding a number), or None. -/
def solverPoint (round1 : ℝ → ℝ) (iv : List ℕ) (run : SolverRun (ℕ → ℝ)) : Option (ℕ → ℝ) :=
  match run with
  | .optimal x => some (fun i => if i ∈ iv then round1 (x i) else x i)
  | _ => none

end Rbfopt
