import Verif.Model.Problem
import Verif.Model.InitNodes
import Mathlib.Data.Real.Basic
import Mathlib.Algebra.BigOperators.Group.Finset.Basic
import Mathlib.Data.Fintype.Card
import Mathlib.Data.Fintype.BigOperators
import Mathlib.Logic.Equiv.Basic

/-!
# Test functions of increased dimension

`TestEnlargedBlackBox` (rbfopt_test_functions.py:2733-2897).  Arithmetic is exact; the random
permutation, the random grouping and the random weights are arbitrary.
-/

namespace Rbfopt

/-- A test function of the module: bounds, types, known optimum (rbfopt_test_functions.py, class
attributes `var_lower` … `optimum_value`) and `evaluate`. -/
structure TestFn (n : ℕ) where
  lower : Fin n → ℚ
  upper : Fin n → ℚ
  type : Fin n → VType
  opt : Fin n → ℚ
  optValue : ℝ
  eval : (Fin n → ℚ) → ℝ

/-- The random choices of the constructor (rbfopt_test_functions.py:2780-2786, 2826): `perm[i]`,
`coupling[i][k]`, `int_weights`. -/
structure Draw (n d : ℕ) where
  perm : Fin (d * n) ≃ Fin (d * n)
  coupling : Fin n → Fin d → Fin (d * n)
  weights : Fin d → ℕ

variable {n d : ℕ}

/-- `perm[val] % dim` (rbfopt_test_functions.py:2790): which original variable is at this position. -/
def Draw.orig (D : Draw n d) (val : Fin (d * n)) : Fin n :=
  ⟨(D.perm val : ℕ) % n, Nat.mod_lt _ (by
    rcases Nat.eq_zero_or_pos n with h | h
    · exfalso; have h2 : (val : ℕ) < d * n := val.2; have h3 : d * n = 0 := by rw [h, Nat.mul_zero]
      omega
    · exact h)⟩

/-- rbfopt_test_functions.py:2790-2799: sum of a per-variable quantity over the group `i` of the
coupling term. -/
def couplingSum (D : Draw n d) (g : Fin n → ℚ) (i : Fin n) : ℚ := ∑ k, g (D.orig (D.coupling i k))

/-- One entry of `extra_bounds`, `mult_factor`, `shift`. -/
structure CouplingData where
  lo : ℚ
  hi : ℚ
  mult : ℚ
  shift : ℚ

/-- rbfopt_test_functions.py:2787-2824. -/
def couplingData (F : TestFn n) (D : Draw n d) (i : Fin n) : CouplingData :=
  let lb := couplingSum D F.lower i
  let ub := couplingSum D F.upper i
  let shiftedOpt := couplingSum D F.opt i
  let ratio := (shiftedOpt - lb) / (ub - lb)
  let origRatio := (F.opt i - F.lower i) / (F.upper i - F.lower i)
  if ratio ≠ 0 ∧ origRatio ≠ 0 then ⟨lb, ub, origRatio / ratio, 0⟩
  else if origRatio = 0 then ⟨shiftedOpt, max ub (shiftedOpt + 1), 1, 0⟩
  else ⟨lb, ub, 1, F.opt i - F.lower i⟩

/-- rbfopt_test_functions.py:2825-2828: weight of copy `c`; the coupling term has weight 0.4. -/
noncomputable def copyWeight (D : Draw n d) (c : Fin d) : ℝ :=
  (6 / 10 : ℝ) * (D.weights c : ℝ) / ((∑ k, D.weights k : ℕ) : ℝ)

/-- rbfopt_test_functions.py:2838-2851: bounds, types and optimum of the enlarged function. -/
def enlarge {α : Type} (D : Draw n d) (g : Fin n → α) : Fin (d * n) → α := fun i => g (D.orig i)

/-- `range(i*dim, (i+1)*dim)` (rbfopt_test_functions.py:2871-2873): the `j`-th index of copy `c`. -/
def copyIndex (c : Fin d) (j : Fin n) : Fin (d * n) :=
  ⟨c * n + j, by
    have h1 := c.2
    have h2 := j.2
    calc (c : ℕ) * n + j < c * n + n := by omega
      _ = (c + 1) * n := by ring
      _ ≤ d * n := Nat.mul_le_mul_right n h1⟩

/-- rbfopt_test_functions.py:2871-2873: `point[np.where(permutation == j)[0][0]]` for the indices of
copy `c`. -/
def copyPoint (D : Draw n d) (x : Fin (d * n) → ℚ) (c : Fin d) : Fin n → ℚ :=
  fun j => x (D.perm.symm (copyIndex c j))

/-- `np.bincount` of an array of nonnegative integers. -/
def bincount (l : List ℕ) : List ℕ := (List.range (l.foldr max 0 + 1)).map (fun v => l.count v)

/-- `np.argmax(np.bincount(values.astype(np.int_)))` (rbfopt_test_functions.py:2888-2889);
`ValueError` on negative values. -/
def mostFrequent (l : List ℚ) : Except PyErr ℕ :=
  let ints := l.map (fun x => if 0 ≤ x then ⌊x⌋ else ⌈x⌉)
  if ∃ z ∈ ints, z < 0 then .error .valueError
  else
    match argmaxVal (bincount (ints.map Int.toNat)) with
    | none => .error .valueError
    | some (_, i) => .ok i

/-- rbfopt_test_functions.py:2885-2887: `point[np.where(np.mod(permutation, dim) == i)[0]]`. -/
def sameOrig (D : Draw n d) (x : Fin (d * n) → ℚ) (i : Fin n) : List ℚ :=
  ((List.finRange (d * n)).filter (fun k => decide (D.orig k = i))).map x

/-- rbfopt_test_functions.py:2876-2891: one coordinate of the point of the coupling term. -/
def couplingCoord (F : TestFn n) (D : Draw n d) (x : Fin (d * n) → ℚ) (i : Fin n) : Except PyErr ℚ :=
  let e := couplingData F D i
  let s := ∑ k, x (D.coupling i k)
  let y := F.lower i + e.shift + e.mult * (s - e.lo) / (e.hi - e.lo) * (F.upper i - F.lower i)
  let y := clip1 y (F.lower i) (F.upper i)
  match F.type i with
  | .C =>
    match mostFrequent (sameOrig D x i) with
    | .error e => .error e
    | .ok v => .ok (v : ℚ)
  | .I => .ok (aroundEven y : ℚ)
  | .R => .ok y

/-- rbfopt_test_functions.py:2866-2893 `evaluate`.  The result is relational in the coordinates of the
coupling point, which are computed one after the other. -/
inductive EnlargedEval (F : TestFn n) (D : Draw n d) (x : Fin (d * n) → ℚ) : Except PyErr ℝ → Prop
  | ok {y : Fin n → ℚ} : (∀ i, couplingCoord F D x i = .ok (y i)) →
      EnlargedEval F D x (.ok (∑ c, copyWeight D c * F.eval (copyPoint D x c) + (4 / 10) * F.eval y))
  | fails {i : Fin n} {e : PyErr} : couplingCoord F D x i = .error e → EnlargedEval F D x (.error e)

end Rbfopt
