import Mathlib.Data.Rat.Floor
import Mathlib.Order.WithBot
import Mathlib.Tactic.Linarith
import Mathlib.Tactic.Ring
import Mathlib.Tactic.NormNum

/-!
# Shared primitives of the model

All files cited in this directory are relative to `/repo/src/rbfopt`.
-/

namespace Rbfopt

/-- A point (1D numpy array).  Simplification: coordinates are rationals (every finite double is
one); arithmetic on them is exact. -/
abbrev Pt := List ℚ

/-- Extended value used for quantities initialised to `float('+inf')` /`np.inf`. -/
abbrev EVal := WithTop ℚ

/-- Python exceptions that the modelled code can raise (rbfopt_algorithm.py, rbfopt_utils.py). -/
inductive PyErr
  | assertionError | indexError | nameError | valueError | zeroDivisionError | runtimeError
  | typeError | attributeError | linAlgError | pickleError | osError | keyError | notImplementedError
  deriving DecidableEq, Repr

/-- `np.argmin` together with the attained value; the first minimiser wins; `none` for an empty
array (numpy raises `ValueError`).  Used at rbfopt_algorithm.py:795, 2019 and
rbfopt_utils.py:970. -/
def argminVal {α : Type} [LE α] [DecidableLE α] : List α → Option (α × ℕ)
  | [] => none
  | x :: xs =>
    match argminVal xs with
    | none => some (x, 0)
    | some (v, j) => if x ≤ v then some (x, 0) else some (v, j + 1)

/-- `np.argmax` together with the attained value; first maximiser wins (rbfopt_utils.py:1032). -/
def argmaxVal {α : Type} [LE α] [DecidableLE α] : List α → Option (α × ℕ)
  | [] => none
  | x :: xs =>
    match argmaxVal xs with
    | none => some (x, 0)
    | some (v, j) => if v ≤ x then some (x, 0) else some (v, j + 1)

/-- rbfopt_utils.py:913-939 `get_min_distance` (and one row of `bulk_get_min_distance`,
1038-1071): `none` models the failing `assert(other_points.size)`.  `dist` is scipy's `cdist`
entry, an arbitrary function. -/
def getMinDistance (dist : Pt → Pt → ℚ) (p : Pt) (others : List Pt) : Option ℚ :=
  (argminVal (others.map (dist p))).map Prod.fst

/-- rbfopt_utils.py:943-971 `get_min_distance_and_index`. -/
def getMinDistanceAndIndex (dist : Pt → Pt → ℚ) (p : Pt) (others : List Pt) : Option (ℚ × ℕ) :=
  argminVal (others.map (dist p))

/-- rbfopt_utils.py:1005-1033 `get_max_distance_and_index`. -/
def getMaxDistanceAndIndex (dist : Pt → Pt → ℚ) (p : Pt) (others : List Pt) : Option (ℚ × ℕ) :=
  argmaxVal (others.map (dist p))

/-- `np.clip(x, lower, upper)` on one coordinate: `np.minimum(upper, np.maximum(x, lower))`. -/
def clip1 (x l u : ℚ) : ℚ := min u (max x l)

/-- `np.clip(next_p, l_lower, l_upper, out=next_p)` (rbfopt_algorithm.py:1084-1085).
Simplification: vectors of unequal length (numpy would raise) are truncated; all theorems about
clipping assume equal lengths. -/
def clipPt : Pt → Pt → Pt → Pt
  | x :: xs, l :: ls, u :: us => clip1 x l u :: clipPt xs ls us
  | _, _, _ => []

/-- `collections.deque(maxlen=w).append(b)` (rbfopt_algorithm.py:362-363, 1093, 1172). -/
def dequePush {α : Type} (w : ℕ) (d : List α) (b : α) : List α :=
  let d' := d ++ [b]
  d'.drop (d'.length - w)

end Rbfopt
