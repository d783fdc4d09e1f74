import Verif.Model.Numpy

/-!
# Scaling of the domain

rbfopt_utils.py:1745-1914 `transform_domain`, `bulk_transform_domain`, `transform_domain_bounds`.
-/

namespace Rbfopt

/-- Setting `domain_scaling` after the resolution of `'auto'` (rbfopt_settings.py:618-695).  Any
other string is refused by the settings object (rbfopt_settings.py:551-575). -/
inductive Scaling | off | affine
  deriving DecidableEq, Repr

/-- rbfopt_utils.py:1792-1801, affine forward: `var_diff[var_diff == 0] = 1; (point - lower)/diff`,
one coordinate.  Simplification: arrays of different lengths (an assertion in the code) are
truncated to the shortest. -/
def affineFwd : Pt → Pt → Pt → Pt
  | l :: ls, u :: us, x :: xs =>
    (let d := u - l
     (x - l) / (if d = 0 then 1 else d)) :: affineFwd ls us xs
  | _, _, _ => []

/-- rbfopt_utils.py:1795-1796, affine reverse: `point * (upper - lower) + lower`. -/
def affineRev : Pt → Pt → Pt → Pt
  | l :: ls, u :: us, x :: xs => (x * (u - l) + l) :: affineRev ls us xs
  | _, _, _ => []

/-- rbfopt_utils.py:1745-1807 `transform_domain`. -/
def transformDomain (sc : Scaling) (lower upper : Pt) (ints : List ℕ) (rev : Bool) (p : Pt) : Pt :=
  if sc = .off ∨ ints ≠ [] then p
  else if rev then affineRev lower upper p else affineFwd lower upper p

/-- rbfopt_utils.py:1810-1871 `bulk_transform_domain`: numpy broadcasts the row operations.
`none` models the `IndexError` of `points[0]` (line 1854) on an empty array. -/
def bulkTransformDomain (sc : Scaling) (lower upper : Pt) (ints : List ℕ) (rev : Bool)
    (ps : List Pt) : Option (List Pt) :=
  if ps = [] then none
  else if sc = .off ∨ ints ≠ [] then some ps
  else if rev then some (ps.map (affineRev lower upper)) else some (ps.map (affineFwd lower upper))

/-- rbfopt_utils.py:1874-1914 `transform_domain_bounds`; note that it does not look at the integer
variables. -/
def transformBounds (sc : Scaling) (lower upper : Pt) : Pt × Pt :=
  match sc with
  | .off => (lower, upper)
  | .affine => (List.replicate lower.length 0, List.replicate upper.length 1)

end Rbfopt
