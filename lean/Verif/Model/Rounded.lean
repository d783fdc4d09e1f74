import Verif.Model.Domain
import Verif.Model.Print
import Mathlib.Data.Int.Log

/-!
# Domain scaling in floating point arithmetic

The other modules compute with exact rationals. Here the result of every subtraction, product, quotient and
sum of `transform_domain` (rbfopt_utils.py:1745-1807) is rounded by a function `fl`, in the order in which
numpy performs the operations.
-/

namespace Rbfopt

/-- rbfopt_utils.py:1798-1801, one coordinate at a time, with rounding: `var_diff = var_upper-var_lower`,
`(point - var_lower) / var_diff`. -/
def affineFwdR (fl : ℚ → ℚ) : Pt → Pt → Pt → Pt
  | l :: ls, u :: us, x :: xs =>
    (let d := fl (u - l)
     fl (fl (x - l) / (if d = 0 then 1 else d))) :: affineFwdR fl ls us xs
  | _, _, _ => []

/-- rbfopt_utils.py:1796 with rounding: `point * (var_upper - var_lower) + var_lower`. -/
def affineRevR (fl : ℚ → ℚ) : Pt → Pt → Pt → Pt
  | l :: ls, u :: us, x :: xs => fl (fl (x * fl (u - l)) + l) :: affineRevR fl ls us xs
  | _, _, _ => []

/-- rbfopt_utils.py:1745-1807 `transform_domain` with rounding. -/
def transformDomainR (fl : ℚ → ℚ) (sc : Scaling) (lower upper : Pt) (ints : List ℕ) (rev : Bool) (p : Pt) : Pt :=
  if sc = .off ∨ ints ≠ [] then p
  else if rev then affineRevR fl lower upper p else affineFwdR fl lower upper p

/-- Rounding to the nearest number with a significand of `prec` bits, ties to even. IEEE double precision is
`prec = 53`, as long as there is neither overflow nor underflow; the exponent is unbounded here. -/
def rndBits (prec : ℕ) (x : ℚ) : ℚ :=
  if x = 0 then 0
  else
    let s : ℚ := 2 ^ (Int.log 2 |x| - prec + 1)
    roundEven (x / s) * s

end Rbfopt
