import Verif.Model.Problem
import Verif.Model.State

/-!
# Ready-made black boxes

`RbfoptUserBlackBox` (rbfopt_user_black_box.py:23-202), `TestNoisyBlackBox`
(rbfopt_test_functions.py:2683-2731).
-/

namespace Rbfopt

/-- The fields of `RbfoptUserBlackBox` (rbfopt_user_black_box.py:75-80).  The user's functions may
depend on the calls made before (they may be stateful). -/
structure UserBB where
  dimension : ℕ
  varLower : List ℚ
  varUpper : List ℚ
  varType : List VType
  objFunct : List Call → Pt → ℚ
  objFunctNoisy : Option (List Call → Pt → ℚ × ℚ × ℚ)

/-- rbfopt_user_black_box.py:67-81 `RbfoptUserBlackBox.__init__`. -/
def newUserBB (dimension : ℕ) (varLower varUpper : List ℚ) (varType : List VType)
    (f : List Call → Pt → ℚ) (g : Option (List Call → Pt → ℚ × ℚ × ℚ)) : Except PyErr UserBB :=
  if varLower.length ≠ dimension then .error .assertionError
  else if varUpper.length ≠ dimension then .error .assertionError
  else if varType.length ≠ dimension then .error .assertionError
  else .ok ⟨dimension, varLower, varUpper, varType, f, g⟩

namespace UserBB

/-- rbfopt_user_black_box.py:83-92 `get_dimension`. -/
def getDimension (bb : UserBB) : ℕ := bb.dimension

/-- rbfopt_user_black_box.py:94-102 `get_var_lower`. -/
def getVarLower (bb : UserBB) : List ℚ := bb.varLower

/-- rbfopt_user_black_box.py:104-112 `get_var_upper`. -/
def getVarUpper (bb : UserBB) : List ℚ := bb.varUpper

/-- rbfopt_user_black_box.py:114-132 `get_var_type`. -/
def getVarType (bb : UserBB) : List VType := bb.varType

/-- rbfopt_user_black_box.py:134-150 `evaluate`. -/
def evaluate (bb : UserBB) (before : List Call) (x : Pt) : Except PyErr ℚ :=
  if x.length ≠ bb.dimension then .error .assertionError else .ok (bb.objFunct before x)

/-- rbfopt_user_black_box.py:152-185 `evaluate_noisy`. -/
def evaluateNoisy (bb : UserBB) (before : List Call) (x : Pt) : Except PyErr (ℚ × ℚ × ℚ) :=
  if x.length ≠ bb.dimension then .error .assertionError
  else
    match bb.objFunctNoisy with
    | none => .error .notImplementedError
    | some g => .ok (g before x)

/-- rbfopt_user_black_box.py:188-202 `has_evaluate_noisy`. -/
def hasEvaluateNoisy (bb : UserBB) : Bool := bb.objFunctNoisy.isSome

/-- The variables as the constructor of `RbfoptAlgorithm` reads them
(rbfopt_algorithm.py:258-266): the three arrays are always indexed together. -/
def vars (bb : UserBB) : List Var :=
  List.zipWith (fun lu t => ⟨lu.1, lu.2, t⟩) (bb.getVarLower.zip bb.getVarUpper) bb.getVarType

end UserBB

/-- rbfopt_test_functions.py:2715-2728 `TestNoisyBlackBox.evaluate_noisy`: `value` is the accurate
value, `rel` and `abs` the two random numbers. -/
def testNoisy (value rel abs : ℚ) : ℚ × ℚ × ℚ :=
  (value + rel * |value| + abs, -|rel * |value| + abs|, |rel * |value| + abs|)

end Rbfopt
