import Verif.Model.CliOptions

/-!
# The test interface

rbfopt_test_interface.py:78-159.  The parsed command line is the input; its parsing is that of
`Model/CliOptions` (with other options of the interface itself).
-/

namespace Rbfopt

/-- The parsed arguments (rbfopt_test_interface.py:117-137): the name of the function, the three options of the
interface, and the dictionary of the settings. -/
structure TestArgs where
  function : String
  dimensionMultiplier : ℤ
  relError : ℚ
  absError : ℚ
  rest : CliDict

/-- The attribute of the module rbfopt_test_functions with a given name: a test function with its
`optimum_value`, or something else (`np`, `sys`, …). -/
inductive ModAttr
  | fn (optimumValue : ℚ)
  | other

/-- The black box built for a test (rbfopt_test_interface.py:144-150). -/
inductive TestBB
  | plain (function : String)
  | enlarged (function : String) (multiplier : ℤ)
  | noisy (base : TestBB) (relError absError : ℚ)
  deriving DecidableEq

/-- The name of the function behind a black box: its attribute `_function`
(rbfopt_test_functions.py:2654, 2699-2701, 2777). -/
def TestBB.function : TestBB → String
  | .plain f => f
  | .enlarged f _ => f
  | .noisy b _ _ => b.function

/-- `TestBlackBox(name)` and `TestEnlargedBlackBox(name, multiplier)`
(rbfopt_test_functions.py:2648-2656, 2768-2781): `ValueError` if there is no such attribute; the enlarged one
reads `dimension`, which only test functions have. -/
def makeBase (attr : String → Option ModAttr) (a : TestArgs) : Except PyErr TestBB :=
  if a.dimensionMultiplier > 1 then
    match attr a.function.toLower with
    | none => .error .valueError
    | some .other => .error .attributeError
    | some (.fn _) => .ok (.enlarged a.function.toLower a.dimensionMultiplier)
  else
    match attr a.function.toLower with
    | none => .error .valueError
    | some _ => .ok (.plain a.function.toLower)

/-- rbfopt_test_interface.py:138-150 with the assertions of rbfopt_test_functions.py:2696-2697. -/
def makeTestBB (attr : String → Option ModAttr) (a : TestArgs) : Except PyErr TestBB :=
  match makeBase attr a with
  | .error e => .error e
  | .ok bb =>
    if a.relError > 0 ∨ a.absError > 0 then
      if a.relError ≥ 0 ∧ a.absError ≥ 0 then .ok (.noisy bb a.relError a.absError)
      else .error .assertionError
    else .ok bb

/-- rbfopt_test_interface.py:107-159 and 95-101: the black box and the settings with which
`RbfoptAlgorithm` is created. -/
def testMain (attr : String → Option ModAttr) (a : TestArgs) : Except PyErr (TestBB × Settings) :=
  match makeTestBB attr a with
  | .error e => .error e
  | .ok bb =>
    match attr bb.function with
    | some (.fn v) =>
      let d := Function.update a.rest "target_objval" (some (.num v))
      match fromDictionary ((docstringOptions.map Prod.fst).filterMap (fun k => (d k).map (fun w => (k, w)))) with
      | .error e => .error e
      | .ok s => .ok (bb, s)
    | _ => .error .attributeError

end Rbfopt
