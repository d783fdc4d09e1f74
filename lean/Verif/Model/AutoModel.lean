import Verif.Model.Select
import Verif.Model.Scaling
import Mathlib.Data.List.Sort

/-!
# Choice of scaling, algorithm and RBF model in the main loops

rbfopt_algorithm.py:883-984 (`optimize_serial`) and 1560-1670 (`optimize_parallel`), with the initial
values of rbfopt_algorithm.py:332-342 and rbfopt_settings.py:655-660.

The position in the cycle, the number of nodes, the node values, the cross-validation errors and the
failures of the linear solver are inputs of each pass.
-/

namespace Rbfopt

/-- `settings.algorithm`. -/
inductive Algo | gutmann | msrsm
  deriving DecidableEq, Repr

/-- The user's settings and the problem data read by this part of the loops; `none` stands for
`'auto'`. -/
structure AutoCfg where
  /-- `settings.rbf` -/
  rbf : Option Rbf
  /-- `settings.rbf_shape_parameter` -/
  shape : ℚ
  /-- `settings.function_scaling` -/
  scaling : Option FunScaling
  algorithm : Algo
  /-- `settings.log_scaling_threshold` -/
  threshold : ℚ
  /-- `settings.max_cross_validations` -/
  maxCV : ℕ
  /-- dimension -/
  n : ℕ
  /-- `self.first_step` -/
  firstStep : ℕ
  /-- `self.local_search_step` -/
  localStep : ℕ

/-- The three values of `l_settings` that the loops change. -/
structure AutoVol where
  rbf : RbfSel
  scaling : FunScaling
  algorithm : Algo
  deriving DecidableEq, Repr

/-- State: `l_settings` and the four attributes; in the lists `none` is the mark `'failed'`. -/
structure AutoState where
  vol : AutoVol
  bestLocal : RbfSel
  bestGlobal : RbfSel
  localList : List (Option RbfSel)
  globalList : List (Option RbfSel)
  deriving DecidableEq, Repr

/-- What a pass reads from outside this part. -/
structure AutoIn where
  /-- `self.current_step` -/
  step : ℕ
  /-- number of nodes -/
  k : ℕ
  /-- `node_val` -/
  vals : List ℚ
  /-- leave-one-out errors for the local and the global model, `none` if they cannot be computed -/
  errLocal : RbfSel → Option ℕ
  errGlobal : RbfSel → Option ℕ
  /-- the linear solver raises LinAlgError -/
  fails : Bool

/-- `l_settings` as created in the constructor: rbfopt_settings.py:655-660 in
`set_auto_parameters`, rbfopt_algorithm.py:333-336. -/
def autoVol0 (c : AutoCfg) : AutoVol :=
  { rbf := ⟨c.rbf.getD .thinPlateSpline, c.shape⟩
    scaling := c.scaling.getD .off
    algorithm := c.algorithm }

/-- rbfopt_algorithm.py:338-342. -/
def autoInit (c : AutoCfg) : AutoState :=
  { vol := autoVol0 c
    bestLocal := (autoVol0 c).rbf
    bestGlobal := (autoVol0 c).rbf
    localList := []
    globalList := [] }

/-- rbfopt_algorithm.py:885-893, 1565-1573: automatic function scaling. An empty `node_val`, where
the code raises IndexError, gives `off` here. -/
def autoScaling (c : AutoCfg) (i : AutoIn) (old : FunScaling) : FunScaling :=
  if c.scaling = none ∧ i.step ≤ c.firstStep then
    let sorted := i.vals.insertionSort (· ≤ ·)
    if sorted.getD (sorted.length / 2) 0 - sorted.getD 0 0 > c.threshold then .log else .off
  else old

/-- rbfopt_algorithm.py:895-897, 1575-1577. -/
def autoAlgorithm (c : AutoCfg) (i : AutoIn) (old : Algo) : Algo :=
  if c.algorithm = .gutmann then (if i.k ≤ c.n then .msrsm else .gutmann) else old

/-- rbfopt_algorithm.py:932-936, 937-941: `get_most_common_element(list, ['failed'])`, or
`('cubic', 0.1)`. -/
def frequentModel (l : List (Option RbfSel)) : RbfSel :=
  match mostCommonElement l [none] with
  | some (some m) => m
  | _ => ⟨.cubic, 1/10⟩

/-- rbfopt_algorithm.py:909-941, 1590-1620: cross validation. `get_best_rbf_model` may leave
`l_settings` at another model; the second call starts from there. -/
def autoSelect (c : AutoCfg) (i : AutoIn) (s : AutoState) : AutoState :=
  if c.rbf = none ∧ i.k > c.n + 2 ∧ i.step ≤ c.firstStep ∧ s.localList.length < c.maxCV then
    let r1 := bestRbfModel i.errLocal s.vol.rbf
    let r2 := bestRbfModel i.errGlobal r1.2
    let ll := s.localList ++ [some r1.1]
    let gl := s.globalList ++ [some r2.1]
    let s' : AutoState :=
      { vol := { s.vol with rbf := r2.2 }, bestLocal := r1.1, bestGlobal := r2.1, localList := ll,
        globalList := gl }
    if ll.length = c.maxCV then
      { s' with bestLocal := frequentModel ll, bestGlobal := frequentModel gl }
    else s'
  else s

/-- rbfopt_algorithm.py:943-951, 1622-1630: local or global model. -/
def autoUse (c : AutoCfg) (i : AutoIn) (s : AutoState) : AutoState :=
  { s with vol := { s.vol with rbf := if c.localStep - 1 ≤ i.step then s.bestLocal else s.bestGlobal } }

/-- rbfopt_algorithm.py:885-951, 1565-1630: everything before the matrices are computed. -/
def autoChoose (c : AutoCfg) (i : AutoIn) (s : AutoState) : AutoState :=
  autoUse c i (autoSelect c i
    { s with vol := { s.vol with scaling := autoScaling c i s.vol.scaling
                                 algorithm := autoAlgorithm c i s.vol.algorithm } })

/-- `l[-1] = 'failed'`. -/
def markFailed (l : List (Option RbfSel)) : List (Option RbfSel) := l.dropLast ++ [none]

/-- rbfopt_algorithm.py:978-984: LinAlgError in the serial loop. -/
def autoFail (c : AutoCfg) (i : AutoIn) (s : AutoState) : AutoState :=
  if c.localStep - 1 ≤ i.step ∧ s.localList ≠ [] then { s with localList := markFailed s.localList }
  else if s.globalList ≠ [] then { s with globalList := markFailed s.globalList }
  else s

/-- One pass of the serial loop, rbfopt_algorithm.py:885-984. A model is only built when
`current_step <= local_search_step` (953). -/
def autoSerial (c : AutoCfg) (i : AutoIn) (s : AutoState) : AutoState :=
  if i.fails = true ∧ i.step ≤ c.localStep then autoFail c i (autoChoose c i s) else autoChoose c i s

/-- One pass of the parallel loop, rbfopt_algorithm.py:1563-1667; `retry` says that LinAlgError leads
to another attempt with `solve_underdetermined` (1658-1661). `none` is the IndexError of
`[][-1] = …`. -/
def autoParallel (c : AutoCfg) (retry : Bool) (i : AutoIn) (s : AutoState) : Option AutoState :=
  let s' := autoChoose c i s
  if i.fails = true ∧ retry = false then
    if c.localStep - 1 ≤ i.step then
      if s'.localList = [] then none else some { s' with localList := markFailed s'.localList }
    else if s'.globalList = [] then none else some { s' with globalList := markFailed s'.globalList }
  else some s'

/-- What can happen to the object: a pass of either loop, or the beginning of a call that runs in
parallel, where the local variable `l_settings` is again `self.l_settings` (rbfopt_algorithm.py:1217).
The parallel loop works on copies (1563), so `self.l_settings` keeps its initial values; the serial
loop changes `self.l_settings` itself (835). -/
inductive AutoEvent
  | serialPass (i : AutoIn)
  | parallelPass (retry : Bool) (i : AutoIn)
  | parallelCall

/-- One event. -/
def autoEvent (c : AutoCfg) (s : AutoState) : AutoEvent → Option AutoState
  | .serialPass i => some (autoSerial c i s)
  | .parallelPass r i => autoParallel c r i s
  | .parallelCall => some { s with vol := autoVol0 c }

/-- A history; `none` after an exception. -/
def autoRun (c : AutoCfg) (s : AutoState) : List AutoEvent → Option AutoState
  | [] => some s
  | e :: es => (autoEvent c s e).bind (fun s' => autoRun c s' es)

end Rbfopt
