import Verif.Model.Basic

/-!
# Choosing a node to re-evaluate

rbfopt_aux_problems.py:718-803 `get_min_bump_node` and the end of `local_step`,
rbfopt_algorithm.py:2607-2637.
-/

namespace Rbfopt

/-- One row of `node_err_bounds`: (lower deviation, upper deviation). -/
abbrev ErrRow := ℚ × ℚ

/-- rbfopt_aux_problems.py:770-775 `nodes_to_process`, condition on one node.  The second bound test
in the code repeats the first one. -/
def bumpEligible (epsZero target : ℚ) (val : ℚ) (err : ErrRow) : Bool :=
  decide (err.2 - err.1 > epsZero) && decide (val + err.1 ≤ target) && decide (val + err.1 ≤ target)

/-- `nodes_to_process` (rbfopt_aux_problems.py:770-775). -/
def bumpNodes (epsZero target : ℚ) (vals : List ℚ) (errs : List ErrRow) : List ℕ :=
  (List.range vals.length).filter
    (fun i => bumpEligible epsZero target (vals.getD i 0) (errs.getD i (0, 0)))

/-- State of the loop: the two arrays, which are modified in place, and the best node so far. -/
structure BumpState where
  vals : List ℚ
  errs : List ErrRow
  index : Option ℕ
  bump : EVal
  deriving DecidableEq

/-- One pass of the loop (rbfopt_aux_problems.py:777-801).  `bump vals errs` is the bumpiness
`lambda^T Phi lambda` of the noisy interpolant (a solver result, arbitrary).

`orig_node_err_bounds = node_err_bounds[i]` is a numpy *view* of the row, so that restoring it reads
the row as it is after it was set to zero; `node_val[i]` is a scalar and is copied. -/
def bumpStep (bump : List ℚ → List ErrRow → ℚ) (target : ℚ) (s : BumpState) (i : ℕ) : BumpState :=
  let origVal := s.vals.getD i 0
  let vals1 := s.vals.set i target
  let errs1 := s.errs.set i (0, 0)
  let b := bump vals1 errs1
  let vals2 := vals1.set i origVal
  let view := errs1.getD i (0, 0)
  let errs2 := errs1.set i view
  if (b : EVal) < s.bump then ⟨vals2, errs2, some i, b⟩ else ⟨vals2, errs2, s.index, s.bump⟩

/-- rbfopt_aux_problems.py:718-803 `get_min_bump_node`: the selected node and its bumpiness, and the
arrays as they are left. -/
def minBumpNode (bump : List ℚ → List ErrRow → ℚ) (epsZero target : ℚ) (vals : List ℚ)
    (errs : List ErrRow) : BumpState :=
  (bumpNodes epsZero target vals errs).foldl (bumpStep bump target) ⟨vals, errs, none, ⊤⟩

/-- rbfopt_algorithm.py:2607-2635: the node to re-evaluate instead of the proposed point, in two-phase
optimization and accurate mode.  `ind`, `bump` come from `get_min_bump_node`, `next` says whether a
point was proposed, `dists` are its distances from the nodes, `nBump` is the result of
`get_bump_new_node`, `noisy` the flags.  Note that `ind` is overwritten by the closest node. -/
def reevaluationChoice (minDist : ℚ) (ind : Option ℕ) (bump : EVal) (next : Bool) (dists : List ℚ)
    (nBump : ℚ) (noisy : List Bool) : Option ℕ :=
  if ind.isSome && next then
    match argminVal dists with
    | none => none
    | some (d, closest) =>
      let better : Bool :=
        if d > minDist then decide (((nBump : ℚ) : EVal) > bump)
        else noisy.getD closest false && decide (bump ≠ ⊤)
      if better then some closest else none
  else none

/-- What `self.node_err_bounds` contains after the call of `get_min_bump_node()` by `local_step()`
(rbfopt_algorithm.py:2607-2610).  With `function_scaling = 'off'`, `transform_function_values()`
returns the array itself (rbfopt_utils.py:1712-1714), so the loop writes into the records of the
object; the other scalings build a new array (`scaled`, rbfopt_utils.py:1715-1738). -/
def errBoundsAfterLocalStep (scalingOff : Bool) (bump : List ℚ → List ErrRow → ℚ)
    (epsZero target : ℚ) (vals : List ℚ) (errs scaled : List ErrRow) : List ErrRow :=
  if scalingOff then (minBumpNode bump epsZero target vals errs).errs
  else
    let _ := minBumpNode bump epsZero target vals scaled
    errs

end Rbfopt
