import Mathlib.Analysis.SpecialFunctions.Log.Basic
import Mathlib.Data.List.Sort
import Verif.Model.Basic

/-!
# Function value scaling

rbfopt_utils.py:1644-1740 `transform_function_values`, over the real numbers (the logarithm is not
rational).  A result `none` of `npLog` stands for numpy's `nan`/`-inf` on arguments that are not
positive.
-/

namespace Rbfopt

/-- `dynamism_clipping` (rbfopt_settings.py:377). -/
inductive Clipping | off | median | clipAtDyn
  deriving DecidableEq, Repr

/-- `function_scaling` after `set_auto_parameters` (rbfopt_settings.py:375). -/
inductive FunScaling | off | affine | log
  deriving DecidableEq, Repr

/-- The settings read by `transform_function_values`. -/
structure ScalingCfg where
  clipping : Clipping
  scaling : FunScaling
  epsZero : ℝ
  threshold : ℝ

/-- Result of `transform_function_values` (rbfopt_utils.py:1672-1680). -/
structure Tfv where
  vals : List (Option ℝ)
  fmin : Option ℝ
  fmax : Option ℝ
  errs : List (Option ℝ × Option ℝ)
  rescale : ℝ → Option ℝ

open Classical in
/-- `np.log` on one number (rbfopt_utils.py:1728-1733). -/
noncomputable def npLog (x : ℝ) : Option ℝ := if 0 < x then some (Real.log x) else none

/-- `np.median` (rbfopt_utils.py:1697): mean of the two middle elements of the sorted array (for an
odd number both are the same). -/
noncomputable def median (l : List ℝ) : ℝ :=
  ((l.insertionSort (· ≤ ·)).getD ((l.length - 1) / 2) 0 +
    (l.insertionSort (· ≤ ·)).getD (l.length / 2) 0) / 2

/-- `np.amin`; only used on nonempty arrays (rbfopt_utils.py:1719-1720). -/
noncomputable def amin : List ℝ → ℝ
  | [] => 0
  | [x] => x
  | x :: xs => min x (amin xs)

open Classical in
/-- rbfopt_utils.py:1690-1694: is the dynamism too high? -/
def dynamismHigh (C : ScalingCfg) (fmin fmax : ℝ) : Prop :=
  C.clipping ≠ .off ∧ ((|fmin| > C.epsZero ∧ |fmax| / |fmin| > C.threshold) ∨
    (|fmin| ≤ C.epsZero ∧ |fmax| > C.threshold))

open Classical in
/-- rbfopt_utils.py:1695-1709: level at which values are clipped, `none` if they are not. -/
noncomputable def clipLevel (C : ScalingCfg) (nodeVal : List ℝ) (fmin fmax : ℝ) : Option ℝ :=
  if dynamismHigh C fmin fmax then
    match C.clipping with
    | .off => none
    | .median => some (median nodeVal)
    | .clipAtDyn => some (C.threshold * (if |fmin| > C.epsZero then |fmin| else 1))
  else none

/-- `np.clip(x, None, level)`. -/
noncomputable def clipAt (level : Option ℝ) (x : ℝ) : ℝ :=
  match level with
  | none => x
  | some m => min x m

/-- rbfopt_utils.py:1699, 1707: `fmax` becomes the clipping level. -/
noncomputable def clippedFmax (level : Option ℝ) (fmax : ℝ) : ℝ :=
  match level with
  | none => fmax
  | some m => m

open Classical in
/-- rbfopt_utils.py:1717-1724: the translation used for logarithmic scaling. -/
noncomputable def logShift (C : ScalingCfg) (nodeVal : List ℝ) (errs : List (ℝ × ℝ)) : ℝ :=
  let shift := max 0 (1 - amin (List.zipWith (fun v e => v + e.1) nodeVal errs))
  if shift > 0 ∧ amin nodeVal / shift < C.epsZero then shift + 1 / C.epsZero else shift

open Classical in
/-- rbfopt_utils.py:1644-1740 `transform_function_values`. -/
noncomputable def transformFunctionValues (C : ScalingCfg) (nodeVal : List ℝ) (fmin fmax : ℝ)
    (errs : List (ℝ × ℝ)) : Tfv :=
  let level := clipLevel C nodeVal fmin fmax
  let clipVal := nodeVal.map (clipAt level)
  let fmax := clippedFmax level fmax
  match C.scaling with
  | .off =>
    { vals := clipVal.map some, fmin := some fmin, fmax := some fmax,
      errs := errs.map (fun e => (some e.1, some e.2)), rescale := some }
  | .affine =>
    let denom := if fmax - fmin > C.epsZero then fmax - fmin else 1
    { vals := clipVal.map (fun x => some ((x - fmin) / denom)), fmin := some 0,
      fmax := some (if fmax - fmin > C.epsZero then 1 else 0),
      errs := errs.map (fun e => (some (e.1 / denom), some (e.2 / denom))),
      rescale := fun x => some ((x - fmin) / denom) }
  | .log =>
    let shift := logShift C nodeVal errs
    { vals := clipVal.map (fun x => npLog (x + shift)), fmin := npLog (fmin + shift),
      fmax := npLog (fmax + shift),
      errs := List.zipWith (fun e x => (npLog ((e.1 + x + shift) / (x + shift)),
        npLog ((e.2 + x + shift) / (x + shift)))) errs clipVal,
      rescale := fun x => if x + shift > 0 then npLog (x + shift) else some x }

end Rbfopt
