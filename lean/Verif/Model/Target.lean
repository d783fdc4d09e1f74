import Mathlib.Data.List.Sort
import Verif.Model.Problem

/-!
# Target value and distance weight of a global search step

rbfopt_utils.py:1917-1992 `get_sigma_n`, `get_fmax_current_iter`; rbfopt_algorithm.py:2842-2897, the
part of `global_step` before the call of `global_search`.
-/

namespace Rbfopt

/-- rbfopt_utils.py:1917-1947 `get_sigma_n`; step 0 fails the assertion, `g = 0` divides by zero. -/
def sigmaN (k : ℕ) (g : ℕ) (nInit : ℤ) : ℕ → Except PyErr ℤ
  | 0 => .error .assertionError
  | 1 => .ok ((k : ℤ) - 1)
  | step + 2 =>
    match sigmaN k g nInit (step + 1) with
    | .error e => .error e
    | .ok r => if g = 0 then .error .zeroDivisionError
      else .ok (r - ⌊(((k : ℤ) - nInit : ℤ) : ℚ) / (g : ℚ)⌋)

/-- Indexing a 1D array with a Python integer: negative indices count from the end. -/
def pyIndex {α : Type} (l : List α) (i : ℤ) : Except PyErr α :=
  let j := if i < 0 then i + l.length else i
  if j < 0 then .error .indexError
  else match l[j.toNat]? with
    | some x => .ok x
    | none => .error .indexError

/-- rbfopt_utils.py:1952-1992 `get_fmax_current_iter`; `nInit` is `2**n` or
`round((n + 1)*settings.init_sample_fraction)` (1986-1987). -/
def fmaxCurrentIter (g : ℕ) (nInit : ℤ) (step : ℕ) (vals : List ℚ) : Except PyErr ℚ :=
  match sigmaN vals.length g nInit step with
  | .error e => .error e
  | .ok s => pyIndex (vals.insertionSort (· ≤ ·)) s

/-- What `global_step` reads. -/
structure TargetCfg where
  gutmann : Bool
  numGlobalSearches : ℕ
  targetvalClipping : Bool
  nInit : ℤ
  epsZero : ℚ
  localSearchThreshold : ℚ
  localSearchBoxScaling : ℚ

/-- rbfopt_algorithm.py:2838-2855: value and position of the model minimum; `rbfMin` is the point
found by `minimize_rbf` with its value, if any (used by Gutmann's method only). -/
def modelMin (C : TargetCfg) (rbfMin : Option (Pt × ℚ)) (best : Pt) (fmin : ℚ) : Pt × ℚ :=
  if C.gutmann then
    match rbfMin with
    | none => (best, fmin)
    | some (p, v) => if v ≥ fmin + C.epsZero then (best, fmin) else (p, v)
  else (best, fmin)

/-- rbfopt_algorithm.py:2873: `scaling`. -/
def targetScaling (C : TargetCfg) (step : ℕ) : ℚ :=
  (1 - (((step : ℚ) - 1) / C.numGlobalSearches)) ^ 2

/-- rbfopt_algorithm.py:2879-2881: `dist_weight`. -/
def distWeight (C : TargetCfg) (step : ℕ) : ℚ :=
  if step < C.numGlobalSearches then 1 - (step : ℚ) / C.numGlobalSearches else 5/100

/-- `np.maximum`/`np.minimum` of the box around `min_rbf` with the bounds, then
`round_integer_bounds` (rbfopt_algorithm.py:2885-2893). -/
def localBox (C : TargetCfg) (ints : List ℕ) (lower upper c : Pt) : Pt × Pt :=
  let lo := lower.mapIdx (fun i l => max (c.getD i 0 - C.localSearchBoxScaling * (33/100) *
    (upper.getD i 0 - l)) l)
  let hi := lower.mapIdx (fun i l => min (c.getD i 0 + C.localSearchBoxScaling * (33/100) *
    (upper.getD i 0 - l)) (upper.getD i 0))
  (roundLower lo ints, roundUpper hi ints)

/-- Inputs handed to `global_search`. -/
structure GlobalInputs where
  target : ℚ
  distWeight : ℚ
  lower : Pt
  upper : Pt

/-- rbfopt_algorithm.py:2836-2897 `global_step` up to the search; division by
`num_global_searches = 0` raises. -/
def globalInputs (C : TargetCfg) (ints : List ℕ) (lower upper : Pt) (rbfMin : Option (Pt × ℚ))
    (best : Pt) (vals : List ℚ) (fmin fmax : ℚ) (step : ℕ) : Except PyErr GlobalInputs :=
  let m := modelMin C rbfMin best fmin
  match (if C.targetvalClipping then
      fmaxCurrentIter C.numGlobalSearches C.nInit step vals else .ok fmax) with
  | .error e => .error e
  | .ok localFmax =>
    if C.numGlobalSearches = 0 then .error .zeroDivisionError
    else
      let sc := targetScaling C step
      let box := if sc ≤ C.localSearchThreshold then localBox C ints lower upper m.1
        else (lower, upper)
      .ok { target := m.2 - sc * (localFmax - m.2), distWeight := distWeight C step,
            lower := box.1, upper := box.2 }

end Rbfopt
