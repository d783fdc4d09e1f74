import Verif.Model.Rbf

/-!
# Model selection and small helpers

rbfopt_utils.py:1996-2091 `get_model_quality_estimate`, 2097-2174 `get_best_rbf_model`, 2177-2197
`get_most_common_element`, 2200-2223 `results_ready`, 2226-2251 `get_one_ready_index`.
-/

namespace Rbfopt

open Finset

/-- rbfopt_utils.py:2077-2079: `base_sol - adj*base_sol[i]/adj[i]`. -/
noncomputable def looSolution (base adj : ℕ → ℝ) (i j : ℕ) : ℝ := base j - adj j * base i / adj i

open Classical in
/-- rbfopt_utils.py:2063-2083: predicted value of node `i`; `base` and `adj i` are the solutions of
the linear systems with right-hand sides `node_val` and `e_i`. -/
noncomputable def looPrediction (t : Rbf) (g eps : ℝ) (n k : ℕ) (nodes : ℕ → ℕ → ℝ) (base : ℕ → ℝ)
    (adj : ℕ → ℕ → ℝ) (i : ℕ) : ℝ :=
  if |base i| ≤ eps then
    evaluateRbf t g n k nodes base (fun c => base (k + c)) (nodes i)
  else
    evaluateRbf t g n k nodes (looSolution base (adj i) i)
      (fun c => looSolution base (adj i) i (k + c)) (nodes i)

open Classical in
/-- `np.searchsorted(vals, x)` on a sorted array: the number of smaller entries
(rbfopt_utils.py:2086). -/
noncomputable def searchSorted (k : ℕ) (vals : ℕ → ℝ) (x : ℝ) : ℕ :=
  ((range k).filter (fun j => vals j < x)).card

/-- rbfopt_utils.py:2059-2089: the leave-one-out error, a sum of rank differences. -/
noncomputable def looError (k num : ℕ) (vals pred : ℕ → ℝ) : ℤ :=
  ∑ i ∈ range num, |(searchSorted k vals (pred i) : ℤ) - i|

/-- `settings.rbf` and `settings.rbf_shape_parameter`. -/
structure RbfSel where
  rbf : Rbf
  gamma : ℚ
  deriving DecidableEq, Repr

/-- rbfopt_utils.py:2140-2146: the models tried, in order, with the index of the RBF type. -/
def rbfCandidates : List (ℕ × RbfSel) :=
  [(0, ⟨.cubic, 1/10⟩), (1, ⟨.thinPlateSpline, 1/10⟩), (2, ⟨.multiquadric, 1/10⟩),
   (2, ⟨.multiquadric, 1⟩), (3, ⟨.linear, 1/10⟩), (4, ⟨.gaussian, 1/1000⟩), (4, ⟨.gaussian, 1/100⟩)]

/-- rbfopt_utils.py:2147-2170: the loops over the candidates; `err c` is the error of candidate `c`,
`none` an exception or warning.  Result: the selected model, and the settings at exit. -/
def bestModelLoop (err : RbfSel → Option ℕ) (orig : RbfSel) :
    List (ℕ × RbfSel) → WithTop ℕ → RbfSel → RbfSel × RbfSel
  | [], _, best => (best, orig)
  | (i, c) :: cs, bestErr, best =>
    match err c with
    | none => (if i ≥ 2 then best else orig, c)
    | some e => if (e : WithTop ℕ) < bestErr then bestModelLoop err orig cs e c
      else bestModelLoop err orig cs bestErr best

/-- rbfopt_utils.py:2097-2174 `get_best_rbf_model`: selected model and settings afterwards, for the
settings `s` before. -/
def bestRbfModel (err : RbfSel → Option ℕ) (s : RbfSel) : RbfSel × RbfSel :=
  bestModelLoop err s rbfCandidates ⊤ s

/-- Keys of a `collections.Counter`, in order of first occurrence. -/
def counterKeys {α : Type} [DecidableEq α] : List α → List α
  | [] => []
  | x :: xs => x :: (counterKeys xs).filter (· ≠ x)

/-- rbfopt_utils.py:2177-2197 `get_most_common_element`: `most_common(1)` is the first key with the
largest count. -/
def mostCommonElement {α : Type} [DecidableEq α] (array toExclude : List α) : Option α :=
  let l := array.filter (· ∉ toExclude)
  let keys := counterKeys l
  match argmaxVal (keys.map (fun x => l.count x)) with
  | none => none
  | some (_, i) => keys[i]?

/-- rbfopt_utils.py:2200-2223 `results_ready`; the list says which results are ready. -/
def resultsReady : List Bool → Bool
  | [] => false
  | b :: bs => if b then true else resultsReady bs

/-- rbfopt_utils.py:2247-2251: the loop of `get_one_ready_index` over `reversed(range(m))`. -/
def oneReadyLoop (l : List Bool) : ℕ → ℕ
  | 0 => l.length
  | i + 1 => if l.getD i false then i else oneReadyLoop l i

/-- rbfopt_utils.py:2226-2251 `get_one_ready_index`. -/
def oneReadyIndex (l : List Bool) : ℕ := oneReadyLoop l l.length

end Rbfopt
