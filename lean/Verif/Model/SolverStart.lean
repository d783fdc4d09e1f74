import Verif.Model.Pyomo

/-!
# What is handed to the mathematical programming solvers besides the models: starting points and options

Random numbers come from a stream: the state is the part not yet used.  `np.random.uniform` consumes one
number `u` in `[0, 1)` and returns `low + (high - low) * u`; `np.random.randint(m)` consumes one number and
returns a natural number below `m` (`⌊m * u⌋`; numpy's bit-level method differs, the range is the same).
-/

namespace Rbfopt

open Finset

/-- Numbers in `[0, 1)` still to be drawn. -/
abbrev Draws := ℕ → ℝ

/-- rbfopt_aux_problems.py:529-561 `initialize_instance_variables`: the values of `x` and the remaining
random numbers.  `lo`, `up` are the parameters `var_lower`, `var_upper` of the instance; the length of
`start_point` is checked by an assertion. -/
def initInstance (n : ℕ) (lo up : ℕ → ℝ) (start : Option (ℕ × (ℕ → ℝ))) (r : Draws) :
    Except PyErr ((ℕ → ℝ) × Draws) :=
  match start with
  | some (len, p) => if n = len then .ok (p, r) else .error .assertionError
  | none => .ok (fun i => lo i + (up i - lo i) * r i, fun i => r (n + i))

/-- rbfopt_aux_problems.py:563-584 `initialize_msrsm_aux_variables`: the value given to `mindistsq`, the
minimum over the nodes of the squared distance (`min` of an empty sequence raises `ValueError`). -/
noncomputable def initMinDistSq (n k : ℕ) (nodes : ℕ → ℕ → ℝ) (x : ℕ → ℝ) : Except PyErr ℝ :=
  if h : 0 < k then
    .ok ((range k).inf' (nonempty_range_iff.mpr h.ne') (fun i => ∑ j ∈ range n, (x j - nodes i j) ^ 2))
  else .error .valueError

/-- Values of solver options. -/
inductive OptVal | int (i : ℕ) | real (q : ℚ) | str (s : String)
  deriving DecidableEq

/-- `solver.options[name] = value` on the dictionary of options. -/
def setOpt (o : String → Option OptVal) (name : String) (v : OptVal) : String → Option OptVal :=
  fun s => if s = name then some v else o s

/-- rbfopt_aux_problems.py:891-899. -/
def minlpOptions : List (String × OptVal) :=
  [("bonmin.num_resolve_at_root", .int 10), ("bonmin.num_retry_unsolved_random_point", .int 5),
   ("bonmin.num_resolve_at_infeasibles", .int 5), ("bonmin.algorithm", .str "B-BB"),
   ("bonmin.time_limit", .int 45), ("acceptable_tol", .real (1 / 1000)), ("max_cpu_time", .int 20),
   ("max_iter", .int 1000), ("bound_relax_factor", .real 0)]

/-- rbfopt_aux_problems.py:922-926. -/
def nlpOptions : List (String × OptVal) :=
  [("acceptable_tol", .real (1 / 1000)), ("honor_original_bounds", .str "yes"), ("max_cpu_time", .int 20),
   ("max_iter", .int 1000), ("bound_relax_factor", .real 0)]

/-- rbfopt_aux_problems.py:881-908 `set_minlp_solver_options`. -/
noncomputable def setMinlpOptions (o : String → Option OptVal) (r : Draws) :
    (String → Option OptVal) × Draws :=
  (setOpt (minlpOptions.foldl (fun o p => setOpt o p.1 p.2) o) "bonmin.random_generator_seed"
    (.int ⌊((2 : ℝ) ^ 31 - 2) * r 0⌋₊), fun i => r (i + 1))

/-- rbfopt_aux_problems.py:911-935 `set_nlp_solver_options` (there is no option for the seed). -/
def setNlpOptions (o : String → Option OptVal) (r : Draws) : (String → Option OptVal) × Draws :=
  (nlpOptions.foldl (fun o p => setOpt o p.1 p.2) o, r)

/-- The start handed to the solver by the global search of MSRSM (rbfopt_aux_problems.py:491-492). -/
noncomputable def msrsmStart (n k : ℕ) (lo up : ℕ → ℝ) (nodes : ℕ → ℕ → ℝ) (r : Draws) :
    Except PyErr (((ℕ → ℝ) × ℝ) × Draws) :=
  match initInstance n lo up none r with
  | .error e => .error e
  | .ok (x, r) =>
    match initMinDistSq n k nodes x with
    | .error e => .error e
    | .ok m => .ok ((x, m), r)

end Rbfopt
