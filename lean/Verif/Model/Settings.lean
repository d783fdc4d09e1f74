import Verif.Model.Basic

/-!
# Settings

`RbfoptSettings` (rbfopt_settings.py:20-695): validation in the constructor, `from_dictionary`,
`set_auto_parameters`.
-/

namespace Rbfopt

/-- Value of a parameter.  Simplification: numbers (int or float) are rationals, `nan` and values
of other types are not modelled. -/
inductive SVal
  | num (q : ℚ) | str (s : String) | bool (b : Bool)
  deriving DecidableEq, Repr

/-- Parameters of the constructor with their default values (rbfopt_settings.py:425-487). -/
def settingsDefaults : List (String × SVal) :=
  [("max_iterations", .num (1000)),
   ("max_evaluations", .num (300)),
   ("max_noisy_evaluations", .num (200)),
   ("max_cycles", .num (1000)),
   ("max_clock_time", .num (1000000000000000000000000000000)),
   ("num_cpus", .num (1)),
   ("parallel_wakeup_time", .num (1 / 10)),
   ("algorithm", .str "MSRSM"),
   ("rbf", .str "auto"),
   ("rbf_shape_parameter", .num (1 / 10)),
   ("target_objval", .num (-10000000000)),
   ("eps_opt", .num (1 / 100)),
   ("eps_zero", .num (1 / 1000000000000000)),
   ("eps_impr", .num (1 / 10000)),
   ("eps_linear_dependence", .num (1 / 1000000)),
   ("min_dist", .num (1 / 100000)),
   ("do_infstep", .bool false),
   ("do_local_search", .bool true),
   ("num_global_searches", .num (5)),
   ("init_strategy", .str "lhd_maximin"),
   ("init_include_midpoint", .bool true),
   ("init_sample_fraction", .num (-1)),
   ("init_sample_increase_parallel", .num (1 / 20)),
   ("max_random_init", .num (50)),
   ("function_scaling", .str "auto"),
   ("log_scaling_threshold", .num (1000000)),
   ("domain_scaling", .str "auto"),
   ("dynamism_clipping", .str "auto"),
   ("dynamism_threshold", .num (1000)),
   ("local_search_threshold", .num (1 / 4)),
   ("local_search_box_scaling", .num (1 / 2)),
   ("max_stalled_iterations", .num (100)),
   ("discarded_window_size", .num (30)),
   ("max_fraction_discarded", .num (1 / 2)),
   ("max_consecutive_restoration", .num (15)),
   ("max_cross_validations", .num (50)),
   ("max_noisy_restarts", .num (2)),
   ("max_noisy_iterations", .num (200)),
   ("targetval_clipping", .bool true),
   ("global_search_method", .str "genetic"),
   ("ga_base_population_size", .num (400)),
   ("ga_num_generations", .num (20)),
   ("num_samples_aux_problems", .num (1000)),
   ("modified_msrsm_score", .bool true),
   ("max_consecutive_refinement", .num (5)),
   ("thresh_unlimited_refinement", .num (9 / 10)),
   ("thresh_unlimited_refinement_stalled", .num (9 / 10)),
   ("refinement_frequency", .num (3)),
   ("ref_num_integer_candidates", .num (10)),
   ("ref_acceptable_decrease_shrink", .num (1 / 5)),
   ("ref_acceptable_decrease_enlarge", .num (3 / 5)),
   ("ref_acceptable_decrease_move", .num (1 / 10)),
   ("ref_min_radius", .num (1 / 1000)),
   ("ref_init_radius_multiplier", .num (2)),
   ("ref_min_grad_norm", .num (1 / 100)),
   ("print_solver_output", .bool false),
   ("save_state_interval", .num (100000)),
   ("save_state_file", .str "rbfopt_algorithm_state.dat"),
   ("minlp_solver_path", .str "bonmin"),
   ("nlp_solver_path", .str "ipopt"),
   ("debug", .bool false),
   ("rand_seed", .num (937627691))]

/-- The seven multiple-choice parameters with the allowed values
(rbfopt_settings.py:368-378), in the order in which they are tested (551-575). -/
def settingsChoices : List (String × List String) :=
  [("rbf", ["auto", "cubic", "thin_plate_spline", "linear", "multiquadric", "gaussian"]),
   ("init_strategy", ["all_corners", "lower_corners", "rand_corners", "lhd_maximin", "lhd_corr"]),
   ("function_scaling", ["off", "affine", "log", "auto"]),
   ("domain_scaling", ["off", "affine", "auto"]),
   ("dynamism_clipping", ["off", "median", "clip_at_dyn", "auto"]),
   ("algorithm", ["Gutmann", "MSRSM"]),
   ("global_search_method", ["genetic", "sampling", "solver"])]

/-- `_nonnegative_parameters` (rbfopt_settings.py:380-423). -/
def settingsNonneg : List String :=
  ["max_iterations", "max_evaluations", "max_noisy_evaluations", "max_cycles",
   "max_clock_time", "parallel_wakeup_time", "eps_opt", "eps_zero", "eps_impr",
   "eps_linear_dependence", "min_dist", "num_global_searches", "init_sample_increase_parallel",
   "max_random_init", "log_scaling_threshold", "dynamism_threshold", "local_search_threshold",
   "local_search_box_scaling", "max_stalled_iterations", "discarded_window_size",
   "max_fraction_discarded", "max_consecutive_restoration", "max_cross_validations",
   "max_noisy_restarts", "max_noisy_iterations", "ga_base_population_size",
   "ga_num_generations", "num_samples_aux_problems", "max_consecutive_refinement",
   "thresh_unlimited_refinement", "thresh_unlimited_refinement_stalled",
   "refinement_frequency", "ref_num_integer_candidates", "ref_acceptable_decrease_shrink",
   "ref_acceptable_decrease_enlarge", "ref_acceptable_decrease_move", "ref_min_radius",
   "ref_init_radius_multiplier", "ref_min_grad_norm", "save_state_interval"]

/-- A settings object: `vars(self)`. -/
abbrev Settings := String → SVal

/-- Python's binding of `**args` to the parameters (rbfopt_settings.py:425-487, 488-549). -/
def settingsFill (args : List (String × SVal)) : Settings := fun name =>
  match args.lookup name with
  | some v => v
  | none => (settingsDefaults.lookup name).getD (.bool false)

/-- `value not in _allowed` (rbfopt_settings.py:551-575): a number or boolean is in no set of
strings. -/
def choiceOk (allowed : List String) : SVal → Bool
  | .str s => allowed.contains s
  | _ => false

/-- `attrs[param] < 0` (rbfopt_settings.py:578): comparing a string with 0 is a `TypeError`. -/
def isNegative : SVal → Except PyErr Bool
  | .num q => .ok (decide (q < 0))
  | .bool _ => .ok false
  | .str _ => .error .typeError

/-- rbfopt_settings.py:577-580. -/
def checkNonneg (s : Settings) : List String → Except PyErr Unit
  | [] => .ok ()
  | p :: ps =>
    match isNegative (s p) with
    | .error e => .error e
    | .ok true => .error .valueError
    | .ok false => checkNonneg s ps

/-- The constructor (rbfopt_settings.py:425-580).  An unknown keyword is a `TypeError`. -/
def settingsNew (args : List (String × SVal)) : Except PyErr Settings :=
  if args.all (fun a => (settingsDefaults.lookup a.1).isSome) then
    let s := settingsFill args
    if settingsChoices.all (fun c => choiceOk c.2 (s c.1)) then
      match checkNonneg s settingsNonneg with
      | .error e => .error e
      | .ok () => .ok s
    else .error .valueError
  else .error .typeError

/-- rbfopt_settings.py:583-616 `from_dictionary`. -/
def fromDictionary (args : List (String × SVal)) : Except PyErr Settings :=
  if args.all (fun a => (settingsDefaults.lookup a.1).isSome) then settingsNew args
  else .error .valueError

/-- Objects of class `RbfoptSettings` in memory, by address. -/
abbrev Heap := List Settings

/-- Reading an attribute of the object at address `a`. -/
def Heap.get (h : Heap) (a : ℕ) (name : String) : SVal := (h.getD a (fun _ => .bool false)) name

/-- Assigning an attribute of the object at address `a`. -/
def Heap.write (h : Heap) (a : ℕ) (name : String) (v : SVal) : Heap :=
  h.set a (Function.update (h.getD a (fun _ => .bool false)) name v)

/-- rbfopt_settings.py:669-681: value given to `domain_scaling` when it is `'auto'`:
`size = var_upper - var_lower; size.sort()`, then `size[-1] >= 5*size[0]`. -/
def autoDomainScaling (lower upper : Pt) (ints : List ℕ) : Except PyErr SVal :=
  if ints ≠ [] then .ok (.str "off")
  else
    let size := (List.zipWith (fun u l => u - l) upper lower).mergeSort (fun a b => decide (a ≤ b))
    match size.getLast?, size.head? with
    | some big, some small => .ok (.str (if big ≥ 5 * small then "affine" else "off"))
    | _, _ => .error .indexError

/-- rbfopt_settings.py:682-692: value given to `init_sample_fraction` when it is negative. -/
def autoSampleFraction (numCpus : SVal) (dim : ℕ) : Except PyErr ℚ :=
  match numCpus with
  | .str _ => .error .typeError
  | .bool _ => .ok (if dim ≤ 20 then 1/2 else 2/5)
  | .num c =>
    .ok (if c ≤ 2 then (if dim ≤ 20 then 1/2 else 2/5)
         else if dim ≤ 20 then 1 else if dim ≤ 50 then 3/4 else 1/2)

/-- rbfopt_settings.py:655-667: the three parameters whose automatic value does not depend on the
problem. -/
def setAutoSimple (h : Heap) (c : ℕ) : Heap :=
  let h := if h.get c "rbf" = .str "auto" then h.write c "rbf" (.str "thin_plate_spline") else h
  let h := if h.get c "function_scaling" = .str "auto" then
    h.write c "function_scaling" (.str "off") else h
  if h.get c "dynamism_clipping" = .str "auto" then
    h.write c "dynamism_clipping" (.str "median") else h

/-- rbfopt_settings.py:669-681. -/
def setAutoDomain (h : Heap) (c : ℕ) (lower upper : Pt) (ints : List ℕ) : Except PyErr Heap :=
  if h.get c "domain_scaling" = .str "auto" then
    match autoDomainScaling lower upper ints with
    | .error e => .error e
    | .ok v => .ok (h.write c "domain_scaling" v)
  else .ok h

/-- rbfopt_settings.py:682-692. -/
def setAutoFraction (h : Heap) (c : ℕ) (dim : ℕ) : Except PyErr Heap :=
  match isNegative (h.get c "init_sample_fraction") with
  | .error e => .error e
  | .ok false => .ok h
  | .ok true =>
    match autoSampleFraction (h.get c "num_cpus") dim with
    | .error e => .error e
    | .ok f => .ok (h.write c "init_sample_fraction" (.num f))

/-- rbfopt_settings.py:618-694 `set_auto_parameters` of the object at address `a`: `copy.deepcopy`
makes a new object, whose attributes are then assigned.  Returns the memory and the address of
the new object. -/
def setAutoParameters (h : Heap) (a : ℕ) (dim : ℕ) (lower upper : Pt) (ints : List ℕ) :
    Except PyErr (Heap × ℕ) :=
  if dim = lower.length ∧ dim = upper.length ∧ (∀ i ∈ ints, i < dim) then
    let c := h.length
    let h := h ++ [h.getD a (fun _ => .bool false)]
    match setAutoDomain (setAutoSimple h c) c lower upper ints with
    | .error e => .error e
    | .ok h =>
      match setAutoFraction h c dim with
      | .error e => .error e
      | .ok h => .ok (h, c)
  else .error .assertionError

end Rbfopt
