import Verif.Model.Settings

/-!
# Command line options

rbfopt_cl_interface.py:30-115 `register_options`, 140-155 (from the parsed arguments to the settings), 202-238
`main`; rbfopt_test_interface.py:31-75, 78-104, 107-160 (the same options and the same conversion).

The command line is given as a list of pairs of a long option (without `--`) and its argument; the tokenizing
of argparse, its short options, `--help` and the positional argument are not modelled.
-/

namespace Rbfopt

/-- Conversion functions passed to `add_argument` (rbfopt_cl_interface.py:62-69). -/
inductive ArgType | float | int | bool | str
  deriving DecidableEq, Repr

/-- Result of a conversion function: a value; `TypeError` or `ValueError`, which argparse turns into a usage
message and `SystemExit`; or another exception (`ast.literal_eval` may raise `SyntaxError`), which is not
caught. -/
inductive ConvRes
  | ok (v : SVal) | refused | raised (e : PyErr)

/-- Python's `float`, `int` and `ast.literal_eval` on strings.  Simplification: values are those of `SVal`. -/
structure ArgConv where
  float : String → ConvRes
  int : String → ConvRes
  literal : String → ConvRes

/-- The conversion for a declared type. -/
def ArgConv.apply (c : ArgConv) : ArgType → String → ConvRes
  | .float, w => c.float w
  | .int, w => c.int w
  | .bool, w => c.literal w
  | .str, w => .ok (.str w)

/-- rbfopt_cl_interface.py:49-57: names and types found in the docstring of `RbfoptSettings`
(rbfopt_settings.py:31-346), in its order.  The parsing of the docstring itself is not modelled; the table is
its result. -/
def docstringOptions : List (String × ArgType) :=
  [("max_iterations", .int), ("max_evaluations", .int), ("max_noisy_evaluations", .int),
   ("max_cycles", .int), ("max_clock_time", .float), ("algorithm", .str),
   ("num_cpus", .int), ("parallel_wakeup_time", .float), ("rbf", .str),
   ("rbf_shape_parameter", .float), ("target_objval", .float), ("eps_opt", .float),
   ("eps_zero", .float), ("eps_impr", .float), ("eps_linear_dependence", .float),
   ("min_dist", .float), ("do_infstep", .bool), ("do_local_search", .bool),
   ("num_global_searches", .int), ("init_strategy", .str), ("init_include_midpoint", .bool),
   ("init_sample_fraction", .float), ("init_sample_increase_parallel", .float), ("max_random_init", .int),
   ("function_scaling", .str), ("log_scaling_threshold", .float), ("domain_scaling", .str),
   ("dynamism_clipping", .str), ("dynamism_threshold", .float), ("local_search_threshold", .float),
   ("local_search_box_scaling", .float), ("max_stalled_iterations", .int), ("discarded_window_size", .int),
   ("max_fraction_discarded", .float), ("max_consecutive_restoration", .int), ("max_cross_validations", .int),
   ("max_noisy_restarts", .int), ("max_noisy_iterations", .int), ("targetval_clipping", .bool),
   ("global_search_method", .str), ("ga_base_population_size", .int), ("ga_num_generations", .int),
   ("num_samples_aux_problems", .int), ("modified_msrsm_score", .bool), ("max_consecutive_refinement", .int),
   ("thresh_unlimited_refinement", .float), ("thresh_unlimited_refinement_stalled", .float),
   ("refinement_frequency", .int), ("ref_num_integer_candidates", .int),
   ("ref_acceptable_decrease_shrink", .float), ("ref_acceptable_decrease_enlarge", .float),
   ("ref_acceptable_decrease_move", .float), ("ref_min_radius", .float), ("ref_init_radius_multiplier", .float),
   ("ref_min_grad_norm", .float), ("save_state_interval", .int), ("save_state_file", .str),
   ("print_solver_output", .bool), ("minlp_solver_path", .str), ("nlp_solver_path", .str),
   ("debug", .bool), ("rand_seed", .int)]

/-- A registered option: its name, where the value is stored (`dest`), its conversion. -/
structure CliOption where
  flag : String
  dest : String
  ty : ArgType
  deriving DecidableEq

/-- rbfopt_cl_interface.py:86-114: the options of the interface itself. -/
def execOptions : List CliOption :=
  [⟨"load", "load_state", .str⟩, ⟨"log", "output_stream", .str⟩, ⟨"pause", "pause", .int⟩,
   ⟨"points_from_file", "points_file", .str⟩, ⟨"print_solution", "print_solution", .bool⟩,
   ⟨"save", "dump_state", .str⟩]

/-- All registered options (rbfopt_cl_interface.py:61-114). -/
def cliOptions : List CliOption := docstringOptions.map (fun e => ⟨e.1, e.1, e.2⟩) ++ execOptions

/-- argparse: an option that is registered is itself; otherwise it must be an abbreviation of exactly one
registered option. -/
def resolveOption (given : String) : Option CliOption :=
  match cliOptions.find? (fun o => o.flag == given) with
  | some o => some o
  | none =>
    match cliOptions.filter (fun o => given.toList.isPrefixOf o.flag.toList) with
    | [o] => some o
    | _ => none

/-- The dictionary `vars(args)`: `none` is Python's `None`. -/
abbrev CliDict := String → Option SVal

/-- rbfopt_cl_interface.py:70-76, 86-114: default values; those of the settings are the attributes of
`RbfoptSettings()`. -/
def cliDefault : CliDict := fun dest =>
  if dest = "pause" then some (.num 9223372036854775807)
  else if dest = "print_solution" then some (.bool true)
  else if dest ∈ ["load_state", "output_stream", "points_file", "dump_state"] then none
  else settingsDefaults.lookup dest

/-- How the parsing can fail: usage message and `SystemExit`, or an exception. -/
inductive ParseErr | usage | raised (e : PyErr)
  deriving DecidableEq

/-- `parser.parse_args()` (rbfopt_cl_interface.py:214): the options in order, `action='store'`. -/
def parseOptions (c : ArgConv) : List (String × String) → CliDict → Except ParseErr CliDict
  | [], d => .ok d
  | (f, w) :: rest, d =>
    match resolveOption f with
    | none => .error .usage
    | some o =>
      match c.apply o.ty w with
      | .refused => .error .usage
      | .raised e => .error (.raised e)
      | .ok v => parseOptions c rest (Function.update d o.dest (some v))

/-- rbfopt_cl_interface.py:143-152: the keys of the dictionary that remain after the `del` statements; the
keys are the registered destinations and `black_box_file`. -/
def settingsKeys : List String :=
  (cliOptions.map CliOption.dest ++ ["black_box_file"]).filter (fun k => !(["black_box_file",
    "output_stream", "load_state", "dump_state", "points_file", "pause", "print_solution"].contains k))

/-- rbfopt_cl_interface.py:143-154: the settings made from the command line.  (`None` values do not occur
among the remaining keys; the model drops them.) -/
def cliSettings (c : ArgConv) (given : List (String × String)) : Except ParseErr Settings :=
  match parseOptions c given cliDefault with
  | .error e => .error e
  | .ok d =>
    match fromDictionary (settingsKeys.filterMap (fun k => (d k).map (fun v => (k, v)))) with
    | .error e => .error (.raised e)
    | .ok s => .ok s

end Rbfopt
