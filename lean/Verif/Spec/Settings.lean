import Verif.Model.Settings

/-!
# Specification of the settings: documented parameters and their ranges

Restated from the docstring of `RbfoptSettings` (rbfopt_settings.py:31-346).
-/

namespace Rbfopt

/-- Kind of a parameter. -/
inductive PKind
  /-- one of the listed words -/
  | choice (words : List String)
  /-- a nonnegative number (booleans count as numbers in Python) -/
  | nonneg
  /-- not restricted -/
  | any

/-- Is the value allowed for the kind? -/
def PKind.Allows : PKind → SVal → Prop
  | .choice ws, v => ∃ w ∈ ws, v = .str w
  | .nonneg, v => (∃ q : ℚ, 0 ≤ q ∧ v = .num q) ∨ (∃ b, v = .bool b)
  | .any, _ => True

/-- The documented parameters, in the order of the documentation. -/
def documentedParams : List (String × PKind) :=
  [("max_iterations", .nonneg),
   ("max_evaluations", .nonneg),
   ("max_noisy_evaluations", .nonneg),
   ("max_cycles", .nonneg),
   ("max_clock_time", .nonneg),
   ("algorithm", .choice ["Gutmann", "MSRSM"]),
   ("num_cpus", .any),
   ("parallel_wakeup_time", .nonneg),
   ("rbf", .choice ["cubic", "thin_plate_spline", "linear", "multiquadric", "gaussian", "auto"]),
   ("rbf_shape_parameter", .any),
   ("target_objval", .any),
   ("eps_opt", .nonneg),
   ("eps_zero", .nonneg),
   ("eps_impr", .nonneg),
   ("eps_linear_dependence", .nonneg),
   ("min_dist", .nonneg),
   ("do_infstep", .any),
   ("do_local_search", .any),
   ("num_global_searches", .nonneg),
   ("init_strategy", .choice ["all_corners", "lower_corners", "rand_corners", "lhd_maximin", "lhd_corr"]),
   ("init_include_midpoint", .any),
   ("init_sample_fraction", .any),
   ("init_sample_increase_parallel", .nonneg),
   ("max_random_init", .nonneg),
   ("function_scaling", .choice ["off", "affine", "log", "auto"]),
   ("log_scaling_threshold", .nonneg),
   ("domain_scaling", .choice ["off", "affine", "auto"]),
   ("dynamism_clipping", .choice ["off", "median", "clip_at_dyn", "auto"]),
   ("dynamism_threshold", .nonneg),
   ("local_search_threshold", .nonneg),
   ("local_search_box_scaling", .nonneg),
   ("max_stalled_iterations", .nonneg),
   ("discarded_window_size", .nonneg),
   ("max_fraction_discarded", .nonneg),
   ("max_consecutive_restoration", .nonneg),
   ("max_cross_validations", .nonneg),
   ("max_noisy_restarts", .nonneg),
   ("max_noisy_iterations", .nonneg),
   ("targetval_clipping", .any),
   ("global_search_method", .choice ["genetic", "sampling", "solver"]),
   ("ga_base_population_size", .nonneg),
   ("ga_num_generations", .nonneg),
   ("num_samples_aux_problems", .nonneg),
   ("modified_msrsm_score", .any),
   ("max_consecutive_refinement", .nonneg),
   ("thresh_unlimited_refinement", .nonneg),
   ("thresh_unlimited_refinement_stalled", .nonneg),
   ("refinement_frequency", .nonneg),
   ("ref_num_integer_candidates", .nonneg),
   ("ref_acceptable_decrease_shrink", .nonneg),
   ("ref_acceptable_decrease_enlarge", .nonneg),
   ("ref_acceptable_decrease_move", .nonneg),
   ("ref_min_radius", .nonneg),
   ("ref_init_radius_multiplier", .nonneg),
   ("ref_min_grad_norm", .nonneg),
   ("save_state_interval", .nonneg),
   ("save_state_file", .any),
   ("print_solver_output", .any),
   ("minlp_solver_path", .any),
   ("nlp_solver_path", .any),
   ("debug", .any),
   ("rand_seed", .any)]

/-- The value a user assigned to a parameter, or else its default value. -/
def SettingsValue (args : List (String × SVal)) (name : String) (v : SVal) : Prop :=
  args.lookup name = some v ∨ (args.lookup name = none ∧ settingsDefaults.lookup name = some v)

/-- No parameter is left for automatic determination. -/
def NoAuto (s : Settings) : Prop :=
  s "rbf" ≠ .str "auto" ∧ s "function_scaling" ≠ .str "auto" ∧
  s "dynamism_clipping" ≠ .str "auto" ∧ s "domain_scaling" ≠ .str "auto" ∧
  ∀ q : ℚ, s "init_sample_fraction" = .num q → 0 ≤ q

/-- Some variable has a domain at least five times as large as another. -/
def BadlyScaled (lower upper : Pt) : Prop :=
  ∃ (i j : ℕ) (li ui lj uj : ℚ), lower[i]? = some li ∧ upper[i]? = some ui ∧ lower[j]? = some lj ∧
    upper[j]? = some uj ∧ ui - li ≥ 5 * (uj - lj)

end Rbfopt
