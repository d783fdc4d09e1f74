{
 "claims": [
  {
   "property": "C01",
   "status": "proved",
   "theorems": [
    "Rbfopt.C01_values_are_answers",
    "Rbfopt.C01_parallel_returns_best_record",
    "Rbfopt.C01_parallel_returns",
    "Rbfopt.C01_returns_best_record",
    "Rbfopt.C01_returns_best_evaluation",
    "Rbfopt.C01_returned_value_is_genuine"
   ],
   "note": ""
  },
  {
   "property": "C02",
   "status": "proved",
   "theorems": [
    "Rbfopt.Demo.C02_violated_reevaluation",
    "Rbfopt.C02_parallel_tracked_best",
    "Rbfopt.C02_parallel_tracked_bounds",
    "Rbfopt.C02_parallel_tracked_best_noisy_mode",
    "Rbfopt.C02_tracked_best_single_phase",
    "Rbfopt.C02_tracked_best_noisy_mode",
    "Rbfopt.C02_tracked_bounds",
    "Rbfopt.C02_returned_is_tracked"
   ],
   "note": ""
  },
  {
   "property": "C03",
   "status": "proved",
   "theorems": [
    "Rbfopt.C03_parallel_tables_aligned",
    "Rbfopt.C03_tables_aligned"
   ],
   "note": ""
  },
  {
   "property": "C04",
   "status": "proved",
   "theorems": [
    "Rbfopt.C04_parallel_counters",
    "Rbfopt.C04_counters_exact",
    "Rbfopt.C04_counters_exact_always"
   ],
   "note": ""
  },
  {
   "property": "C05",
   "status": "proved",
   "theorems": [
    "Rbfopt.C05_parallel_accurate_genuine",
    "Rbfopt.C05_parallel_single_phase",
    "Rbfopt.C05_accurate_records_genuine",
    "Rbfopt.C05_noisy_records_genuine"
   ],
   "note": ""
  },
  {
   "property": "C06",
   "status": "proved",
   "theorems": [
    "Rbfopt.Demo.C06_parallel_example",
    "Rbfopt.Demo.C06_violated_accurate_flagged_noisy",
    "Rbfopt.Demo.C06_violated_unbound_interval",
    "Rbfopt.Demo.C06_violated_stale_interval",
    "Rbfopt.C06_parallel_intervals_genuine",
    "Rbfopt.C06_parallel",
    "Rbfopt.C06_accurate_records_have_no_error",
    "Rbfopt.C06_intervals_genuine"
   ],
   "note": ""
  },
  {
   "property": "C07",
   "status": "proved",
   "theorems": [
    "Rbfopt.Demo.C07_parallel_violated_example",
    "Rbfopt.C07_parallel_accurate_mode_is_final",
    "Rbfopt.C07_no_noisy_call_unless_declared",
    "Rbfopt.C07_accurate_mode_is_final_pass",
    "Rbfopt.C07_accurate_mode_is_final_call"
   ],
   "note": ""
  },
  {
   "property": "C08",
   "status": "proved",
   "theorems": [
    "Rbfopt.C08_iteration_limits",
    "Rbfopt.C08_iteration_limits_always"
   ],
   "note": ""
  },
  {
   "property": "C09",
   "status": "proved",
   "theorems": [
    "Rbfopt.Demo.C09_overshoot_attained",
    "Rbfopt.C09_evaluation_overshoot"
   ],
   "note": ""
  },
  {
   "property": "C10",
   "status": "proved",
   "theorems": [
    "Rbfopt.Demo.C10_violated_parallel_example",
    "Rbfopt.C10_noisy_budget",
    "Rbfopt.C10_parallel_noisy_budget"
   ],
   "note": ""
  },
  {
   "property": "C11",
   "status": "proved",
   "theorems": [
    "Rbfopt.C11_no_infinite_run",
    "Rbfopt.C11_terminates",
    "Rbfopt.C11_fuel_irrelevant"
   ],
   "note": ""
  },
  {
   "property": "C12",
   "status": "proved",
   "theorems": [
    "Rbfopt.Demo.C12_parallel_example",
    "Rbfopt.Demo.C12_parallel_returns_example",
    "Rbfopt.Demo.C12_parallel_violated_stale_gap",
    "Rbfopt.Demo.C12_parallel_two_phase_example",
    "Rbfopt.Demo.C12_violated_stale_best",
    "Rbfopt.C12_stop_reason",
    "Rbfopt.C12_parallel_stop_reason_noisy_mode",
    "Rbfopt.C12_parallel_stop_reason",
    "Rbfopt.C12_parallel_target_ends_call",
    "Rbfopt.C12_parallel_target_at_start",
    "Rbfopt.C12_parallel_stop_reason_two_phase",
    "Rbfopt.C12_stop_reason_two_phase"
   ],
   "note": ""
  },
  {
   "property": "C13",
   "status": "proved",
   "theorems": [
    "Rbfopt.Demo.C13_violated_two_phase",
    "Rbfopt.Demo.C13_violated_no_iteration",
    "Rbfopt.Demo.C13_violated_stale_gap",
    "Rbfopt.C13_pause_resume"
   ],
   "note": ""
  },
  {
   "property": "C14",
   "status": "proved",
   "theorems": [
    "Rbfopt.C14_roundtrip",
    "Rbfopt.C14_continuation",
    "Rbfopt.C14_running_object_unchanged",
    "Rbfopt.C14_violated_failed_save",
    "Rbfopt.C14_crash_recovery"
   ],
   "note": ""
  },
  {
   "property": "C15",
   "status": "proved",
   "theorems": [
    "Rbfopt.C15_crash_states",
    "Rbfopt.C15_no_corrupt_state",
    "Rbfopt.C15_violated_checkpoint_lost",
    "Rbfopt.C15_violated_no_partial_file_loads",
    "Rbfopt.C15_two_files"
   ],
   "note": ""
  },
  {
   "property": "C16",
   "status": "proved",
   "theorems": [
    "Rbfopt.Demo.C16_parallel_violated_shutdown",
    "Rbfopt.Demo.C16_parallel_submission_example",
    "Rbfopt.C16_parallel_spacing",
    "Rbfopt.C16_parallel_submission",
    "Rbfopt.C16_spacing",
    "Rbfopt.C16_added_point_is_far"
   ],
   "note": ""
  },
  {
   "property": "C17",
   "status": "proved",
   "theorems": [
    "Rbfopt.StepDemo.C17_parallel_whole_run_example",
    "Rbfopt.C17_feasible_evaluations",
    "Rbfopt.C17_violated_fractional_bounds",
    "Rbfopt.C17_whole_run",
    "Rbfopt.C17_parallel_evaluations",
    "Rbfopt.C17_parallel_records",
    "Rbfopt.C17_parallel_feasible",
    "Rbfopt.C17_parallel_whole_run",
    "Rbfopt.C17_feasible_with_samples"
   ],
   "note": ""
  },
  {
   "property": "C18",
   "status": "proved",
   "theorems": [
    "Rbfopt.C18_pass",
    "Rbfopt.C18_reused_or_evaluated",
    "Rbfopt.C18_not_evaluated_again"
   ],
   "note": ""
  },
  {
   "property": "C19",
   "status": "proved",
   "theorems": [
    "Rbfopt.Demo.C19_parallel_example",
    "Rbfopt.C19_advance",
    "Rbfopt.C19_cycle",
    "Rbfopt.C19_step_range",
    "Rbfopt.C19_pass_steps",
    "Rbfopt.C19_parallel_moves",
    "Rbfopt.C19_parallel_step_range",
    "Rbfopt.C19_parallel_submission"
   ],
   "note": ""
  },
  {
   "property": "C20",
   "status": "proved",
   "theorems": [
    "Rbfopt.C20_restoration_never_succeeds",
    "Rbfopt.C20_restoration_witness"
   ],
   "note": ""
  },
  {
   "property": "C21",
   "status": "proved",
   "theorems": [
    "Rbfopt.Demo.C21_parallel_example",
    "Rbfopt.C21_refinement_limited",
    "Rbfopt.C21_parallel_frequency"
   ],
   "note": ""
  },
  {
   "property": "C22",
   "status": "proved",
   "theorems": [
    "Rbfopt.Demo.C22_parallel_example",
    "Rbfopt.Demo.C22_violated_parallel_two_phase",
    "Rbfopt.Demo.C22_parallel_noisy_mode_example",
    "Rbfopt.C22_refinement_indices_valid",
    "Rbfopt.C22_parallel_indices_valid",
    "Rbfopt.C22_parallel_indices_valid_noisy_mode"
   ],
   "note": ""
  },
  {
   "property": "C23",
   "status": "proved",
   "theorems": [
    "Rbfopt.Demo.C23_parallel_example",
    "Rbfopt.Demo.C23_parallel_stalling_example",
    "Rbfopt.C23_parallel_stalling",
    "Rbfopt.C23_parallel_restart_reasons",
    "Rbfopt.C23_parallel_restart_happens",
    "Rbfopt.C23_stalling_counter",
    "Rbfopt.C23_counts_iterations",
    "Rbfopt.C23_restart_reasons"
   ],
   "note": ""
  },
  {
   "property": "C24",
   "status": "proved",
   "theorems": [
    "Rbfopt.Demo.C24_parallel_example",
    "Rbfopt.Demo.C24_violated_noisy_sample",
    "Rbfopt.Demo.C24_violated_zero_target",
    "Rbfopt.C24_parallel_collected",
    "Rbfopt.C24_noisy_record_not_promising",
    "Rbfopt.C24_no_noisy_node_reaches_target",
    "Rbfopt.C24_no_stop_on_noisy_iterate"
   ],
   "note": ""
  },
  {
   "property": "C25",
   "status": "proved",
   "theorems": [
    "Rbfopt.C25_reuse_partition",
    "Rbfopt.C25_never_fails"
   ],
   "note": ""
  },
  {
   "property": "C26",
   "status": "proved",
   "theorems": [
    "Rbfopt.C26_user_points",
    "Rbfopt.C26_first_call"
   ],
   "note": ""
  },
  {
   "property": "C27",
   "status": "proved",
   "theorems": [
    "Rbfopt.C27_expand_compress",
    "Rbfopt.C27_bounds",
    "Rbfopt.C27_integer_vars"
   ],
   "note": ""
  },
  {
   "property": "C28",
   "status": "proved",
   "theorems": [
    "Rbfopt.C28_black_box_coordinates"
   ],
   "note": ""
  },
  {
   "property": "C29",
   "status": "proved",
   "theorems": [
    "Rbfopt.C29_returned_point",
    "Rbfopt.C29_violated_with_fixed_variables"
   ],
   "note": ""
  },
  {
   "property": "C30",
   "status": "proved",
   "theorems": [
    "Rbfopt.C30_bijection",
    "Rbfopt.C30_dimension"
   ],
   "note": ""
  },
  {
   "property": "C31",
   "status": "proved",
   "theorems": [
    "Rbfopt.C31_all_fixed",
    "Rbfopt.C31_violated_default_settings",
    "Rbfopt.C31_violated_second_call"
   ],
   "note": ""
  },
  {
   "property": "C32",
   "status": "proved",
   "theorems": [
    "Rbfopt.C32_infinite",
    "Rbfopt.C32_count"
   ],
   "note": ""
  },
  {
   "property": "C33",
   "status": "proved",
   "theorems": [
    "Rbfopt.C33_round_bounds",
    "Rbfopt.C33_rounding_enlarges"
   ],
   "note": ""
  },
  {
   "property": "C34",
   "status": "proved",
   "theorems": [
    "Rbfopt.C34_domain_scaling",
    "Rbfopt.C34_bulk",
    "Rbfopt.C34_violated_affine_with_integers"
   ],
   "note": ""
  },
  {
   "property": "C35",
   "status": "proved",
   "theorems": [
    "Rbfopt.C35_all_corners",
    "Rbfopt.C35_lower_corners",
    "Rbfopt.C35_random_corners",
    "Rbfopt.C35_drawn_corner",
    "Rbfopt.C35_random_corners_end",
    "Rbfopt.C35_violated_categorical"
   ],
   "note": ""
  },
  {
   "property": "C36",
   "status": "proved",
   "theorems": [
    "Rbfopt.C36_latin_hypercube",
    "Rbfopt.C36_best_design",
    "Rbfopt.C36_corr_design",
    "Rbfopt.C36_violated_min_correlation",
    "Rbfopt.C36_midpoint",
    "Rbfopt.C36_samples_feasible"
   ],
   "note": ""
  },
  {
   "property": "C37",
   "status": "proved",
   "theorems": [
    "Rbfopt.C37_first_good_trial",
    "Rbfopt.C37_violated_last_trial",
    "Rbfopt.C37_initialize_nodes"
   ],
   "note": ""
  },
  {
   "property": "C38",
   "status": "proved",
   "theorems": [
    "Rbfopt.C38_at_least",
    "Rbfopt.C38_close",
    "Rbfopt.C38_monotone",
    "Rbfopt.C38_required_le_requested",
    "Rbfopt.C38_enough_submitted",
    "Rbfopt.C38_violated_one_dimension",
    "Rbfopt.C38_violated_lower_corners"
   ],
   "note": ""
  },
  {
   "property": "C39",
   "status": "proved",
   "theorems": [
    "Rbfopt.C39_kept_iff",
    "Rbfopt.C39_cleanup",
    "Rbfopt.C39_dropped_far_from_kept"
   ],
   "note": ""
  },
  {
   "property": "C40",
   "status": "proved",
   "theorems": [
    "Rbfopt.C40_gap_iff",
    "Rbfopt.C40_gap_monotone"
   ],
   "note": ""
  },
  {
   "property": "C41",
   "status": "proved",
   "theorems": [
    "Rbfopt.C41_order_preserved",
    "Rbfopt.C41_elementary",
    "Rbfopt.C41_affine_range",
    "Rbfopt.C41_violated_log_rescale",
    "Rbfopt.C41_violated_log_errors",
    "Rbfopt.C41_violated_small_threshold",
    "Rbfopt.C41_violated_clipped_rescale"
   ],
   "note": ""
  },
  {
   "property": "C42",
   "status": "proved",
   "theorems": [
    "Rbfopt.C42_index_valid",
    "Rbfopt.C42_violated_too_few_nodes",
    "Rbfopt.C42_clipped_max",
    "Rbfopt.C42_target_below",
    "Rbfopt.C42_target_monotone",
    "Rbfopt.C42_no_exception",
    "Rbfopt.C42_dist_weight",
    "Rbfopt.C42_violated_weight_increases",
    "Rbfopt.C42_local_box"
   ],
   "note": ""
  },
  {
   "property": "C43",
   "status": "proved",
   "theorems": [
    "Rbfopt.C43_interpolates",
    "Rbfopt.C43_interpolates_exactly",
    "Rbfopt.C43_side_conditions",
    "Rbfopt.C43_inverse"
   ],
   "note": ""
  },
  {
   "property": "C44",
   "status": "proved",
   "theorems": [
    "Rbfopt.C44_bulk_eq_single",
    "Rbfopt.C44_min_distance"
   ],
   "note": ""
  },
  {
   "property": "C45",
   "status": "proved",
   "theorems": [
    "Rbfopt.C45_symmetric",
    "Rbfopt.C45_blocks",
    "Rbfopt.C45_basis_functions"
   ],
   "note": ""
  },
  {
   "property": "C46",
   "status": "proved",
   "theorems": [
    "Rbfopt.C46_leave_one_out",
    "Rbfopt.C46_prediction",
    "Rbfopt.C46_perfect_model",
    "Rbfopt.C46_violated_ties",
    "Rbfopt.C46_selects_minimum",
    "Rbfopt.C46_failure",
    "Rbfopt.C46_violated_settings"
   ],
   "note": ""
  },
  {
   "property": "C47",
   "status": "proved",
   "theorems": [
    "Rbfopt.C47_most_common",
    "Rbfopt.C47_none_iff"
   ],
   "note": ""
  },
  {
   "property": "C48",
   "status": "proved",
   "theorems": [
    "Rbfopt.C48_population",
    "Rbfopt.C48_best_never_lost",
    "Rbfopt.C48_optimize",
    "Rbfopt.C48_mutation",
    "Rbfopt.C48_too_small",
    "Rbfopt.C48_population_size"
   ],
   "note": ""
  },
  {
   "property": "C49",
   "status": "proved",
   "theorems": [
    "Rbfopt.C49_range",
    "Rbfopt.C49_monotone",
    "Rbfopt.C49_defined",
    "Rbfopt.C49_violated_above_one",
    "Rbfopt.C49_all_too_close",
    "Rbfopt.C49_maximin",
    "Rbfopt.C49_maximin_order",
    "Rbfopt.C49_sampling"
   ],
   "note": ""
  },
  {
   "property": "C50",
   "status": "proved",
   "theorems": [
    "Rbfopt.C50_in_box",
    "Rbfopt.C50_in_radius",
    "Rbfopt.C50_improvement_eq",
    "Rbfopt.C50_improvement_nonneg",
    "Rbfopt.C50_improvement_pos_iff",
    "Rbfopt.C50_small_gradient",
    "Rbfopt.C50_gradient_norm"
   ],
   "note": ""
  },
  {
   "property": "C51",
   "status": "proved",
   "theorems": [
    "Rbfopt.C51_rounding",
    "Rbfopt.C51_feasible",
    "Rbfopt.C51_best_examined",
    "Rbfopt.C51_total",
    "Rbfopt.C51_first_is_largest",
    "Rbfopt.C51_descent_in_radius",
    "Rbfopt.C51_violated_categorical"
   ],
   "note": ""
  },
  {
   "property": "C52",
   "status": "proved",
   "theorems": [
    "Rbfopt.C52_others_unchanged",
    "Rbfopt.C52_one_hot",
    "Rbfopt.C52_keeps_one_hot",
    "Rbfopt.C52_total",
    "Rbfopt.C52_violated_negative",
    "Rbfopt.C52_violated_largest"
   ],
   "note": ""
  },
  {
   "property": "C53",
   "status": "proved",
   "theorems": [
    "Rbfopt.C53_feasible",
    "Rbfopt.C53_violated_index",
    "Rbfopt.C53_violated_at_start",
    "Rbfopt.C53_violated_center",
    "Rbfopt.C53_nothing_to_improve"
   ],
   "note": ""
  },
  {
   "property": "C54",
   "status": "proved",
   "theorems": [
    "Rbfopt.C54_update",
    "Rbfopt.C54_positive",
    "Rbfopt.C54_accept_improves",
    "Rbfopt.C54_violated_worse_step",
    "Rbfopt.C54_unsuccessful_steps_end",
    "Rbfopt.C54_parallel_collected",
    "Rbfopt.C54_parallel_update",
    "Rbfopt.C54_update_completes",
    "Rbfopt.C54_serial_update"
   ],
   "note": ""
  },
  {
   "property": "C55",
   "status": "proved",
   "theorems": [
    "Rbfopt.C55_selection",
    "Rbfopt.C55_violated_intervals_destroyed",
    "Rbfopt.C55_violated_target_above_interval",
    "Rbfopt.C55_violated_wrong_node",
    "Rbfopt.C55_records_unchanged_scaled",
    "Rbfopt.C55_violated_records",
    "Rbfopt.C55_erasure_is_the_code",
    "Rbfopt.C55_only_current_nodes_erased",
    "Rbfopt.Demo.C55_violated_erased_in_a_run"
   ],
   "note": ""
  },
  {
   "property": "C56",
   "status": "proved",
   "theorems": [
    "Rbfopt.C56_min_rbf_objective",
    "Rbfopt.C56_actual_shift",
    "Rbfopt.C56_shift_at_node",
    "Rbfopt.C56_min_rbf_exact",
    "Rbfopt.C56_quadratic_form",
    "Rbfopt.C56_inverse_symmetric",
    "Rbfopt.C56_one_over_mu",
    "Rbfopt.C56_one_over_mu_ranking",
    "Rbfopt.C56_h_k",
    "Rbfopt.C56_box_integrality",
    "Rbfopt.C56_categorical",
    "Rbfopt.C56_domain",
    "Rbfopt.C56_violated_h_k_categories",
    "Rbfopt.C56_violated_h_k_example",
    "Rbfopt.C56_maximin",
    "Rbfopt.C56_min_dist_bound",
    "Rbfopt.C56_violated_min_dist_squared",
    "Rbfopt.C56_msrsm",
    "Rbfopt.C56_min_bump_constraints",
    "Rbfopt.C56_noisy_interpolant",
    "Rbfopt.C56_fallback_feasible",
    "Rbfopt.C56_min_bump_objective"
   ],
   "note": ""
  },
  {
   "property": "C57",
   "status": "proved",
   "theorems": [
    "Rbfopt.C57_validation",
    "Rbfopt.C57_violated_save_interval"
   ],
   "note": ""
  },
  {
   "property": "C58",
   "status": "proved",
   "theorems": [
    "Rbfopt.C58_auto_parameters",
    "Rbfopt.C58_auto_values",
    "Rbfopt.C58_succeeds"
   ],
   "note": ""
  },
  {
   "property": "C59",
   "status": "proved",
   "theorems": [
    "Rbfopt.C59_results_ready",
    "Rbfopt.C59_one_ready_index"
   ],
   "note": ""
  },
  {
   "property": "C60",
   "status": "proved",
   "theorems": [
    "Rbfopt.C60_temporary_nodes_match",
    "Rbfopt.C60_every_submission_accounted",
    "Rbfopt.C60_one_fate",
    "Rbfopt.C60_collects_own_value",
    "Rbfopt.C60_records_genuine",
    "Rbfopt.C60_recorded_is_kept"
   ],
   "note": ""
  },
  {
   "property": "C61",
   "status": "proved",
   "theorems": [
    "Rbfopt.Demo.C61_bound_attained",
    "Rbfopt.C61_outstanding",
    "Rbfopt.C61_outstanding_bound",
    "Rbfopt.C61_submits_to_free_worker"
   ],
   "note": ""
  },
  {
   "property": "C62",
   "status": "proved",
   "theorems": [
    "Rbfopt.C62_wait_ends",
    "Rbfopt.C62_wait_never_ends",
    "Rbfopt.C62_wait_is_restart",
    "Rbfopt.C62_restart_completes",
    "Rbfopt.C62_first_call_hangs",
    "Rbfopt.C62_latin_hypercube_completes",
    "Rbfopt.C62_violated_one_dimension"
   ],
   "note": ""
  },
  {
   "property": "C63",
   "status": "proved",
   "theorems": [
    "Rbfopt.Demo.C63_violated_example",
    "Rbfopt.C63_shutdown_records_all",
    "Rbfopt.C63_nothing_outstanding",
    "Rbfopt.C63_violated_noisy",
    "Rbfopt.C63_shutdown_completes"
   ],
   "note": ""
  },
  {
   "property": "C64",
   "status": "proved",
   "theorems": [
    "Rbfopt.Demo.C64_parallel_example",
    "Rbfopt.C64_parallel",
    "Rbfopt.C64_stars"
   ],
   "note": ""
  },
  {
   "property": "C65",
   "status": "proved",
   "theorems": [
    "Rbfopt.C65_violated_returned_nan",
    "Rbfopt.C65_tracked_best",
    "Rbfopt.C65_without_nan",
    "Rbfopt.C65_violated_sample_nan",
    "Rbfopt.C65_violated_minimum_stuck",
    "Rbfopt.C65_violated_example"
   ],
   "note": ""
  },
  {
   "property": "C66",
   "status": "proved",
   "theorems": [
    "Rbfopt.C66_points_file",
    "Rbfopt.C66_violated_fixed_variables",
    "Rbfopt.C66_load_ignores_options",
    "Rbfopt.C66_dump",
    "Rbfopt.C66_blank_line"
   ],
   "note": ""
  },
  {
   "property": "C67",
   "status": "proved",
   "theorems": [
    "Rbfopt.C67_closest_nodes",
    "Rbfopt.C67_center_first",
    "Rbfopt.C67_radius_le"
   ],
   "note": ""
  },
  {
   "property": "C68",
   "status": "proved",
   "theorems": [
    "Rbfopt.C68_hk",
    "Rbfopt.C68_muk_ranking",
    "Rbfopt.C68_hk_node",
    "Rbfopt.C68_violated_muk_node"
   ],
   "note": ""
  },
  {
   "property": "C69",
   "status": "proved",
   "theorems": [
    "Rbfopt.C69_reevaluation",
    "Rbfopt.C69_violated_accurate_node",
    "Rbfopt.C69_engine_is_the_code"
   ],
   "note": ""
  },
  {
   "property": "C70",
   "status": "proved",
   "theorems": [
    "Rbfopt.C70_recorded_point",
    "Rbfopt.C70_no_scaling",
    "Rbfopt.Demo.C70_violated_scaling",
    "Rbfopt.Demo.C70_example"
   ],
   "note": ""
  },
  {
   "property": "C71",
   "status": "proved",
   "theorems": [
    "Rbfopt.Demo.C71_blocked_example",
    "Rbfopt.C71_one_refinement_at_a_time",
    "Rbfopt.C71_blocked_forever",
    "Rbfopt.C71_skipped_evaluation_blocks",
    "Rbfopt.C71_reused_value_blocks"
   ],
   "note": ""
  },
  {
   "property": "C72",
   "status": "proved",
   "theorems": [
    "Rbfopt.Demo.C72_violated_example",
    "Rbfopt.C72_fixed_rbf_raises",
    "Rbfopt.C72_auto_rbf_recovers"
   ],
   "note": ""
  },
  {
   "property": "C73",
   "status": "proved",
   "theorems": [
    "Rbfopt.C73_iteration_overshoot",
    "Rbfopt.C73_evaluation_overshoot",
    "Rbfopt.C73_limits_checked"
   ],
   "note": ""
  },
  {
   "property": "C74",
   "status": "proved",
   "theorems": [
    "Rbfopt.C74_never_stuck",
    "Rbfopt.C74_runs_forever_only_waiting",
    "Rbfopt.C74_records_append_only",
    "Rbfopt.C74_records_append_only_noisy_mode"
   ],
   "note": ""
  },
  {
   "property": "C75",
   "status": "proved",
   "theorems": [
    "Rbfopt.Demo.C75_violated_example",
    "Rbfopt.C75_search_result",
    "Rbfopt.C75_reuse"
   ],
   "note": ""
  },
  {
   "property": "C76",
   "status": "proved",
   "theorems": [
    "Rbfopt.C76_violated_stdout_closed",
    "Rbfopt.C76_violated_second_call",
    "Rbfopt.C76_log_file",
    "Rbfopt.C76_violated_log_file"
   ],
   "note": ""
  },
  {
   "property": "C77",
   "status": "proved",
   "theorems": [
    "Rbfopt.Demo.C77_violated_user_points",
    "Rbfopt.Demo.C77_violated_repeated_sample",
    "Rbfopt.Demo.C77_parallel_lost_example",
    "Rbfopt.Demo.C77_parallel_violated_near_user_point",
    "Rbfopt.C77_sample_distinct",
    "Rbfopt.C77_run",
    "Rbfopt.C77_violated_lhd_sample",
    "Rbfopt.C77_only_user_points",
    "Rbfopt.C77_never_twice",
    "Rbfopt.C77_finite",
    "Rbfopt.C77_parallel_once",
    "Rbfopt.C77_parallel_main",
    "Rbfopt.C77_parallel_coordinates",
    "Rbfopt.C77_parallel_never_twice",
    "Rbfopt.C77_parallel_finite"
   ],
   "note": ""
  },
  {
   "property": "C78",
   "status": "proved",
   "theorems": [
    "Rbfopt.C78_pure_global_step",
    "Rbfopt.C78_global_step",
    "Rbfopt.C78_local_search",
    "Rbfopt.C78_local_step"
   ],
   "note": ""
  },
  {
   "property": "C79",
   "status": "proved",
   "theorems": [
    "Rbfopt.C79_refinement_step",
    "Rbfopt.C79_violated_improvement"
   ],
   "note": ""
  },
  {
   "property": "C80",
   "status": "proved",
   "theorems": [
    "Rbfopt.Demo.C80_violated_accurate_removed",
    "Rbfopt.Demo.C80_violated_example",
    "Rbfopt.Demo.C80_evaluated_again_example",
    "Rbfopt.Demo.C80_hypotheses_example",
    "Rbfopt.C80_search_result",
    "Rbfopt.C80_removed_only_for_reevaluation",
    "Rbfopt.C80_node_evaluated_again",
    "Rbfopt.C80_violated_outstanding_not_submitted",
    "Rbfopt.C80_tabu_result_ignored"
   ],
   "note": ""
  },
  {
   "property": "C81",
   "status": "proved",
   "theorems": [
    "Rbfopt.C81_constructor",
    "Rbfopt.C81_evaluation",
    "Rbfopt.C81_whole_run"
   ],
   "note": ""
  },
  {
   "property": "C82",
   "status": "proved",
   "theorems": [
    "Rbfopt.C82_noisy_interval"
   ],
   "note": ""
  },
  {
   "property": "C83",
   "status": "proved",
   "theorems": [
    "Rbfopt.C83_optimum_value",
    "Rbfopt.C83_optimum_minimal",
    "Rbfopt.C83_denominators",
    "Rbfopt.C83_violated_negative_category"
   ],
   "note": ""
  },
  {
   "property": "C84",
   "status": "proved",
   "theorems": [
    "Rbfopt.C84_solves_if_possible",
    "Rbfopt.C84_affine_through_nodes"
   ],
   "note": ""
  },
  {
   "property": "C85",
   "status": "proved",
   "theorems": [
    "Rbfopt.C85_range",
    "Rbfopt.C85_unscaled",
    "Rbfopt.C85_at_node",
    "Rbfopt.C85_violated_affine",
    "Rbfopt.C85_violated_log"
   ],
   "note": ""
  },
  {
   "property": "C86",
   "status": "proved",
   "theorems": [
    "Rbfopt.C86_selects_least_bumpy",
    "Rbfopt.C86_violated_selects_most_bumpy",
    "Rbfopt.C86_new_point"
   ],
   "note": ""
  },
  {
   "property": "C87",
   "status": "proved",
   "theorems": [
    "Rbfopt.Demo.C87_lost_sample_is_evaluated_again",
    "Rbfopt.Demo.C87_violated_reevaluation_interrupted",
    "Rbfopt.C87_tables_aligned",
    "Rbfopt.C87_nodes_after_pass",
    "Rbfopt.C87_interrupted_restart_is_repeated",
    "Rbfopt.C87_tracked_best",
    "Rbfopt.C87_tracked_bounds",
    "Rbfopt.C87_counters",
    "Rbfopt.C87_every_result_recorded_or_lost",
    "Rbfopt.C87_returns_best_evaluation",
    "Rbfopt.C87_accurate_records_genuine",
    "Rbfopt.C87_domain",
    "Rbfopt.C87_spacing",
    "Rbfopt.C87_no_noisy_call_unless_declared",
    "Rbfopt.C87_records_survive",
    "Rbfopt.C87_interrupted_restarts_count"
   ],
   "note": ""
  },
  {
   "property": "C88",
   "status": "proved",
   "theorems": [
    "Rbfopt.TestFns.C88_rbrock",
    "Rbfopt.TestFns.C88_ex8_1_4",
    "Rbfopt.TestFns.C88_goldsteinprice",
    "Rbfopt.TestFns.C88_perm_6",
    "Rbfopt.TestFns.C88_perm0_8",
    "Rbfopt.TestFns.C88_sporttournament06",
    "Rbfopt.TestFns.C88_gear4",
    "Rbfopt.TestFns.C88_gear4_cat",
    "Rbfopt.TestFns.C88_violated_gear",
    "Rbfopt.TestFns.C88_ex8_1_1",
    "Rbfopt.TestFns.C88_ex8_1_1_cat",
    "Rbfopt.TestFns.C88_violated_hartman3",
    "Rbfopt.TestFns.C88_violated_ex4_1_2",
    "Rbfopt.TestFns.C88_nvs03",
    "Rbfopt.TestFns.C88_nvs04",
    "Rbfopt.TestFns.C88_nvs06",
    "Rbfopt.TestFns.C88_nvs07",
    "Rbfopt.TestFns.C88_nvs15",
    "Rbfopt.TestFns.C88_nvs16",
    "Rbfopt.TestFns.C88_prob03",
    "Rbfopt.TestFns.C88_st_miqp3",
    "Rbfopt.TestFns.C88_st_test1",
    "Rbfopt.TestFns.C88_st_miqp1",
    "Rbfopt.TestFns.C88_nvs14",
    "Rbfopt.TestFns.C88_nvs02",
    "Rbfopt.TestFns.C88_least",
    "Rbfopt.TestFns.C88_nvs09",
    "Rbfopt.TestFns.C88_violated_nvs09_cat",
    "Rbfopt.TestFns.C88_nvs07_cat",
    "Rbfopt.TestFns.C88_st_miqp1_cat",
    "Rbfopt.TestFns.C88_ex4_1_1",
    "Rbfopt.TestFns.C88_camel",
    "Rbfopt.TestFns.C88_violated_shekel5",
    "Rbfopt.TestFns.C88_violated_shekel7",
    "Rbfopt.TestFns.C88_violated_shekel10",
    "Rbfopt.TestFns.C88_rest_hartman6",
    "Rbfopt.TestFns.C88_rest_least",
    "Rbfopt.TestFns.C88_rest_ex8_1_1",
    "Rbfopt.TestFns.C88_rest_hartman3_cat",
    "Rbfopt.TestFns.C88_rest_hartman6_cat",
    "Rbfopt.TestFns.C88_rest_ex8_1_1_cat",
    "Rbfopt.TestFns.C88_schoen_6_1",
    "Rbfopt.TestFns.C88_schoen_6_2",
    "Rbfopt.TestFns.C88_schoen_10_1",
    "Rbfopt.TestFns.C88_schoen_10_2",
    "Rbfopt.TestFns.C88_schoen_6_1_int",
    "Rbfopt.TestFns.C88_schoen_6_2_int",
    "Rbfopt.TestFns.C88_schoen_10_1_int",
    "Rbfopt.TestFns.C88_schoen_10_2_int",
    "Rbfopt.TestFns.C88_schoen_10_1_cat",
    "Rbfopt.TestFns.C88_schoen_10_2_cat",
    "Rbfopt.TestFns.C88_branin",
    "Rbfopt.TestFns.C88_branin_cat",
    "Rbfopt.TestFns.C88_schaeffer_f7_12_1",
    "Rbfopt.TestFns.C88_schaeffer_f7_12_2",
    "Rbfopt.TestFns.C88_schaeffer_f7_12_1_int_cat",
    "Rbfopt.TestFns.C88_schaeffer_f7_12_2_int_cat"
   ],
   "note": ""
  },
  {
   "property": "C89",
   "status": "proved",
   "theorems": [
    "Rbfopt.C89_local_or_global",
    "Rbfopt.C89_user_rbf",
    "Rbfopt.C89_auto_rbf",
    "Rbfopt.C89_selections",
    "Rbfopt.C89_last_selection",
    "Rbfopt.C89_frozen",
    "Rbfopt.C89_failure_serial",
    "Rbfopt.C89_failure_parallel",
    "Rbfopt.C89_algorithm",
    "Rbfopt.C89_user_scaling",
    "Rbfopt.C89_auto_scaling_serial",
    "Rbfopt.C89_auto_scaling_parallel",
    "Rbfopt.C89_violated_parallel_resume"
   ],
   "note": ""
  },
  {
   "property": "C90",
   "status": "proved",
   "theorems": [
    "Rbfopt.Demo.C90_restart_repeated_example",
    "Rbfopt.Demo.C90_violated_restart_forgotten",
    "Rbfopt.Demo.C90_violated_record_destroyed",
    "Rbfopt.C90_records_survive",
    "Rbfopt.C90_losses",
    "Rbfopt.C90_every_evaluation_has_one_fate",
    "Rbfopt.C90_restart_repeated",
    "Rbfopt.C90_first_restart_repeated",
    "Rbfopt.C90_due_again"
   ],
   "note": ""
  },
  {
   "property": "C91",
   "status": "proved",
   "theorems": [
    "Rbfopt.C91_records_honest",
    "Rbfopt.C91_points_are_values",
    "Rbfopt.C91_conditions_exact",
    "Rbfopt.C91_user_points_kept",
    "Rbfopt.C91_nodes_out_of_reach",
    "Rbfopt.C91_earlier_records_kept",
    "Rbfopt.C91_violated_second_evaluation",
    "Rbfopt.C91_arrays_follow_state"
   ],
   "note": ""
  },
  {
   "property": "C92",
   "status": "proved",
   "theorems": [
    "Rbfopt.C92_definite",
    "Rbfopt.C92_nonsingular_iff",
    "Rbfopt.C92_coefficients_iff",
    "Rbfopt.C92_inverse_iff",
    "Rbfopt.C92_interpolant_unique",
    "Rbfopt.C92_spaced_nodes",
    "Rbfopt.C92_more_nodes",
    "Rbfopt.C92_corner_samples",
    "Rbfopt.C92_corner_strategies",
    "Rbfopt.C92_integer_nodes",
    "Rbfopt.C92_gaussian_zero_shape",
    "Rbfopt.C92_close_nodes_singular"
   ],
   "note": ""
  },
  {
   "property": "C93",
   "status": "proved",
   "theorems": [
    "Rbfopt.C93_reproducible",
    "Rbfopt.C93_other_objects_untouched",
    "Rbfopt.C93_only_through_generator",
    "Rbfopt.C93_violated_workers_repeat",
    "Rbfopt.C93_violated_second_object_interferes"
   ],
   "note": ""
  },
  {
   "property": "C94",
   "status": "proved",
   "theorems": [
    "Rbfopt.C94_main",
    "Rbfopt.C94_main_wrong_file",
    "Rbfopt.C94_main_finishes",
    "Rbfopt.C94_default_pause",
    "Rbfopt.C94_every_parameter_is_an_option",
    "Rbfopt.C94_option_types",
    "Rbfopt.C94_option_names",
    "Rbfopt.C94_settings_are_those_given",
    "Rbfopt.C94_accepted_iff",
    "Rbfopt.C94_no_options",
    "Rbfopt.C94_violated_boolean_options",
    "Rbfopt.C94_first_bad_option"
   ],
   "note": ""
  },
  {
   "property": "C95",
   "status": "proved",
   "theorems": [
    "Rbfopt.Demo.C95_example",
    "Rbfopt.Demo.C95_example_mixed",
    "Rbfopt.Demo.C95_parallel_example",
    "Rbfopt.C95_history_exists",
    "Rbfopt.C95_restart_rule",
    "Rbfopt.C95_only_at_first_step",
    "Rbfopt.C95_switched_off",
    "Rbfopt.C95_parallel_restart_rule",
    "Rbfopt.C95_parallel_history_exists"
   ],
   "note": ""
  },
  {
   "property": "C96",
   "status": "proved",
   "theorems": [
    "Rbfopt.C96_distance",
    "Rbfopt.C96_metric",
    "Rbfopt.C96_norm",
    "Rbfopt.C96_min_distance",
    "Rbfopt.C96_max_distance",
    "Rbfopt.C96_empty",
    "Rbfopt.C96_dimensions",
    "Rbfopt.C96_dimensions_example",
    "Rbfopt.C96_bulk",
    "Rbfopt.C96_distance_from_set"
   ],
   "note": ""
  },
  {
   "property": "C97",
   "status": "proved",
   "theorems": [
    "Rbfopt.CoverDemo.C97_value_at_point_example",
    "Rbfopt.Demo.C97_parallel_example",
    "Rbfopt.Demo.C97_parallel_noisy_example",
    "Rbfopt.C97_value_at_returned_point",
    "Rbfopt.C97_parallel_value_is_attained",
    "Rbfopt.C97_parallel_success_is_near_optimal",
    "Rbfopt.C97_value_is_attained",
    "Rbfopt.C97_success_is_near_optimal",
    "Rbfopt.C97_test_function",
    "Rbfopt.C97_noisy_value",
    "Rbfopt.C97_parallel_noisy_value",
    "Rbfopt.C97_interface",
    "Rbfopt.C97_interface_refused",
    "Rbfopt.C97_violated_arguments_ignored"
   ],
   "note": ""
  },
  {
   "property": "C98",
   "status": "proved",
   "theorems": [
    "Rbfopt.Demo.C98_example",
    "Rbfopt.C98_iteration"
   ],
   "note": ""
  },
  {
   "property": "C99",
   "status": "proved",
   "theorems": [
    "Rbfopt.C99_random_start_in_box",
    "Rbfopt.C99_random_start_feasible",
    "Rbfopt.C99_start_at_node",
    "Rbfopt.C99_msrsm_start",
    "Rbfopt.C99_example",
    "Rbfopt.C99_violated_start_infeasible",
    "Rbfopt.C99_minlp_options",
    "Rbfopt.C99_nlp_options",
    "Rbfopt.C99_option_values",
    "Rbfopt.C99_options_example"
   ],
   "note": ""
  },
  {
   "property": "C100",
   "status": "proved",
   "theorems": [
    "Rbfopt.C100_example",
    "Rbfopt.C100_violated_all_noisy",
    "Rbfopt.C100_exists",
    "Rbfopt.C100_well_posed",
    "Rbfopt.C100_local_is_global",
    "Rbfopt.C100_unique",
    "Rbfopt.C100_unique_value",
    "Rbfopt.C100_exact",
    "Rbfopt.C100_at_most_interpolant",
    "Rbfopt.C100_wider_intervals"
   ],
   "note": ""
  },
  {
   "property": "C101",
   "status": "proved",
   "theorems": [
    "Rbfopt.C101_number_precision",
    "Rbfopt.C101_number_exact",
    "Rbfopt.C101_integer_exact",
    "Rbfopt.C101_value_line",
    "Rbfopt.C101_infinite_gap",
    "Rbfopt.C101_star_is_noted",
    "Rbfopt.C101_summary_line",
    "Rbfopt.C101_summary_shows_result",
    "Rbfopt.C101_parallel_summary_shows_result",
    "Rbfopt.C101_violated_two_phase",
    "Rbfopt.C101_columns",
    "Rbfopt.C101_values_fit",
    "Rbfopt.C101_message_line",
    "Rbfopt.C101_settings_line",
    "Rbfopt.C101_example"
   ],
   "note": ""
  },
  {
   "property": "C102",
   "status": "proved",
   "theorems": [
    "Rbfopt.Demo.C102_example",
    "Rbfopt.Demo.C102_euclid_example",
    "Rbfopt.C102_discarded_infstep",
    "Rbfopt.C102_infsteps_cover",
    "Rbfopt.C102_infsteps_cover_euclid"
   ],
   "note": ""
  },
  {
   "property": "C103",
   "status": "proved",
   "theorems": [
    "Rbfopt.Demo.C103_example",
    "Rbfopt.C103_nodes_bounded",
    "Rbfopt.C103_parallel_nodes_bounded",
    "Rbfopt.C103_whole_run",
    "Rbfopt.C103_recording_passes_bounded"
   ],
   "note": ""
  },
  {
   "property": "C104",
   "status": "proved",
   "theorems": [
    "Rbfopt.CoverDemo.C104_exhausted_example",
    "Rbfopt.CoverDemo.C104_gap_example",
    "Rbfopt.C104_cover_bounds_gap",
    "Rbfopt.C104_returned_value",
    "Rbfopt.C104_infsteps_bound_gap",
    "Rbfopt.C104_exhausted"
   ],
   "note": ""
  },
  {
   "property": "C105",
   "status": "proved",
   "theorems": [
    "Rbfopt.Demo.C105_violated_returned_point",
    "Rbfopt.Demo.C105_violated_parallel",
    "Rbfopt.C105_forward",
    "Rbfopt.C105_reverse",
    "Rbfopt.C105_reverse_corner",
    "Rbfopt.C105_exact_width",
    "Rbfopt.C105_overshoot",
    "Rbfopt.C105_round_trip",
    "Rbfopt.C105_evaluations",
    "Rbfopt.C105_parallel_evaluations",
    "Rbfopt.C105_feasible_evaluations",
    "Rbfopt.C105_not_scaled",
    "Rbfopt.C105_exact",
    "Rbfopt.C105_violated_upper_bound"
   ],
   "note": ""
  }
 ]
}