{
 "claims": [
  {
   "property": "C01",
   "status": "proved",
   "theorems": [
    "Mim.C01_sqp_true_sound"
   ],
   "note": ""
  },
  {
   "property": "C02",
   "status": "proved",
   "theorems": [
    "Mim.C02_sqp_residual_meaning"
   ],
   "note": ""
  },
  {
   "property": "C03",
   "status": "proved",
   "theorems": [
    "Mim.C03_csqp_true_sound",
    "Mim.C03_csqp_residual_meaning",
    "Mim.C03_csqp_true_is_ckkt",
    "Mim.Ex.C03_csqp_no_complementarity"
   ],
   "note": ""
  },
  {
   "property": "C04",
   "status": "proved",
   "theorems": [
    "Mim.C04_ddp_true_sound",
    "Mim.C04_ddp_true_is_kkt"
   ],
   "note": ""
  },
  {
   "property": "C07",
   "status": "proved",
   "theorems": [
    "Mim.C07_sqp_initial_state",
    "Mim.C07_csqp_initial_state",
    "Mim.PROX.C07_prox_initial_state"
   ],
   "note": ""
  },
  {
   "property": "C08",
   "status": "proved",
   "theorems": [
    "Mim.C08_sqp_counts",
    "Mim.C08_ddp_counts",
    "Mim.C08_csqp_counts",
    "Mim.C08_kkt_bounds",
    "Mim.PROX.C08_prox_counts"
   ],
   "note": ""
  },
  {
   "property": "C09",
   "status": "proved",
   "theorems": [
    "Mim.C09_sqp_diverges",
    "Mim.C09_sqp_zero_diverges",
    "Mim.C09_sqp_terminates_bound",
    "Mim.C09_sqp_terminates",
    "Mim.C09_sqp_gives_up",
    "Mim.Ex.C09_sqp_concave_hangs",
    "Mim.C09_ddp_diverges",
    "Mim.C09_ddp_zero_diverges",
    "Mim.C09_ddp_terminates_bound",
    "Mim.C09_ddp_terminates",
    "Mim.C09_ddp_gives_up",
    "Mim.Ex.C09_ddp_concave_hangs",
    "Mim.C09_csqp_diverges",
    "Mim.C09_csqp_zero_diverges",
    "Mim.C09_csqp_terminates_bound",
    "Mim.C09_csqp_terminates",
    "Mim.C09_csqp_removed_terminates",
    "Mim.C09_csqp_gives_up",
    "Mim.Ex.C09_csqp_concave_hangs",
    "Mim.PROX.C09_prox_diverges",
    "Mim.PROX.C09_prox_zero_diverges",
    "Mim.PROX.C09_prox_terminates_bound",
    "Mim.PROX.C09_prox_terminates",
    "Mim.PROX.C09_prox_gives_up",
    "Mim.Ex.C09_prox_hangs",
    "Mim.C09_sqp_fuel",
    "Mim.C09_ddp_fuel",
    "Mim.C09_csqp_fuel",
    "Mim.C09_csqp_mt_fuel",
    "Mim.PROX.C09_prox_fuel"
   ],
   "note": ""
  },
  {
   "property": "C10",
   "status": "proved",
   "theorems": [
    "Mim.C10_sqp_preg_eq_dreg",
    "Mim.C10_sqp_range",
    "Mim.C10_ddp_preg_eq_dreg",
    "Mim.C10_ddp_range",
    "Mim.C10_csqp_preg_eq_dreg",
    "Mim.C10_csqp_removed",
    "Mim.C10_csqp_range",
    "Mim.PROX.C10_prox_preg_eq_dreg",
    "Mim.PROX.C10_prox_range"
   ],
   "note": ""
  },
  {
   "property": "C11",
   "status": "proved",
   "theorems": [
    "Mim.C11_sqp_filter",
    "Mim.Ex.C11_sqp_shrunk_filter_refuted",
    "Mim.C11_fddp_filter",
    "Mim.CSQP.C11_csqp_filter",
    "Mim.Ex.C11_csqp_shrunk_filter_refuted",
    "Mim.PROX.C11_prox_filter",
    "Mim.Ex.C11_prox_shrunk_filter_refuted"
   ],
   "note": ""
  },
  {
   "property": "C12",
   "status": "proved",
   "theorems": [
    "Mim.C12_sqp_filter_noninterference",
    "Mim.C12_fddp_filter_noninterference",
    "Mim.CSQP.C12_csqp_filter_noninterference",
    "Mim.PROX.C12_prox_filter_noninterference"
   ],
   "note": ""
  },
  {
   "property": "C13",
   "status": "proved",
   "theorems": [
    "Mim.C13_sqp_filter_one",
    "Mim.C13_fddp_filter_one",
    "Mim.CSQP.C13_csqp_filter_one",
    "Mim.PROX.C13_prox_filter_one"
   ],
   "note": ""
  },
  {
   "property": "C14",
   "status": "proved",
   "theorems": [
    "Mim.C14_sqp_nan",
    "Mim.C14_sqp_nan_cost",
    "Mim.Ex.C14_sqp_filter_accepts_nan",
    "Mim.C14_ddp_nan",
    "Mim.CSQP.C14_csqp_nan",
    "Mim.Ex.C14_csqp_filter_accepts_nan",
    "Mim.PROX.C14_prox_nan",
    "Mim.Ex.C14_prox_filter_accepts_nan"
   ],
   "note": ""
  },
  {
   "property": "C15",
   "status": "proved",
   "theorems": [
    "Mim.C15_sqp_step_decreases",
    "Mim.C15_sqp_merit_monotone",
    "Mim.CSQP.C15_csqp_step_decreases",
    "Mim.CSQP.C15_csqp_merit_monotone",
    "Mim.PROX.C15_prox_merit_monotone"
   ],
   "note": ""
  },
  {
   "property": "C16",
   "status": "proved",
   "theorems": [
    "Mim.C16_sqp_first_acceptable",
    "Mim.C16_ddp_first_acceptable",
    "Mim.C16_fddp_first_acceptable",
    "Mim.CSQP.C16_csqp_first_acceptable",
    "Mim.PROX.C16_prox_first_acceptable"
   ],
   "note": ""
  },
  {
   "property": "C17",
   "status": "proved",
   "theorems": [
    "Mim.C17_sqp_directions_fresh",
    "Mim.C17_sqp_true_is_kkt",
    "Mim.Ex.C17_sqp_stale_certificate_refuted",
    "Mim.C17_ddp_directions_fresh",
    "Mim.CSQP.C17_csqp_directions_fresh",
    "Mim.PROX.C17_prox_directions_fresh"
   ],
   "note": ""
  },
  {
   "property": "C37",
   "status": "proved",
   "theorems": [
    "Mim.C37_sqp_failed_search",
    "Mim.C37_sqp_failed_search_increases",
    "Mim.Ex.C37_sqp_custom_alphas_refuted",
    "Mim.C37_ddp_failed_search",
    "Mim.C37_ddp_failed_search_increases",
    "Mim.PROX.C37_prox_failed_search",
    "Mim.PROX.C37_prox_failed_search_increases",
    "Mim.Ex.C37_prox_custom_alphas_refuted"
   ],
   "note": ""
  },
  {
   "property": "C38",
   "status": "proved",
   "theorems": [
    "Mim.C38_sqp_callbacks",
    "Mim.C38_ddp_callbacks",
    "Mim.C38_csqp_callbacks",
    "Mim.PROX.C38_prox_callbacks"
   ],
   "note": ""
  },
  {
   "property": "C18",
   "status": "proved",
   "theorems": [
    "Mim.C18_sqp_direction_kkt",
    "Mim.C18_sqp_every_iteration"
   ],
   "note": ""
  },
  {
   "property": "C19",
   "status": "proved",
   "theorems": [
    "Mim.C19_sqp_direction_minimal",
    "Mim.C19_sqp_excess"
   ],
   "note": ""
  },
  {
   "property": "C20",
   "status": "proved",
   "theorems": [
    "Mim.C20_sqp_gap_contraction",
    "Mim.C20_fddp_gap_contraction",
    "Mim.C20_csqp_gap_contraction",
    "Mim.PROX.C20_prox_gap_contraction"
   ],
   "note": ""
  },
  {
   "property": "C44",
   "status": "proved",
   "theorems": [
    "Mim.C44_sqp_lq_one_step",
    "Mim.Ex.C44_nonvacuous"
   ],
   "note": ""
  },
  {
   "property": "C51",
   "status": "proved",
   "theorems": [
    "Mim.C51_sqp_fixed_point"
   ],
   "note": ""
  },
  {
   "property": "C21",
   "status": "proved",
   "theorems": [
    "Mim.C21_ddp_trial",
    "Mim.C21_fddp_trial",
    "Mim.C21_feasible_flag",
    "Mim.C21_ddp_returned"
   ],
   "note": ""
  },
  {
   "property": "C22",
   "status": "proved",
   "theorems": [
    "Mim.C22_ddp_expected_improvement",
    "Mim.C22_ddp_armijo"
   ],
   "note": ""
  },
  {
   "property": "C23",
   "status": "proved",
   "theorems": [
    "Mim.C23_fddp_gap_try",
    "Mim.Ex.C23_positive_gap_measured_zero",
    "Mim.Ex.C23_feasible_trial_refused"
   ],
   "note": ""
  },
  {
   "property": "C48",
   "status": "proved",
   "theorems": [
    "Mim.C48_stop_meaning",
    "Mim.C48_stop_noninterference"
   ],
   "note": ""
  },
  {
   "property": "C34",
   "status": "proved",
   "theorems": [
    "Mim.C34_csqp_steplength_constant",
    "Mim.C34_csqp_reg_ignores_step"
   ],
   "note": ""
  },
  {
   "property": "C43",
   "status": "proved",
   "theorems": [
    "Mim.C43_csqp_no_escape",
    "Mim.C43_csqp_escapes",
    "Mim.C43_csqp_solve_escapes"
   ],
   "note": ""
  },
  {
   "property": "C24",
   "status": "proved",
   "theorems": [
    "Mim.C24_csqp_iteration_is_admm_step",
    "Mim.C24_csqp_admm_steps"
   ],
   "note": ""
  },
  {
   "property": "C25",
   "status": "proved",
   "theorems": [
    "Mim.C25_csqp_cheap_pass_is_full",
    "Mim.C25_csqp_cheap_passes_are_full",
    "Mim.C25_csqp_cheap_passes_are_full_mt"
   ],
   "note": ""
  },
  {
   "property": "C26",
   "status": "proved",
   "theorems": [
    "Mim.C26_csqp_pass_schedule_independent",
    "Mim.C26_csqp_schedule_independent",
    "Mim.C26_csqp_cheap_pass_mt",
    "Mim.C26_csqp_full_pass_mt",
    "Mim.C26_csqp_direction_mt"
   ],
   "note": ""
  },
  {
   "property": "C29",
   "status": "proved",
   "theorems": [
    "Mim.C29_csqp_rho_range"
   ],
   "note": "the range is that of the base penalty returned by get_rho_sparse; equality rows use 1e3 times it."
  },
  {
   "property": "C30",
   "status": "proved",
   "theorems": [
    "Mim.C30_csqp_row_penalties",
    "Mim.C30_csqp_crossed_rows"
   ],
   "note": ""
  },
  {
   "property": "C31",
   "status": "proved",
   "theorems": [
    "Mim.CSQP.C31_csqp_set_rho_sparse"
   ],
   "note": "the only exception is a solve whose very first clock check has already expired."
  },
  {
   "property": "C27",
   "status": "proved",
   "theorems": [
    "Mim.C27_csqp_iteration",
    "Mim.C27_csqp_multipliers"
   ],
   "note": ""
  },
  {
   "property": "C28",
   "status": "proved",
   "theorems": [
    "Mim.C28_csqp_residual",
    "Mim.C28_csqp_settled_kkt",
    "Mim.C28_csqp_settled_solves",
    "Mim.Ex.C28_csqp_stop_ignores_prox"
   ],
   "note": ""
  },
  {
   "property": "C32",
   "status": "proved",
   "theorems": [
    "Mim.C32_csqp_qp_iters",
    "Mim.C32_csqp_stops_at_first",
    "Mim.C32_csqp_tolerances",
    "Mim.C32_csqp_norms"
   ],
   "note": ""
  },
  {
   "property": "C33",
   "status": "proved",
   "theorems": [
    "Mim.C33_csqp_qp_iterations",
    "Mim.C33_csqp_head",
    "Mim.C33_csqp_no_qp",
    "Mim.C33_csqp_before_first",
    "Mim.Ex.C33_csqp_limit_not_enforced"
   ],
   "note": ""
  },
  {
   "property": "C45",
   "status": "proved",
   "theorems": [
    "Mim.C45_csqp_start_of_qp",
    "Mim.C45_csqp_history"
   ],
   "note": ""
  },
  {
   "property": "C46",
   "status": "proved",
   "theorems": [
    "Mim.C46_csqp_unique_minimiser",
    "Mim.C46_csqp_multipliers",
    "Mim.C46_csqp_same_as_sqp"
   ],
   "note": ""
  },
  {
   "property": "C35",
   "status": "proved",
   "theorems": [
    "Mim.C35_setter_atomic",
    "Mim.C35_setter_accepts_iff",
    "Mim.C35_setter_nan",
    "Mim.C35_fddp_th_acceptnegstep",
    "Mim.C35_history",
    "Mim.Ex.C35_min_le_max_not_kept"
   ],
   "note": ""
  },
  {
   "property": "C36",
   "status": "proved",
   "theorems": [
    "Mim.C36_set_alphas",
    "Mim.C36_empty_undefined",
    "Mim.C36_singleton",
    "Mim.C36_nan_list",
    "Mim.C36_step_above_one",
    "Mim.C36_search_skips",
    "Mim.C36_exact"
   ],
   "note": ""
  },
  {
   "property": "C42",
   "status": "proved",
   "theorems": [
    "Mim.C42_test_iff",
    "Mim.C42_csqp_construct",
    "Mim.C42_wraps",
    "Mim.PROX.C42_prox_construct"
   ],
   "note": ""
  },
  {
   "property": "C49",
   "status": "proved",
   "theorems": [
    "Mim.C49_defaults",
    "Mim.C49_sqp",
    "Mim.C49_ddp",
    "Mim.C49_csqp",
    "Mim.C49_sqp_failed_search_increases",
    "Mim.C49_ddp_failed_search_increases",
    "Mim.C49_default_reginit"
   ],
   "note": ""
  },
  {
   "property": "C41",
   "status": "proved",
   "theorems": [
    "Mim.C41_newton_of_solved",
    "Mim.C41_newton",
    "Mim.C41_stop",
    "Mim.C41_lq_step",
    "Mim.C41_lq_solve"
   ],
   "note": ""
  },
  {
   "property": "C06",
   "status": "proved",
   "theorems": [
    "Mim.C06_residual",
    "Mim.C06_residual_at_kkt",
    "Mim.C06_return",
    "Mim.C06_certifies_infeasible",
    "Mim.C06_refuses_optimum"
   ],
   "note": ""
  },
  {
   "property": "C05",
   "status": "proved",
   "theorems": [
    "Mim.PROX.C05_prox_true_sound",
    "Mim.PROX.C05_prox_residual_meaning",
    "Mim.PROX.C05_prox_true_is_pkkt",
    "Mim.Ex.C05_prox_returned_multipliers_refuted"
   ],
   "note": ""
  },
  {
   "property": "C40",
   "status": "proved",
   "theorems": [
    "Mim.PROX.C40_prox_assembles",
    "Mim.PROX.C40_prox_direction_kkt",
    "Mim.PROX.C40_prox_direction_optimal",
    "Mim.Ex.C40_prox_varying_controls_refuted"
   ],
   "note": ""
  },
  {
   "property": "C47",
   "status": "proved",
   "theorems": [
    "Mim.CSQP.C47_csqp_trial_memory",
    "Mim.CSQP.C47_csqp_trial",
    "Mim.CSQP.C47_csqp_trial_nonneg",
    "Mim.CSQP.C47_csqp_line_search",
    "Mim.Ex.C47_csqp_negative_cost_refuted",
    "Mim.C47_csqp_multipliers_memory",
    "Mim.C47_csqp_multipliers"
   ],
   "note": ""
  },
  {
   "property": "C50",
   "status": "proved",
   "theorems": [
    "Mim.CSQP.C50_csqp_terminates_iff",
    "Mim.CSQP.C50_csqp_nan_terminates",
    "Mim.Ex.C50_csqp_program_terminates"
   ],
   "note": ""
  },
  {
   "property": "C39",
   "status": "proved",
   "theorems": [
    "Mim.Cb.C39_center",
    "Mim.Cb.C39_precision",
    "Mim.Cb.C39_output",
    "Mim.Cb.C39_stream_state",
    "Mim.Cb.C39_ddp_undefined",
    "Mim.Cb.C39_unsupported",
    "Mim.Cb.C39_sqp_columns"
   ],
   "note": ""
  },
  {
   "property": "C52",
   "status": "proved",
   "theorems": [
    "Mim.CSQP.C52_csqp_parallel_solve",
    "Mim.CSQP.C52_csqp_parallel_solve_same",
    "Mim.CSQP.C52_csqp_schedule_independent"
   ],
   "note": ""
  },
  {
   "property": "C53",
   "status": "proved",
   "theorems": [
    "Mim.C53_csqp_iteration_closer",
    "Mim.Ex.C53_example"
   ],
   "note": ""
  },
  {
   "property": "C54",
   "status": "proved",
   "theorems": [
    "Mim.C54_csqp_steady_finite",
    "Mim.C54_csqp_qp_terminates",
    "Mim.Ex.C54_example"
   ],
   "note": ""
  },
  {
   "property": "C55",
   "status": "proved",
   "theorems": [
    "Mim.C55_sqp_history_independence",
    "Mim.C55_sqp_like_new",
    "Mim.Ex.C55_sqp_no_trial_steps",
    "Mim.C55_ddp_history_only_multipliers",
    "Mim.C55_fddp_history_only_multipliers",
    "Mim.Ex.C55_ddp_depends_on_history",
    "Mim.Ex.C55_fddp_depends_on_history",
    "Mim.CSQP.C55_csqp_history_independence",
    "Mim.CSQP.C55_csqp_like_new",
    "Mim.Ex.C55_csqp_warm_multipliers",
    "Mim.Ex.C55_csqp_warm_step",
    "Mim.Ex.C55_csqp_no_qp_iterations",
    "Mim.PROX.C55_prox_history_only_multipliers",
    "Mim.Ex.C55_prox_depends_on_history",
    "Mim.CSQP.C55_csqp_mt_history"
   ],
   "note": ""
  },
  {
   "property": "C56",
   "status": "proved",
   "theorems": [
    "Mim.C56_sqp_false",
    "Mim.C56_sqp_goes_on",
    "Mim.C56_ddp_false",
    "Mim.C56_ddp_goes_on",
    "Mim.PROX.C56_prox_false",
    "Mim.PROX.C56_prox_goes_on",
    "Mim.C56_csqp_false",
    "Mim.C56_csqp_goes_on",
    "Mim.C56_csqp_gives_up",
    "Mim.Ex.C56_csqp_example",
    "Mim.Ex.C56_sqp_example",
    "Mim.Ex.C56_sqp_example_next",
    "Mim.Ex.C56_ddp_example"
   ],
   "note": ""
  },
  {
   "property": "C57",
   "status": "proved",
   "theorems": [
    "Mim.C57_backward_iff",
    "Mim.C57_sqp_direction_iff",
    "Mim.C57_ddp_direction_iff",
    "Mim.C57_sqp_convex",
    "Mim.C57_ddp_convex",
    "Mim.C57_sqp_retry_cures",
    "Mim.C57_ddp_retry_cures",
    "Mim.Ex.C57_convex_example",
    "Mim.Ex.C57_cure_example"
   ],
   "note": ""
  },
  {
   "property": "C58",
   "status": "proved",
   "theorems": [
    "Mim.C58_sqp_convex_lq",
    "Mim.Ex.C58_example",
    "Mim.Ex.lq_inRange"
   ],
   "note": ""
  },
  {
   "property": "C59",
   "status": "proved",
   "theorems": [
    "Mim.C59_ddp_kkt_point",
    "Mim.Ex.C59_example",
    "Mim.Ex.C59_two_are_not_enough"
   ],
   "note": ""
  },
  {
   "property": "C60",
   "status": "proved",
   "theorems": [
    "Mim.C60_ddp_convex_lq",
    "Mim.Ex.C60_example"
   ],
   "note": ""
  },
  {
   "property": "C61",
   "status": "proved",
   "theorems": [
    "Mim.C61_fddp_filter_stalls",
    "Mim.DDP.fddp_refuses",
    "Mim.Ex.C61_example",
    "Mim.Ex.C61_others_solve"
   ],
   "note": ""
  },
  {
   "property": "C62",
   "status": "proved",
   "theorems": [
    "Mim.C62_fddp_kkt_point",
    "Mim.Ex.C62_example"
   ],
   "note": ""
  },
  {
   "property": "C63",
   "status": "proved",
   "theorems": [
    "Mim.C63_fddp_convex_lq",
    "Mim.DDP.full_step_exact",
    "Mim.Ex.C63_example",
    "Mim.Ex.C63_instead_of_the_filter"
   ],
   "note": ""
  },
  {
   "property": "C64",
   "status": "proved",
   "theorems": [
    "Mim.C64_kkt_suboptimality",
    "Mim.C64_sqp_suboptimality",
    "Mim.C64_ddp_suboptimality"
   ],
   "note": ""
  },
  {
   "property": "C65",
   "status": "proved",
   "theorems": [
    "Mim.C65_ckkt_suboptimality",
    "Mim.CSQP.C65_csqp_suboptimality",
    "Mim.PROX.C65_prox_suboptimality",
    "Mim.Ex.C65_gap_needed",
    "Mim.Ex.C65_prox_example"
   ],
   "note": ""
  },
  {
   "property": "C66",
   "status": "proved",
   "theorems": [
    "Mim.C66_csqp_pass_iff",
    "Mim.CSQP.C66_csqp_direction",
    "Mim.CSQP.C66_csqp_direction_iff",
    "Mim.CSQP.C66_csqp_convex_direction",
    "Mim.CSQP.C66_csqp_convex",
    "Mim.CSQP.C66_csqp_retry_cures",
    "Mim.Ex.C66_lin_example",
    "Mim.Ex.C66_warm_start_throws",
    "Mim.Ex.C66_warm_start_regularized"
   ],
   "note": ""
  },
  {
   "property": "C67",
   "status": "proved",
   "theorems": [
    "Mim.CSQP.C67_csqp_recognises",
    "Mim.CSQP.C67_csqp_recognises_convex",
    "Mim.Ex.C67_example",
    "Mim.Ex.C67_warm_start_leaves",
    "Mim.PROX.C67_prox_recognises",
    "Mim.Ex.C67_prox_example",
    "Mim.Ex.C67_prox_cold_multipliers"
   ],
   "note": ""
  },
  {
   "property": "C68",
   "status": "proved",
   "theorems": [
    "Mim.PySQP.C68_py_certificate",
    "Mim.PySQP.C68_py_direction",
    "Mim.PySQP.C68_py_direction_iff",
    "Mim.PySQP.C68_py_history",
    "Mim.Ex.pyLq_true"
   ],
   "note": ""
  },
  {
   "property": "C69",
   "status": "proved",
   "theorems": [
    "Mim.C69_direction_agrees",
    "Mim.C69_iteration",
    "Mim.C69_line_search",
    "Mim.Ex.C69_tie_example"
   ],
   "note": ""
  },
  {
   "property": "C70",
   "status": "proved",
   "theorems": [
    "Mim.PySQP.C70_py_stall",
    "Mim.PySQP.C70_py_merit_nine",
    "Mim.PySQP.C70_py_outcomes",
    "Mim.PySQP.C70_py_at_solution",
    "Mim.Ex.C70_py_stall_example",
    "Mim.Ex.C70_py_merit_example",
    "Mim.Ex.C70_py_type_error"
   ],
   "note": ""
  },
  {
   "property": "C71",
   "status": "proved",
   "theorems": [
    "Mim.PROX.C71_prox_constrained_lq",
    "Mim.Ex.C71_prox_example"
   ],
   "note": ""
  },
  {
   "property": "C72",
   "status": "proved",
   "theorems": [
    "Mim.C72_sqp_policy",
    "Mim.C72_ddp_policy",
    "Mim.C72_csqp_policy",
    "Mim.Ex.C72_sqp_example",
    "Mim.Ex.C72_ddp_example",
    "Mim.Ex.C72_limits"
   ],
   "note": ""
  },
  {
   "property": "C73",
   "status": "proved",
   "theorems": [
    "Mim.PyCSQP.C73_pycsqp_certificate",
    "Mim.Ex.C73_pycsqp_no_complementarity"
   ],
   "note": ""
  },
  {
   "property": "C74",
   "status": "proved",
   "theorems": [
    "Mim.C74_pycsqp_direction",
    "Mim.C74_pycsqp_fresh",
    "Mim.C74_default_conf",
    "Mim.C74_pycsqp_iteration",
    "Mim.C74_pycsqp_lockstep",
    "Mim.Ex.C74_example"
   ],
   "note": ""
  },
  {
   "property": "C75",
   "status": "proved",
   "theorems": [
    "Mim.PyCSQP.C75_pycsqp_filter",
    "Mim.PyCSQP.C75_filter_never_gives_up",
    "Mim.PyCSQP.C75_affine_full_step",
    "Mim.PyCSQP.C75_gap_contraction",
    "Mim.PyCSQP.C75_auto_weights",
    "Mim.PyCSQP.C75_fresh_auto_weights",
    "Mim.Ex.C75_filter_stall",
    "Mim.Ex.C75_cpp_moves"
   ],
   "note": ""
  },
  {
   "property": "C76",
   "status": "proved",
   "theorems": [
    "Mim.PyCSQP.C76_pycsqp_raises_iff",
    "Mim.PyCSQP.C76_maxiter_zero"
   ],
   "note": ""
  },
  {
   "property": "C77",
   "status": "proved",
   "theorems": [
    "Mim.PyCSQP.C77_pycsqp_only_multipliers",
    "Mim.PyCSQP.C77_pycsqp_history",
    "Mim.Ex.C77_pycsqp_remembers"
   ],
   "note": ""
  },
  {
   "property": "C78",
   "status": "proved",
   "theorems": [
    "Mim.SQPCpp.C78_cpp_return",
    "Mim.SQPCpp.C78_cpp_maxiter_zero",
    "Mim.SQPCpp.C78_cpp_certificate"
   ],
   "note": ""
  },
  {
   "property": "C79",
   "status": "proved",
   "theorems": [
    "Mim.SQPCpp.C79_cpp_direction",
    "Mim.SQPCpp.C79_cpp_stale",
    "Mim.Ex.C79_cpp_history"
   ],
   "note": ""
  },
  {
   "property": "C80",
   "status": "proved",
   "theorems": [
    "Mim.SQPCpp.C80_cpp_mirror",
    "Mim.SQPCpp.C80_cpp_not_optimal",
    "Mim.SQPCpp.C80_cpp_overshoot",
    "Mim.Ex.C80_cpp_example",
    "Mim.Ex.C80_cpp_numbers",
    "Mim.Ex.C80_cpp_infeasible_result"
   ],
   "note": ""
  },
  {
   "property": "C81",
   "status": "proved",
   "theorems": [
    "Mim.SQPCpp.C81_cpp_merit_false",
    "Mim.Ex.C81_cpp_example"
   ],
   "note": ""
  },
  {
   "property": "C82",
   "status": "proved",
   "theorems": [
    "Mim.SQPCpp.C82_cpp_accepted",
    "Mim.Ex.C82_cpp_example"
   ],
   "note": ""
  },
  {
   "property": "C83",
   "status": "proved",
   "theorems": [
    "Mim.PyQP.C83_pyqp_norms",
    "Mim.PyQP.C83_pyqp_penalty",
    "Mim.PyQP.C83_pyqp_stop"
   ],
   "note": ""
  },
  {
   "property": "C84",
   "status": "proved",
   "theorems": [
    "Mim.PyFull.C84_dense_problem",
    "Mim.PyFull.C84_dense_direction",
    "Mim.PyFull.C84_dense_optimal",
    "Mim.PyFull.C84_custom_suboptimal",
    "Mim.PyFull.C84_boyd_dynamics",
    "Mim.PyFull.C84_fixed_points"
   ],
   "note": ""
  },
  {
   "property": "C85",
   "status": "proved",
   "theorems": [
    "Mim.OState.C85_osqp_raises",
    "Mim.OState.C85_osqp_no_memory",
    "Mim.OState.C85_osqp_result",
    "Mim.OState.C85_osqp_suboptimal",
    "Mim.OState.C85_osqp_fixed",
    "Mim.OState.C85_osqp_fejer",
    "Mim.OState.C85_osqp_rate",
    "Mim.OState.C85_osqp_penalties"
   ],
   "note": ""
  },
  {
   "property": "C86",
   "status": "proved",
   "theorems": [
    "Mim.BState.C86_boyd_raises",
    "Mim.BState.C86_boyd_result",
    "Mim.BState.C86_boyd_stationarity",
    "Mim.BState.C86_boyd_fixed",
    "Mim.BState.C86_boyd_fejer",
    "Mim.BState.C86_boyd_rate",
    "Mim.BState.C86_boyd_converged_not_stationary",
    "Mim.BState.C86_boyd_has_memory",
    "Mim.BState.C86_boyd_penalties"
   ],
   "note": ""
  },
  {
   "property": "C87",
   "status": "proved",
   "theorems": [
    "Mim.PyFull.C87_dense_raises",
    "Mim.PyFull.C87_python_raises",
    "Mim.PyFull.C87_dense_qps",
    "Mim.PyFull.C87_dense_filter",
    "Mim.PyFull.C87_dense_certificate",
    "Mim.PyFull.C87_dense_merit"
   ],
   "note": ""
  },
  {
   "property": "C88",
   "status": "proved",
   "theorems": [
    "Mim.PyFull.C88_dense_constrained_lq",
    "Mim.Ex.C88_dense_example"
   ],
   "note": ""
  },
  {
   "property": "C89",
   "status": "proved",
   "theorems": [
    "Mim.PyFull.C89_dense_history",
    "Mim.PyFull.C89_dense_no_memory",
    "Mim.PyFull.C89_custom_no_memory",
    "Mim.Ex.C89_boyd_remembers"
   ],
   "note": ""
  },
  {
   "property": "C90",
   "status": "proved",
   "theorems": [
    "Mim.KKT.C90_kkt_expected",
    "Mim.KKT.C90_kkt_search",
    "Mim.C90_kkt_descent",
    "Mim.C90_kkt_lq_feasible"
   ],
   "note": ""
  },
  {
   "property": "C91",
   "status": "proved",
   "theorems": [
    "Mim.PyFull.C91_hpipm_ocp_problem",
    "Mim.PyFull.C91_hpipm_dense_problem",
    "Mim.PyFull.C91_hpipm_dense_direction",
    "Mim.PyFull.C91_hpipm_ocp_direction",
    "Mim.PyFull.C91_hpipm_optimal",
    "Mim.PyFull.C91_hpipm_no_lower"
   ],
   "note": ""
  },
  {
   "property": "C92",
   "status": "proved",
   "theorems": [
    "Mim.PyFull.C92_hpipm_ocp_blind",
    "Mim.PyFull.C92_hpipm_dense_sign",
    "Mim.Ex.C92_hpipm_ocp_never",
    "Mim.Ex.C92_hpipm_ocp_example",
    "Mim.Ex.C92_hpipm_dense_never",
    "Mim.Ex.C92_hpipm_dense_example"
   ],
   "note": ""
  },
  {
   "property": "C93",
   "status": "proved",
   "theorems": [
    "Mim.C93_kkt_history",
    "Mim.C93_kkt_history_default",
    "Mim.Ex.C93_was_feasible_matters"
   ],
   "note": ""
  },
  {
   "property": "C94",
   "status": "proved",
   "theorems": [
    "Mim.C94_sqp_filter_small_steps",
    "Mim.C94_sqp_merit_small_steps",
    "Mim.C94_sqp_search_succeeds",
    "Mim.Ex.C94_example"
   ],
   "note": ""
  },
  {
   "property": "C95",
   "status": "proved",
   "theorems": [
    "Mim.C95_ddp_small_steps",
    "Mim.C95_ddp_search_succeeds",
    "Mim.C95_fddp_small_steps",
    "Mim.Ex.C95_example"
   ],
   "note": ""
  },
  {
   "property": "C96",
   "status": "proved",
   "theorems": [
    "Mim.C96_fddp_first_order",
    "Mim.C96_fddp_small_accepted",
    "Mim.C96_fddp_small_refused",
    "Mim.Ex.C96_fddp_refuses"
   ],
   "note": ""
  },
  {
   "property": "C97",
   "status": "proved",
   "theorems": [
    "Mim.PROX.C97_prox_filter_small_steps",
    "Mim.PROX.C97_prox_merit_small_steps",
    "Mim.PROX.C97_prox_search_succeeds",
    "Mim.Ex.C97_example"
   ],
   "note": ""
  },
  {
   "property": "C98",
   "status": "proved",
   "theorems": [
    "Mim.CSQP.C98_csqp_gaps_small_steps",
    "Mim.CSQP.C98_csqp_filter_small_steps",
    "Mim.CSQP.C98_csqp_merit_small_steps",
    "Mim.CSQP.C98_csqp_search_succeeds",
    "Mim.Ex.C98_example_gaps",
    "Mim.Ex.C98_example"
   ],
   "note": ""
  },
  {
   "property": "C99",
   "status": "proved",
   "theorems": [
    "Mim.C99_logger_csqp",
    "Mim.C99_logger_sqp",
    "Mim.C99_logger_ddp",
    "Mim.C99_logger_other",
    "Mim.C99_csqp_rows",
    "Mim.C99_sqp_rows"
   ],
   "note": ""
  },
  {
   "property": "C100",
   "status": "proved",
   "theorems": [
    "Mim.C100_settings_sqp",
    "Mim.C100_settings_ddp",
    "Mim.C100_settings_fddp",
    "Mim.C100_settings_csqp",
    "Mim.C100_settings_prox",
    "Mim.C100_undefined"
   ],
   "note": ""
  },
  {
   "property": "C101",
   "status": "proved",
   "theorems": [
    "Mim.C101_zero_of_cost",
    "Mim.C101_unit_of_cost",
    "Mim.C101_unit_of_cost_steps",
    "Mim.Ex.C101_example",
    "Mim.Ex.C101_same_tolerance_differs",
    "Mim.Ex.C101_scaled_tolerance_differs"
   ],
   "note": ""
  },
  {
   "property": "C102",
   "status": "proved",
   "theorems": [
    "Mim.C102_sqp_split",
    "Mim.Ex.C102_example",
    "Mim.Ex.C102_split_after_failed_search"
   ],
   "note": ""
  },
  {
   "property": "C103",
   "status": "proved",
   "theorems": [
    "Mim.C103_ddp_split",
    "Mim.C103_fddp_split",
    "Mim.Ex.C103_ddp_example",
    "Mim.Ex.C103_fddp_example"
   ],
   "note": ""
  },
  {
   "property": "C104",
   "status": "proved",
   "theorems": [
    "Mim.C104_csqp_split",
    "Mim.Ex.C104_csqp_example",
    "Mim.Ex.C104_csqp_adapted_penalties"
   ],
   "note": ""
  },
  {
   "property": "C105",
   "status": "proved",
   "theorems": [
    "Mim.C105_prox_split",
    "Mim.Ex.C105_prox_example"
   ],
   "note": ""
  },
  {
   "property": "C106",
   "status": "proved",
   "theorems": [
    "Mim.C106_ddp_sizes",
    "Mim.C106_fddp_sizes",
    "Mim.C106_sqp_sizes",
    "Mim.C106_csqp_overflow",
    "Mim.C106_lost_update",
    "Mim.Ex.C106_ddp_example",
    "Mim.Ex.C106_fddp_example",
    "Mim.Ex.C106_sqp_example",
    "Mim.Ex.C106_csqp_example",
    "Mim.Ex.C106_lost_example"
   ],
   "note": ""
  },
  {
   "property": "C107",
   "status": "proved",
   "theorems": [
    "Mim.C107_csqp_sizes",
    "Mim.C107_csqp_stale",
    "Mim.C107_csqp_lost",
    "Mim.C107_csqp_guess",
    "Mim.Ex.C107_guess_example",
    "Mim.Ex.C107_sizes_example",
    "Mim.Ex.C107_stale_example",
    "Mim.Ex.C107_lost_example"
   ],
   "note": ""
  }
 ]
}