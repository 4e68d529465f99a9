C01 proved
 C01_sqp_true_sound
C02 proved
 C02_sqp_residual_meaning
C03 proved
 C03_csqp_true_sound C03_csqp_residual_meaning C03_csqp_true_is_ckkt Ex.C03_csqp_no_complementarity
C04 proved
 C04_ddp_true_sound C04_ddp_true_is_kkt
C07 proved
 C07_sqp_initial_state C07_csqp_initial_state PROX.C07_prox_initial_state
C08 proved
 C08_sqp_counts C08_ddp_counts C08_csqp_counts C08_kkt_bounds PROX.C08_prox_counts
C09 proved
 C09_sqp_diverges C09_sqp_zero_diverges C09_sqp_terminates_bound C09_sqp_terminates C09_sqp_gives_up Ex.C09_sqp_concave_hangs C09_ddp_diverges C09_ddp_zero_diverges C09_ddp_terminates_bound C09_ddp_terminates C09_ddp_gives_up Ex.C09_ddp_concave_hangs C09_csqp_diverges C09_csqp_zero_diverges C09_csqp_terminates_bound C09_csqp_terminates C09_csqp_removed_terminates C09_csqp_gives_up Ex.C09_csqp_concave_hangs PROX.C09_prox_diverges PROX.C09_prox_zero_diverges PROX.C09_prox_terminates_bound PROX.C09_prox_terminates PROX.C09_prox_gives_up Ex.C09_prox_hangs C09_sqp_fuel C09_ddp_fuel C09_csqp_fuel C09_csqp_mt_fuel PROX.C09_prox_fuel
C10 proved
 C10_sqp_preg_eq_dreg C10_sqp_range C10_ddp_preg_eq_dreg C10_ddp_range C10_csqp_preg_eq_dreg C10_csqp_removed C10_csqp_range PROX.C10_prox_preg_eq_dreg PROX.C10_prox_range
C11 proved
 C11_sqp_filter Ex.C11_sqp_shrunk_filter_refuted C11_fddp_filter CSQP.C11_csqp_filter Ex.C11_csqp_shrunk_filter_refuted PROX.C11_prox_filter Ex.C11_prox_shrunk_filter_refuted
C12 proved
 C12_sqp_filter_noninterference C12_fddp_filter_noninterference CSQP.C12_csqp_filter_noninterference PROX.C12_prox_filter_noninterference
C13 proved
 C13_sqp_filter_one C13_fddp_filter_one CSQP.C13_csqp_filter_one PROX.C13_prox_filter_one
C14 proved
 C14_sqp_nan C14_sqp_nan_cost Ex.C14_sqp_filter_accepts_nan C14_ddp_nan CSQP.C14_csqp_nan Ex.C14_csqp_filter_accepts_nan PROX.C14_prox_nan Ex.C14_prox_filter_accepts_nan
C15 proved
 C15_sqp_step_decreases C15_sqp_merit_monotone CSQP.C15_csqp_step_decreases CSQP.C15_csqp_merit_monotone PROX.C15_prox_merit_monotone
C16 proved
 C16_sqp_first_acceptable C16_ddp_first_acceptable C16_fddp_first_acceptable CSQP.C16_csqp_first_acceptable PROX.C16_prox_first_acceptable
C17 proved
 C17_sqp_directions_fresh C17_sqp_true_is_kkt Ex.C17_sqp_stale_certificate_refuted C17_ddp_directions_fresh CSQP.C17_csqp_directions_fresh PROX.C17_prox_directions_fresh
C37 proved
 C37_sqp_failed_search C37_sqp_failed_search_increases Ex.C37_sqp_custom_alphas_refuted C37_ddp_failed_search C37_ddp_failed_search_increases PROX.C37_prox_failed_search PROX.C37_prox_failed_search_increases Ex.C37_prox_custom_alphas_refuted
C38 proved
 C38_sqp_callbacks C38_ddp_callbacks C38_csqp_callbacks PROX.C38_prox_callbacks
C18 proved
 C18_sqp_direction_kkt C18_sqp_every_iteration
C19 proved
 C19_sqp_direction_minimal C19_sqp_excess
C20 proved
 C20_sqp_gap_contraction C20_fddp_gap_contraction C20_csqp_gap_contraction PROX.C20_prox_gap_contraction
C44 proved
 C44_sqp_lq_one_step Ex.C44_nonvacuous
C51 proved
 C51_sqp_fixed_point
C21 proved
 C21_ddp_trial C21_fddp_trial C21_feasible_flag C21_ddp_returned
C22 proved
 C22_ddp_expected_improvement C22_ddp_armijo
C23 proved
 C23_fddp_gap_try Ex.C23_positive_gap_measured_zero Ex.C23_feasible_trial_refused
C48 proved
 C48_stop_meaning C48_stop_noninterference
C34 proved
 C34_csqp_steplength_constant C34_csqp_reg_ignores_step
C43 proved
 C43_csqp_no_escape C43_csqp_escapes C43_csqp_solve_escapes
C24 proved
 C24_csqp_iteration_is_admm_step C24_csqp_admm_steps
C25 proved
 C25_csqp_cheap_pass_is_full C25_csqp_cheap_passes_are_full C25_csqp_cheap_passes_are_full_mt
C26 proved
 C26_csqp_pass_schedule_independent C26_csqp_schedule_independent C26_csqp_cheap_pass_mt C26_csqp_full_pass_mt C26_csqp_direction_mt
C29 proved
 C29_csqp_rho_range
 note: the range is that of the base penalty returned by get_rho_sparse; equality rows use 1e3 times it.
C30 proved
 C30_csqp_row_penalties C30_csqp_crossed_rows
C31 proved
 CSQP.C31_csqp_set_rho_sparse
 note: the only exception is a solve whose very first clock check has already expired.
C27 proved
 C27_csqp_iteration C27_csqp_multipliers
C28 proved
 C28_csqp_residual C28_csqp_settled_kkt C28_csqp_settled_solves Ex.C28_csqp_stop_ignores_prox
C32 proved
 C32_csqp_qp_iters C32_csqp_stops_at_first C32_csqp_tolerances C32_csqp_norms
C33 proved
 C33_csqp_qp_iterations C33_csqp_head C33_csqp_no_qp C33_csqp_before_first Ex.C33_csqp_limit_not_enforced
C45 proved
 C45_csqp_start_of_qp C45_csqp_history
C46 proved
 C46_csqp_unique_minimiser C46_csqp_multipliers C46_csqp_same_as_sqp
C35 proved
 C35_setter_atomic C35_setter_accepts_iff C35_setter_nan C35_fddp_th_acceptnegstep C35_history Ex.C35_min_le_max_not_kept
C36 proved
 C36_set_alphas C36_empty_undefined C36_singleton C36_nan_list C36_step_above_one C36_search_skips C36_exact
C42 proved
 C42_test_iff C42_csqp_construct C42_wraps PROX.C42_prox_construct
C49 proved
 C49_defaults C49_sqp C49_ddp C49_csqp C49_sqp_failed_search_increases C49_ddp_failed_search_increases C49_default_reginit
C41 proved
 C41_newton_of_solved C41_newton C41_stop C41_lq_step C41_lq_solve
C06 proved
 C06_residual C06_residual_at_kkt C06_return C06_certifies_infeasible C06_refuses_optimum
C05 proved
 PROX.C05_prox_true_sound PROX.C05_prox_residual_meaning PROX.C05_prox_true_is_pkkt Ex.C05_prox_returned_multipliers_refuted
C40 proved
 PROX.C40_prox_assembles PROX.C40_prox_direction_kkt PROX.C40_prox_direction_optimal Ex.C40_prox_varying_controls_refuted
C47 proved
 CSQP.C47_csqp_trial_memory CSQP.C47_csqp_trial CSQP.C47_csqp_trial_nonneg CSQP.C47_csqp_line_search Ex.C47_csqp_negative_cost_refuted C47_csqp_multipliers_memory C47_csqp_multipliers
C50 proved
 CSQP.C50_csqp_terminates_iff CSQP.C50_csqp_nan_terminates Ex.C50_csqp_program_terminates
C39 proved
 Cb.C39_center Cb.C39_precision Cb.C39_output Cb.C39_stream_state Cb.C39_ddp_undefined Cb.C39_unsupported Cb.C39_sqp_columns
C52 proved
 CSQP.C52_csqp_parallel_solve CSQP.C52_csqp_parallel_solve_same CSQP.C52_csqp_schedule_independent
C53 proved
 C53_csqp_iteration_closer Ex.C53_example
C54 proved
 C54_csqp_steady_finite C54_csqp_qp_terminates Ex.C54_example
C55 proved
 C55_sqp_history_independence C55_sqp_like_new Ex.C55_sqp_no_trial_steps C55_ddp_history_only_multipliers C55_fddp_history_only_multipliers Ex.C55_ddp_depends_on_history Ex.C55_fddp_depends_on_history CSQP.C55_csqp_history_independence CSQP.C55_csqp_like_new Ex.C55_csqp_warm_multipliers Ex.C55_csqp_warm_step Ex.C55_csqp_no_qp_iterations PROX.C55_prox_history_only_multipliers Ex.C55_prox_depends_on_history CSQP.C55_csqp_mt_history
C56 proved
 C56_sqp_false C56_sqp_goes_on C56_ddp_false C56_ddp_goes_on PROX.C56_prox_false PROX.C56_prox_goes_on C56_csqp_false C56_csqp_goes_on C56_csqp_gives_up Ex.C56_csqp_example Ex.C56_sqp_example Ex.C56_sqp_example_next Ex.C56_ddp_example
C57 proved
 C57_backward_iff C57_sqp_direction_iff C57_ddp_direction_iff C57_sqp_convex C57_ddp_convex C57_sqp_retry_cures C57_ddp_retry_cures Ex.C57_convex_example Ex.C57_cure_example
C58 proved
 C58_sqp_convex_lq Ex.C58_example Ex.lq_inRange
C59 proved
 C59_ddp_kkt_point Ex.C59_example Ex.C59_two_are_not_enough
C60 proved
 C60_ddp_convex_lq Ex.C60_example
C61 proved
 C61_fddp_filter_stalls DDP.fddp_refuses Ex.C61_example Ex.C61_others_solve
C62 proved
 C62_fddp_kkt_point Ex.C62_example
C63 proved
 C63_fddp_convex_lq DDP.full_step_exact Ex.C63_example Ex.C63_instead_of_the_filter
C64 proved
 C64_kkt_suboptimality C64_sqp_suboptimality C64_ddp_suboptimality
C65 proved
 C65_ckkt_suboptimality CSQP.C65_csqp_suboptimality PROX.C65_prox_suboptimality Ex.C65_gap_needed Ex.C65_prox_example
C66 proved
 C66_csqp_pass_iff CSQP.C66_csqp_direction CSQP.C66_csqp_direction_iff CSQP.C66_csqp_convex_direction CSQP.C66_csqp_convex CSQP.C66_csqp_retry_cures Ex.C66_lin_example Ex.C66_warm_start_throws Ex.C66_warm_start_regularized
C67 proved
 CSQP.C67_csqp_recognises CSQP.C67_csqp_recognises_convex Ex.C67_example Ex.C67_warm_start_leaves PROX.C67_prox_recognises Ex.C67_prox_example Ex.C67_prox_cold_multipliers
C68 proved
 PySQP.C68_py_certificate PySQP.C68_py_direction PySQP.C68_py_direction_iff PySQP.C68_py_history Ex.pyLq_true
C69 proved
 C69_direction_agrees C69_iteration C69_line_search Ex.C69_tie_example
C70 proved
 PySQP.C70_py_stall PySQP.C70_py_merit_nine PySQP.C70_py_outcomes PySQP.C70_py_at_solution Ex.C70_py_stall_example Ex.C70_py_merit_example Ex.C70_py_type_error
C71 proved
 PROX.C71_prox_constrained_lq Ex.C71_prox_example
C72 proved
 C72_sqp_policy C72_ddp_policy C72_csqp_policy Ex.C72_sqp_example Ex.C72_ddp_example Ex.C72_limits
C73 proved
 PyCSQP.C73_pycsqp_certificate Ex.C73_pycsqp_no_complementarity
C74 proved
 C74_pycsqp_direction C74_pycsqp_fresh C74_default_conf C74_pycsqp_iteration C74_pycsqp_lockstep Ex.C74_example
C75 proved
 PyCSQP.C75_pycsqp_filter PyCSQP.C75_filter_never_gives_up PyCSQP.C75_affine_full_step PyCSQP.C75_gap_contraction PyCSQP.C75_auto_weights PyCSQP.C75_fresh_auto_weights Ex.C75_filter_stall Ex.C75_cpp_moves
C76 proved
 PyCSQP.C76_pycsqp_raises_iff PyCSQP.C76_maxiter_zero
C77 proved
 PyCSQP.C77_pycsqp_only_multipliers PyCSQP.C77_pycsqp_history Ex.C77_pycsqp_remembers
C78 proved
 SQPCpp.C78_cpp_return SQPCpp.C78_cpp_maxiter_zero SQPCpp.C78_cpp_certificate
C79 proved
 SQPCpp.C79_cpp_direction SQPCpp.C79_cpp_stale Ex.C79_cpp_history
C80 proved
 SQPCpp.C80_cpp_mirror SQPCpp.C80_cpp_not_optimal SQPCpp.C80_cpp_overshoot Ex.C80_cpp_example Ex.C80_cpp_numbers Ex.C80_cpp_infeasible_result
C81 proved
 SQPCpp.C81_cpp_merit_false Ex.C81_cpp_example
C82 proved
 SQPCpp.C82_cpp_accepted Ex.C82_cpp_example
C83 proved
 PyQP.C83_pyqp_norms PyQP.C83_pyqp_penalty PyQP.C83_pyqp_stop
C84 proved
 PyFull.C84_dense_problem PyFull.C84_dense_direction PyFull.C84_dense_optimal PyFull.C84_custom_suboptimal PyFull.C84_boyd_dynamics PyFull.C84_fixed_points
C85 proved
 OState.C85_osqp_raises OState.C85_osqp_no_memory OState.C85_osqp_result OState.C85_osqp_suboptimal OState.C85_osqp_fixed OState.C85_osqp_fejer OState.C85_osqp_rate OState.C85_osqp_penalties
C86 proved
 BState.C86_boyd_raises BState.C86_boyd_result BState.C86_boyd_stationarity BState.C86_boyd_fixed BState.C86_boyd_fejer BState.C86_boyd_rate BState.C86_boyd_converged_not_stationary BState.C86_boyd_has_memory BState.C86_boyd_penalties
C87 proved
 PyFull.C87_dense_raises PyFull.C87_python_raises PyFull.C87_dense_qps PyFull.C87_dense_filter PyFull.C87_dense_certificate PyFull.C87_dense_merit
C88 proved
 PyFull.C88_dense_constrained_lq Ex.C88_dense_example
C89 proved
 PyFull.C89_dense_history PyFull.C89_dense_no_memory PyFull.C89_custom_no_memory Ex.C89_boyd_remembers
C90 proved
 KKT.C90_kkt_expected KKT.C90_kkt_search C90_kkt_descent C90_kkt_lq_feasible
C91 proved
 PyFull.C91_hpipm_ocp_problem PyFull.C91_hpipm_dense_problem PyFull.C91_hpipm_dense_direction PyFull.C91_hpipm_ocp_direction PyFull.C91_hpipm_optimal PyFull.C91_hpipm_no_lower
C92 proved
 PyFull.C92_hpipm_ocp_blind PyFull.C92_hpipm_dense_sign Ex.C92_hpipm_ocp_never Ex.C92_hpipm_ocp_example Ex.C92_hpipm_dense_never Ex.C92_hpipm_dense_example
C93 proved
 C93_kkt_history C93_kkt_history_default Ex.C93_was_feasible_matters
C94 proved
 C94_sqp_filter_small_steps C94_sqp_merit_small_steps C94_sqp_search_succeeds Ex.C94_example
C95 proved
 C95_ddp_small_steps C95_ddp_search_succeeds C95_fddp_small_steps Ex.C95_example
C96 proved
 C96_fddp_first_order C96_fddp_small_accepted C96_fddp_small_refused Ex.C96_fddp_refuses
C97 proved
 PROX.C97_prox_filter_small_steps PROX.C97_prox_merit_small_steps PROX.C97_prox_search_succeeds Ex.C97_example
C98 proved
 CSQP.C98_csqp_gaps_small_steps CSQP.C98_csqp_filter_small_steps CSQP.C98_csqp_merit_small_steps CSQP.C98_csqp_search_succeeds Ex.C98_example_gaps Ex.C98_example
C99 proved
 C99_logger_csqp C99_logger_sqp C99_logger_ddp C99_logger_other C99_csqp_rows C99_sqp_rows
C100 proved
 C100_settings_sqp C100_settings_ddp C100_settings_fddp C100_settings_csqp C100_settings_prox C100_undefined
C101 proved
 C101_zero_of_cost C101_unit_of_cost C101_unit_of_cost_steps Ex.C101_example Ex.C101_same_tolerance_differs Ex.C101_scaled_tolerance_differs
C102 proved
 C102_sqp_split Ex.C102_example Ex.C102_split_after_failed_search
C103 proved
 C103_ddp_split C103_fddp_split Ex.C103_ddp_example Ex.C103_fddp_example
C104 proved
 C104_csqp_split Ex.C104_csqp_example Ex.C104_csqp_adapted_penalties
C105 proved
 C105_prox_split Ex.C105_prox_example
C106 proved
 C106_ddp_sizes C106_fddp_sizes C106_sqp_sizes C106_csqp_overflow C106_lost_update Ex.C106_ddp_example Ex.C106_fddp_example Ex.C106_sqp_example Ex.C106_csqp_example Ex.C106_lost_example
C107 proved
 C107_csqp_sizes C107_csqp_stale C107_csqp_lost C107_csqp_guess Ex.C107_guess_example Ex.C107_sizes_example Ex.C107_stale_example Ex.C107_lost_example
