'VGPA.C01_moments' depends on axioms: [propext, Classical.choice, Quot.sound]
'VGPA.C01_bad_order' depends on axioms: [propext, Classical.choice, Quot.sound]
'VGPA.C01_entry' depends on axioms: [propext, Classical.choice, Quot.sound]
'VGPA.C02_dm' depends on axioms: [propext, Classical.choice, Quot.sound]
'VGPA.C02_ds' depends on axioms: [propext, Classical.choice, Quot.sound]
'VGPA.C02_bad_order' depends on axioms: [propext, Classical.choice, Quot.sound]
'VGPA.C03_runtimeError_violated' depends on axioms: [propext, Classical.choice, Quot.sound]
'VGPA.C03_mismatch_partial' depends on axioms: [propext, Classical.choice, Quot.sound]
'VGPA.C04_split_invariance' depends on axioms: [propext, Classical.choice, Quot.sound]
'VGPA.C04_sorted_needed' depends on axioms: [propext, Classical.choice, Quot.sound]
'VGPA.C05_linear' depends on axioms: [propext, Classical.choice, Quot.sound]
'VGPA.C05_affine_exact' depends on axioms: [propext, Classical.choice, Quot.sound]
'VGPA.C05_nonneg' depends on axioms: [propext, Classical.choice, Quot.sound]
'VGPA.C05_monotone' depends on axioms: [propext, Classical.choice, Quot.sound]
'VGPA.C06_evaluation_points' depends on axioms: [propext, Classical.choice, Quot.sound]
'VGPA.C06_exact_on_quadratics' depends on axioms: [propext, Classical.choice, Quot.sound]
'VGPA.C07_error_bound' depends on axioms: [propext, Classical.choice, Quot.sound]
'VGPA.C08_safe_log' depends on axioms: [propext, Classical.choice, Quot.sound]
'VGPA.C08_clips' depends on axioms: [propext, Classical.choice, Quot.sound]
'VGPA.C09_matrix' depends on axioms: [propext, Classical.choice, Quot.sound]
'VGPA.C09_scalar' depends on axioms: [propext, Classical.choice, Quot.sound]
'VGPA.C09_vector' depends on axioms: [propext, Classical.choice, Quot.sound]
'VGPA.C09_vector_error' depends on axioms: [propext, Classical.choice, Quot.sound]
'VGPA.C09_not_square' depends on axioms: [propext, Classical.choice, Quot.sound]
'VGPA.C09_not_posDef' depends on axioms: [propext, Classical.choice, Quot.sound]
'VGPA.C10_inverse' depends on axioms: [propext, Classical.choice, Quot.sound]
'VGPA.C10_error' depends on axioms: [propext, Classical.choice, Quot.sound]
'VGPA.C10_scalar' depends on axioms: [propext, Classical.choice, Quot.sound]
'VGPA.C11_lower_triangle_only' depends on axioms: [propext, Classical.choice, Quot.sound]
'VGPA.C11_result_of_symmetrised' depends on axioms: [propext, Classical.choice, Quot.sound]
'VGPA.C11_not_the_inverse' depends on axioms: [propext, Classical.choice, Quot.sound]
'VGPA.C12_sigma_points' depends on axioms: [propext, Classical.choice, Quot.sound]
'VGPA.C12_calls_once' depends on axioms: [propext, Classical.choice, Quot.sound]
'VGPA.C12_affine_exact' depends on axioms: [propext, Classical.choice, Quot.sound]
'VGPA.C12_quadratic_exact' depends on axioms: [propext, Classical.choice, Quot.sound]
'VGPA.C13_fallback_partial' depends on axioms: [propext, Classical.choice, Quot.sound]
'VGPA.C13_fallback_error_partial' depends on axioms: [propext, Classical.choice, Quot.sound]
'VGPA.C13_variances_violated' depends on axioms: [propext, Classical.choice, Quot.sound]
'VGPA.C14_formula_partial' depends on axioms: [propext, Classical.choice, Quot.sound]
'VGPA.C14_constant_violated' depends on axioms: [propext, Classical.choice, Quot.sound]
'VGPA.C15_fwd_construction' depends on axioms: [propext, Classical.choice, Quot.sound]
'VGPA.C15_bwd_construction' depends on axioms: [propext, Classical.choice, Quot.sound]
'VGPA.C16_forward_shapes' depends on axioms: [propext, Classical.choice, Quot.sound]
'VGPA.C16_backward_shapes' depends on axioms: [propext, Classical.choice, Quot.sound]
'VGPA.C17_forward_steps_nD_partial' depends on axioms: [propext, Classical.choice, Quot.sound]
'VGPA.C17_forward_steps_1D_partial' depends on axioms: [propext, Classical.choice, Quot.sound]
'VGPA.C17_rk2_variance_violated' depends on axioms: [propext, Classical.choice, Quot.sound]
'VGPA.C18_backward_steps_nD' depends on axioms: [propext, Classical.choice, Quot.sound]
'VGPA.C18_backward_steps_1D' depends on axioms: [propext, Classical.choice, Quot.sound]
'VGPA.C19_covariance_symmetric' depends on axioms: [propext, Classical.choice, Quot.sound]
'VGPA.C19_psi_symmetric' depends on axioms: [propext, Classical.choice, Quot.sound]
'VGPA.C20_forward_causal' depends on axioms: [propext, Classical.choice, Quot.sound]
'VGPA.C20_forward_causal_euler' depends on axioms: [propext, Classical.choice, Quot.sound]
'VGPA.C20_backward_causal' depends on axioms: [propext, Classical.choice, Quot.sound]
'VGPA.C21_mean_equilibrium_nD' depends on axioms: [propext, Classical.choice, Quot.sound]
'VGPA.C21_mean_equilibrium_1D' depends on axioms: [propext, Classical.choice, Quot.sound]
'VGPA.C21_covariance_equilibrium_nD_partial' depends on axioms: [propext, Classical.choice, Quot.sound]
'VGPA.C21_variance_equilibrium_1D_partial' depends on axioms: [propext, Classical.choice, Quot.sound]
'VGPA.C21_rk2_violated' depends on axioms: [propext, Classical.choice, Quot.sound]
'VGPA.C22_forward_1D_nD_agree' depends on axioms: [propext, Classical.choice, Quot.sound]
'VGPA.C22_backward_1D_nD_agree' depends on axioms: [propext, Classical.choice, Quot.sound]
'VGPA.C23_mean_superposition_nD' depends on axioms: [propext, Classical.choice, Quot.sound]
'VGPA.C23_mean_superposition_1D' depends on axioms: [propext, Classical.choice, Quot.sound]
'VGPA.C23_multiplier_superposition_nD' depends on axioms: [propext, Classical.choice, Quot.sound]
'VGPA.C23_multiplier_superposition_1D' depends on axioms: [propext, Classical.choice, Quot.sound]
'VGPA.C24_mean_closed_form' depends on axioms: [propext, Classical.choice, Quot.sound]
'VGPA.C24_mean_closed_form_zero' depends on axioms: [propext, Classical.choice, Quot.sound]
'VGPA.C24_mean_closed_form_nD' depends on axioms: [propext, Classical.choice, Quot.sound]
'VGPA.C24_mean_converges' depends on axioms: [propext, Classical.choice, Quot.sound]
'VGPA.C25_variance_closed_form_partial' depends on axioms: [propext, Classical.choice, Quot.sound]
'VGPA.C25_covariance_closed_form_nD_partial' depends on axioms: [propext, Classical.choice, Quot.sound]
'VGPA.C25_rk2_violated' depends on axioms: [propext, Classical.choice, Quot.sound]
'VGPA.C26_euler_adjoint_1D' depends on axioms: [propext, Classical.choice, Quot.sound]
'VGPA.C26_euler_adjoint_of_transposed' depends on axioms: [propext, Classical.choice, Quot.sound]
'VGPA.C26_euler_adjoint_nD_partial' depends on axioms: [propext, Classical.choice, Quot.sound]
'VGPA.C26_nonsymmetric_violated' depends on axioms: [propext, Classical.choice, Quot.sound]
'VGPA.C26_euler_adjoint_covariance' depends on axioms: [propext, Classical.choice, Quot.sound]
'VGPA.C27_last_observation_violated' depends on axioms: [propext, Classical.choice, Quot.sound]
'VGPA.C27_observation_influences_partial' depends on axioms: [propext, Classical.choice, Quot.sound]
'VGPA.C28_variance_positive' depends on axioms: [propext, Classical.choice, Quot.sound]
'VGPA.C28_condition_needed' depends on axioms: [propext, Classical.choice, Quot.sound]
'VGPA.C29_dw_history' depends on axioms: [propext, Classical.choice, Quot.sound]
'VGPA.C29_ou_history' depends on axioms: [propext, Classical.choice, Quot.sound]
'VGPA.C29_assignments' depends on axioms: [propext, Classical.choice, Quot.sound]
'VGPA.C29_construction' depends on axioms: [propext, Classical.choice, Quot.sound]
'VGPA.C30_matrix_partial' depends on axioms: [propext, Classical.choice, Quot.sound]
'VGPA.C30_vector_partial' depends on axioms: [propext, Classical.choice, Quot.sound]
'VGPA.C30_shapes_partial' depends on axioms: [propext, Classical.choice, Quot.sound]
'VGPA.C30_scalar_violated' depends on axioms: [propext, Classical.choice, Quot.sound]
'VGPA.C31_assignment_partial' depends on axioms: [propext, Classical.choice, Quot.sound]
'VGPA.C31_indefinite_violated' depends on axioms: [propext, Classical.choice, Quot.sound]
'VGPA.C31_witness_violated' depends on axioms: [propext, Classical.choice, Quot.sound]
'VGPA.C31_nonsymmetric_violated' depends on axioms: [propext, Classical.choice, Quot.sound]
'VGPA.C31_history63_partial' depends on axioms: [propext, Classical.choice, Quot.sound]
'VGPA.C31_history96_partial' depends on axioms: [propext, Classical.choice, Quot.sound]
'VGPA.C32_time_window' depends on axioms: [propext, Classical.choice, Quot.sound]
'VGPA.C33_double_well' depends on axioms: [propext, Classical.choice, Quot.sound]
'VGPA.C33_ornstein_uhlenbeck' depends on axioms: [propext, Classical.choice, Quot.sound]
'VGPA.C33_lorenz63' depends on axioms: [propext, Classical.choice, Quot.sound]
'VGPA.C33_lorenz96' depends on axioms: [propext, Classical.choice, Quot.sound]
'VGPA.C34_covariance_partial' depends on axioms: [propext, Classical.choice, Quot.sound]
'VGPA.C34_covariance_violated' depends on axioms: [propext, Classical.choice, Quot.sound]
'VGPA.C35_reproducible_partial' depends on axioms: [propext, Classical.choice, Quot.sound]
'VGPA.C35_seed_zero_violated' depends on axioms: [propext, Classical.choice, Quot.sound]
'VGPA.C36_guarded_accessors' depends on axioms: [propext, Classical.choice, Quot.sound]
'VGPA.C36_read_back' depends on axioms: [propext, Classical.choice, Quot.sound]
'VGPA.C37_indices_1d' depends on axioms: [propext, Classical.choice, Quot.sound]
'VGPA.C37_indices_nd' depends on axioms: [propext, Classical.choice, Quot.sound]
'VGPA.C38_density_1d' depends on axioms: [propext, Classical.choice, Quot.sound]
'VGPA.C38_density_nd' depends on axioms: [propext, Classical.choice, Quot.sound]
'VGPA.C39_observations_1d' depends on axioms: [propext, Classical.choice, Quot.sound]
'VGPA.C39_observations_nd_partial' depends on axioms: [propext, Classical.choice, Quot.sound]
'VGPA.C39_single_component_violated' depends on axioms: [propext, Classical.choice, Quot.sound]
'VGPA.C40_energy' depends on axioms: [propext, Classical.choice, Quot.sound]
'VGPA.C40_nonneg' depends on axioms: [propext, Classical.choice, Quot.sound]
'VGPA.C41_moment_gradient' depends on axioms: [propext, Classical.choice, Quot.sound]
'VGPA.C41_theta_gradient' depends on axioms: [propext, Classical.choice, Quot.sound]
'VGPA.C41_sigma_gradient' depends on axioms: [propext, Classical.choice, Quot.sound]
'VGPA.C42_average_drift' depends on axioms: [propext, Classical.choice, Quot.sound]
'VGPA.C42_energy_partial' depends on axioms: [propext, Classical.choice, Quot.sound]
'VGPA.C42_energy_violated' depends on axioms: [propext, Classical.choice, Quot.sound]
'VGPA.C43_moment_gradient_partial' depends on axioms: [propext, Classical.choice, Quot.sound]
'VGPA.C43_moment_gradient_violated' depends on axioms: [propext, Classical.choice, Quot.sound]
'VGPA.C43_theta_gradient' depends on axioms: [propext, Classical.choice, Quot.sound]
'VGPA.C43_sigma_gradient' depends on axioms: [propext, Classical.choice, Quot.sound]
'VGPA.C44_energy' depends on axioms: [propext, Classical.choice, Quot.sound]
'VGPA.C44_nonneg' depends on axioms: [propext, Classical.choice, Quot.sound]
'VGPA.C45_mean_gradient' depends on axioms: [propext, Classical.choice, Quot.sound]
'VGPA.C46_upper_triangle_partial' depends on axioms: [propext, Classical.choice, Quot.sound]
'VGPA.C46_convention_violated' depends on axioms: [propext, Classical.choice, Quot.sound]
'VGPA.C47_averages' depends on axioms: [propext, Classical.choice, Quot.sound]
'VGPA.C47_theta_gradient' depends on axioms: [propext, Classical.choice, Quot.sound]
'VGPA.C48_averages' depends on axioms: [propext, Classical.choice, Quot.sound]
'VGPA.C48_theta_integrand' depends on axioms: [propext, Classical.choice, Quot.sound]
'VGPA.C49_inner_partial' depends on axioms: [propext, Classical.choice, Quot.sound]
'VGPA.C49_batch_violated' depends on axioms: [propext, Classical.choice, Quot.sound]
'VGPA.C50_nonneg' depends on axioms: [propext, Classical.choice, Quot.sound]
'VGPA.C51_energy_partial' depends on axioms: [propext, Classical.choice, Quot.sound]
'VGPA.C51_default_operator' depends on axioms: [propext, Classical.choice, Quot.sound]
'VGPA.C51_gradients_partial' depends on axioms: [propext, Classical.choice, Quot.sound]
'VGPA.C51_operator_violated' depends on axioms: [propext, Classical.choice, Quot.sound]
'VGPA.C51_number_operator' depends on axioms: [propext, Classical.choice, Quot.sound]
'VGPA.C52_support_partial' depends on axioms: [propext, Classical.choice, Quot.sound]
'VGPA.C52_noise_gradient_violated' depends on axioms: [propext, Classical.choice, Quot.sound]
'VGPA.C53_energy_partial' depends on axioms: [propext, Classical.choice, Quot.sound]
'VGPA.C53_default_operator' depends on axioms: [propext, Classical.choice, Quot.sound]
'VGPA.C53_time_index_violated' depends on axioms: [propext, Classical.choice, Quot.sound]
'VGPA.C53_correlated_noise_violated' depends on axioms: [propext, Classical.choice, Quot.sound]
'VGPA.C54_values' depends on axioms: [propext, Classical.choice, Quot.sound]
'VGPA.C54_exact_derivatives' depends on axioms: [propext, Classical.choice, Quot.sound]
'VGPA.C54_number_operator' depends on axioms: [propext, Classical.choice, Quot.sound]
'VGPA.C54_matrix_operator' depends on axioms: [propext, Classical.choice, Quot.sound]
'VGPA.C55_unit_variance_partial' depends on axioms: [propext, Classical.choice, Quot.sound]
'VGPA.C55_violated' depends on axioms: [propext, Classical.choice, Quot.sound]
'VGPA.C55_negative_violated' depends on axioms: [propext, Classical.choice, Quot.sound]
'VGPA.C56_equal_means_partial' depends on axioms: [propext, Classical.choice, Quot.sound]
'VGPA.C56_one_component_partial' depends on axioms: [propext, Classical.choice, Quot.sound]
'VGPA.C56_mean_violated' depends on axioms: [propext, Classical.choice, Quot.sound]
'VGPA.C56_covariance_violated' depends on axioms: [propext, Classical.choice, Quot.sound]
'VGPA.C57_one_dim' depends on axioms: [propext, Classical.choice, Quot.sound]
'VGPA.C57_several_dims' depends on axioms: [propext, Classical.choice, Quot.sound]
'VGPA.C58_unpack_pack_nd' depends on axioms: [propext, Classical.choice, Quot.sound]
'VGPA.C58_pack_unpack_nd' depends on axioms: [propext, Classical.choice, Quot.sound]
'VGPA.C58_unpack_pack_1d' depends on axioms: [propext, Classical.choice, Quot.sound]
'VGPA.C58_pack_unpack_1d' depends on axioms: [propext, Classical.choice, Quot.sound]
'VGPA.C59_history_independent' depends on axioms: [propext, Classical.choice, Quot.sound]
'VGPA.C59_sum_of_energies' depends on axioms: [propext, Classical.choice, Quot.sound]
'VGPA.C60_history_independent' depends on axioms: [propext, Classical.choice, Quot.sound]
'VGPA.C60_cached' depends on axioms: [propext, Classical.choice, Quot.sound]
'VGPA.C60_fresh' depends on axioms: [propext, Classical.choice, Quot.sound]
'VGPA.C61_ornstein_uhlenbeck' depends on axioms: [propext, Classical.choice, Quot.sound]
'VGPA.C61_double_well' depends on axioms: [propext, Classical.choice, Quot.sound]
'VGPA.C61_lorenz63' depends on axioms: [propext, Classical.choice, Quot.sound]
'VGPA.C61_lorenz96' depends on axioms: [propext, Classical.choice, Quot.sound]
'VGPA.C62_1d_partial' depends on axioms: [propext, Classical.choice, Quot.sound]
'VGPA.C62_1d_violated' depends on axioms: [propext, Classical.choice, Quot.sound]
'VGPA.C62_nd' depends on axioms: [propext, Classical.choice, Quot.sound]
'VGPA.C62_nd_mean_partial' depends on axioms: [propext, Classical.choice, Quot.sound]
'VGPA.C62_nd_violated' depends on axioms: [propext, Classical.choice, Quot.sound]
'VGPA.C63_interior_1d_partial' depends on axioms: [propext, Classical.choice, Quot.sound]
'VGPA.C63_interior_nd_partial' depends on axioms: [propext, Classical.choice, Quot.sound]
'VGPA.C63_collect_obs_1d_partial' depends on axioms: [propext, Classical.choice, Quot.sound]
'VGPA.C63_collect_obs_nd_partial' depends on axioms: [propext, Classical.choice, Quot.sound]
'VGPA.C63_violated' depends on axioms: [propext, Classical.choice, Quot.sound]
'VGPA.C64_consistent_pair' depends on axioms: [propext, Classical.choice, Quot.sound]
'VGPA.C64_evaluated' depends on axioms: [propext, Classical.choice, Quot.sound]
'VGPA.C65_descent' depends on axioms: [propext, Classical.choice, Quot.sound]
'VGPA.C66_never_raises_floats' depends on axioms: [propext, Classical.choice, Quot.sound]
'VGPA.C66_raises_nothing_else' depends on axioms: [propext, Classical.choice, Quot.sound]
'VGPA.C66_never_raises' depends on axioms: [propext, Classical.choice, Quot.sound]
'VGPA.C66_descent_step' depends on axioms: [propext, Classical.choice, Quot.sound]
'VGPA.C66_recorded_scale' depends on axioms: [propext, Classical.choice, Quot.sound]
'VGPA.C67_counters' depends on axioms: [propext, Classical.choice, Quot.sound]
'VGPA.C68_no_stale_gradient' depends on axioms: [propext, Classical.choice, Quot.sound]
'VGPA.C69_state_partial' depends on axioms: [propext, Classical.choice, Quot.sound]
'VGPA.C69_violated' depends on axioms: [propext, Classical.choice, Quot.sound]
'VGPA.C70_reasons' depends on axioms: [propext, Classical.choice, Quot.sound]
'VGPA.C70_reasons_real' depends on axioms: [propext, Classical.choice, Quot.sound]
'VGPA.C71_convex_quadratic' depends on axioms: [propext, Classical.choice, Quot.sound]
'VGPA.C72_violated' depends on axioms: [propext, Classical.choice, Quot.sound]
'VGPA.C72_keyword_partial' depends on axioms: [propext, Classical.choice, Quot.sound]
'VGPA.C72_arguments_partial' depends on axioms: [propext, Classical.choice, Quot.sound]
'VGPA.C73_max_it_partial' depends on axioms: [propext, Classical.choice, Quot.sound]
'VGPA.C73_violated' depends on axioms: [propext, Classical.choice, Quot.sound]
'VGPA.C74_verdict' depends on axioms: [propext, Classical.choice, Quot.sound]
'VGPA.C74_exact_gradient_passes' depends on axioms: [propext, Classical.choice, Quot.sound]
'VGPA.C74_wrong_gradient_fails' depends on axioms: [propext, Classical.choice, Quot.sound]
'VGPA.C75_model_names' depends on axioms: [propext, Classical.choice, Quot.sound]
'VGPA.C76_failed_run_keeps_output_py' depends on axioms: [propext, Classical.choice, Quot.sound]
'VGPA.C76_failed_run_keeps_output' depends on axioms: [propext, Classical.choice, Quot.sound]
'VGPA.C76_save_needs_run' depends on axioms: [propext, Classical.choice, Quot.sound]
'VGPA.C76_run_needs_setup_partial' depends on axioms: [propext, Classical.choice, Quot.sound]
'VGPA.C76_violated' depends on axioms: [propext, Classical.choice, Quot.sound]
'VGPA.C77_violated' depends on axioms: [propext, Classical.choice, Quot.sound]
'VGPA.C77_table_violated' depends on axioms: [propext, Classical.choice, Quot.sound]
'VGPA.C77_used_partial' depends on axioms: [propext, Classical.choice, Quot.sound]
'VGPA.C78_round_trip' depends on axioms: [propext, Classical.choice, Quot.sound]
'VGPA.C78_load_missing' depends on axioms: [propext, Classical.choice, Quot.sound]
'VGPA.C78_after_run' depends on axioms: [propext, Classical.choice, Quot.sound]
'VGPA.C79_file_name' depends on axioms: [propext, Classical.choice, Quot.sound]
'VGPA.C79_history' depends on axioms: [propext, Classical.choice, Quot.sound]
'VGPA.C79_only_this_file' depends on axioms: [propext, Classical.choice, Quot.sound]
'VGPA.C79_violated' depends on axioms: [propext, Classical.choice, Quot.sound]
'VGPA.C79_different_files_partial' depends on axioms: [propext, Classical.choice, Quot.sound]
'VGPA.C80_validation' depends on axioms: [propext, Classical.choice, Quot.sound]
'VGPA.C80_content' depends on axioms: [propext, Classical.choice, Quot.sound]
'VGPA.C81_status' depends on axioms: [propext, Classical.choice, Quot.sound]
'VGPA.C81_zero_iff' depends on axioms: [propext, Classical.choice, Quot.sound]
'VGPA.C81_exits' depends on axioms: [propext, Classical.choice, Quot.sound]
'VGPA.C81_missing_file' depends on axioms: [propext, Classical.choice, Quot.sound]
'VGPA.C81_data_option_fails' depends on axioms: [propext, Classical.choice, Quot.sound]
'VGPA.C82_lorenz63' depends on axioms: [propext, Classical.choice, Quot.sound]
'VGPA.C82_lorenz96' depends on axioms: [propext, Classical.choice, Quot.sound]
'VGPA.C83_diagonal_partial' depends on axioms: [propext, Classical.choice, Quot.sound]
'VGPA.C83_correlated_violated' depends on axioms: [propext, Classical.choice, Quot.sound]
'VGPA.C84_reported_energy' depends on axioms: [propext, Classical.choice, Quot.sound]
'VGPA.C85_stored_moments_partial' depends on axioms: [propext, Classical.choice, Quot.sound]
'VGPA.C85_stored_moments_violated' depends on axioms: [propext, Classical.choice, Quot.sound]
'VGPA.C86_output_shapes' depends on axioms: [propext, Classical.choice, Quot.sound]
'VGPA.C87_setup_and_run' depends on axioms: [propext, Classical.choice, Quot.sound]
'VGPA.C87_output' depends on axioms: [propext, Classical.choice, Quot.sound]
'VGPA.C88_command_line_1d' depends on axioms: [propext, Classical.choice, Quot.sound]
'VGPA.C88_double_well_file' depends on axioms: [propext, Classical.choice, Quot.sound]
'VGPA.C88_lorenz_files_violated' depends on axioms: [propext, Classical.choice, Quot.sound]
'VGPA.C89_repeatable_partial' depends on axioms: [propext, Classical.choice, Quot.sound]
'VGPA.C89_violated' depends on axioms: [propext, Classical.choice, Quot.sound]
'VGPA.C90_setup_1d' depends on axioms: [propext, Classical.choice, Quot.sound]
'VGPA.C91_ornstein_uhlenbeck_partial' depends on axioms: [propext, Classical.choice, Quot.sound]
'VGPA.C91_double_well_partial' depends on axioms: [propext, Classical.choice, Quot.sound]
'VGPA.C91_ornstein_uhlenbeck_violated' depends on axioms: [propext, Classical.choice, Quot.sound]
'VGPA.C92_method' depends on axioms: [propext, Classical.choice, Quot.sound]
'VGPA.C93_gradient_statistic_partial' depends on axioms: [propext, Classical.choice, Quot.sound]
'VGPA.C93_violated' depends on axioms: [propext, Classical.choice, Quot.sound]
'VGPA.C94_run_is_scg' depends on axioms: [propext, Classical.choice, Quot.sound]
'VGPA.C95_options' depends on axioms: [propext, Classical.choice, Quot.sound]
'VGPA.C96_ornstein_uhlenbeck_partial' depends on axioms: [propext, Classical.choice, Quot.sound]
'VGPA.C96_double_well_partial' depends on axioms: [propext, Classical.choice, Quot.sound]
'VGPA.C96_violated' depends on axioms: [propext, Classical.choice, Quot.sound]
'VGPA.C96_order_partial' depends on axioms: [propext, Classical.choice, Quot.sound]
'VGPA.C97_setup_and_run' depends on axioms: [propext, Classical.choice, Quot.sound]
'VGPA.C97_output' depends on axioms: [propext, Classical.choice, Quot.sound]
'VGPA.C98_setup_lorenz63' depends on axioms: [propext, Classical.choice, Quot.sound]
'VGPA.C99_lorenz63_partial' depends on axioms: [propext, Classical.choice, Quot.sound]
'VGPA.C99_diagonal_partial' depends on axioms: [propext, Classical.choice, Quot.sound]
'VGPA.C99_violated' depends on axioms: [propext, Classical.choice, Quot.sound]
'VGPA.C100_command_line_lorenz63' depends on axioms: [propext, Classical.choice, Quot.sound]
'VGPA.C101_quadratic_minimum' depends on axioms: [propext, Classical.choice, Quot.sound]
'VGPA.C102_setup_lorenz96' depends on axioms: [propext, Classical.choice, Quot.sound]
'VGPA.C103_run_partial' depends on axioms: [propext, Classical.choice, Quot.sound]
'VGPA.C103_completes_violated' depends on axioms: [propext, Classical.choice, Quot.sound]
'VGPA.C104_energy_violated' depends on axioms: [propext, Classical.choice, Quot.sound]
'VGPA.C104_energy_too_small_violated' depends on axioms: [propext, Classical.choice, Quot.sound]
'VGPA.C104_gradients_violated' depends on axioms: [propext, Classical.choice, Quot.sound]
'VGPA.C104_setup_partial' depends on axioms: [propext, Classical.choice, Quot.sound]
'VGPA.C104_run_violated' depends on axioms: [propext, Classical.choice, Quot.sound]
'VGPA.C104_setup_violated' depends on axioms: [propext, Classical.choice, Quot.sound]
'VGPA.C105_covariance_positive' depends on axioms: [propext, Classical.choice, Quot.sound]
'VGPA.C105_variance_positive' depends on axioms: [propext, Classical.choice, Quot.sound]
'VGPA.C106_converges_1D' depends on axioms: [propext, Classical.choice, Quot.sound]
'VGPA.C106_converges_nD' depends on axioms: [propext, Classical.choice, Quot.sound]
'VGPA.C107_converges_1D' depends on axioms: [propext, Classical.choice, Quot.sound]
'VGPA.C107_converges_nD' depends on axioms: [propext, Classical.choice, Quot.sound]
'VGPA.C108_ornstein_uhlenbeck' depends on axioms: [propext, Classical.choice, Quot.sound]
'VGPA.C108_double_well_partial' depends on axioms: [propext, Classical.choice, Quot.sound]
'VGPA.C108_double_well_violated' depends on axioms: [propext, Classical.choice, Quot.sound]
'VGPA.C108_lorenz63_partial' depends on axioms: [propext, Classical.choice, Quot.sound]
'VGPA.C108_lorenz63_violated' depends on axioms: [propext, Classical.choice, Quot.sound]
'VGPA.C108_lorenz96_partial' depends on axioms: [propext, Classical.choice, Quot.sound]
'VGPA.C108_lorenz96_violated' depends on axioms: [propext, Classical.choice, Quot.sound]
'VGPA.C109_ornstein_uhlenbeck' depends on axioms: [propext, Classical.choice, Quot.sound]
'VGPA.C109_double_well' depends on axioms: [propext, Classical.choice, Quot.sound]
'VGPA.C110_ornstein_uhlenbeck_partial' depends on axioms: [propext, Classical.choice, Quot.sound]
'VGPA.C110_violated' depends on axioms: [propext, Classical.choice, Quot.sound]
'VGPA.C111_energy_partial' depends on axioms: [propext, Classical.choice, Quot.sound]
'VGPA.C111_violated' depends on axioms: [propext, Classical.choice, Quot.sound]
'VGPA.C112_estimates_partial' depends on axioms: [propext, Classical.choice, Quot.sound]
'VGPA.C112_violated' depends on axioms: [propext, Classical.choice, Quot.sound]
'VGPA.C113_coordinates' depends on axioms: [propext, Classical.choice, Quot.sound]
'VGPA.C114_prior' depends on axioms: [propext, Classical.choice, Quot.sound]
'VGPA.C115_converges_1D' depends on axioms: [propext, Classical.choice, Quot.sound]
'VGPA.C115_converges_nD' depends on axioms: [propext, Classical.choice, Quot.sound]
'VGPA.C116_converges_1D' depends on axioms: [propext, Classical.choice, Quot.sound]
'VGPA.C116_converges_nD' depends on axioms: [propext, Classical.choice, Quot.sound]
'VGPA.C117_reuse_partial' depends on axioms: [propext, Classical.choice, Quot.sound]
'VGPA.C117_violated' depends on axioms: [propext, Classical.choice, Quot.sound]
'VGPA.C118_failed_setup_partial' depends on axioms: [propext, Classical.choice, Quot.sound]
'VGPA.C118_violated' depends on axioms: [propext, Classical.choice, Quot.sound]
'VGPA.C119_lorenz96_defined' depends on axioms: [propext, Classical.choice, Quot.sound]
'VGPA.C120_arg_out' depends on axioms: [propext, Classical.choice, Quot.sound]
'VGPA.C120_run' depends on axioms: [propext, Classical.choice, Quot.sound]
'VGPA.C121_ornstein_uhlenbeck' depends on axioms: [propext, Classical.choice, Quot.sound]
'VGPA.C121_double_well' depends on axioms: [propext, Classical.choice, Quot.sound]
'VGPA.C121_lorenz63_partial' depends on axioms: [propext, Classical.choice, Quot.sound]
'VGPA.C121_lorenz96_partial' depends on axioms: [propext, Classical.choice, Quot.sound]
'VGPA.C121_violated' depends on axioms: [propext, Classical.choice, Quot.sound]
'VGPA.C122_refines' depends on axioms: [propext, Classical.choice, Quot.sound]
'VGPA.C122_other_files' depends on axioms: [propext, Classical.choice, Quot.sound]
'VGPA.C122_own_file_partial' depends on axioms: [propext, Classical.choice, Quot.sound]
'VGPA.C122_returned' depends on axioms: [propext, Classical.choice, Quot.sound]
'VGPA.C122_again' depends on axioms: [propext, Classical.choice, Quot.sound]
'VGPA.C122_violated' depends on axioms: [propext, Classical.choice, Quot.sound]
'VGPA.C123_integrators' depends on axioms: [propext, Classical.choice, Quot.sound]
'VGPA.C123_free_energy' depends on axioms: [propext, Classical.choice, Quot.sound]
'VGPA.C123_gradient' depends on axioms: [propext, Classical.choice, Quot.sound]
'VGPA.C123_session' depends on axioms: [propext, Classical.choice, Quot.sound]
'VGPA.C123_kept' depends on axioms: [propext, Classical.choice, Quot.sound]
'VGPA.C123_initial_mean' depends on axioms: [propext, Classical.choice, Quot.sound]
'VGPA.C123_placed' depends on axioms: [propext, Classical.choice, Quot.sound]
'VGPA.C123_observe' depends on axioms: [propext, Classical.choice, Quot.sound]
'VGPA.C123_prior_violated' depends on axioms: [propext, Classical.choice, Quot.sound]
'VGPA.C123_observations_violated' depends on axioms: [propext, Classical.choice, Quot.sound]
'VGPA.C123_output_violated' depends on axioms: [propext, Classical.choice, Quot.sound]
'VGPA.C124_setup_iff' depends on axioms: [propext, Classical.choice, Quot.sound]
'VGPA.C124_rejects_violated' depends on axioms: [propext, Classical.choice, Quot.sound]
'VGPA.C124_accepts_violated' depends on axioms: [propext, Classical.choice, Quot.sound]
'VGPA.C125_progress_partial' depends on axioms: [propext, Classical.choice, Quot.sound]
'VGPA.C125_progress_violated' depends on axioms: [propext, Classical.choice, Quot.sound]
'VGPA.C126_settings' depends on axioms: [propext, Classical.choice, Quot.sound]
'VGPA.C126_nothing_else' depends on axioms: [propext, Classical.choice, Quot.sound]
'VGPA.C126_zero_iff' depends on axioms: [propext, Classical.choice, Quot.sound]
'VGPA.C126_manual' depends on axioms: [propext, Classical.choice, Quot.sound]
'VGPA.C126_help' depends on axioms: [propext, Classical.choice, Quot.sound]
'VGPA.C127_free_energy_1d' depends on axioms: [propext, Classical.choice, Quot.sound]
'VGPA.C127_estimate_1d' depends on axioms: [propext, Classical.choice, Quot.sound]
'VGPA.C127_free_energy_63' depends on axioms: [propext, Classical.choice, Quot.sound]
'VGPA.C127_estimate_63' depends on axioms: [propext, Classical.choice, Quot.sound]
'VGPA.C127_start_spline' depends on axioms: [propext, Classical.choice, Quot.sound]
'VGPA.C128_drift_partial' depends on axioms: [propext, Classical.choice, Quot.sound]
'VGPA.C128_energy_violated' depends on axioms: [propext, Classical.choice, Quot.sound]
'VGPA.C128_integrators_partial' depends on axioms: [propext, Classical.choice, Quot.sound]
'VGPA.C128_likelihood_partial' depends on axioms: [propext, Classical.choice, Quot.sound]
'VGPA.C129_ornstein_uhlenbeck_partial' depends on axioms: [propext, Classical.choice, Quot.sound]
'VGPA.C129_violated' depends on axioms: [propext, Classical.choice, Quot.sound]
'VGPA.C129_double_well_violated' depends on axioms: [propext, Classical.choice, Quot.sound]
'VGPA.C129_lorenz63_partial' depends on axioms: [propext, Classical.choice, Quot.sound]
'VGPA.C129_lorenz96' depends on axioms: [propext, Classical.choice, Quot.sound]
'VGPA.C130_likelihood_1d_partial' depends on axioms: [propext, Classical.choice, Quot.sound]
'VGPA.C130_likelihood_nd_partial' depends on axioms: [propext, Classical.choice, Quot.sound]
'VGPA.C130_gradient_1d_partial' depends on axioms: [propext, Classical.choice, Quot.sound]
'VGPA.C130_gradient_nd_partial' depends on axioms: [propext, Classical.choice, Quot.sound]
'VGPA.C130_free_energy_violated' depends on axioms: [propext, Classical.choice, Quot.sound]
'VGPA.C130_initialization_1d_violated' depends on axioms: [propext, Classical.choice, Quot.sound]
'VGPA.C130_initialization_nd_violated' depends on axioms: [propext, Classical.choice, Quot.sound]
'VGPA.C131_values' depends on axioms: [propext, Classical.choice, Quot.sound]
'VGPA.C131_start_kept' depends on axioms: [propext, Classical.choice, Quot.sound]
'VGPA.C131_variational' depends on axioms: [propext, Classical.choice, Quot.sound]
'VGPA.C132_reused_buffer_violated' depends on axioms: [propext, Classical.choice, Quot.sound]
'VGPA.C132_no_reuse_partial' depends on axioms: [propext, Classical.choice, Quot.sound]
'VGPA.C133_rejected_1d_partial' depends on axioms: [propext, Classical.choice, Quot.sound]
'VGPA.C133_rejected_nd_partial' depends on axioms: [propext, Classical.choice, Quot.sound]
'VGPA.C133_one_value_1d_violated' depends on axioms: [propext, Classical.choice, Quot.sound]
'VGPA.C133_one_value_nd_violated' depends on axioms: [propext, Classical.choice, Quot.sound]
'VGPA.C133_one_time_1d_violated' depends on axioms: [propext, Classical.choice, Quot.sound]
'VGPA.C133_one_time_nd_violated' depends on axioms: [propext, Classical.choice, Quot.sound]
'VGPA.C134_origin_of_time' depends on axioms: [propext, Classical.choice, Quot.sound]
'VGPA.C134_origin_of_time_spline' depends on axioms: [propext, Classical.choice, Quot.sound]
'VGPA.C135_stays_proper' depends on axioms: [propext, Classical.choice, Quot.sound]
'VGPA.C135_nan_gradient' depends on axioms: [propext, Classical.choice, Quot.sound]
'VGPA.C136_nan_result_partial' depends on axioms: [propext, Classical.choice, Quot.sound]
'VGPA.C136_violated' depends on axioms: [propext, Classical.choice, Quot.sound]
'VGPA.C137_descent_floats_partial' depends on axioms: [propext, Classical.choice, Quot.sound]
'VGPA.C137_violated' depends on axioms: [propext, Classical.choice, Quot.sound]
'VGPA.C138_checks_partial' depends on axioms: [propext, Classical.choice, Quot.sound]
'VGPA.C138_violated' depends on axioms: [propext, Classical.choice, Quot.sound]
'VGPA.C139_error_partial' depends on axioms: [propext, Classical.choice, Quot.sound]
'VGPA.C139_violated' depends on axioms: [propext, Classical.choice, Quot.sound]
'VGPA.C140_points_partial' depends on axioms: [propext, Classical.choice, Quot.sound]
'VGPA.C140_violated' depends on axioms: [propext, Classical.choice, Quot.sound]
'VGPA.C140_dyadic_partial' depends on axioms: [propext, Classical.choice, Quot.sound]
'VGPA.C141_partial' depends on axioms: [propext, Classical.choice, Quot.sound]
'VGPA.C141_violated' depends on axioms: [propext, Classical.choice, Quot.sound]
'VGPA.C142_free_energy_partial' depends on axioms: [propext, Classical.choice, Quot.sound]
'VGPA.C142_best_partial' depends on axioms: [propext, Classical.choice, Quot.sound]
'VGPA.C142_violated' depends on axioms: [propext, Classical.choice, Quot.sound]
'VGPA.C143_finite' depends on axioms: [propext, Classical.choice, Quot.sound]
'VGPA.C143_nan' depends on axioms: [propext, Classical.choice, Quot.sound]
'VGPA.C143_optimizer' depends on axioms: [propext, Classical.choice, Quot.sound]
'VGPA.C143_nan_data' depends on axioms: [propext, Classical.choice, Quot.sound]
'VGPA.C143_same_program_ou' depends on axioms: [propext, Classical.choice, Quot.sound]
'VGPA.C143_same_program_dw' depends on axioms: [propext, Classical.choice, Quot.sound]
'VGPA.C144_spline' depends on axioms: [propext, Classical.choice, Quot.sound]
'VGPA.C144_parabola' depends on axioms: [propext, Classical.choice, Quot.sound]
'VGPA.C144_solvable' depends on axioms: [propext, Classical.choice, Quot.sound]
'VGPA.C144_cubic_data' depends on axioms: [propext, Classical.choice, Quot.sound]
'VGPA.C144_affine' depends on axioms: [propext, Classical.choice, Quot.sound]
'VGPA.C144_interpolates' depends on axioms: [propext, Classical.choice, Quot.sound]
'VGPA.C144_initialization_1d' depends on axioms: [propext, Classical.choice, Quot.sound]
'VGPA.C144_initialization_nd' depends on axioms: [propext, Classical.choice, Quot.sound]
'VGPA.C144_time_unit' depends on axioms: [propext, Classical.choice, Quot.sound]
'VGPA.C145_partial' depends on axioms: [propext, Classical.choice, Quot.sound]
'VGPA.C145_violated' depends on axioms: [propext, Classical.choice, Quot.sound]
'VGPA.C146_free_energy' depends on axioms: [propext, Classical.choice, Quot.sound]
'VGPA.C146_moments' depends on axioms: [propext, Classical.choice, Quot.sound]
'VGPA.C146_ornstein_uhlenbeck' depends on axioms: [propext, Classical.choice, Quot.sound]
'VGPA.C146_double_well' depends on axioms: [propext, Classical.choice, Quot.sound]
'VGPA.C147_start_1d_partial' depends on axioms: [propext, Classical.choice, Quot.sound]
'VGPA.C147_time_unit_partial' depends on axioms: [propext, Classical.choice, Quot.sound]
'VGPA.C147_violated_1d' depends on axioms: [propext, Classical.choice, Quot.sound]
'VGPA.C147_violated_nd' depends on axioms: [propext, Classical.choice, Quot.sound]
'VGPA.C147_violated' depends on axioms: [propext, Classical.choice, Quot.sound]
'VGPA.C148_same_gradient_ou' depends on axioms: [propext, Classical.choice, Quot.sound]
'VGPA.C148_same_gradient_dw' depends on axioms: [propext, Classical.choice, Quot.sound]
'VGPA.C149_gradient' depends on axioms: [propext, Classical.choice, Quot.sound]
'VGPA.C149_ornstein_uhlenbeck' depends on axioms: [propext, Classical.choice, Quot.sound]
'VGPA.C149_double_well' depends on axioms: [propext, Classical.choice, Quot.sound]
'VGPA.C150_finite_partial' depends on axioms: [propext, Classical.choice, Quot.sound]
'VGPA.C150_nan_partial' depends on axioms: [propext, Classical.choice, Quot.sound]
'VGPA.C150_violated' depends on axioms: [propext, Classical.choice, Quot.sound]
'VGPA.C151_exact_descent' depends on axioms: [propext, Classical.choice, Quot.sound]
'VGPA.C151_ornstein_uhlenbeck' depends on axioms: [propext, Classical.choice, Quot.sound]
'VGPA.C151_double_well' depends on axioms: [propext, Classical.choice, Quot.sound]
'VGPA.C152_finite_diff' depends on axioms: [propext, Classical.choice, Quot.sound]
'VGPA.C152_check_partial' depends on axioms: [propext, Classical.choice, Quot.sound]
'VGPA.C152_variational' depends on axioms: [propext, Classical.choice, Quot.sound]
'VGPA.C152_violated' depends on axioms: [propext, Classical.choice, Quot.sound]
'VGPA.C153_one_dimension' depends on axioms: [propext, Classical.choice, Quot.sound]
'VGPA.C153_more_dimensions' depends on axioms: [propext, Classical.choice, Quot.sound]
'VGPA.C153_run_one_dimension' depends on axioms: [propext, Classical.choice, Quot.sound]
'VGPA.C153_run_more_dimensions' depends on axioms: [propext, Classical.choice, Quot.sound]
'VGPA.C154_no_effect' depends on axioms: [propext, Classical.choice, Quot.sound]
'VGPA.C154_lines' depends on axioms: [propext, Classical.choice, Quot.sound]
'VGPA.C155_unchanged' depends on axioms: [propext, Classical.choice, Quot.sound]
'VGPA.C155_partial' depends on axioms: [propext, Classical.choice, Quot.sound]
'VGPA.C155_violated' depends on axioms: [propext, Classical.choice, Quot.sound]
'VGPA.C155_silent_violated' depends on axioms: [propext, Classical.choice, Quot.sound]
'VGPA.C155_every_process_violated' depends on axioms: [propext, Classical.choice, Quot.sound]
'VGPA.C156_run_again' depends on axioms: [propext, Classical.choice, Quot.sound]
'VGPA.C156_save_again' depends on axioms: [propext, Classical.choice, Quot.sound]
'VGPA.C157_prior_partial' depends on axioms: [propext, Classical.choice, Quot.sound]
'VGPA.C157_prior_violated' depends on axioms: [propext, Classical.choice, Quot.sound]
'VGPA.C157_prior_gradients' depends on axioms: [propext, Classical.choice, Quot.sound]
'VGPA.C157_observation_gradients_partial' depends on axioms: [propext, Classical.choice, Quot.sound]
'VGPA.C157_multipliers_partial' depends on axioms: [propext, Classical.choice, Quot.sound]
'VGPA.C157_observation_partial' depends on axioms: [propext, Classical.choice, Quot.sound]
'VGPA.C157_observation_violated' depends on axioms: [propext, Classical.choice, Quot.sound]
'VGPA.C157_operator_violated' depends on axioms: [propext, Classical.choice, Quot.sound]
'VGPA.C158_as_new' depends on axioms: [propext, Classical.choice, Quot.sound]
'VGPA.C158_start_one' depends on axioms: [propext, Classical.choice, Quot.sound]
'VGPA.C158_start_many' depends on axioms: [propext, Classical.choice, Quot.sound]
'VGPA.C158_until_evaluated' depends on axioms: [propext, Classical.choice, Quot.sound]
