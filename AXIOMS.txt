C01 RL.C01_driven_filter: Classical.choice, Quot.sound, propext
C01 RL.C01_published_partial: Classical.choice, Quot.sound, propext
C01 RL.C01_negative_step: Classical.choice, Quot.sound, propext
C01 RL.C01_initialising_on_correlated_prior: Classical.choice, Quot.sound, propext
C02 RL.C02_jacobian: Classical.choice, Quot.sound, propext
C02 RL.C02_predict_partial: Classical.choice, Quot.sound, propext
C02 RL.C02_control_not_in_jacobian: Classical.choice, Quot.sound, propext
C03 RL.C03_rigid_body: Classical.choice, Quot.sound, propext
C03 RL.C03_rotation: Classical.choice, Quot.sound, propext
C03 RL.C03_angle_rates: Classical.choice, Quot.sound, propext
C04 RL.C04_predict: Classical.choice, Quot.sound, propext
C04 RL.C04_correct: Classical.choice, Quot.sound, propext
C04 RL.C04_stays_normal: Classical.choice, Quot.sound, propext
C05 RL.C05_nonfinite_ignored_partial: Classical.choice, Quot.sound, propext
C05 RL.C05_first_measurement_contaminates: Classical.choice, Quot.sound, propext
C05 RL.C05_contamination_is_permanent: Classical.choice, Quot.sound, propext
C06 RL.C06_gate: Classical.choice, Quot.sound, propext
C06 RL.C06_default_never_rejects: Classical.choice, Quot.sound, propext
C06 RL.C06_all_or_nothing: Classical.choice, Quot.sound, propext
C07 RL.C07_deselected_irrelevant: Classical.choice, Quot.sound, propext
C08 RL.C08_optimal: Classical.choice, Quot.sound, propext
C08 RL.C08_textbook: Classical.choice, Quot.sound, propext
C08 RL.C08_independent_errors_usable: Classical.choice, Quot.sound, propext
C08 RL.C08_correlated_errors_unusable: Classical.choice, Quot.sound, propext
C09 RL.C09_clock: Quot.sound, propext
C09 RL.C09_operations: Quot.sound, propext
C09 RL.C09_clock_sequence: Classical.choice, Quot.sound, propext
C09 RL.C09_only_positive_steps: Quot.sound, propext
C09 RL.C09_first: propext
C10 RL.C10_first_measurement: Classical.choice, Quot.sound, propext
C11 RL.C11_formula: Classical.choice, Quot.sound, propext
C11 RL.C11_bounded: Classical.choice, Quot.sound, propext
C11 RL.C11_directed: Classical.choice, Quot.sound, propext
C11 RL.C11_sign: Classical.choice, Quot.sound, propext
C11 RL.C11_negative_limit: Classical.choice, Quot.sound, propext
C11 RL.C11_prepared: Classical.choice, Quot.sound, propext
C11 RL.C11_expired_command: Classical.choice, Quot.sound, propext
C12 RL.C12_dynamic_noise: Classical.choice, Quot.sound, propext
C12 RL.C12_is_covariance: Classical.choice, Quot.sound, propext
C12 RL.C12_cross_terms: Classical.choice, Quot.sound, propext
C13 RL.C13_stays_planar_partial: Classical.choice, Quot.sound, propext
C13 RL.C13_vertical_command: Classical.choice, Quot.sound, propext
C13 RL.C13_correlated_message: Classical.choice, Quot.sound, propext
C14 RL.C14_sanitised: Classical.choice, Quot.sound, propext
C15 RL.C15_no_hidden_memory: Classical.choice, Quot.sound, propext
C15 RL.C15_same_prediction: Classical.choice, Quot.sound, propext
C16 RL.C16_weights_sum_to_one: Classical.choice, Quot.sound, propext
C16 RL.C16_constants_defined: Classical.choice, Quot.sound, propext
C16 RL.C16_mean: Classical.choice, Quot.sound, propext
C16 RL.C16_covariance: Classical.choice, Quot.sound, propext
C17 RL.C17_fresh_partial: Classical.choice, Quot.sound, propext
C17 RL.C17_covariance_partial: Classical.choice, Quot.sound, propext
C17 RL.C17_after_prediction_partial: Classical.choice, Quot.sound, propext
C17 RL.C17_propagated_covariance: Classical.choice, Quot.sound, propext
C17 RL.C17_gain_ignores_process_noise: Classical.choice, Quot.sound, propext
C18 RL.C18_first_odometry: Classical.choice, Quot.sound, propext
C18 RL.C18_second_measurement_ignored: Classical.choice, Quot.sound, propext
C18 RL.C18_memory_partial: Classical.choice, Quot.sound, propext
C18 RL.C18_stale_after_reset: Classical.choice, Quot.sound, propext
C19 RL.C19_control_ignored: Classical.choice, Quot.sound, propext
C19 RL.C19_ekf_follows: Classical.choice, Quot.sound, propext
C20 RL.C20_normalised_partial: Classical.choice, Quot.sound, propext
C20 RL.C20_other_differences: Classical.choice, Quot.sound, propext
C20 RL.C20_normalises_position: Classical.choice, Quot.sound, propext
C20 RL.C20_normalises_position_wrongly: Classical.choice, Quot.sound, propext
C21 RL.C21_fuses_due_in_order: Classical.choice, Quot.sound, propext
C21 RL.C21_fuses_due_in_order_late: Classical.choice, Quot.sound, propext
C22 RL.C22_smoothing_is_in_order_fusion: Classical.choice, Quot.sound, propext
C22 RL.C22_order_independent: Classical.choice, Quot.sound, propext
C22 RL.C22_within_history_length: Classical.choice, Quot.sound, propext
C22 RL.C22_lag_below_history_is_not_enough: Quot.sound, propext
C23 RL.C23_history_sorted: Classical.choice, Quot.sound, propext
C23 RL.C23_history_bounded: Classical.choice, Quot.sound, propext
C24 RL.C24_newest_control_partial: Quot.sound, propext
C24 RL.C24_replayed_under_wrong_control: Quot.sound, propext
C24 RL.C24_newest_control_lost: Quot.sound, propext
C25 RL.C25_accepted_stamps_never_decrease: Classical.choice, Quot.sound, propext
C25 RL.C25_nothing_at_or_before_set_pose: Classical.choice, Quot.sound, propext
C25 RL.C25_fresh_messages_are_kept: Quot.sound, propext
C26 RL.C26_set_pose_partial: Classical.choice, Quot.sound, propext
C26 RL.C26_untransformable_pose_wipes_estimate: Quot.sound, propext
C26 RL.C26_does_not_initialise: Quot.sound, propext
C26 RL.C26_keeps_topic_stamps: Quot.sound, propext
C27 RL.C27_deaf_after_reset: Classical.choice, Quot.sound, propext
C27 RL.C27_default_noise_lost: Classical.choice, Quot.sound, propext
C27 RL.C27_initial_state_not_restored: Quot.sound, propext
C27 RL.C27_control_survives_reset: Quot.sound, propext
C27 RL.C27_reset_partial: Classical.choice, Quot.sound, propext
C28 RL.C28_same_messages: Classical.choice, Quot.sound, propext
C28 RL.C28_toggle: Quot.sound, propext
C28 RL.C28_frozen_while_off: Quot.sound, propext
C28 RL.C28_off_cycle: Quot.sound, propext
C28 RL.C28_no_big_step_partial: Classical.choice, Quot.sound, propext
C28 RL.C28_big_step_with_smoothing: Quot.sound, propext
C29 RL.C29_silent_until_enabled: Quot.sound, propext
C29 RL.C29_enabled_for_ever: Quot.sound, propext
C30 RL.C30_stamps_increase_partial: Quot.sound, propext
C30 RL.C30_stamp_goes_back_with_smoothing: Quot.sound, propext
C31 RL.C31_timeout: Quot.sound, propext
C32 RL.C32_pose: Classical.choice, Quot.sound, propext
C32 RL.C32_imu: Classical.choice, Quot.sound, propext
C32 RL.C32_odom_partial: Classical.choice, Quot.sound, propext
C32 RL.C32_twist_partial: Classical.choice, Quot.sound, propext
C32 RL.C32_twist_fuses_zero_acceleration: Classical.choice, Quot.sound, propext
C32 RL.C32_odom_fuses_zero_acceleration: Classical.choice, Quot.sound, propext
C33 RL.C33_lever_error: Classical.choice, Quot.sound, propext
C33 RL.C33_rigid_body_partial: Classical.choice, Quot.sound, propext
C33 RL.C33_identity: Classical.choice, Quot.sound, propext
C33 RL.C33_measured_rate_ignored: Classical.choice, Quot.sound, propext
C34 RL.C34_twist: Classical.choice, Quot.sound, propext
C34 RL.C34_acceleration: Classical.choice, Quot.sound, propext
C34 RL.C34_pose: Classical.choice, Quot.sound, propext
C34 RL.C34_differential: Classical.choice, Quot.sound, propext
C34 RL.C34_twist_turned: Classical.choice, Quot.sound, propext
C34 RL.C34_acceleration_turned: Classical.choice, Quot.sound, propext
C34 RL.C34_pose_turned: Classical.choice, Quot.sound, propext
C35 RL.C35_plane_as_in_space: Classical.choice, Quot.sound, propext
C35 RL.C35_forced_partial: Classical.choice, Quot.sound, propext
C35 RL.C35_correlation_survives: Classical.choice, Quot.sound, propext
C36 RL.C36_velocity: Classical.choice, Quot.sound, propext
C36 RL.C36_first_pose: Classical.choice, Quot.sound, propext
C36 RL.C36_same_stamp_partial: Classical.choice, Quot.sound, propext
C36 RL.C36_same_stamp_contaminates: Classical.choice, Quot.sound, propext
C37 RL.C37_modes: Classical.choice, Quot.sound, propext
C37 RL.C37_relative_to_first_partial: Classical.choice, Quot.sound, propext
C37 RL.C37_other_frame: Classical.choice, Quot.sound, propext
C38 RL.C38_residual: Classical.choice, Quot.sound, propext
C38 RL.C38_kinematic_partial: Classical.choice, Quot.sound, propext
C38 RL.C38_aligned_partial: Classical.choice, Quot.sound, propext
C38 RL.C38_not_removed: Classical.choice, Quot.sound, propext
C38 RL.C38_upside_down: Classical.choice, Quot.sound, propext
C39 RL.C39_orientation_alone: Classical.choice, Quot.sound, propext
C39 RL.C39_velocity_alone: Classical.choice, Quot.sound, propext
C39 RL.C39_acceleration_alone: Classical.choice, Quot.sound, propext
C39 RL.C39_absent_nothing: Classical.choice, Quot.sound, propext
C40 RL.C40_measured_axes: Classical.choice, Quot.sound, propext
C40 RL.C40_order: Classical.choice, Quot.sound, propext
C40 RL.C40_nothing_left: Classical.choice, Quot.sound, propext
C41 RL.C41_odometry: Classical.choice, Quot.sound, propext
C41 RL.C41_acceleration: Classical.choice, Quot.sound, propext
C42 RL.C42_map_to_base: Classical.choice, Quot.sound, propext
C42 RL.C42_odom_to_base: Classical.choice, Quot.sound, propext
C42 RL.C42_nothing_else: Classical.choice, Quot.sound, propext
C43 RL.C43_matrix_to_quaternion: Classical.choice, Quot.sound, propext
C43 RL.C43_same_angles: Classical.choice, Quot.sound, propext
C43 RL.C43_same_rotation_partial: Classical.choice, Quot.sound, propext
C43 RL.C43_vertical_forgets: Classical.choice, Quot.sound, propext
C43 RL.C43_vertical_changes_rotation: Classical.choice, Quot.sound, propext
C43 RL.C43_state_round_trip: Classical.choice, Quot.sound, propext
C44 RL.C44_buffer_partial: Classical.choice, Quot.sound, propext
C44 RL.C44_strict_order: Classical.choice, Quot.sound, propext
C44 RL.C44_duplicate_stamps: Classical.choice, Quot.sound, propext
C45 RL.C45_empty: Classical.choice, Quot.sound, propext
C45 RL.C45_exact: Classical.choice, Quot.sound, propext
C45 RL.C45_between: Classical.choice, Quot.sound, propext
C45 RL.C45_after: Classical.choice, Quot.sound, propext
C45 RL.C45_before: Classical.choice, Quot.sound, propext
C45 RL.C45_total: Classical.choice, Quot.sound, propext
C45 RL.C45_never_failed: Classical.choice, Quot.sound, propext
C46 RL.C46_keeps_newest_partial: Classical.choice, Quot.sound, propext
C46 RL.C46_in_order_partial: Classical.choice, Quot.sound, propext
C46 RL.C46_fresh_partial: Classical.choice, Quot.sound, propext
C46 RL.C46_shrinking_drops_newest: Classical.choice, Quot.sound, propext
C47 RL.C47_stored_partial: Classical.choice, Quot.sound, propext
C47 RL.C47_same_second_dropped: Classical.choice, Quot.sound, propext
C47 RL.C47_contents: Classical.choice, Quot.sound, propext
C47 RL.C47_half_seconds: Classical.choice, Quot.sound, propext
C48 RL.C48_rigid: Classical.choice, Quot.sound, propext
C48 RL.C48_query: Classical.choice, Quot.sound, propext
C49 RL.C49_search: Classical.choice, Quot.sound, propext
C49 RL.C49_cycle_never_ends: Classical.choice, Quot.sound, propext
C49 RL.C49_answers_partial: Classical.choice, Quot.sound, propext
C49 RL.C49_remembered: propext
C49 RL.C49_reparented: Classical.choice, Quot.sound, propext
C50 RL.Nav.C50_from_to_partial: Classical.choice, Quot.sound, propext
C50 RL.Nav.C50_to_from_partial: Classical.choice, Quot.sound, propext
C50 RL.Nav.C50_other_hemisphere: Classical.choice, Quot.sound, propext
C50 RL.Nav.C50_local: Classical.choice, Quot.sound, propext
C51 RL.Nav.C51_start: Classical.choice, Quot.sound, propext
C51 RL.Nav.C51_manual_partial: Classical.choice, Quot.sound, propext
C51 RL.Nav.C51_bad_datum: Classical.choice, Quot.sound, propext
C52 RL.Nav.C52_nothing_before: Classical.choice, Quot.sound, propext
C52 RL.Nav.C52_once_per_fix: Classical.choice, Quot.sound, propext
C53 RL.Nav.C53_antenna_partial: Classical.choice, Quot.sound, propext
C53 RL.Nav.C53_missing_transform: Classical.choice, Quot.sound, propext
C54 RL.Nav.C54_same_zone_partial: Classical.choice, Quot.sound, propext
C54 RL.Nav.C54_local: Classical.choice, Quot.sound, propext
C54 RL.Nav.C54_other_zone: Classical.choice, Quot.sound, propext
C55 RL.Nav.C55_central_meridian: Classical.choice, Quot.sound, propext
C55 RL.Nav.C55_zone_middle: Classical.choice, Quot.sound, propext
C56 RL.C56_short_list_out_of_bounds: Classical.choice, Quot.sound, propext
C56 RL.C56_never_rejected: Classical.choice, Quot.sound, propext
C56 RL.C56_transposed: Classical.choice, Quot.sound, propext
C56 RL.C56_right_lengths_partial: Classical.choice, Quot.sound, propext
C57 RL.C57_safe_partial: Classical.choice, Quot.sound, propext
C57 RL.C57_accesses: Classical.choice, Quot.sound, propext
C57 RL.C57_missing_gains: Classical.choice, Quot.sound, propext
C57 RL.C57_missing_config: Classical.choice, Quot.sound, propext
C58 RL.C58_worst_level: Classical.choice, Quot.sound, propext
C58 RL.C58_messages: Quot.sound, propext
C58 RL.C58_once: none
C59 RL.C59_lookup: Classical.choice, Quot.sound, propext
C59 RL.C59_twist_own_stamp_partial: Classical.choice, Quot.sound, propext
C59 RL.C59_pose_uses_latest: Classical.choice, Quot.sound, propext
C59 RL.C59_small_stamps: Classical.choice, Quot.sound, propext
C59 RL.C59_witness: Classical.choice, Quot.sound, propext
C60 RL.C60_prefix_ignored: Classical.choice, Quot.sound, propext
C60 RL.C60_append_prefix_partial: Classical.choice, Quot.sound, propext
C60 RL.C60_no_prefix_keeps_slash: Classical.choice, Quot.sound, propext
C61 RL.C61_diagnosis_partial: Classical.choice, Quot.sound, propext
C61 RL.C61_missing_y_not_reported: Quot.sound, propext
C61 RL.C61_measured_y_reported: Quot.sound, propext
C62 RL.C62_angle_mean_partial: Classical.choice, Quot.sound, propext
C62 RL.C62_angle_mean_flips: Classical.choice, Quot.sound, propext
C62 RL.C62_standstill_flips: Classical.choice, Quot.sound, propext
C63 RL.C63_all_or_none: Classical.choice, Quot.sound, propext
C63 RL.C63_unused_ignored_partial: Classical.choice, Quot.sound, propext
C63 RL.C63_unused_leaks: Classical.choice, Quot.sound, propext
C63 RL.C63_unused_nan_blocks: Classical.choice, Quot.sound, propext
C64 RL.C64_scaled_by_dt_cubed: Classical.choice, Quot.sound, propext
C64 RL.C64_one_second_partial: Classical.choice, Quot.sound, propext
C65 RL.C65_converted_partial: Classical.choice, Quot.sound, propext
C65 RL.C65_unknown_frame_fused: Classical.choice, Quot.sound, propext
C66 RL.C66_short_config_out_of_bounds: Classical.choice, Quot.sound, propext
C66 RL.C66_odom_config_out_of_bounds: Classical.choice, Quot.sound, propext
C66 RL.C66_long_config_accepted: Classical.choice, Quot.sound, propext
C66 RL.C66_fifteen_partial: Classical.choice, Quot.sound, propext
C67 RL.C67_difference_quotient_partial: Classical.choice, Quot.sound, propext
C67 RL.C67_first_cycle_arbitrary: Classical.choice, Quot.sound, propext
C67 RL.C67_cycle_time: Classical.choice, Quot.sound, propext
C68 RL.C68_lost_partial: Classical.choice, Quot.sound, propext
C68 RL.C68_planar_partial: Classical.choice, Quot.sound, propext
C68 RL.C68_published_anyway: Classical.choice, Quot.sound, propext
C68 RL.C68_first_nan: Classical.choice, Quot.sound, propext
C68 RL.C68_finite_partial: Classical.choice, Quot.sound, propext
C69 RL.C69_names_differ: Classical.choice, Quot.sound, propext
C69 RL.C69_pose: Classical.choice, Quot.sound, propext
C69 RL.C69_twist: Classical.choice, Quot.sound, propext
C69 RL.C69_odom: Classical.choice, Quot.sound, propext
C69 RL.C69_imu: Classical.choice, Quot.sound, propext
C70 RL.C70_lookup_time_partial: Classical.choice, Quot.sound, propext
C70 RL.C70_overflow: Classical.choice, Quot.sound, propext
C70 RL.C70_whole_seconds: Classical.choice, Quot.sound, propext
C71 RL.C71_base_partial: Classical.choice, Quot.sound, propext
C71 RL.C71_acceleration_lost: Classical.choice, Quot.sound, propext
C71 RL.C71_twist_covariance_lost: Classical.choice, Quot.sound, propext
C71 RL.C71_turned_mount: Classical.choice, Quot.sound, propext
C71 RL.C71_no_lever_arm: Classical.choice, Quot.sound, propext
C72 RL.C72_sensible: Classical.choice, Quot.sound, propext
C72 RL.C72_zero_size: Classical.choice, Quot.sound, propext
C73 RL.Nav.C73_imu_ignored: Classical.choice, Quot.sound, propext
C73 RL.Nav.C73_zone_old_pose: Classical.choice, Quot.sound, propext
C73 RL.Nav.C73_zone_turned_map: Classical.choice, Quot.sound, propext
C73 RL.Nav.C73_uncorrected: Classical.choice, Quot.sound, propext
C73 RL.Nav.C73_last_fix_partial: Classical.choice, Quot.sound, propext
C73 RL.Nav.C73_last_odometry_partial: Classical.choice, Quot.sound, propext
C73 RL.Nav.C73_last_heading_partial: Classical.choice, Quot.sound, propext
C74 RL.Nav.C74_steps_partial: Classical.choice, Quot.sound, propext
C74 RL.Nav.C74_equator: Classical.choice, Quot.sound, propext
C75 RL.Nav.C75_stamps_exactly: Classical.choice, Quot.sound, propext
C75 RL.Nav.C75_late_stamps_partial: Classical.choice, Quot.sound, propext
C75 RL.Nav.C75_early_odometry: Classical.choice, Quot.sound, propext
C75 RL.Nav.C75_unread_heading: Classical.choice, Quot.sound, propext
C75 RL.Nav.C75_exactly: Classical.choice, Quot.sound, propext
C75 RL.Nav.C75_safe_partial: Classical.choice, Quot.sound, propext
C75 RL.Nav.C75_bad_fix: Classical.choice, Quot.sound, propext
C75 RL.Nav.C75_early_request: Classical.choice, Quot.sound, propext
C75 RL.Nav.C75_local_filtered: Classical.choice, Quot.sound, propext
C76 RL.Nav.C76_gps_odometry: Classical.choice, Quot.sound, propext
C76 RL.Nav.C76_filtered: Classical.choice, Quot.sound, propext
C77 RL.Nav.C77_filtered_partial: Classical.choice, Quot.sound, propext
C78 RL.Nav.C78_direction: Classical.choice, Quot.sound, propext
C78 RL.Nav.C78_convergence: Classical.choice, Quot.sound, propext
C79 RL.Nav.C79_mounted: Classical.choice, Quot.sound, propext
C80 RL.C80_given_partial: Classical.choice, Quot.sound, propext
C80 RL.C80_default_ignores_commands: Classical.choice, Quot.sound, propext
C80 RL.C80_default_acts_on_the_past: Classical.choice, Quot.sound, propext
C81 RL.C81_first_estimate: Classical.choice, Quot.sound, propext
C81 RL.C81_wrong_length: Classical.choice, Quot.sound, propext
C82 RL.C82_no_self_transform_partial: Classical.choice, Quot.sound, propext
C82 RL.C82_invalid_configuration_used: Classical.choice, Quot.sound, propext
C83 RL.C83_pose_message_partial: Classical.choice, Quot.sound, propext
C83 RL.C83_large_partial: Classical.choice, Quot.sound, propext
C83 RL.C83_velocity_unreported: Classical.choice, Quot.sound, propext
C83 RL.C83_acceleration_unreported: Classical.choice, Quot.sound, propext
C83 RL.C83_velocity_inputs: Classical.choice, Quot.sound, propext
C83 RL.C83_zero_unreported: Classical.choice, Quot.sound, propext
C83 RL.C83_turned_unreported: Classical.choice, Quot.sound, propext
C83 RL.C83_pose_partial: Classical.choice, Quot.sound, propext
C83 RL.C83_twist_never: Classical.choice, Quot.sound, propext
C83 RL.C83_acceleration_never: Classical.choice, Quot.sound, propext
C84 RL.C84_same_noise_partial: Classical.choice, Quot.sound, propext
C84 RL.C84_short_undefined: Classical.choice, Quot.sound, propext
C84 RL.C84_default_undefined: Classical.choice, Quot.sound, propext
C84 RL.C84_transposed: Classical.choice, Quot.sound, propext
C85 RL.C85_row_major_partial: Classical.choice, Quot.sound, propext
C85 RL.C85_column_major: Classical.choice, Quot.sound, propext
C85 RL.C85_asymmetric: Classical.choice, Quot.sound, propext
C85 RL.C85_no_answer: Classical.choice, Quot.sound, propext
C86 RL.C86_covariances_partial: Classical.choice, Quot.sound, propext
C86 RL.C86_past_not_covariance: Classical.choice, Quot.sound, propext
C87 RL.C87_carried_on: Classical.choice, Quot.sound, propext
C88 RL.C88_parameters_act: Classical.choice, Quot.sound, propext
C88 RL.C88_within_limits: Classical.choice, Quot.sound, propext
C89 RL.C89_either_order_partial: Classical.choice, Quot.sound, propext
C89 RL.C89_any_order_partial: Classical.choice, Quot.sound, propext
C89 RL.C89_headings: Classical.choice, Quot.sound, propext
C89 RL.C89_gated: Classical.choice, Quot.sound, propext
C89 RL.C89_first_measurements: Classical.choice, Quot.sound, propext
C90 RL.C90_any_queue_partial: Classical.choice, Quot.sound, propext
C90 RL.C90_origin_partial: Classical.choice, Quot.sound, propext
C90 RL.C90_reset: Classical.choice, Quot.sound, propext
C90 RL.C90_ukf_gate: Classical.choice, Quot.sound, propext
C90 RL.C90_ukf_threshold_partial: Classical.choice, Quot.sound, propext
C90 RL.C90_node_partial: Classical.choice, Quot.sound, propext
C90 RL.C90_loaded_partial: Classical.choice, Quot.sound, propext
C90 RL.C90_relative: Classical.choice, Quot.sound, propext
C90 RL.C90_ukf_node_partial: Classical.choice, Quot.sound, propext
C90 RL.C90_ukf_loaded_partial: Classical.choice, Quot.sound, propext
C90 RL.C90_ukf_partial: Classical.choice, Quot.sound, propext
C91 RL.C91_epoch_partial: Classical.choice, Quot.sound, propext
C91 RL.C91_near_epoch_partial: Classical.choice, Quot.sound, propext
C91 RL.C91_at_epoch: Classical.choice, Quot.sound, propext
C91 RL.C91_uninitialised_control: Classical.choice, Quot.sound, propext
C91 RL.C91_ukf_partial: Classical.choice, Quot.sound, propext
C92 RL.C92_any_queue_partial: Classical.choice, Quot.sound, propext
C92 RL.C92_heading_partial: Classical.choice, Quot.sound, propext
C92 RL.C92_reset: Classical.choice, Quot.sound, propext
C92 RL.C92_message_partial: Classical.choice, Quot.sound, propext
C92 RL.C92_tilt_noise: Classical.choice, Quot.sound, propext
C92 RL.C92_tilt: Classical.choice, Quot.sound, propext
C93 RL.C93_pose_partial: Classical.choice, Quot.sound, propext
C93 RL.C93_twist_partial: Classical.choice, Quot.sound, propext
C93 RL.C93_odometry_partial: Classical.choice, Quot.sound, propext
C93 RL.C93_imu_partial: Classical.choice, Quot.sound, propext
C93 RL.C93_pose_planar_partial: Classical.choice, Quot.sound, propext
C93 RL.C93_twist_planar_partial: Classical.choice, Quot.sound, propext
C93 RL.C93_odometry_planar_partial: Classical.choice, Quot.sound, propext
C93 RL.C93_imu_planar_partial: Classical.choice, Quot.sound, propext
C94 RL.C94_level_partial: Classical.choice, Quot.sound, propext
C94 RL.C94_rolled_partial: Classical.choice, Quot.sound, propext
C94 RL.C94_backwards_partial: Classical.choice, Quot.sound, propext
C94 RL.C94_pitched: Classical.choice, Quot.sound, propext
C95 RL.C95_two_parts_partial: Classical.choice, Quot.sound, propext
C95 RL.C95_any_parts_partial: Classical.choice, Quot.sound, propext
C95 RL.C95_readings_partial: Classical.choice, Quot.sound, propext
C95 RL.C95_filter_parts_partial: Classical.choice, Quot.sound, propext
C95 RL.C95_filter_readings_partial: Classical.choice, Quot.sound, propext
C95 RL.C95_first_message: Classical.choice, Quot.sound, propext
C96 RL.Nav.C96_east: Classical.choice, Quot.sound, propext
C96 RL.Nav.C96_north_partial: Classical.choice, Quot.sound, propext
C96 RL.Nav.C96_distinct_partial: Classical.choice, Quot.sound, propext
C96 RL.Nav.C96_hemispheres: Classical.choice, Quot.sound, propext
C96 RL.Nav.C96_greenwich: Classical.choice, Quot.sound, propext
C96 RL.Nav.C96_range: Classical.choice, Quot.sound, propext
C96 RL.Nav.C96_equator: Classical.choice, Quot.sound, propext
C97 RL.C97_reproduced_partial: Classical.choice, Quot.sound, propext
C97 RL.C97_straight: Classical.choice, Quot.sound, propext
C97 RL.C97_spin: Classical.choice, Quot.sound, propext
C97 RL.C97_late: Classical.choice, Quot.sound, propext
C97 RL.C97_circle: Classical.choice, Quot.sound, propext
C98 RL.Nav.C98_on_air: Classical.choice, Quot.sound, propext
C98 RL.Nav.C98_height: Classical.choice, Quot.sound, propext
C99 RL.Nav.C99_settings_partial: Classical.choice, Quot.sound, propext
C99 RL.Nav.C99_starts: Classical.choice, Quot.sound, propext
C99 RL.Nav.C99_parent_name: Classical.choice, Quot.sound, propext
C99 RL.Nav.C99_delay: Classical.choice, Quot.sound, propext
C99 RL.Nav.C99_filtered_default: Classical.choice, Quot.sound, propext
C99 RL.Nav.C99_no_wait: Classical.choice, Quot.sound, propext
C100 RL.C100_other_variables_partial: Classical.choice, Quot.sound, propext
C100 RL.C100_negative_variance: Classical.choice, Quot.sound, propext
C101 RL.C101_crossing: Classical.choice, Quot.sound, propext
C101 RL.C101_velocities_partial: Classical.choice, Quot.sound, propext
C101 RL.C101_position_turns_robot: Classical.choice, Quot.sound, propext
C102 RL.C102_flow: Classical.choice, Quot.sound, propext
C102 RL.C102_control: Classical.choice, Quot.sound, propext
C102 RL.C102_settings_partial: Classical.choice, Quot.sound, propext
C102 RL.C102_kept: Classical.choice, Quot.sound, propext
C102 RL.C102_unscented: Classical.choice, Quot.sound, propext
C102 RL.C102_output_frame_name: Classical.choice, Quot.sound, propext
C102 RL.C102_stamped_control: Classical.choice, Quot.sound, propext
C102 RL.C102_time_jump: Classical.choice, Quot.sound, propext
C102 RL.C102_imu_threshold_name: Classical.choice, Quot.sound, propext
C102 RL.C102_starts: Classical.choice, Quot.sound, propext
C103 RL.C103_reported_partial: Classical.choice, Quot.sound, propext
C103 RL.C103_nothing_kept: Classical.choice, Quot.sound, propext
C103 RL.C103_told_partial: Classical.choice, Quot.sound, propext
C103 RL.C103_untransformable_unreported: Classical.choice, Quot.sound, propext
C103 RL.C103_seconds_not_told: Classical.choice, Quot.sound, propext
C103 RL.C103_off: Classical.choice, Quot.sound, propext
C103 RL.C103_no_false_alarm: Classical.choice, Quot.sound, propext
C104 RL.C104_straight_partial: Classical.choice, Quot.sound, propext
C104 RL.C104_pose_noise_partial: Classical.choice, Quot.sound, propext
C104 RL.C104_never_surer: Classical.choice, Quot.sound, propext
C104 RL.C104_less_sure: Classical.choice, Quot.sound, propext
C104 RL.C104_turning: Classical.choice, Quot.sound, propext
C104 RL.C104_motion_partial: Classical.choice, Quot.sound, propext
C104 RL.C104_schedules_partial: Classical.choice, Quot.sound, propext
C104 RL.C104_velocity_variance: Classical.choice, Quot.sound, propext
C105 RL.C105_cycles_partial: Classical.choice, Quot.sound, propext
C105 RL.C105_rest_partial: Classical.choice, Quot.sound, propext
C105 RL.C105_known: Classical.choice, Quot.sound, propext
C105 RL.C105_forgets: Classical.choice, Quot.sound, propext
C106 RL.C106_measurements_partial: Classical.choice, Quot.sound, propext
C106 RL.C106_snapshots_partial: Classical.choice, Quot.sound, propext
C106 RL.C106_more_snapshots_than_measurements: Quot.sound, propext
C106 RL.C106_disabled_node_stores_everything: Quot.sound, propext
C107 RL.C107_any_queue_partial: Classical.choice, Quot.sound, propext
C107 RL.C107_units_partial: Classical.choice, Quot.sound, propext
C107 RL.C107_control: Classical.choice, Quot.sound, propext
C107 RL.C107_dynamic_noise: Classical.choice, Quot.sound, propext
C107 RL.C107_floor: Classical.choice, Quot.sound, propext
C107 RL.C107_set_pose: Classical.choice, Quot.sound, propext
C107 RL.C107_ukf_partial: Classical.choice, Quot.sound, propext
C107 RL.C107_ukf_compass: Classical.choice, Quot.sound, propext
C108 RL.C108_whole_run_partial: Classical.choice, Quot.sound, propext
C108 RL.C108_ukf_partial: Classical.choice, Quot.sound, propext
C108 RL.C108_any_queue_partial: Classical.choice, Quot.sound, propext
C108 RL.C108_mirror_partial: Classical.choice, Quot.sound, propext
C108 RL.C108_orientation_partial: Classical.choice, Quot.sound, propext
C108 RL.C108_half_turn: Classical.choice, Quot.sound, propext
C109 RL.C109_correction: Classical.choice, Quot.sound, propext
C109 RL.C109_variance: Classical.choice, Quot.sound, propext
C109 RL.C109_published_partial: Classical.choice, Quot.sound, propext
C109 RL.C109_gated: Classical.choice, Quot.sound, propext
C109 RL.C109_predicted: Classical.choice, Quot.sound, propext
C110 RL.Nav.C110_conformal: Classical.choice, Quot.sound, propext
C110 RL.Nav.C110_meridian: Classical.choice, Quot.sound, propext
C110 RL.Nav.C110_wgs84: Classical.choice, Quot.sound, propext
C111 RL.C111_correction: Classical.choice, Quot.sound, propext
C111 RL.C111_prediction: Classical.choice, Quot.sound, propext
C111 RL.C111_first: Classical.choice, Quot.sound, propext
C111 RL.C111_run: Classical.choice, Quot.sound, propext
C111 RL.C111_variable: Classical.choice, Quot.sound, propext
C111 RL.C111_half_turn: Classical.choice, Quot.sound, propext
C111 RL.C111_unscented: Classical.choice, Quot.sound, propext
C112 RL.C112_same_stamp: Classical.choice, Quot.sound, propext
C112 RL.C112_exactly_partial: Classical.choice, Quot.sound, propext
C112 RL.C112_all_partial: Classical.choice, Quot.sound, propext
C112 RL.C112_together: Classical.choice, Quot.sound, propext
C112 RL.C112_stamps: Quot.sound, propext
C112 RL.C112_node_partial: Classical.choice, Quot.sound, propext
C112 RL.C112_deaf: Classical.choice, Quot.sound, propext
C112 RL.C112_mixed: Classical.choice, Quot.sound, propext
C112 RL.C112_late: Classical.choice, Quot.sound, propext
C112 RL.C112_names: Classical.choice, Quot.sound, propext
C113 RL.C113_state_partial: Classical.choice, Quot.sound, propext
C113 RL.C113_ekf_partial: Classical.choice, Quot.sound, propext
C113 RL.C113_ukf_partial: Classical.choice, Quot.sound, propext
C113 RL.C113_unset: Classical.choice, Quot.sound, propext
C113 RL.C113_unset_happens: Classical.choice, Quot.sound, propext
C113 RL.C113_command: Classical.choice, Quot.sound, propext
C113 RL.C113_correlation: Classical.choice, Quot.sound, propext
C113 RL.C113_dynamic: Classical.choice, Quot.sound, propext
C114 RL.C114_published_partial: Classical.choice, Quot.sound, propext
C114 RL.C114_ukf_partial: Classical.choice, Quot.sound, propext
C114 RL.C114_ukf_corrects_partial: Classical.choice, Quot.sound, propext
C114 RL.C114_first_measurement: Classical.choice, Quot.sound, propext
C114 RL.C114_unset_reset: Classical.choice, Quot.sound, propext
C115 RL.C115_velocities: Classical.choice, Quot.sound, propext
C115 RL.C115_same_partial: Classical.choice, Quot.sound, propext
C115 RL.C115_shift: Classical.choice, Quot.sound, propext
C115 RL.C115_isotropic: Classical.choice, Quot.sound, propext
C115 RL.C115_position_error: Classical.choice, Quot.sound, propext
C115 RL.C115_turned: Classical.choice, Quot.sound, propext
C116 RL.C116_prediction: Classical.choice, Quot.sound, propext
C116 RL.C116_correction: Classical.choice, Quot.sound, propext
C116 RL.C116_extra: Classical.choice, Quot.sound, propext
C116 RL.C116_first: Classical.choice, Quot.sound, propext
C116 RL.C116_run_partial: Classical.choice, Quot.sound, propext
C116 RL.C116_from_start_partial: Classical.choice, Quot.sound, propext
C116 RL.C116_in_between: Classical.choice, Quot.sound, propext
C116 RL.C116_other_heading: Classical.choice, Quot.sound, propext
C117 RL.C117_honest_partial: Classical.choice, Quot.sound, propext
C117 RL.C117_timely: Classical.choice, Quot.sound, propext
C118 RL.C118_spatial_partial: Classical.choice, Quot.sound, propext
C118 RL.C118_turned: Classical.choice, Quot.sound, propext
C118 RL.C118_planar_partial: Classical.choice, Quot.sound, propext
C119 RL.C119_first_odometry: Classical.choice, Quot.sound, propext
C119 RL.C119_first_pose: Classical.choice, Quot.sound, propext
C119 RL.C119_first_twist: Classical.choice, Quot.sound, propext
C119 RL.C119_set_pose: Classical.choice, Quot.sound, propext
C119 RL.C119_first_pose_ukf: Classical.choice, Quot.sound, propext
C119 RL.C119_first_twist_ukf: Classical.choice, Quot.sound, propext
C119 RL.C119_set_pose_ukf: Classical.choice, Quot.sound, propext
C120 RL.C120_planar_partial: Classical.choice, Quot.sound, propext
C120 RL.C120_twice: Classical.choice, Quot.sound, propext
C121 RL.C121_together_partial: Classical.choice, Quot.sound, propext
C121 RL.C121_timely: Classical.choice, Quot.sound, propext
C121 RL.C121_rolling: Classical.choice, Quot.sound, propext
C122 RL.C122_distance: Classical.choice, Quot.sound, propext
C122 RL.C122_passes: Classical.choice, Quot.sound, propext
C122 RL.C122_run: Classical.choice, Quot.sound, propext
C122 RL.C122_gates: Classical.choice, Quot.sound, propext
C122 RL.C122_sharp: Classical.choice, Quot.sound, propext
C123 RL.C123_heard: Classical.choice, Quot.sound, propext
C123 RL.C123_eventually: Classical.choice, Quot.sound, propext
C123 RL.C123_deaf: Classical.choice, Quot.sound, propext
C124 RL.C124_any_queue: Classical.choice, Quot.sound, propext
C124 RL.C124_estimate: Classical.choice, Quot.sound, propext
C124 RL.C124_larger: Classical.choice, Quot.sound, propext
C124 RL.C124_position: Classical.choice, Quot.sound, propext
C124 RL.C124_grows: Classical.choice, Quot.sound, propext
C124 RL.C124_measured: Classical.choice, Quot.sound, propext
C125 RL.C125_stops_partial: Classical.choice, Quot.sound, propext
C125 RL.C125_grows: Classical.choice, Quot.sound, propext
C126 RL.C126_cycle: Classical.choice, Quot.sound, propext
C126 RL.C126_counts: Classical.choice, Quot.sound, propext
C126 RL.C126_parameters: Classical.choice, Quot.sound, propext
C126 RL.C126_parameters_ukf: Classical.choice, Quot.sound, propext
C127 RL.C127_late: Classical.choice, Quot.sound, propext
C127 RL.C127_answers_partial: Classical.choice, Quot.sound, propext
C127 RL.C127_whole_seconds_partial: Classical.choice, Quot.sound, propext
C127 RL.C127_standing: Classical.choice, Quot.sound, propext
C127 RL.C127_stamped: Classical.choice, Quot.sound, propext
C127 RL.C127_frames: Classical.choice, Quot.sound, propext
C127 RL.C127_never_true: Classical.choice, Quot.sound, propext
C128 RL.C128_bank: Classical.choice, Quot.sound, propext
C128 RL.C128_mean: Classical.choice, Quot.sound, propext
C128 RL.C128_prior: Classical.choice, Quot.sound, propext
C128 RL.C128_order: Classical.choice, Quot.sound, propext
C128 RL.C128_slow_partial: Classical.choice, Quot.sound, propext
C128 RL.C128_between: Classical.choice, Quot.sound, propext
C128 RL.C128_faster: Classical.choice, Quot.sound, propext
C128 RL.C128_converges: Classical.choice, Quot.sound, propext
C128 RL.C128_first_message: Classical.choice, Quot.sound, propext
C129 RL.C129_exact: Classical.choice, Quot.sound, propext
C129 RL.C129_limit_partial: Classical.choice, Quot.sound, propext
C129 RL.C129_first_message: Classical.choice, Quot.sound, propext
C129 RL.C129_believed: Classical.choice, Quot.sound, propext
C129 RL.C129_second_source: Classical.choice, Quot.sound, propext
C129 RL.C129_never_ignored: Classical.choice, Quot.sound, propext
C130 RL.C130_follows: Classical.choice, Quot.sound, propext
C130 RL.C130_oscillates: Classical.choice, Quot.sound, propext
C130 RL.C130_any_distance: Classical.choice, Quot.sound, propext
C130 RL.C130_eliminated: Classical.choice, Quot.sound, propext
C131 RL.C131_jump: Classical.choice, Quot.sound, propext
C131 RL.C131_threshold: Classical.choice, Quot.sound, propext
C131 RL.C131_exact: Classical.choice, Quot.sound, propext
C131 RL.C131_filter: Classical.choice, Quot.sound, propext
C131 RL.C131_batch: Classical.choice, Quot.sound, propext
C131 RL.C131_many: Classical.choice, Quot.sound, propext
C131 RL.C131_node: Classical.choice, Quot.sound, propext
C131 RL.C131_first_message: Classical.choice, Quot.sound, propext
C131 RL.C131_ukf_partial: Classical.choice, Quot.sound, propext
C131 RL.C131_ukf_predicted_partial: Classical.choice, Quot.sound, propext
C132 RL.C132_counts_partial: Classical.choice, Quot.sound, propext
C132 RL.C132_ukf_counts_partial: Classical.choice, Quot.sound, propext
C132 RL.C132_not_micro: Classical.choice, Quot.sound, propext
C132 RL.C132_first_message: Classical.choice, Quot.sound, propext
C133 RL.C133_shift_partial: Classical.choice, Quot.sound, propext
C133 RL.C133_velocity_shift: Classical.choice, Quot.sound, propext
C133 RL.C133_retroactive: Classical.choice, Quot.sound, propext
C133 RL.C133_jumps: Classical.choice, Quot.sound, propext
C133 RL.C133_no_bound: Classical.choice, Quot.sound, propext
C133 RL.C133_between_partial: Classical.choice, Quot.sound, propext
C134 RL.C134_bank_partial: Classical.choice, Quot.sound, propext
C134 RL.C134_between_partial: Classical.choice, Quot.sound, propext
C134 RL.C134_pause_ignored: Classical.choice, Quot.sound, propext
C134 RL.C134_third_counts_more: Classical.choice, Quot.sound, propext
C134 RL.C134_faster_partial: Classical.choice, Quot.sound, propext
C134 RL.C134_never_surer_partial: Classical.choice, Quot.sound, propext
C135 RL.C135_forgotten: Classical.choice, Quot.sound, propext
C135 RL.C135_agree: Classical.choice, Quot.sound, propext
C135 RL.C135_kept: Classical.choice, Quot.sound, propext
C136 RL.C136_stamps: Classical.choice, Quot.sound, propext
C136 RL.C136_exactly: Classical.choice, Quot.sound, propext
C136 RL.C136_runs_on_partial: Classical.choice, Quot.sound, propext
C136 RL.C136_set_pose_ends: Classical.choice, Quot.sound, propext
C136 RL.C136_pose_ends: Classical.choice, Quot.sound, propext
C137 RL.C137_same_partial: Classical.choice, Quot.sound, propext
C137 RL.C137_names: Classical.choice, Quot.sound, propext
C137 RL.C137_halves: Classical.choice, Quot.sound, propext
C137 RL.C137_accelerations_differ: Classical.choice, Quot.sound, propext
C137 RL.C137_nodes: Classical.choice, Quot.sound, propext
C137 RL.C137_ekf_nodes_partial: Classical.choice, Quot.sound, propext
C138 RL.C138_velocity_partial: Classical.choice, Quot.sound, propext
C138 RL.C138_same_stamp: Classical.choice, Quot.sound, propext
C138 RL.C138_backwards: Classical.choice, Quot.sound, propext
C138 RL.C138_repeated: Classical.choice, Quot.sound, propext
C139 RL.C139_last_pose: Classical.choice, Quot.sound, propext
C139 RL.C139_requests_partial: Classical.choice, Quot.sound, propext
C139 RL.C139_copies: Classical.choice, Quot.sound, propext
C139 RL.C139_counts_twice: Classical.choice, Quot.sound, propext
C139 RL.Nav.C139_navsat_partial: Classical.choice, Quot.sound, propext
C139 RL.Nav.C139_sent_again: Classical.choice, Quot.sound, propext
C140 RL.C140_silent: Classical.choice, Quot.sound, propext
C140 RL.C140_deaf: Classical.choice, Quot.sound, propext
C140 RL.C140_reset_partial: Classical.choice, Quot.sound, propext
C140 RL.C140_negative: Classical.choice, Quot.sound, propext
C141 RL.C141_twice_partial: Classical.choice, Quot.sound, propext
C141 RL.C141_predicted_partial: Classical.choice, Quot.sound, propext
C141 RL.C141_measured_partial: Classical.choice, Quot.sound, propext
C141 RL.C141_golden: Classical.choice, Quot.sound, propext
C141 RL.C141_nearly_twice: Classical.choice, Quot.sound, propext
C141 RL.C141_root: Classical.choice, Quot.sound, propext
C142 RL.C142_acceleration: Classical.choice, Quot.sound, propext
C142 RL.C142_stays: Classical.choice, Quot.sound, propext
C142 RL.C142_messages: Classical.choice, Quot.sound, propext
C142 RL.C142_yaw_rate: Classical.choice, Quot.sound, propext
C143 RL.C143_exactly: Classical.choice, Quot.sound, propext
C143 RL.C143_never: Classical.choice, Quot.sound, propext
C143 RL.C143_ukf_never: Classical.choice, Quot.sound, propext
C143 RL.C143_ends: Classical.choice, Quot.sound, propext
C144 RL.C144_twist: Classical.choice, Quot.sound, propext
C144 RL.C144_acceleration: Classical.choice, Quot.sound, propext
C144 RL.C144_pose: Classical.choice, Quot.sound, propext
C144 RL.C144_absolute: Classical.choice, Quot.sound, propext
C144 RL.C144_fused: Classical.choice, Quot.sound, propext
C144 RL.C144_started: Classical.choice, Quot.sound, propext
C144 RL.C144_half_turn: Classical.choice, Quot.sound, propext
C144 RL.C144_node: Classical.choice, Quot.sound, propext
C144 RL.C144_node_without_angles: Classical.choice, Quot.sound, propext
C144 RL.C144_same_node: Classical.choice, Quot.sound, propext
C145 RL.C145_frames: Classical.choice, Quot.sound, propext
C145 RL.C145_estimate: Classical.choice, Quot.sound, propext
C145 RL.C145_parameters: Classical.choice, Quot.sound, propext
C145 RL.C145_ekf_node: Classical.choice, Quot.sound, propext
C145 RL.C145_ukf_node: Classical.choice, Quot.sound, propext
C145 RL.Listen.C145_listener: Classical.choice, Quot.sound, propext
C145 RL.Nav.C145_navsat: Classical.choice, Quot.sound, propext
C145 RL.Nav.C145_grid_name: Classical.choice, Quot.sound, propext
C146 RL.C146_any_queue: Classical.choice, Quot.sound, propext
C146 RL.C146_same_certainty: Classical.choice, Quot.sound, propext
C146 RL.C146_gated: Classical.choice, Quot.sound, propext
C146 RL.C146_pose: Classical.choice, Quot.sound, propext
C146 RL.C146_messages: Classical.choice, Quot.sound, propext
C147 RL.C147_messages: Classical.choice, Quot.sound, propext
C147 RL.C147_any_queue: Classical.choice, Quot.sound, propext
C147 RL.C147_surer: Classical.choice, Quot.sound, propext
C148 RL.C148_superposition: Classical.choice, Quot.sound, propext
C148 RL.C148_gated: Classical.choice, Quot.sound, propext
C148 RL.C148_messages: Classical.choice, Quot.sound, propext
C149 RL.C149_any_queue: Classical.choice, Quot.sound, propext
C149 RL.C149_undisturbed: Classical.choice, Quot.sound, propext
C149 RL.C149_position: Classical.choice, Quot.sound, propext
C149 RL.C149_messages: Classical.choice, Quot.sound, propext
C150 RL.C150_any_queue: Classical.choice, Quot.sound, propext
C150 RL.C150_forgets: Classical.choice, Quot.sound, propext
C150 RL.C150_gated: Classical.choice, Quot.sound, propext
C150 RL.C150_lever: Classical.choice, Quot.sound, propext
C150 RL.C150_messages: Classical.choice, Quot.sound, propext
C151 RL.C151_turned: Classical.choice, Quot.sound, propext
C151 RL.C151_one_direction: Classical.choice, Quot.sound, propext
