{
 "claims": [
  {
   "property": "C01",
   "status": "partial",
   "theorems": [
    "RL.C01_driven_filter",
    "RL.C01_published_partial",
    "RL.C01_negative_step",
    "RL.C01_initialising_on_correlated_prior"
   ],
   "note": "Proved for a filter object driven in any way, and for a whole node. Missing because false: a first measurement on top of a correlated covariance (C01_initialising_on_correlated_prior) and negative steps (C01_negative_step)."
  },
  {
   "property": "C02",
   "status": "partial",
   "theorems": [
    "RL.C02_jacobian",
    "RL.C02_predict_partial",
    "RL.C02_control_not_in_jacobian"
   ],
   "note": "C02_jacobian is the full derivative statement for the motion model. For a whole prediction it holds without control only; with control the Jacobian ignores the control terms (C02_control_not_in_jacobian)."
  },
  {
   "property": "C03",
   "status": "proved",
   "theorems": [
    "RL.C03_rigid_body",
    "RL.C03_rotation",
    "RL.C03_angle_rates"
   ],
   "note": "Rigid body motion, rotation matrix, Euler rates."
  },
  {
   "property": "C04",
   "status": "proved",
   "theorems": [
    "RL.C04_predict",
    "RL.C04_correct",
    "RL.C04_stays_normal"
   ],
   "note": "normalize_angle is modelled from its fmod definition in the angles package."
  },
  {
   "property": "C05",
   "status": "partial",
   "theorems": [
    "RL.C05_nonfinite_ignored_partial",
    "RL.C05_first_measurement_contaminates",
    "RL.C05_contamination_is_permanent"
   ],
   "note": "Holds for corrections. Missing because false: the first measurement is copied without the test (C05_first_measurement_contaminates)."
  },
  {
   "property": "C06",
   "status": "proved",
   "theorems": [
    "RL.C06_gate",
    "RL.C06_default_never_rejects",
    "RL.C06_all_or_nothing"
   ],
   "note": "Full, for the EKF; the UKF uses the same test (see C17). The default threshold is the largest double, whose square is infinite."
  },
  {
   "property": "C07",
   "status": "proved",
   "theorems": [
    "RL.C07_deselected_irrelevant"
   ],
   "note": "Full; stated as equality of corrections with measurements that agree on the selected variables."
  },
  {
   "property": "C08",
   "status": "proved",
   "theorems": [
    "RL.C08_optimal",
    "RL.C08_textbook",
    "RL.C08_independent_errors_usable",
    "RL.C08_correlated_errors_unusable"
   ],
   "note": "Optimal and below the prior for usable measurements; which measurements are usable: C08_independent_errors_usable, C08_correlated_errors_unusable."
  },
  {
   "property": "C09",
   "status": "proved",
   "theorems": [
    "RL.C09_clock",
    "RL.C09_operations",
    "RL.C09_clock_sequence",
    "RL.C09_only_positive_steps",
    "RL.C09_first"
   ],
   "note": "Full; generic in the filter, so for EKF and UKF; over any sequence of measurements."
  },
  {
   "property": "C10",
   "status": "proved",
   "theorems": [
    "RL.C10_first_measurement"
   ],
   "note": "Full; generic in the filter. For values that are not numbers see C05."
  },
  {
   "property": "C11",
   "status": "proved",
   "theorems": [
    "RL.C11_formula",
    "RL.C11_bounded",
    "RL.C11_directed",
    "RL.C11_sign",
    "RL.C11_negative_limit",
    "RL.C11_prepared",
    "RL.C11_expired_command"
   ],
   "note": "Full for limits that are not negative; a negative limit is used as it is (C11_negative_limit)."
  },
  {
   "property": "C12",
   "status": "proved",
   "theorems": [
    "RL.C12_dynamic_noise",
    "RL.C12_is_covariance",
    "RL.C12_cross_terms"
   ],
   "note": "The scaled matrix can stop being a covariance when the configured noise couples pose and velocity (C12_cross_terms)."
  },
  {
   "property": "C13",
   "status": "partial",
   "theorems": [
    "RL.C13_stays_planar_partial",
    "RL.C13_vertical_command",
    "RL.C13_correlated_message"
   ],
   "note": "Missing because false: commands out of the plane (C13_vertical_command) and messages with correlations out of the plane (C13_correlated_message)."
  },
  {
   "property": "C14",
   "status": "proved",
   "theorems": [
    "RL.C14_sanitised"
   ],
   "note": "Full."
  },
  {
   "property": "C15",
   "status": "proved",
   "theorems": [
    "RL.C15_no_hidden_memory",
    "RL.C15_same_prediction"
   ],
   "note": "Full: the matrices kept between calls are part of the model and shown not to matter."
  },
  {
   "property": "C16",
   "status": "proved",
   "theorems": [
    "RL.C16_weights_sum_to_one",
    "RL.C16_constants_defined",
    "RL.C16_mean",
    "RL.C16_covariance"
   ],
   "note": "llt is a parameter (structure Llt); that one exists is shown by Llt.some in Verif/Proofs/Ukf.lean."
  },
  {
   "property": "C17",
   "status": "partial",
   "theorems": [
    "RL.C17_fresh_partial",
    "RL.C17_covariance_partial",
    "RL.C17_after_prediction_partial",
    "RL.C17_propagated_covariance",
    "RL.C17_gain_ignores_process_noise"
   ],
   "note": "Fresh sigma points: same state as the EKF, covariance between the Kalman posterior and the prior, when angles do not wrap (structure Calm). After a prediction the gain leaves out the process noise of the step (C17_gain_ignores_process_noise)."
  },
  {
   "property": "C18",
   "status": "partial",
   "theorems": [
    "RL.C18_first_odometry",
    "RL.C18_second_measurement_ignored",
    "RL.C18_memory_partial",
    "RL.C18_stale_after_reset"
   ],
   "note": "Refuted at start-up (C18_second_measurement_ignored; for a whole node and any first odometry message: C18_first_odometry, its velocities are lost) and after reset (C18_stale_after_reset); holds from any filter with good memory."
  },
  {
   "property": "C19",
   "status": "partial",
   "theorems": [
    "RL.C19_control_ignored",
    "RL.C19_ekf_follows"
   ],
   "note": "Refuted: the UKF prediction is the same for every command (C19_control_ignored), the EKF's is not."
  },
  {
   "property": "C20",
   "status": "partial",
   "theorems": [
    "RL.C20_normalised_partial",
    "RL.C20_other_differences",
    "RL.C20_normalises_position",
    "RL.C20_normalises_position_wrongly"
   ],
   "note": "Refuted in general for the difference of sigma points and state in a correction (C20_normalises_position); holds there when every measured angle sits at its own index (C20_normalised_partial), and without exception for all other differences the filter takes (C20_other_differences)."
  },
  {
   "property": "C21",
   "status": "proved",
   "theorems": [
    "RL.C21_fuses_due_in_order",
    "RL.C21_fuses_due_in_order_late"
   ],
   "note": "Full: for every queue implementation that meets the contract of priority_queue, with and without late data."
  },
  {
   "property": "C22",
   "status": "proved",
   "theorems": [
    "RL.C22_smoothing_is_in_order_fusion",
    "RL.C22_order_independent",
    "RL.C22_within_history_length",
    "RL.C22_lag_below_history_is_not_enough"
   ],
   "note": "Full for data that is not older than the snapshots kept; C22_within_history_length says when that is guaranteed. A lag below history_length is not enough (C22_lag_below_history_is_not_enough): with sparse data the snapshots needed have expired."
  },
  {
   "property": "C23",
   "status": "proved",
   "theorems": [
    "RL.C23_history_sorted",
    "RL.C23_history_bounded"
   ],
   "note": "Full: invariant over all steps of the node."
  },
  {
   "property": "C24",
   "status": "partial",
   "theorems": [
    "RL.C24_newest_control_partial",
    "RL.C24_replayed_under_wrong_control",
    "RL.C24_newest_control_lost"
   ],
   "note": "Refuted with late data: C24_replayed_under_wrong_control, C24_newest_control_lost; holds without late data."
  },
  {
   "property": "C25",
   "status": "proved",
   "theorems": [
    "RL.C25_accepted_stamps_never_decrease",
    "RL.C25_nothing_at_or_before_set_pose",
    "RL.C25_fresh_messages_are_kept"
   ],
   "note": "Full: invariant over all steps of the node."
  },
  {
   "property": "C26",
   "status": "partial",
   "theorems": [
    "RL.C26_set_pose_partial",
    "RL.C26_untransformable_pose_wipes_estimate",
    "RL.C26_does_not_initialise",
    "RL.C26_keeps_topic_stamps"
   ],
   "note": "Refuted for a pose that cannot be transformed: it wipes the estimate (C26_untransformable_pose_wipes_estimate)."
  },
  {
   "property": "C27",
   "status": "partial",
   "theorems": [
    "RL.C27_deaf_after_reset",
    "RL.C27_default_noise_lost",
    "RL.C27_initial_state_not_restored",
    "RL.C27_control_survives_reset",
    "RL.C27_reset_partial"
   ],
   "note": "Refuted for initial_state, the control input (C27_initial_state_not_restored, C27_control_survives_reset) and covariance parameters left at their default, which become zero on reset (C27_default_noise_lost: the filter no longer follows a measurement that moves it after start-up; C27_deaf_after_reset: after an orientation as first message it stays at the origin for ever, whatever is measured). C27_reset_partial: holds for nodes without these."
  },
  {
   "property": "C28",
   "status": "partial",
   "theorems": [
    "RL.C28_same_messages",
    "RL.C28_toggle",
    "RL.C28_frozen_while_off",
    "RL.C28_off_cycle",
    "RL.C28_no_big_step_partial",
    "RL.C28_big_step_with_smoothing"
   ],
   "note": "The last part is refuted with smoothing (C28_big_step_with_smoothing)."
  },
  {
   "property": "C29",
   "status": "proved",
   "theorems": [
    "RL.C29_silent_until_enabled",
    "RL.C29_enabled_for_ever"
   ],
   "note": "Full: invariant over all steps. Messages are still queued while the node is disabled."
  },
  {
   "property": "C30",
   "status": "partial",
   "theorems": [
    "RL.C30_stamps_increase_partial",
    "RL.C30_stamp_goes_back_with_smoothing"
   ],
   "note": "Refuted with smoothing (C30_stamp_goes_back_with_smoothing)."
  },
  {
   "property": "C31",
   "status": "proved",
   "theorems": [
    "RL.C31_timeout"
   ],
   "note": "Full."
  },
  {
   "property": "C32",
   "status": "partial",
   "theorems": [
    "RL.C32_pose",
    "RL.C32_imu",
    "RL.C32_odom_partial",
    "RL.C32_twist_partial",
    "RL.C32_twist_fuses_zero_acceleration",
    "RL.C32_odom_fuses_zero_acceleration"
   ],
   "note": "Proved for pose inputs and IMUs with every configuration; for odometry and twist inputs only if no acceleration is selected. Refuted otherwise: an acceleration of zero with variance zero is fused (C32_twist_fuses_zero_acceleration, C32_odom_fuses_zero_acceleration)."
  },
  {
   "property": "C33",
   "status": "partial",
   "theorems": [
    "RL.C33_lever_error",
    "RL.C33_rigid_body_partial",
    "RL.C33_identity",
    "RL.C33_measured_rate_ignored"
   ],
   "note": "The lever arm correction uses the estimated body rate instead of the measured one: C33_lever_error gives the exact error, C33_measured_rate_ignored a witness; exact when both agree (C33_rigid_body_partial)."
  },
  {
   "property": "C34",
   "status": "proved",
   "theorems": [
    "RL.C34_twist",
    "RL.C34_acceleration",
    "RL.C34_pose",
    "RL.C34_differential",
    "RL.C34_twist_turned",
    "RL.C34_acceleration_turned",
    "RL.C34_pose_turned"
   ],
   "note": "Rotated covariances keep trace and positive semidefiniteness for twist, acceleration and pose, and in differential mode up to the time factor (see C64). C34_twist_turned, C34_pose_turned and C34_acceleration_turned say which matrix arrives in the filter: every 3x3 block of the message's covariance turned by the mounting, placed at the variables it is about."
  },
  {
   "property": "C35",
   "status": "partial",
   "theorems": [
    "RL.C35_plane_as_in_space",
    "RL.C35_forced_partial",
    "RL.C35_correlation_survives"
   ],
   "note": "Missing because false: correlations with out-of-plane variables survive (C35_correlation_survives). C35_plane_as_in_space: what is taken from a message in the plane is what is taken in space, flattened, in every mode."
  },
  {
   "property": "C36",
   "status": "partial",
   "theorems": [
    "RL.C36_velocity",
    "RL.C36_first_pose",
    "RL.C36_same_stamp_partial",
    "RL.C36_same_stamp_contaminates"
   ],
   "note": "The velocity is exact away from vertical pitch. Same-stamp poses give non-numbers: ignored by an initialised filter, but as first measurement they spoil the state (C36_same_stamp_contaminates)."
  },
  {
   "property": "C37",
   "status": "partial",
   "theorems": [
    "RL.C37_modes",
    "RL.C37_relative_to_first_partial",
    "RL.C37_other_frame"
   ],
   "note": "Holds for poses given in the world frame, over any stream. Refuted for poses given in another frame: the first one measures the place of that frame (C37_other_frame)."
  },
  {
   "property": "C38",
   "status": "partial",
   "theorems": [
    "RL.C38_residual",
    "RL.C38_kinematic_partial",
    "RL.C38_aligned_partial",
    "RL.C38_not_removed",
    "RL.C38_upside_down"
   ],
   "note": "Gravity is taken off in the sensor frame after the reading has been rotated to the base frame: C38_residual gives the exact error, C38_kinematic_partial characterises the mountings for which it vanishes, C38_upside_down is a witness with twice gravity left over."
  },
  {
   "property": "C39",
   "status": "proved",
   "theorems": [
    "RL.C39_orientation_alone",
    "RL.C39_velocity_alone",
    "RL.C39_acceleration_alone",
    "RL.C39_absent_nothing"
   ],
   "note": "Each IMU stream depends on its own field only; an absent field leaves no trace. With gravity removal the acceleration also depends on the orientation field (or, if that is absent, on the estimate), as designed."
  },
  {
   "property": "C40",
   "status": "proved",
   "theorems": [
    "RL.C40_measured_axes",
    "RL.C40_order",
    "RL.C40_nothing_left"
   ],
   "note": "Which axes are driven by the control, for every list of IMU configurations, in any order. An axis is an axis of the sensor configuration; mountings are not considered by the code."
  },
  {
   "property": "C41",
   "status": "proved",
   "theorems": [
    "RL.C41_odometry",
    "RL.C41_acceleration"
   ],
   "note": "For finite estimates. The orientation is the unit quaternion of the estimated angles."
  },
  {
   "property": "C42",
   "status": "proved",
   "theorems": [
    "RL.C42_map_to_base",
    "RL.C42_odom_to_base",
    "RL.C42_nothing_else"
   ],
   "note": "Map mode, odom mode, and the cases in which nothing is sent. The transform odom->base is the latest one, not the one at the stamp; the theorem also says that composing with any other transform does not give the estimate."
  },
  {
   "property": "C43",
   "status": "partial",
   "theorems": [
    "RL.C43_matrix_to_quaternion",
    "RL.C43_same_angles",
    "RL.C43_same_rotation_partial",
    "RL.C43_vertical_forgets",
    "RL.C43_vertical_changes_rotation",
    "RL.C43_state_round_trip"
   ],
   "note": "Holds away from vertical pitch; at exactly vertical pitch tf2 returns zero roll and yaw and the rotation changes (C43_vertical_changes_rotation)."
  },
  {
   "property": "C44",
   "status": "partial",
   "theorems": [
    "RL.C44_buffer_partial",
    "RL.C44_strict_order",
    "RL.C44_duplicate_stamps"
   ],
   "note": "Refuted for strict order when a stamp is set twice (C44_duplicate_stamps); strict for distinct stamps (C44_strict_order)."
  },
  {
   "property": "C45",
   "status": "proved",
   "theorems": [
    "RL.C45_empty",
    "RL.C45_exact",
    "RL.C45_between",
    "RL.C45_after",
    "RL.C45_before",
    "RL.C45_total",
    "RL.C45_never_failed"
   ],
   "note": "Full; with C45_total the cases are complete for ordered buffers."
  },
  {
   "property": "C46",
   "status": "partial",
   "theorems": [
    "RL.C46_keeps_newest_partial",
    "RL.C46_in_order_partial",
    "RL.C46_fresh_partial",
    "RL.C46_shrinking_drops_newest"
   ],
   "note": "Refuted for shrinking (C46_shrinking_drops_newest)."
  },
  {
   "property": "C47",
   "status": "partial",
   "theorems": [
    "RL.C47_stored_partial",
    "RL.C47_same_second_dropped",
    "RL.C47_contents",
    "RL.C47_half_seconds"
   ],
   "note": "Proved for messages at whole seconds in time order, with the contents of every message. Refuted for other stamps: only header.stamp.sec is used, so of the messages within one second only the first is kept and it is stored under the wrong time."
  },
  {
   "property": "C48",
   "status": "proved",
   "theorems": [
    "RL.C48_rigid",
    "RL.C48_query"
   ],
   "note": "Rigid-body spec by derivatives: for every path of the base with the estimated pose and velocities, the queried pose and velocities are those of the mounted frame."
  },
  {
   "property": "C49",
   "status": "partial",
   "theorems": [
    "RL.C49_search",
    "RL.C49_cycle_never_ends",
    "RL.C49_answers_partial",
    "RL.C49_remembered",
    "RL.C49_reparented"
   ],
   "note": "Search correct for every finite forest, with a bound on the recursion; caches stay right while frames are only added. Refuted for re-parented frames (the cache is never invalidated); on a cycle the recursion never ends."
  },
  {
   "property": "C50",
   "status": "partial",
   "theorems": [
    "RL.Nav.C50_from_to_partial",
    "RL.Nav.C50_to_from_partial",
    "RL.Nav.C50_other_hemisphere",
    "RL.Nav.C50_local"
   ],
   "note": "UTM mode, hemisphere of the datum: both directions (altitude lost with zero_altitude). Refuted across the equator (never returned) and in local cartesian mode (mapToLL uses UTM with zone 0; the request ends the node)."
  },
  {
   "property": "C51",
   "status": "partial",
   "theorems": [
    "RL.Nav.C51_start",
    "RL.Nav.C51_manual_partial",
    "RL.Nav.C51_bad_datum"
   ],
   "note": "Full without a manual datum (C51_start). With a manual datum it needs a datum that can be projected; a datum off the earth leaves the previous place in use (C51_bad_datum)."
  },
  {
   "property": "C52",
   "status": "proved",
   "theorems": [
    "RL.Nav.C52_nothing_before",
    "RL.Nav.C52_once_per_fix"
   ],
   "note": "For every run from a new node. The heading may come from the odometry (use_odometry_yaw)."
  },
  {
   "property": "C53",
   "status": "partial",
   "theorems": [
    "RL.Nav.C53_antenna_partial",
    "RL.Nav.C53_missing_transform"
   ],
   "note": "Needs both transforms (antenna and robot pose). Refuted otherwise: the origin is published instead of the uncorrected fix (C53_missing_transform)."
  },
  {
   "property": "C54",
   "status": "partial",
   "theorems": [
    "RL.Nav.C54_same_zone_partial",
    "RL.Nav.C54_local",
    "RL.Nav.C54_other_zone"
   ],
   "note": "Proved in UTM mode for points whose standard zone is the zone in use. Refuted in local mode (fixes are always projected with UTM: off by the UTM coordinates of the datum) and for points of other zones (fixes use their standard zone, fromLL the fixed one)."
  },
  {
   "property": "C55",
   "status": "proved",
   "theorems": [
    "RL.Nav.C55_central_meridian",
    "RL.Nav.C55_zone_middle"
   ],
   "note": "For the function UTM, the only place in the repository that computes a zone; LLtoUTM delegates to GeographicLib."
  },
  {
   "property": "C56",
   "status": "partial",
   "theorems": [
    "RL.C56_short_list_out_of_bounds",
    "RL.C56_never_rejected",
    "RL.C56_transposed",
    "RL.C56_right_lengths_partial"
   ],
   "note": "Refuted: the size of the (fixed size) matrix is tested instead of that of the list, so no length is rejected (C56_never_rejected) and short lists are read out of bounds (C56_short_list_out_of_bounds); a matrix is read transposed (C56_transposed). Proved for the two right lengths."
  },
  {
   "property": "C57",
   "status": "partial",
   "theorems": [
    "RL.C57_safe_partial",
    "RL.C57_accesses",
    "RL.C57_missing_gains",
    "RL.C57_missing_config"
   ],
   "note": "Refuted: missing gains (C57_missing_gains) and missing control_config (C57_missing_config) are accessed out of bounds. Proved for parameters of the right lengths."
  },
  {
   "property": "C58",
   "status": "proved",
   "theorems": [
    "RL.C58_worst_level",
    "RL.C58_messages",
    "RL.C58_once"
   ],
   "note": "Every sequence of diagnostics and reports; level and messages."
  },
  {
   "property": "C59",
   "status": "partial",
   "theorems": [
    "RL.C59_lookup",
    "RL.C59_twist_own_stamp_partial",
    "RL.C59_pose_uses_latest",
    "RL.C59_small_stamps",
    "RL.C59_witness"
   ],
   "note": "The lookup itself is as documented and velocities use it with their stamp; poses ask for a wrong time (seconds taken as nanoseconds) and so get the latest transform (C59_pose_uses_latest, C59_witness)."
  },
  {
   "property": "C60",
   "status": "partial",
   "theorems": [
    "RL.C60_prefix_ignored",
    "RL.C60_append_prefix_partial",
    "RL.C60_no_prefix_keeps_slash"
   ],
   "note": "Refuted: the prefix that was read is not the one that is used (C60_prefix_ignored). appendPrefix itself is right for a non-empty prefix and leaves a slash in place for an empty one (C60_no_prefix_keeps_slash)."
  },
  {
   "property": "C61",
   "status": "partial",
   "theorems": [
    "RL.C61_diagnosis_partial",
    "RL.C61_missing_y_not_reported",
    "RL.C61_measured_y_reported"
   ],
   "note": "Refuted for y (twist_var_counts of Vy counts the flag of Vx for odometry): C61_missing_y_not_reported, C61_measured_y_reported. Proved for all variables when odometry inputs select both or none of Vx, Vy; the hypothesis concerns y only."
  },
  {
   "property": "C62",
   "status": "partial",
   "theorems": [
    "RL.C62_angle_mean_partial",
    "RL.C62_angle_mean_flips",
    "RL.C62_standstill_flips"
   ],
   "note": "Holds below a variance of 2 rad^2; above it the average is the opposite direction (C62_angle_mean_flips, C62_standstill_flips)."
  },
  {
   "property": "C63",
   "status": "partial",
   "theorems": [
    "RL.C63_all_or_none",
    "RL.C63_unused_ignored_partial",
    "RL.C63_unused_leaks",
    "RL.C63_unused_nan_blocks"
   ],
   "note": "Refuted for slanted mountings (C63_unused_leaks) and for fields that are not numbers (C63_unused_nan_blocks); holds for mountings along the axes."
  },
  {
   "property": "C64",
   "status": "partial",
   "theorems": [
    "RL.C64_scaled_by_dt_cubed",
    "RL.C64_one_second_partial"
   ],
   "note": "Refuted: the covariance is multiplied by the time step instead of divided by its square (C64_scaled_by_dt_cubed); right for steps of one second. The specification takes the covariances along the axes of the robot; C115 shows what this ignores."
  },
  {
   "property": "C65",
   "status": "partial",
   "theorems": [
    "RL.C65_converted_partial",
    "RL.C65_unknown_frame_fused"
   ],
   "note": "Converted correctly when the transform is known; refuted when it is not: the pose is fused as that of the base (C65_unknown_frame_fused)."
  },
  {
   "property": "C66",
   "status": "partial",
   "theorems": [
    "RL.C66_short_config_out_of_bounds",
    "RL.C66_odom_config_out_of_bounds",
    "RL.C66_long_config_accepted",
    "RL.C66_fifteen_partial"
   ],
   "note": "Refuted: too short vectors are accessed out of bounds, too long ones are accepted. Proved for fifteen entries."
  },
  {
   "property": "C67",
   "status": "partial",
   "theorems": [
    "RL.C67_difference_quotient_partial",
    "RL.C67_first_cycle_arbitrary",
    "RL.C67_cycle_time"
   ],
   "note": "Refuted for the first cycle (uninitialised members, C67_first_cycle_arbitrary) and where the time of the estimate is not that of the cycle (C67_cycle_time). Proved as difference quotient over cycle times from the second cycle on."
  },
  {
   "property": "C68",
   "status": "partial",
   "theorems": [
    "RL.C68_lost_partial",
    "RL.C68_planar_partial",
    "RL.C68_published_anyway",
    "RL.C68_first_nan",
    "RL.C68_finite_partial"
   ],
   "note": "Refuted: the check only logs (C68_published_anyway, C68_first_nan). What holds: a finite estimate is sent unchanged (C68_finite_partial); a sequence of measurements with proper covariances loses a finite estimate only by way of a pitch of exactly a quarter of a turn (C68_lost_partial, in the real-number model); a planar EKF node that is given numbers never publishes anything but finite estimates, along any run (C68_planar_partial)."
  },
  {
   "property": "C69",
   "status": "proved",
   "theorems": [
    "RL.C69_names_differ",
    "RL.C69_pose",
    "RL.C69_twist",
    "RL.C69_odom",
    "RL.C69_imu"
   ],
   "note": "Names of all streams are different for any number of inputs; callbacks of one input leave all other streams as they are."
  },
  {
   "property": "C70",
   "status": "partial",
   "theorems": [
    "RL.C70_lookup_time_partial",
    "RL.C70_overflow",
    "RL.C70_whole_seconds"
   ],
   "note": "Refuted: from 2.147483648 s on static_cast<int>(time * 1e9) is undefined; the rclcpp::Time overload uses integer division. Proved in the range that fits."
  },
  {
   "property": "C71",
   "status": "partial",
   "theorems": [
    "RL.C71_base_partial",
    "RL.C71_acceleration_lost",
    "RL.C71_twist_covariance_lost",
    "RL.C71_turned_mount",
    "RL.C71_no_lever_arm"
   ],
   "note": "Refuted for frames other than the base: accelerations and covariances of velocities are zero, the pose covariance is turned with the mount and lacks the lever arm. Proved for the base."
  },
  {
   "property": "C72",
   "status": "proved",
   "theorems": [
    "RL.C72_sensible",
    "RL.C72_zero_size"
   ],
   "note": "Frames: proved. A listener with buffer size 0 answers with zeros after the first message (C72_zero_size)."
  },
  {
   "property": "C73",
   "status": "partial",
   "theorems": [
    "RL.Nav.C73_imu_ignored",
    "RL.Nav.C73_zone_old_pose",
    "RL.Nav.C73_zone_turned_map",
    "RL.Nav.C73_uncorrected",
    "RL.Nav.C73_last_fix_partial",
    "RL.Nav.C73_last_odometry_partial",
    "RL.Nav.C73_last_heading_partial"
   ],
   "note": "Holds until the transform is first known. Refuted after set_utm_zone: old heading and, until the next odometry message, old pose (C73_zone_old_pose, C73_zone_turned_map, C73_imu_ignored); and when an IMU transform is missing (C73_uncorrected)."
  },
  {
   "property": "C74",
   "status": "partial",
   "theorems": [
    "RL.Nav.C74_steps_partial",
    "RL.Nav.C74_equator"
   ],
   "note": "Isometry within a zone and hemisphere. Refuted at the equator: a jump of 10000 km; at zone borders see C54_other_zone."
  },
  {
   "property": "C75",
   "status": "partial",
   "theorems": [
    "RL.Nav.C75_stamps_exactly",
    "RL.Nav.C75_late_stamps_partial",
    "RL.Nav.C75_early_odometry",
    "RL.Nav.C75_unread_heading",
    "RL.Nav.C75_exactly",
    "RL.Nav.C75_safe_partial",
    "RL.Nav.C75_bad_fix",
    "RL.Nav.C75_early_request",
    "RL.Nav.C75_local_filtered"
   ],
   "note": "C75_exactly lists what ends the node apart from stamps before the epoch, C75_stamps_exactly with them; refuted by C75_bad_fix, C75_early_request, C75_local_filtered and C75_early_odometry. C75_late_stamps_partial: with other stamps both kinds of run agree."
  },
  {
   "property": "C76",
   "status": "proved",
   "theorems": [
    "RL.Nav.C76_gps_odometry",
    "RL.Nav.C76_filtered"
   ],
   "note": "Both messages, for every run."
  },
  {
   "property": "C77",
   "status": "partial",
   "theorems": [
    "RL.Nav.C77_filtered_partial"
   ],
   "note": "UTM mode and places in the hemisphere of the datum; elsewhere mapToLL is refuted by C50_other_hemisphere and C50_local."
  },
  {
   "property": "C78",
   "status": "proved",
   "theorems": [
    "RL.Nav.C78_direction",
    "RL.Nav.C78_convergence"
   ],
   "note": "Full. The meaning of the convergence is stated as the derivative of the projected path."
  },
  {
   "property": "C79",
   "status": "proved",
   "theorems": [
    "RL.Nav.C79_mounted"
   ],
   "note": "Robot level; mount not pointing straight up or down."
  },
  {
   "property": "C80",
   "status": "partial",
   "theorems": [
    "RL.C80_given_partial",
    "RL.C80_default_ignores_commands",
    "RL.C80_default_acts_on_the_past"
   ],
   "note": "Partial: holds when control_timeout is set. Refuted by default: the default 0 overwrites the sensor timeout, so that no command acts after it was given."
  },
  {
   "property": "C81",
   "status": "proved",
   "theorems": [
    "RL.C81_first_estimate",
    "RL.C81_wrong_length"
   ],
   "note": "Full; the first measurement must be finite."
  },
  {
   "property": "C82",
   "status": "partial",
   "theorems": [
    "RL.C82_no_self_transform_partial",
    "RL.C82_invalid_configuration_used"
   ],
   "note": "Partial: holds for configurations not reported as invalid. Refuted otherwise: an invalid configuration is logged and used."
  },
  {
   "property": "C83",
   "status": "partial",
   "theorems": [
    "RL.C83_pose_message_partial",
    "RL.C83_large_partial",
    "RL.C83_velocity_unreported",
    "RL.C83_acceleration_unreported",
    "RL.C83_velocity_inputs",
    "RL.C83_zero_unreported",
    "RL.C83_turned_unreported",
    "RL.C83_pose_partial",
    "RL.C83_twist_never",
    "RL.C83_acceleration_never"
   ],
   "note": "Partial: exact for poses in a frame that is not turned against the target frame (C83_pose_partial for the entries, C83_pose_message_partial for whole messages, with empty orientations); entries above 1000 are reported everywhere (C83_large_partial). Refuted: zero or negative variances of velocities and accelerations are never reported, for any configuration (index without offset: C83_twist_never, C83_acceleration_never, C83_velocity_inputs, C83_velocity_unreported, C83_acceleration_unreported; C83_zero_unreported shows a measurement that goes to the filter with variance zero); for poses in a turned frame the wrong variances are looked at, with both a missed and a false warning (C83_turned_unreported)."
  },
  {
   "property": "C84",
   "status": "partial",
   "theorems": [
    "RL.C84_same_noise_partial",
    "RL.C84_short_undefined",
    "RL.C84_default_undefined",
    "RL.C84_transposed"
   ],
   "note": "Partial: for a symmetric matrix of 225 entries that survive printing. Refuted without the parameter and for diagonals (the listener reads out of bounds) and for asymmetric matrices (transposed)."
  },
  {
   "property": "C85",
   "status": "partial",
   "theorems": [
    "RL.C85_row_major_partial",
    "RL.C85_column_major",
    "RL.C85_asymmetric",
    "RL.C85_no_answer"
   ],
   "note": "Partial: for symmetric covariances. Refuted: an asymmetric one is sent transposed; a failed query sends zeros like a robot at rest at the origin."
  },
  {
   "property": "C86",
   "status": "partial",
   "theorems": [
    "RL.C86_covariances_partial",
    "RL.C86_past_not_covariance"
   ],
   "note": "Partial: for times not before all stored ones, for every frame; EKF. Refuted for earlier times (noise is subtracted)."
  },
  {
   "property": "C87",
   "status": "proved",
   "theorems": [
    "RL.C87_carried_on"
   ],
   "note": "Full for the EKF; the time is rounded down to nanoseconds, pitch of the stored state not vertical."
  },
  {
   "property": "C88",
   "status": "proved",
   "theorems": [
    "RL.C88_parameters_act",
    "RL.C88_within_limits"
   ],
   "note": "Full for settings whose gains are complete (C57 says when they are not)."
  },
  {
   "property": "C89",
   "status": "partial",
   "theorems": [
    "RL.C89_either_order_partial",
    "RL.C89_any_order_partial",
    "RL.C89_headings",
    "RL.C89_gated",
    "RL.C89_first_measurements"
   ],
   "note": "Proved for measurements without angles and without rejection thresholds, any number and any permutation. Refuted otherwise: headings (C89_headings, wrapping of the innovation), thresholds (C89_gated), the first measurements of a filter (C89_first_measurements)."
  },
  {
   "property": "C90",
   "status": "partial",
   "theorems": [
    "RL.C90_any_queue_partial",
    "RL.C90_origin_partial",
    "RL.C90_reset",
    "RL.C90_ukf_gate",
    "RL.C90_ukf_threshold_partial",
    "RL.C90_node_partial",
    "RL.C90_loaded_partial",
    "RL.C90_relative",
    "RL.C90_ukf_node_partial",
    "RL.C90_ukf_loaded_partial",
    "RL.C90_ukf_partial"
   ],
   "note": "Proved for the EKF node and every sequence of events without reset and without a set_pose that cannot be transformed. Proved for the UKF node with the same exceptions when measurements have no rejection threshold (C90_ukf_partial), and with thresholds once the sigma points are no longer those the filter was constructed with (C90_ukf_threshold_partial). Refuted for thresholds before that (C90_ukf_gate): the sigma points are then zero whatever the origin, so a measurement that is exactly what the filter expects is rejected when the origin is far away. Refuted across a reset (C90_reset): the robot is then put at the origin of the world frame. For the EKF also from raw messages and transforms to the messages sent, for every node that can be loaded from parameters (C90_node_partial, C90_loaded_partial), when velocities and IMU messages are not in the world frame itself and inputs with relative give no poses in the world frame; refuted for those (C90_relative). The same for the UKF node without rejection thresholds (C90_ukf_node_partial, C90_ukf_loaded_partial)."
  },
  {
   "property": "C91",
   "status": "partial",
   "theorems": [
    "RL.C91_epoch_partial",
    "RL.C91_near_epoch_partial",
    "RL.C91_at_epoch",
    "RL.C91_uninitialised_control",
    "RL.C91_ukf_partial"
   ],
   "note": "Proved for the EKF node and every sequence of events later than the epoch and, when control is used, later than the control timeout after the epoch; near the epoch for a control vector that is zero. Refuted at the epoch itself (C91_at_epoch: a stamp of zero counts as never) and for the control vector the filter is constructed with (C91_uninitialised_control: it is not initialised and acts until the control timeout after the epoch). For the UKF node (C91_ukf_partial) it holds for all events later than the epoch, whatever the control vector contains, because that filter ignores it."
  },
  {
   "property": "C92",
   "status": "partial",
   "theorems": [
    "RL.C92_any_queue_partial",
    "RL.C92_heading_partial",
    "RL.C92_reset",
    "RL.C92_message_partial",
    "RL.C92_tilt_noise",
    "RL.C92_tilt"
   ],
   "note": "Proved for the EKF node, all runs, when x and y are measured together and variances stay at or above the floor of 1e-9, without reset and without a set_pose that cannot be transformed. Refuted across a reset (C92_reset). For a pose message from another frame: proved for what is measured and for the noise except that of roll and pitch (C92_message_partial); the noise of roll and pitch is turned like a vector in the world frame, so it depends on the heading of that frame (C92_tilt_noise, C92_tilt)."
  },
  {
   "property": "C93",
   "status": "partial",
   "theorems": [
    "RL.C93_pose_partial",
    "RL.C93_twist_partial",
    "RL.C93_odometry_partial",
    "RL.C93_imu_partial",
    "RL.C93_pose_planar_partial",
    "RL.C93_twist_planar_partial",
    "RL.C93_odometry_planar_partial",
    "RL.C93_imu_planar_partial"
   ],
   "note": "Proved for absolute mode, in space and in two_d_mode (there for the variables of the plane; the others are measured as zero): poses in the world frame, velocities and IMUs of the base frame with all fields present, odometry of the base frame or of a child frame with known transform. Other frames are C33, C34, C38, C65 and C94; differential and relative mode are C36 and C37; absent IMU fields are C39."
  },
  {
   "property": "C94",
   "status": "partial",
   "theorems": [
    "RL.C94_level_partial",
    "RL.C94_rolled_partial",
    "RL.C94_backwards_partial",
    "RL.C94_pitched"
   ],
   "note": "Proved for a level robot with any mounting that is not vertical, for any attitude with a mounting that is only rolled, and for a backward mounting. Refuted for pitched mountings (C94_pitched): angles are subtracted one by one."
  },
  {
   "property": "C95",
   "status": "partial",
   "theorems": [
    "RL.C95_two_parts_partial",
    "RL.C95_any_parts_partial",
    "RL.C95_readings_partial",
    "RL.C95_filter_parts_partial",
    "RL.C95_filter_readings_partial",
    "RL.C95_first_message"
   ],
   "note": "Proved without rejection thresholds, for measured angles that stay within half a turn of their estimate (structure NearAll), for a filter without orientations, and for means above the variance floor of 1e-9. Refuted for the first message of a filter (C95_first_message)."
  },
  {
   "property": "C96",
   "status": "partial",
   "theorems": [
    "RL.Nav.C96_east",
    "RL.Nav.C96_north_partial",
    "RL.Nav.C96_distinct_partial",
    "RL.Nav.C96_hemispheres",
    "RL.Nav.C96_greenwich",
    "RL.Nav.C96_range",
    "RL.Nav.C96_equator"
   ],
   "note": "Proved with exact arithmetic for all places of one zone off the poles: eastings on a parallel, eastings' range and the mirror images without exception; northings and distinctness within one hemisphere. Refuted across the equator (C96_equator): places on the equator have southern northings, so a small step north from there loses more than 9000 km."
  },
  {
   "property": "C97",
   "status": "partial",
   "theorems": [
    "RL.C97_reproduced_partial",
    "RL.C97_straight",
    "RL.C97_spin",
    "RL.C97_late",
    "RL.C97_circle"
   ],
   "note": "For a node with the EKF and no velocity control: proved for every motion the motion model integrates without error (straight with constant body acceleration: C97_straight; turning on the spot about the vertical: C97_spin; standing still), all settings, covariances, thresholds and arrival orders, provided late data are covered by the history or the robot stands still. Refuted without these conditions: a late exact measurement without smoothing pulls the estimate half a metre away (C97_late); a robot on a circle is predicted straight ahead (C97_circle)."
  },
  {
   "property": "C98",
   "status": "proved",
   "theorems": [
    "RL.Nav.C98_on_air",
    "RL.Nav.C98_height"
   ],
   "note": "Proved for every run from a new node with broadcasting on and odometry in one frame, both directions of the transform and both projections: the transform on the air relates the answer of fromLL to the coordinates of the place in the named projection frame. The height is excepted when altitudes are set to zero: then the transform gives the altitude and the node gives zero (C98_height)."
  },
  {
   "property": "C99",
   "status": "partial",
   "theorems": [
    "RL.Nav.C99_settings_partial",
    "RL.Nav.C99_starts",
    "RL.Nav.C99_parent_name",
    "RL.Nav.C99_delay",
    "RL.Nav.C99_filtered_default",
    "RL.Nav.C99_no_wait"
   ],
   "note": "Partial: proved for all parameter sets for every setting of the constructor (C99_settings_partial, and C99_starts for when the node starts). Refuted: the documented name for the direction of the broadcast is never read (C99_parent_name, over all runs), a delay below one second is none (C99_delay), the default of publish_filtered_gps (C99_filtered_default), and a node without a datum does not wait for the service but takes latitude and longitude zero (C99_no_wait)."
  },
  {
   "property": "C100",
   "status": "partial",
   "theorems": [
    "RL.C100_other_variables_partial",
    "RL.C100_negative_variance"
   ],
   "note": "Partial: proved for the block of all variables that are not angles, for every state, covariance, spread with 15+kappa > 0 and beta + alpha^2 kappa/15 >= 0, noise and time step (C100_other_variables_partial). Missing and refuted: angles. With the default parameters a turning robot with uncertain roll gets a negative heading variance (C100_negative_variance)."
  },
  {
   "property": "C101",
   "status": "partial",
   "theorems": [
    "RL.C101_crossing",
    "RL.C101_velocities_partial",
    "RL.C101_position_turns_robot"
   ],
   "note": "Partial: velocities, rates and accelerations are corrected the same way (C101_velocities_partial); C101_crossing gives the exact error otherwise. Refuted for positions: with the default parameters a message about x alone turns a robot that drives towards negative x by more than 30 rad per metre of difference and leaves a negative variance (C101_position_turns_robot)."
  },
  {
   "property": "C102",
   "status": "partial",
   "theorems": [
    "RL.C102_flow",
    "RL.C102_control",
    "RL.C102_settings_partial",
    "RL.C102_kept",
    "RL.C102_unscented",
    "RL.C102_output_frame_name",
    "RL.C102_stamped_control",
    "RL.C102_time_jump",
    "RL.C102_imu_threshold_name",
    "RL.C102_starts"
   ],
   "note": "Partial: all documented settings except four are proved for every set of parameters (C102_settings_partial, C102_unscented), as they reach the control flow and the prediction (C102_flow, C102_control); a node with well-typed parameters starts (C102_starts); every node meets the assumption Cfg.Kept of C01 and C13 (C102_kept). Refuted: base_link_output_frame and imuN_angular_velocity_rejection_threshold are documented under names that are never read (C102_output_frame_name, C102_imu_threshold_name), stamped_control is never read (C102_stamped_control), reset_on_time_jump has no effect (C102_time_jump)."
  },
  {
   "property": "C103",
   "status": "partial",
   "theorems": [
    "RL.C103_reported_partial",
    "RL.C103_nothing_kept",
    "RL.C103_told_partial",
    "RL.C103_untransformable_unreported",
    "RL.C103_seconds_not_told",
    "RL.C103_off",
    "RL.C103_no_false_alarm"
   ],
   "note": "Partial: exactly the messages and parts thrown away because of their stamp file a warning (C103_reported_partial), nothing of them is kept (C103_nothing_kept), they are told about at the latest in the first cycle of the enabled node a period after the last report, if print_diagnostics is set (C103_told_partial; never otherwise: C103_off), and there are no false alarms (C103_no_false_alarm). Refuted: a message that cannot be transformed is thrown away without any diagnostic (C103_untransformable_unreported); the text of a warning leaves out the seconds of the time (C103_seconds_not_told)."
  },
  {
   "property": "C104",
   "status": "partial",
   "theorems": [
    "RL.C104_straight_partial",
    "RL.C104_pose_noise_partial",
    "RL.C104_never_surer",
    "RL.C104_less_sure",
    "RL.C104_turning",
    "RL.C104_motion_partial",
    "RL.C104_schedules_partial",
    "RL.C104_velocity_variance"
   ],
   "note": "For the EKF. C104_straight_partial: for any cycles of a node with an empty queue, with or without predict_to_current_time, the state is that of a single prediction to the time the filter has come to, if the estimated rates are zero. C104_pose_noise_partial: at rest and with process noise on the pose only, the covariance too. C104_never_surer, C104_less_sure: otherwise, at rest with diagonal noise, more cycles never give a smaller variance, and with noise on the velocities (the default) a cycle in between makes all three position variances strictly larger, since the noise of an earlier step is carried through the later one. C104_turning: when the robot turns the position itself depends on the cycles. C104_motion_partial, C104_schedules_partial: without any assumption about the motion, velocities, rates and accelerations, and the covariances of rates and accelerations, do not depend on the cycles; C104_velocity_variance: those of the velocities do."
  },
  {
   "property": "C105",
   "status": "partial",
   "theorems": [
    "RL.C105_cycles_partial",
    "RL.C105_rest_partial",
    "RL.C105_known",
    "RL.C105_forgets"
   ],
   "note": "partial: proved for positive variances (angle variances below 2, and small against the sigma spread); over any number of cycles of two nodes for a robot that stands level (C105_cycles_partial). Refuted when a variance is zero: Eigen's LLT stops at that variable, generateSigmaPoints does not look at info(), and the variances of all later variables are squared and scaled by alpha^2 (15 + kappa) (C105_known); C105_forgets shows it on a run of both nodes with default parameters. The refutation rests on Model/Llt.lean, which is Eigen's algorithm written from memory of its published source (Eigen is not in the sandbox); the partial theorem holds for every Llt."
  },
  {
   "property": "C106",
   "status": "partial",
   "theorems": [
    "RL.C106_measurements_partial",
    "RL.C106_snapshots_partial",
    "RL.C106_more_snapshots_than_measurements",
    "RL.C106_disabled_node_stores_everything"
   ],
   "note": "partial: measurements proved for every cycle of an enabled node and everything after it (as multisets of stamps); snapshots proved up to the number of messages waiting when a cycle begins. Refuted: late messages that find no older snapshot leave snapshots that outlive them (C106_more_snapshots_than_measurements), and a node waiting to be enabled stores every message (C106_disabled_node_stores_everything)."
  },
  {
   "property": "C107",
   "status": "partial",
   "theorems": [
    "RL.C107_any_queue_partial",
    "RL.C107_units_partial",
    "RL.C107_control",
    "RL.C107_dynamic_noise",
    "RL.C107_floor",
    "RL.C107_set_pose",
    "RL.C107_ukf_partial",
    "RL.C107_ukf_compass"
   ],
   "note": "partial: EKF node, any queue, without control, with constant process noise, variances above the floor in both units and no failed set_pose. Each exception is refuted: C107_control (the constant 0.01), C107_dynamic_noise, C107_floor (1e-9), C107_set_pose (1e-6). UKF node (C107_ukf_partial): control included, constant process noise, variances above the floor, no failed set_pose, every estimate all of whose sigma points were drawn from positive definite covariances (marks say which, and change nothing), and no orientation at a place in the list of measured variables where the code takes a length for an angle; refuted there (C107_ukf_compass)."
  },
  {
   "property": "C108",
   "status": "partial",
   "theorems": [
    "RL.C108_whole_run_partial",
    "RL.C108_ukf_partial",
    "RL.C108_any_queue_partial",
    "RL.C108_mirror_partial",
    "RL.C108_orientation_partial",
    "RL.C108_half_turn"
   ],
   "note": "partial: EKF, control and dynamic noise included. Whole runs, any queue, when neither roll nor yaw is measured (C108_any_queue_partial). Whole runs, whatever is measured: every estimate into which no roll or yaw measured exactly half a turn away has gone is mirrored (C108_whole_run_partial; marks on the estimates say which, and change nothing). Refuted at exactly half a turn (C108_half_turn). Unscented filter, whole runs, whatever is measured (C108_ukf_partial): exactly mirrored, for every estimate into which no roll or yaw averaged or normalised to exactly half a turn has gone and no sigma point drawn from a matrix that is not positive definite."
  },
  {
   "property": "C109",
   "status": "partial",
   "theorems": [
    "RL.C109_correction",
    "RL.C109_variance",
    "RL.C109_published_partial",
    "RL.C109_gated",
    "RL.C109_predicted"
   ],
   "note": "partial: EKF node with any queue, for measurements without a gate, when the estimate is not predicted to the present, under the conditions of C01_published_partial (C109_published_partial); as an inequality of whole covariance matrices for one correction (C109_correction). Refuted for gated measurements (C109_gated) and for predicted estimates (C109_predicted)."
  },
  {
   "property": "C110",
   "status": "proved",
   "theorems": [
    "RL.Nav.C110_conformal",
    "RL.Nav.C110_meridian",
    "RL.Nav.C110_wgs84"
   ],
   "note": "Proved with exact arithmetic against an independent description of the ellipsoid (radii of curvature, length of the meridian as an integral, radius and flattening of WGS 84)."
  },
  {
   "property": "C111",
   "status": "proved",
   "theorems": [
    "RL.C111_correction",
    "RL.C111_prediction",
    "RL.C111_first",
    "RL.C111_run",
    "RL.C111_variable",
    "RL.C111_half_turn",
    "RL.C111_unscented"
   ],
   "note": "proved for the EKF: one correction (C111_correction), one prediction (C111_prediction), the first measurement (C111_first), any sequence of measurements in order (C111_run, C111_variable). The truth, its motion and all errors are arbitrary. Refuted for angles half a turn apart (C111_half_turn) and for the unscented filter (C111_unscented: its gain ignores the process noise, its reported covariance does not account for that)."
  },
  {
   "property": "C112",
   "status": "partial",
   "theorems": [
    "RL.C112_same_stamp",
    "RL.C112_exactly_partial",
    "RL.C112_all_partial",
    "RL.C112_together",
    "RL.C112_stamps",
    "RL.C112_node_partial",
    "RL.C112_deaf",
    "RL.C112_mixed",
    "RL.C112_late",
    "RL.C112_names"
   ],
   "note": "proved: only messages of one stamp are combined, for all arrivals (C112_same_stamp); on ordered topics, with losses, exactly the estimates of which both messages arrive (C112_exactly_partial), all of them without losses (C112_all_partial, C112_node_partial), and for messages that arrive next to each other whatever the stamps (C112_together); the node sends both under one stamp (C112_stamps). False: by default nothing is heard, because publish_acceleration is off (C112_deaf) and because node and listener use different topic names (C112_names); with permit_corrected_publication two estimates of one stamp can be mixed (C112_mixed); delays beyond the queue of ten lose estimates (C112_late). The synchroniser of message_filters is modelled from its published source."
  },
  {
   "property": "C113",
   "status": "partial",
   "theorems": [
    "RL.C113_state_partial",
    "RL.C113_ekf_partial",
    "RL.C113_ukf_partial",
    "RL.C113_unset",
    "RL.C113_unset_happens",
    "RL.C113_command",
    "RL.C113_correlation",
    "RL.C113_dynamic"
   ],
   "note": "proved for a filter without control: the same state (C113_state_partial), and, if pose, velocities and accelerations are not correlated and there is no dynamic process noise, the same covariance, for the extended (C113_ekf_partial) and the unscented filter (C113_ukf_partial). False: commands (C113_command), correlations between the groups, which are not published (C113_correlation), dynamic process noise (C113_dynamic), and an unscented filter whose three constants are not given to the listener, which predicts the origin from every state (C113_unset, C113_unset_happens)."
  },
  {
   "property": "C114",
   "status": "partial",
   "theorems": [
    "RL.C114_published_partial",
    "RL.C114_ukf_partial",
    "RL.C114_ukf_corrects_partial",
    "RL.C114_first_measurement",
    "RL.C114_unset_reset"
   ],
   "note": "proved for whole nodes with the extended filter (C114_published_partial), when the process noise is positive definite and not dynamic, the initial covariance is uncorrelated with positive variances and both are set (so that reset restores them), and messages and set_pose leave no combination of what they measure certain; for the unscented filter along all predictions and corrections that follow a prediction, when the central weight is not negative (or the sigma points spread all the same) and no angle is confused (C114_ukf_partial), where no correction fails either (C114_ukf_corrects_partial). False: a first message that claims to be exact is believed (C114_first_measurement), after a reset with unset covariance what is not measured is known exactly (C114_unset_reset); for the unscented filter see also C100_negative_variance."
  },
  {
   "property": "C115",
   "status": "partial",
   "theorems": [
    "RL.C115_velocities",
    "RL.C115_same_partial",
    "RL.C115_shift",
    "RL.C115_isotropic",
    "RL.C115_position_error",
    "RL.C115_turned"
   ],
   "note": "proved for the velocities and the selected variables, for all sequences, frames and mountings (C115_velocities); for the covariances too when turning leaves those of the poses as they are (C115_same_partial): frames that differ by a shift (C115_shift), errors the same in all directions (C115_isotropic). False otherwise (C115_turned): the covariances stay in the axes of the frame of the poses although the velocities are along the axes of the robot; an error of position does turn with the heading (C115_position_error). The model assumes, as everywhere, rotations without rounding."
  },
  {
   "property": "C116",
   "status": "partial",
   "theorems": [
    "RL.C116_prediction",
    "RL.C116_correction",
    "RL.C116_extra",
    "RL.C116_first",
    "RL.C116_run_partial",
    "RL.C116_from_start_partial",
    "RL.C116_in_between",
    "RL.C116_other_heading"
   ],
   "note": "proved for one prediction from the same state (C116_prediction), one correction whatever the states (C116_correction, also when the worse measurement is rejected), a further measurement (C116_extra), the first measurement (C116_first), and for whole sequences that agree with a motion, with further measurements at the stamps the other filter has too (C116_run_partial, C116_from_start_partial). False for further measurements at other times, because two short predictions add more variance than one long one (C116_in_between, see C104), and for measurements that do not agree with the estimate, because the covariance depends on the estimated heading (C116_other_heading)."
  },
  {
   "property": "C117",
   "status": "partial",
   "theorems": [
    "RL.C117_honest_partial",
    "RL.C117_timely"
   ],
   "note": "proved from the parameter file and the raw messages to the messages sent, for the extended filter without control: when nothing is older than the estimate or history is kept (C117_honest_partial), and when every message arrives before the estimate has passed its stamp (C117_timely). Left out: late measurements without history (false, C97_late); motions the prediction does not integrate exactly; differential and relative inputs (C43, C88); IMUs mounted away from the base (C31, C32); the transform when the world frame is the map (C42)."
  },
  {
   "property": "C118",
   "status": "partial",
   "theorems": [
    "RL.C118_spatial_partial",
    "RL.C118_turned",
    "RL.C118_planar_partial"
   ],
   "note": "proved from the parameter file and the raw messages to the messages sent, for the extended filter: outside 2D mode (C118_spatial_partial), and in 2D mode when sensors stand upright and measure height, roll and pitch independently of everything else, roll and pitch equally well (C118_planar_partial). Without the last it is false in 2D mode (C118_turned): a sensor turned about the vertical with independent errors of different size in roll and pitch rate gives an indefinite covariance. Left out: an initial covariance with correlations (false, C01), a pose set by hand with correlations before anything has been measured."
  },
  {
   "property": "C119",
   "status": "proved",
   "theorems": [
    "RL.C119_first_odometry",
    "RL.C119_first_pose",
    "RL.C119_first_twist",
    "RL.C119_set_pose",
    "RL.C119_first_pose_ukf",
    "RL.C119_first_twist_ukf",
    "RL.C119_set_pose_ukf"
   ],
   "note": "proved for pose messages, twist messages and set_pose, for a node with either filter. An odometry message is left out because there it is false (C119_first_odometry): its pose initialises the filter, its twist is then fused against an initial variance of 1e-9, so a robot that reports one metre per second is said to stand. A node with the unscented filter loses the velocities altogether (C18_first_odometry)."
  },
  {
   "property": "C120",
   "status": "partial",
   "theorems": [
    "RL.C120_planar_partial",
    "RL.C120_twice"
   ],
   "note": "proved from the parameter file and the raw messages to the messages sent, for the extended filter and for inputs that are not differential. For differential inputs it is false (C120_twice): a first pose that comes twice with one stamp gives a velocity divided by zero, which the filter takes over and the node sends. Angular accelerations depend on uninitialised memory and are left out."
  },
  {
   "property": "C121",
   "status": "partial",
   "theorems": [
    "RL.C121_together_partial",
    "RL.C121_timely",
    "RL.C121_rolling"
   ],
   "note": "proved for the extended filter without control and for UTM, when the robot stands until navsat_transform has its transform or a datum (set by parameter or service, and true), the zone is not set by hand, the IMU sits on the robot as the base does, and the frames known when a fix is used say how the robot was turned at the fix (navsat_transform asks for a wrong time, C59). Late messages must find an older state in the history (C121_timely: or none is late). For a robot that moves while navsat_transform starts without a datum it is false (C121_rolling)."
  },
  {
   "property": "C122",
   "status": "proved",
   "theorems": [
    "RL.C122_distance",
    "RL.C122_passes",
    "RL.C122_run",
    "RL.C122_gates",
    "RL.C122_sharp"
   ],
   "note": "proved for the extended filter, with the bound shown to be sharp (C122_sharp). Errors of angles must be less than half a turn, and the motion must be honest in the sense of C111."
  },
  {
   "property": "C123",
   "status": "proved",
   "theorems": [
    "RL.C123_heard",
    "RL.C123_eventually",
    "RL.C123_deaf"
   ],
   "note": "proved for the extended filter at rest without commands, messages in order of time. Without process noise it is false (C123_deaf): a sensor that is off by more than its threshold is rejected for ever."
  },
  {
   "property": "C124",
   "status": "proved",
   "theorems": [
    "RL.C124_any_queue",
    "RL.C124_estimate",
    "RL.C124_larger",
    "RL.C124_position",
    "RL.C124_grows",
    "RL.C124_measured"
   ],
   "note": "for the extended filter; C124_measured shows that the variables must not be measured. The growth is shown for the filter object and measurements in any order of time."
  },
  {
   "property": "C125",
   "status": "partial",
   "theorems": [
    "RL.C125_stops_partial",
    "RL.C125_grows"
   ],
   "note": "holds if the velocities and accelerations are known exactly and have no process noise (C125_stops_partial). False for measured velocities: only the pose block is scaled, so the velocity keeps its variance and the variance of the position grows by tau^2 r with every message (C125_grows). For the extended filter."
  },
  {
   "property": "C126",
   "status": "proved",
   "theorems": [
    "RL.C126_cycle",
    "RL.C126_counts",
    "RL.C126_parameters",
    "RL.C126_parameters_ukf"
   ],
   "note": "for any filter core, so for the extended and the unscented filter. Diagnostics are C61 and C103."
  },
  {
   "property": "C127",
   "status": "partial",
   "theorems": [
    "RL.C127_late",
    "RL.C127_answers_partial",
    "RL.C127_whole_seconds_partial",
    "RL.C127_standing",
    "RL.C127_stamped",
    "RL.C127_frames",
    "RL.C127_never_true"
   ],
   "note": "false as stated: the listener keeps only the whole seconds of a stamp, so each answer is the true state of a time later than the one asked for by the fraction of a second in the stamp of one of the messages (C127_late, for every run in C127_answers_partial); true for whole stamps and for a robot that stands. If no stamp is a whole second, no answer about a moving robot is true (C127_never_true). Extended filter in the listener; the unscented prediction of the mean is not exact."
  },
  {
   "property": "C128",
   "status": "partial",
   "theorems": [
    "RL.C128_bank",
    "RL.C128_mean",
    "RL.C128_prior",
    "RL.C128_order",
    "RL.C128_slow_partial",
    "RL.C128_between",
    "RL.C128_faster",
    "RL.C128_converges",
    "RL.C128_first_message"
   ],
   "note": "the last half sentence is false for the first message, which replaces value and variance whatever the initial covariance is (C128_first_message, any variable); for the variables it does not select, and everything else, proved. Finite estimates; readings above the variance floor 1e-9 and without a rejection threshold."
  },
  {
   "property": "C129",
   "status": "partial",
   "theorems": [
    "RL.C129_exact",
    "RL.C129_limit_partial",
    "RL.C129_first_message",
    "RL.C129_believed",
    "RL.C129_second_source",
    "RL.C129_never_ignored"
   ],
   "note": "the limit is exact for every message but the first, which sets the variable whatever the variance (C129_first_message); C129_exact gives the distance for every variance. For rates and accelerations: believed after enough readings if there is process noise (C129_believed); with a second source the inflated readings lose all influence, shown without process noise (C129_second_source). Extended filter."
  },
  {
   "property": "C130",
   "status": "proved",
   "theorems": [
    "RL.C130_follows",
    "RL.C130_oscillates",
    "RL.C130_any_distance",
    "RL.C130_eliminated"
   ],
   "note": "the criterion of overlapping distributions is false: the fraction of the difference by which the output moves does not depend on the difference (C130_any_distance). What decides is the process noise between readings against the variance: C130_follows and C130_oscillates (lower bound), C130_eliminated (upper bound after a while, for large variances). For rates and accelerations in messages that read one variable; extended filter without control."
  },
  {
   "property": "C131",
   "status": "partial",
   "theorems": [
    "RL.C131_jump",
    "RL.C131_threshold",
    "RL.C131_exact",
    "RL.C131_filter",
    "RL.C131_batch",
    "RL.C131_many",
    "RL.C131_node",
    "RL.C131_first_message",
    "RL.C131_ukf_partial",
    "RL.C131_ukf_predicted_partial"
   ],
   "note": "proved of the extended filter for every correction, every list of messages of one time and every reachable node (C131_jump, C131_threshold, C131_batch, C131_many, C131_node); exact for messages about one variable (C131_exact). False of the first message, which is not gated (C131_first_message). For the unscented filter partial: on fresh sigma points and on those of a prediction, while no angle wraps (C131_ukf_partial, C131_ukf_predicted_partial)."
  },
  {
   "property": "C132",
   "status": "partial",
   "theorems": [
    "RL.C132_counts_partial",
    "RL.C132_ukf_counts_partial",
    "RL.C132_not_micro",
    "RL.C132_first_message"
   ],
   "note": "false: corrections use 1e-9 instead (C132_counts_partial, C132_ukf_counts_partial, and C132_not_micro for the difference that makes), and the first message is stored with the variance of zero, after which other messages of its time about the variable are ignored (C132_first_message)."
  },
  {
   "property": "C133",
   "status": "partial",
   "theorems": [
    "RL.C133_shift_partial",
    "RL.C133_velocity_shift",
    "RL.C133_retroactive",
    "RL.C133_jumps",
    "RL.C133_no_bound",
    "RL.C133_between_partial"
   ],
   "note": "false: predictions correlate position and velocity, and a reading of the velocity then moves the position as if the robot had gone with the corrected velocity since the last estimate (C133_velocity_shift, C133_retroactive; a run from rest: C133_jumps, C133_no_bound). True between messages (C133_between_partial) and for messages about one variable exactly where the covariance with it is zero (C133_shift_partial, with the size of the jump otherwise). Extended filter."
  },
  {
   "property": "C134",
   "status": "partial",
   "theorems": [
    "RL.C134_bank_partial",
    "RL.C134_between_partial",
    "RL.C134_pause_ignored",
    "RL.C134_third_counts_more",
    "RL.C134_faster_partial",
    "RL.C134_never_surer_partial"
   ],
   "note": "false: the second reading gets the weight it would get without process noise, however long the pause (C134_pause_ignored), and of three equally certain readings the third counts 3/7 or more (C134_third_counts_more). What the filter computes exactly: C134_bank_partial. The estimate stays in the range of the readings, more process noise never makes it slower, and it never reports a smaller variance than the extended filter (C134_between_partial, C134_faster_partial, C134_never_surer_partial). Assumed throughout: the covariance stays positive definite (else the factorisation fails), the second message is later than the first (else C18)."
  },
  {
   "property": "C135",
   "status": "proved",
   "theorems": [
    "RL.C135_forgotten",
    "RL.C135_agree",
    "RL.C135_kept"
   ],
   "note": "C135_forgotten: the distance after n further readings is at most the range of all values times rho^n/(1-rho), rho = r/(r + delta q). C135_agree: a number of readings that does for every history. Both need process noise; without it the initial value keeps its weight among the readings (C135_kept)."
  },
  {
   "property": "C136",
   "status": "partial",
   "theorems": [
    "RL.C136_stamps",
    "RL.C136_exactly",
    "RL.C136_runs_on_partial",
    "RL.C136_set_pose_ends",
    "RL.C136_pose_ends"
   ],
   "note": "false: rclcpp::Time raises an exception for a stamp with negative seconds and nothing catches it; one set_pose with such a stamp ends any node (C136_set_pose_ends), one pose ends a node that listens to it (C136_pose_ends). Nothing else does, as far as times are concerned: C136_exactly, C136_runs_on_partial (the clock is assumed to show no time before the epoch). Exceptions other than this one (int64 overflow of times, out of memory) are not modelled. The second half of the claim holds: C136_stamps."
  },
  {
   "property": "C137",
   "status": "partial",
   "theorems": [
    "RL.C137_same_partial",
    "RL.C137_names",
    "RL.C137_halves",
    "RL.C137_accelerations_differ",
    "RL.C137_nodes",
    "RL.C137_ekf_nodes_partial"
   ],
   "note": "false of odometry inputs that select an acceleration: both halves are said to measure an acceleration of zero exactly, a pose input with the same settings measures none (C137_accelerations_differ). For all others and for every numbering it holds, for any filter and every run: C137_same_partial, from the parameters of an EKF node to what it sends in C137_ekf_nodes_partial. The halves must be delivered one after the other with the same TF buffer, and pose_use_child_frame must be off (a pose input has no such setting). With control, C137_nodes wants the configurations of the IMUs in the same order."
  },
  {
   "property": "C138",
   "status": "partial",
   "theorems": [
    "RL.C138_velocity_partial",
    "RL.C138_same_stamp",
    "RL.C138_backwards",
    "RL.C138_repeated"
   ],
   "note": "false for equal stamps: the stamp of the message and the kept time of the last one are converted by different overloads of toSec, whose results differ in the last bit for many stamps, so that the time between is -2^-22 s: a metre becomes a velocity of -4194304 m/s with negative variances (C138_backwards), and a message that arrives twice is taken to say that the robot stands still (C138_repeated); in general C138_same_stamp. For stamps more than 1.3 microseconds apart it holds: C138_time, C138_later, C138_velocity_partial (poses in the target frame). Only the times are rounded in this model, the rest of the arithmetic is exact; subnormal numbers and overflow do not occur with these times."
  },
  {
   "property": "C139",
   "status": "partial",
   "theorems": [
    "RL.C139_last_pose",
    "RL.C139_requests_partial",
    "RL.C139_copies",
    "RL.C139_counts_twice",
    "RL.Nav.C139_navsat_partial",
    "RL.Nav.C139_sent_again"
   ],
   "note": "false for measurements: the callbacks drop messages older than the last one but not those with the same stamp, so every copy is another measurement. n copies count as one message with a covariance n times smaller (C139_copies), and a node that hears its first message twice reports half the covariance (C139_counts_twice); a fix that arrives again after a tick is converted and sent again (C139_sent_again). It holds for commands and requests (C139_last_pose, C139_requests_partial) and for the state of navsat_transform (C139_navsat_partial). For differential inputs see C138_repeated."
  },
  {
   "property": "C140",
   "status": "partial",
   "theorems": [
    "RL.C140_silent",
    "RL.C140_deaf",
    "RL.C140_reset_partial",
    "RL.C140_negative"
   ],
   "note": "false. reset_on_time_jump does nothing (C102_time_jump). Messages older than the last one of their topic are dropped, and set_pose and toggle do not clear last_message_times_: with any settings the node does what it would without the messages (C140_deaf). Without predict_to_current_time it sends nothing until the clock is where it was (C140_silent); with it, the filter predicts over a negative time and sends covariances from which process noise was taken off, down to negative variances (C140_negative). A reset makes it work again under the conditions of C27_reset_partial (C140_reset_partial)."
  },
  {
   "property": "C141",
   "status": "partial",
   "theorems": [
    "RL.C141_twice_partial",
    "RL.C141_predicted_partial",
    "RL.C141_measured_partial",
    "RL.C141_golden",
    "RL.C141_nearly_twice",
    "RL.C141_root"
   ],
   "note": "false: Ukf::correct takes K P_zz K^T off the covariance with a P_zz that does not contain R. On fresh sigma points the result is between the right covariance and twice that (C141_twice_partial, C141_measured_partial). After a reading of variance r the variance is above r exactly if it was above 1.618 r before (C141_golden), nearly 2 r if nothing was known (C141_nearly_twice), and after n + 1 readings at least r / sqrt(2 n + 1) (C141_root). For the first correction after a prediction, where the gain is computed from the sigma points before the process noise was added, the process noise of the step comes on top (C141_predicted_partial)."
  },
  {
   "property": "C142",
   "status": "proved",
   "theorems": [
    "RL.C142_acceleration",
    "RL.C142_stays",
    "RL.C142_messages",
    "RL.C142_yaw_rate"
   ],
   "note": "proved for all three axes, with control and dynamic process noise (C142_acceleration, C142_stays; C142_messages for messages alone, in terms of their stamps), and for heading and yaw rate in the plane without dynamic process noise (C142_yaw_rate). The readings must not be up to a rejection threshold."
  },
  {
   "property": "C143",
   "status": "proved",
   "theorems": [
    "RL.C143_exactly",
    "RL.C143_never",
    "RL.C143_ukf_never",
    "RL.C143_ends"
   ],
   "note": "C143_never and C143_ukf_never from the parameters; C143_exactly for any settings: all that can overflow is the stamp of the transform, and C143_ends shows that with a longer offset it does. The two differences of clock readings at the end of a cycle are not in the model."
  },
  {
   "property": "C144",
   "status": "proved",
   "theorems": [
    "RL.C144_twist",
    "RL.C144_acceleration",
    "RL.C144_pose",
    "RL.C144_absolute",
    "RL.C144_fused",
    "RL.C144_started",
    "RL.C144_half_turn",
    "RL.C144_node",
    "RL.C144_node_without_angles",
    "RL.C144_same_node"
   ],
   "note": "C144_twist and C144_acceleration without exception; C144_pose for all modes of preparePose, C144_absolute where there is no exception; C144_fused and C144_started join it to the correction of the Kalman filter. C144_half_turn is the exception: half a turn between two poses is a turn to the left in the mirror, too. C144_node is the statement for whole runs of the node from messages to messages, for runs without half turns; C144_node_without_angles: none can occur when no angle is measured; C144_same_node: with diagonal noise it is the same node."
  },
  {
   "property": "C145",
   "status": "proved",
   "theorems": [
    "RL.C145_frames",
    "RL.C145_estimate",
    "RL.C145_parameters",
    "RL.C145_ekf_node",
    "RL.C145_ukf_node",
    "RL.Listen.C145_listener",
    "RL.Nav.C145_navsat",
    "RL.Nav.C145_grid_name"
   ],
   "note": "C145_frames (what is sent) and C145_estimate (what is kept) for every filter and run; C145_parameters for loadParams; C145_ekf_node and C145_ukf_node from the parameters to what is sent; C145_navsat for navsat_transform, with C145_grid_name: the frame of the projection is called utm or local_enu on every robot; C145_listener for the listener."
  },
  {
   "property": "C146",
   "status": "proved",
   "theorems": [
    "RL.C146_any_queue",
    "RL.C146_same_certainty",
    "RL.C146_gated",
    "RL.C146_pose",
    "RL.C146_messages"
   ],
   "note": "C146_any_queue for every queue that breaks ties in the same way for both nodes, C146_same_certainty for the sorted list.  C146_messages says it of the messages of whole nodes in space (two_d_mode off) whose inputs select no part of the pose: messages with the same stamps, frames and covariances and any finite values come in, and odometry messages with the same twist covariance go out.  C146_gated and C146_pose show that the two restrictions on the sensors are needed.  EKF only."
  },
  {
   "property": "C147",
   "status": "proved",
   "theorems": [
    "RL.C147_messages",
    "RL.C147_any_queue",
    "RL.C147_surer"
   ],
   "note": "C147_any_queue for every queue that breaks ties in the same way for both nodes, C147_surer for the sorted list.  C147_messages says it of the messages of whole nodes in space whose inputs select no part of the pose, for transforms that are rotations and translations and message covariances not below the filter's floor of 1e-9.  C116 compares two filters that are told the same motion; here the data are arbitrary, but only velocities and accelerations are measured.  C146_gated and C146_pose show that thresholds and measured positions have to be excluded.  EKF only."
  },
  {
   "property": "C148",
   "status": "proved",
   "theorems": [
    "RL.C148_superposition",
    "RL.C148_gated",
    "RL.C148_messages"
   ],
   "note": "C148_superposition for the sorted list as queue; C148_messages for the messages of whole nodes in space with sensors of velocities and accelerations in the middle of the robot that do not remove gravity; C148_gated shows that thresholds have to be excluded.  Positions and angles are excluded as well: the motion model is not linear in them.  EKF only."
  },
  {
   "property": "C149",
   "status": "proved",
   "theorems": [
    "RL.C149_any_queue",
    "RL.C149_undisturbed",
    "RL.C149_position",
    "RL.C149_messages"
   ],
   "note": "C149_any_queue for every queue that breaks ties in the same way for both nodes, C149_undisturbed for the sorted list.  C149_messages for the messages of whole nodes in space and the rates of turn, with sensors mounted anywhere.  C149_position shows that measured positions have to be excluded: a position beside the track turns a moving robot and not a standing one.  EKF only."
  },
  {
   "property": "C150",
   "status": "proved",
   "theorems": [
    "RL.C150_any_queue",
    "RL.C150_forgets",
    "RL.C150_gated",
    "RL.C150_lever",
    "RL.C150_messages"
   ],
   "note": "C150_any_queue for every queue that breaks ties in the same way for both nodes, C150_forgets for the sorted list and single variables.  C150_messages for the messages of whole nodes in space with sensors of velocities and accelerations in the middle of the robot (gravity not removed, or by an orientation in the message); elsewhere it is false (C150_lever): the lever arm brings the estimated rates into the measurement.  C150_gated shows that a rejection threshold breaks this: one robot uses a reading that the other rejects.  EKF only, without control."
  },
  {
   "property": "C151",
   "status": "proved",
   "theorems": [
    "RL.C151_turned",
    "RL.C151_one_direction"
   ],
   "note": "C151_turned: equality of the states of the nodes and of all they send; turned IMUs without orientation and without removal of gravity, turned odometry without pose.  C38 covers the removal of gravity from turned IMUs.  C151_one_direction shows that the condition on the selected axes is needed: a sensor that measures, without error, one speed in a direction at an angle to the robot's axes is taken for a measurement of two speeds, with wrong values (0.36 and 0.48 m/s in place of 1 and 0 for a sensor turned by 53 degrees)."
  }
 ]
}