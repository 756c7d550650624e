{
 "C01": {
  "note": "Proved for a filter object driven in any way, and for a whole node. Missing because false: a first measurement on top of a correlated covariance (C01_initialising_on_correlated_prior) and negative steps (C01_negative_step)."
 },
 "C02": {
  "note": "C02_jacobian is the full derivative statement for the motion model. For a whole prediction it holds without control only; with control the Jacobian ignores the control terms (C02_control_not_in_jacobian)."
 },
 "C03": {
  "note": "Rigid body motion, rotation matrix, Euler rates."
 },
 "C04": {
  "note": "normalize_angle is modelled from its fmod definition in the angles package."
 },
 "C05": {
  "note": "Holds for corrections. Missing because false: the first measurement is copied without the test (C05_first_measurement_contaminates)."
 },
 "C06": {
  "note": "Full, for the EKF; the UKF uses the same test (see C17). The default threshold is the largest double, whose square is infinite."
 },
 "C12": {
  "note": "The scaled matrix can stop being a covariance when the configured noise couples pose and velocity (C12_cross_terms)."
 },
 "C13": {
  "note": "Missing because false: commands out of the plane (C13_vertical_command) and messages with correlations out of the plane (C13_correlated_message)."
 },
 "C35": {
  "note": "Missing because false: correlations with out-of-plane variables survive (C35_correlation_survives). C35_plane_as_in_space: what is taken from a message in the plane is what is taken in space, flattened, in every mode."
 },
 "C24": {
  "note": "Refuted with late data: C24_replayed_under_wrong_control, C24_newest_control_lost; holds without late data."
 },
 "C26": {
  "note": "Refuted for a pose that cannot be transformed: it wipes the estimate (C26_untransformable_pose_wipes_estimate)."
 },
 "C27": {
  "note": "Refuted for initial_state, the control input (C27_initial_state_not_restored, C27_control_survives_reset) and covariance parameters left at their default, which become zero on reset (C27_default_noise_lost: the filter no longer follows a measurement that moves it after start-up; C27_deaf_after_reset: after an orientation as first message it stays at the origin for ever, whatever is measured). C27_reset_partial: holds for nodes without these."
 },
 "C28": {
  "note": "The last part is refuted with smoothing (C28_big_step_with_smoothing)."
 },
 "C30": {
  "note": "Refuted with smoothing (C30_stamp_goes_back_with_smoothing)."
 },
 "C08": {
  "note": "Optimal and below the prior for usable measurements; which measurements are usable: C08_independent_errors_usable, C08_correlated_errors_unusable."
 },
 "C44": {
  "note": "Refuted for strict order when a stamp is set twice (C44_duplicate_stamps); strict for distinct stamps (C44_strict_order)."
 },
 "C46": {
  "note": "Refuted for shrinking (C46_shrinking_drops_newest)."
 },
 "C16": {
  "note": "llt is a parameter (structure Llt); that one exists is shown by Llt.some in Verif/Proofs/Ukf.lean."
 },
 "C17": {
  "note": "Fresh sigma points: same state as the EKF, covariance between the Kalman posterior and the prior, when angles do not wrap (structure Calm). After a prediction the gain leaves out the process noise of the step (C17_gain_ignores_process_noise)."
 },
 "C18": {
  "note": "Refuted at start-up (C18_second_measurement_ignored; for a whole node and any first odometry message: C18_first_odometry, its velocities are lost) and after reset (C18_stale_after_reset); holds from any filter with good memory."
 },
 "C19": {
  "status": "partial",
  "note": "Refuted: the UKF prediction is the same for every command (C19_control_ignored), the EKF's is not."
 },
 "C20": {
  "note": "Refuted in general for the difference of sigma points and state in a correction (C20_normalises_position); holds there when every measured angle sits at its own index (C20_normalised_partial), and without exception for all other differences the filter takes (C20_other_differences)."
 },
 "C62": {
  "note": "Holds below a variance of 2 rad^2; above it the average is the opposite direction (C62_angle_mean_flips, C62_standstill_flips)."
 },
 "C33": {
  "note": "The lever arm correction uses the estimated body rate instead of the measured one: C33_lever_error gives the exact error, C33_measured_rate_ignored a witness; exact when both agree (C33_rigid_body_partial)."
 },
 "C34": {
  "note": "Rotated covariances keep trace and positive semidefiniteness for twist, acceleration and pose, and in differential mode up to the time factor (see C64). C34_twist_turned, C34_pose_turned and C34_acceleration_turned say which matrix arrives in the filter: every 3x3 block of the message's covariance turned by the mounting, placed at the variables it is about."
 },
 "C43": {
  "note": "Holds away from vertical pitch; at exactly vertical pitch tf2 returns zero roll and yaw and the rotation changes (C43_vertical_changes_rotation)."
 },
 "C63": {
  "note": "Refuted for slanted mountings (C63_unused_leaks) and for fields that are not numbers (C63_unused_nan_blocks); holds for mountings along the axes."
 },
 "C36": {
  "note": "The velocity is exact away from vertical pitch. Same-stamp poses give non-numbers: ignored by an initialised filter, but as first measurement they spoil the state (C36_same_stamp_contaminates)."
 },
 "C37": {
  "note": "Holds for poses given in the world frame, over any stream. Refuted for poses given in another frame: the first one measures the place of that frame (C37_other_frame)."
 },
 "C38": {
  "note": "Gravity is taken off in the sensor frame after the reading has been rotated to the base frame: C38_residual gives the exact error, C38_kinematic_partial characterises the mountings for which it vanishes, C38_upside_down is a witness with twice gravity left over."
 },
 "C59": {
  "note": "The lookup itself is as documented and velocities use it with their stamp; poses ask for a wrong time (seconds taken as nanoseconds) and so get the latest transform (C59_pose_uses_latest, C59_witness)."
 },
 "C64": {
  "note": "Refuted: the covariance is multiplied by the time step instead of divided by its square (C64_scaled_by_dt_cubed); right for steps of one second. The specification takes the covariances along the axes of the robot; C115 shows what this ignores."
 },
 "C65": {
  "note": "Converted correctly when the transform is known; refuted when it is not: the pose is fused as that of the base (C65_unknown_frame_fused)."
 },
 "C40": {
  "note": "Which axes are driven by the control, for every list of IMU configurations, in any order. An axis is an axis of the sensor configuration; mountings are not considered by the code."
 },
 "C56": {
  "note": "Refuted: the size of the (fixed size) matrix is tested instead of that of the list, so no length is rejected (C56_never_rejected) and short lists are read out of bounds (C56_short_list_out_of_bounds); a matrix is read transposed (C56_transposed). Proved for the two right lengths."
 },
 "C57": {
  "note": "Refuted: missing gains (C57_missing_gains) and missing control_config (C57_missing_config) are accessed out of bounds. Proved for parameters of the right lengths."
 },
 "C60": {
  "note": "Refuted: the prefix that was read is not the one that is used (C60_prefix_ignored). appendPrefix itself is right for a non-empty prefix and leaves a slash in place for an empty one (C60_no_prefix_keeps_slash)."
 },
 "C66": {
  "note": "Refuted: too short vectors are accessed out of bounds, too long ones are accepted. Proved for fifteen entries."
 },
 "C58": {
  "note": "Every sequence of diagnostics and reports; level and messages."
 },
 "C61": {
  "note": "Refuted for y (twist_var_counts of Vy counts the flag of Vx for odometry): C61_missing_y_not_reported, C61_measured_y_reported. Proved for all variables when odometry inputs select both or none of Vx, Vy; the hypothesis concerns y only."
 },
 "C32": {
  "note": "Proved for pose inputs and IMUs with every configuration; for odometry and twist inputs only if no acceleration is selected. Refuted otherwise: an acceleration of zero with variance zero is fused (C32_twist_fuses_zero_acceleration, C32_odom_fuses_zero_acceleration)."
 },
 "C39": {
  "note": "Each IMU stream depends on its own field only; an absent field leaves no trace. With gravity removal the acceleration also depends on the orientation field (or, if that is absent, on the estimate), as designed."
 },
 "C41": {
  "note": "For finite estimates. The orientation is the unit quaternion of the estimated angles."
 },
 "C42": {
  "note": "Map mode, odom mode, and the cases in which nothing is sent. The transform odom->base is the latest one, not the one at the stamp; the theorem also says that composing with any other transform does not give the estimate."
 },
 "C67": {
  "note": "Refuted for the first cycle (uninitialised members, C67_first_cycle_arbitrary) and where the time of the estimate is not that of the cycle (C67_cycle_time). Proved as difference quotient over cycle times from the second cycle on."
 },
 "C68": {
  "note": "Refuted: the check only logs (C68_published_anyway, C68_first_nan). What holds: a finite estimate is sent unchanged (C68_finite_partial); a sequence of measurements with proper covariances loses a finite estimate only by way of a pitch of exactly a quarter of a turn (C68_lost_partial, in the real-number model); a planar EKF node that is given numbers never publishes anything but finite estimates, along any run (C68_planar_partial)."
 },
 "C69": {
  "note": "Names of all streams are different for any number of inputs; callbacks of one input leave all other streams as they are."
 },
 "C47": {
  "note": "Proved for messages at whole seconds in time order, with the contents of every message. Refuted for other stamps: only header.stamp.sec is used, so of the messages within one second only the first is kept and it is stored under the wrong time."
 },
 "C48": {
  "note": "Rigid-body spec by derivatives: for every path of the base with the estimated pose and velocities, the queried pose and velocities are those of the mounted frame."
 },
 "C49": {
  "note": "Search correct for every finite forest, with a bound on the recursion; caches stay right while frames are only added. Refuted for re-parented frames (the cache is never invalidated); on a cycle the recursion never ends."
 },
 "C70": {
  "note": "Refuted: from 2.147483648 s on static_cast<int>(time * 1e9) is undefined; the rclcpp::Time overload uses integer division. Proved in the range that fits."
 },
 "C71": {
  "note": "Refuted for frames other than the base: accelerations and covariances of velocities are zero, the pose covariance is turned with the mount and lacks the lever arm. Proved for the base."
 },
 "C72": {
  "note": "Frames: proved. A listener with buffer size 0 answers with zeros after the first message (C72_zero_size)."
 },
 "C50": {
  "note": "UTM mode, hemisphere of the datum: both directions (altitude lost with zero_altitude). Refuted across the equator (never returned) and in local cartesian mode (mapToLL uses UTM with zone 0; the request ends the node)."
 },
 "C54": {
  "note": "Proved in UTM mode for points whose standard zone is the zone in use. Refuted in local mode (fixes are always projected with UTM: off by the UTM coordinates of the datum) and for points of other zones (fixes use their standard zone, fromLL the fixed one)."
 },
 "C55": {
  "note": "For the function UTM, the only place in the repository that computes a zone; LLtoUTM delegates to GeographicLib."
 },
 "C74": {
  "note": "Isometry within a zone and hemisphere. Refuted at the equator: a jump of 10000 km; at zone borders see C54_other_zone."
 },
 "C51": {
  "note": "Full without a manual datum (C51_start). With a manual datum it needs a datum that can be projected; a datum off the earth leaves the previous place in use (C51_bad_datum)."
 },
 "C52": {
  "note": "For every run from a new node. The heading may come from the odometry (use_odometry_yaw)."
 },
 "C53": {
  "note": "Needs both transforms (antenna and robot pose). Refuted otherwise: the origin is published instead of the uncorrected fix (C53_missing_transform)."
 },
 "C73": {
  "note": "Holds until the transform is first known. Refuted after set_utm_zone: old heading and, until the next odometry message, old pose (C73_zone_old_pose, C73_zone_turned_map, C73_imu_ignored); and when an IMU transform is missing (C73_uncorrected)."
 },
 "C75": {
  "note": "C75_exactly lists what ends the node apart from stamps before the epoch, C75_stamps_exactly with them; refuted by C75_bad_fix, C75_early_request, C75_local_filtered and C75_early_odometry. C75_late_stamps_partial: with other stamps both kinds of run agree."
 },
 "C76": {
  "note": "Both messages, for every run."
 },
 "C77": {
  "note": "UTM mode and places in the hemisphere of the datum; elsewhere mapToLL is refuted by C50_other_hemisphere and C50_local."
 },
 "C78": {
  "note": "Full. The meaning of the convergence is stated as the derivative of the projected path."
 },
 "C79": {
  "note": "Robot level; mount not pointing straight up or down."
 },
 "C80": {
  "note": "Partial: holds when control_timeout is set. Refuted by default: the default 0 overwrites the sensor timeout, so that no command acts after it was given."
 },
 "C81": {
  "note": "Full; the first measurement must be finite."
 },
 "C82": {
  "note": "Partial: holds for configurations not reported as invalid. Refuted otherwise: an invalid configuration is logged and used."
 },
 "C83": {
  "note": "Partial: exact for poses in a frame that is not turned against the target frame (C83_pose_partial for the entries, C83_pose_message_partial for whole messages, with empty orientations); entries above 1000 are reported everywhere (C83_large_partial). Refuted: zero or negative variances of velocities and accelerations are never reported, for any configuration (index without offset: C83_twist_never, C83_acceleration_never, C83_velocity_inputs, C83_velocity_unreported, C83_acceleration_unreported; C83_zero_unreported shows a measurement that goes to the filter with variance zero); for poses in a turned frame the wrong variances are looked at, with both a missed and a false warning (C83_turned_unreported)."
 },
 "C84": {
  "note": "Partial: for a symmetric matrix of 225 entries that survive printing. Refuted without the parameter and for diagonals (the listener reads out of bounds) and for asymmetric matrices (transposed)."
 },
 "C85": {
  "note": "Partial: for symmetric covariances. Refuted: an asymmetric one is sent transposed; a failed query sends zeros like a robot at rest at the origin."
 },
 "C86": {
  "note": "Partial: for times not before all stored ones, for every frame; EKF. Refuted for earlier times (noise is subtracted)."
 },
 "C87": {
  "note": "Full for the EKF; the time is rounded down to nanoseconds, pitch of the stored state not vertical."
 },
 "C07": {
  "note": "Full; stated as equality of corrections with measurements that agree on the selected variables."
 },
 "C09": {
  "note": "Full; generic in the filter, so for EKF and UKF; over any sequence of measurements."
 },
 "C10": {
  "note": "Full; generic in the filter. For values that are not numbers see C05."
 },
 "C11": {
  "note": "Full for limits that are not negative; a negative limit is used as it is (C11_negative_limit)."
 },
 "C14": {
  "note": "Full."
 },
 "C15": {
  "note": "Full: the matrices kept between calls are part of the model and shown not to matter."
 },
 "C21": {
  "note": "Full: for every queue implementation that meets the contract of priority_queue, with and without late data."
 },
 "C22": {
  "note": "Full for data that is not older than the snapshots kept; C22_within_history_length says when that is guaranteed. A lag below history_length is not enough (C22_lag_below_history_is_not_enough): with sparse data the snapshots needed have expired."
 },
 "C23": {
  "note": "Full: invariant over all steps of the node."
 },
 "C25": {
  "note": "Full: invariant over all steps of the node."
 },
 "C29": {
  "note": "Full: invariant over all steps. Messages are still queued while the node is disabled."
 },
 "C31": {
  "note": "Full."
 },
 "C45": {
  "note": "Full; with C45_total the cases are complete for ordered buffers."
 },
 "C88": {
  "note": "Full for settings whose gains are complete (C57 says when they are not)."
 },
 "C89": {
  "note": "Proved for measurements without angles and without rejection thresholds, any number and any permutation. Refuted otherwise: headings (C89_headings, wrapping of the innovation), thresholds (C89_gated), the first measurements of a filter (C89_first_measurements)."
 },
 "C90": {
  "note": "Proved for the EKF node and every sequence of events without reset and without a set_pose that cannot be transformed. Proved for the UKF node with the same exceptions when measurements have no rejection threshold (C90_ukf_partial), and with thresholds once the sigma points are no longer those the filter was constructed with (C90_ukf_threshold_partial). Refuted for thresholds before that (C90_ukf_gate): the sigma points are then zero whatever the origin, so a measurement that is exactly what the filter expects is rejected when the origin is far away. Refuted across a reset (C90_reset): the robot is then put at the origin of the world frame. For the EKF also from raw messages and transforms to the messages sent, for every node that can be loaded from parameters (C90_node_partial, C90_loaded_partial), when velocities and IMU messages are not in the world frame itself and inputs with relative give no poses in the world frame; refuted for those (C90_relative). The same for the UKF node without rejection thresholds (C90_ukf_node_partial, C90_ukf_loaded_partial)."
 },
 "C91": {
  "note": "Proved for the EKF node and every sequence of events later than the epoch and, when control is used, later than the control timeout after the epoch; near the epoch for a control vector that is zero. Refuted at the epoch itself (C91_at_epoch: a stamp of zero counts as never) and for the control vector the filter is constructed with (C91_uninitialised_control: it is not initialised and acts until the control timeout after the epoch). For the UKF node (C91_ukf_partial) it holds for all events later than the epoch, whatever the control vector contains, because that filter ignores it."
 },
 "C92": {
  "note": "Proved for the EKF node, all runs, when x and y are measured together and variances stay at or above the floor of 1e-9, without reset and without a set_pose that cannot be transformed. Refuted across a reset (C92_reset). For a pose message from another frame: proved for what is measured and for the noise except that of roll and pitch (C92_message_partial); the noise of roll and pitch is turned like a vector in the world frame, so it depends on the heading of that frame (C92_tilt_noise, C92_tilt)."
 },
 "C93": {
  "note": "Proved for absolute mode, in space and in two_d_mode (there for the variables of the plane; the others are measured as zero): poses in the world frame, velocities and IMUs of the base frame with all fields present, odometry of the base frame or of a child frame with known transform. Other frames are C33, C34, C38, C65 and C94; differential and relative mode are C36 and C37; absent IMU fields are C39."
 },
 "C94": {
  "note": "Proved for a level robot with any mounting that is not vertical, for any attitude with a mounting that is only rolled, and for a backward mounting. Refuted for pitched mountings (C94_pitched): angles are subtracted one by one."
 },
 "C95": {
  "note": "Proved without rejection thresholds, for measured angles that stay within half a turn of their estimate (structure NearAll), for a filter without orientations, and for means above the variance floor of 1e-9. Refuted for the first message of a filter (C95_first_message)."
 },
 "C96": {
  "note": "Proved with exact arithmetic for all places of one zone off the poles: eastings on a parallel, eastings' range and the mirror images without exception; northings and distinctness within one hemisphere. Refuted across the equator (C96_equator): places on the equator have southern northings, so a small step north from there loses more than 9000 km."
 },
 "C97": {
  "note": "For a node with the EKF and no velocity control: proved for every motion the motion model integrates without error (straight with constant body acceleration: C97_straight; turning on the spot about the vertical: C97_spin; standing still), all settings, covariances, thresholds and arrival orders, provided late data are covered by the history or the robot stands still. Refuted without these conditions: a late exact measurement without smoothing pulls the estimate half a metre away (C97_late); a robot on a circle is predicted straight ahead (C97_circle)."
 },
 "C98": {
  "note": "Proved for every run from a new node with broadcasting on and odometry in one frame, both directions of the transform and both projections: the transform on the air relates the answer of fromLL to the coordinates of the place in the named projection frame. The height is excepted when altitudes are set to zero: then the transform gives the altitude and the node gives zero (C98_height)."
 },
 "C99": {
  "note": "Partial: proved for all parameter sets for every setting of the constructor (C99_settings_partial, and C99_starts for when the node starts). Refuted: the documented name for the direction of the broadcast is never read (C99_parent_name, over all runs), a delay below one second is none (C99_delay), the default of publish_filtered_gps (C99_filtered_default), and a node without a datum does not wait for the service but takes latitude and longitude zero (C99_no_wait)."
 },
 "C100": {
  "note": "Partial: proved for the block of all variables that are not angles, for every state, covariance, spread with 15+kappa > 0 and beta + alpha^2 kappa/15 >= 0, noise and time step (C100_other_variables_partial). Missing and refuted: angles. With the default parameters a turning robot with uncertain roll gets a negative heading variance (C100_negative_variance)."
 },
 "C101": {
  "note": "Partial: velocities, rates and accelerations are corrected the same way (C101_velocities_partial); C101_crossing gives the exact error otherwise. Refuted for positions: with the default parameters a message about x alone turns a robot that drives towards negative x by more than 30 rad per metre of difference and leaves a negative variance (C101_position_turns_robot)."
 },
 "C102": {
  "note": "Partial: all documented settings except four are proved for every set of parameters (C102_settings_partial, C102_unscented), as they reach the control flow and the prediction (C102_flow, C102_control); a node with well-typed parameters starts (C102_starts); every node meets the assumption Cfg.Kept of C01 and C13 (C102_kept). Refuted: base_link_output_frame and imuN_angular_velocity_rejection_threshold are documented under names that are never read (C102_output_frame_name, C102_imu_threshold_name), stamped_control is never read (C102_stamped_control), reset_on_time_jump has no effect (C102_time_jump)."
 },
 "C103": {
  "note": "Partial: exactly the messages and parts thrown away because of their stamp file a warning (C103_reported_partial), nothing of them is kept (C103_nothing_kept), they are told about at the latest in the first cycle of the enabled node a period after the last report, if print_diagnostics is set (C103_told_partial; never otherwise: C103_off), and there are no false alarms (C103_no_false_alarm). Refuted: a message that cannot be transformed is thrown away without any diagnostic (C103_untransformable_unreported); the text of a warning leaves out the seconds of the time (C103_seconds_not_told)."
 },
 "C104": {
  "note": "For the EKF. C104_straight_partial: for any cycles of a node with an empty queue, with or without predict_to_current_time, the state is that of a single prediction to the time the filter has come to, if the estimated rates are zero. C104_pose_noise_partial: at rest and with process noise on the pose only, the covariance too. C104_never_surer, C104_less_sure: otherwise, at rest with diagonal noise, more cycles never give a smaller variance, and with noise on the velocities (the default) a cycle in between makes all three position variances strictly larger, since the noise of an earlier step is carried through the later one. C104_turning: when the robot turns the position itself depends on the cycles. C104_motion_partial, C104_schedules_partial: without any assumption about the motion, velocities, rates and accelerations, and the covariances of rates and accelerations, do not depend on the cycles; C104_velocity_variance: those of the velocities do."
 },
 "C105": {
  "note": "partial: proved for positive variances (angle variances below 2, and small against the sigma spread); over any number of cycles of two nodes for a robot that stands level (C105_cycles_partial). Refuted when a variance is zero: Eigen's LLT stops at that variable, generateSigmaPoints does not look at info(), and the variances of all later variables are squared and scaled by alpha^2 (15 + kappa) (C105_known); C105_forgets shows it on a run of both nodes with default parameters. The refutation rests on Model/Llt.lean, which is Eigen's algorithm written from memory of its published source (Eigen is not in the sandbox); the partial theorem holds for every Llt."
 },
 "C106": {
  "note": "partial: measurements proved for every cycle of an enabled node and everything after it (as multisets of stamps); snapshots proved up to the number of messages waiting when a cycle begins. Refuted: late messages that find no older snapshot leave snapshots that outlive them (C106_more_snapshots_than_measurements), and a node waiting to be enabled stores every message (C106_disabled_node_stores_everything)."
 },
 "C107": {
  "note": "partial: EKF node, any queue, without control, with constant process noise, variances above the floor in both units and no failed set_pose. Each exception is refuted: C107_control (the constant 0.01), C107_dynamic_noise, C107_floor (1e-9), C107_set_pose (1e-6). UKF node (C107_ukf_partial): control included, constant process noise, variances above the floor, no failed set_pose, every estimate all of whose sigma points were drawn from positive definite covariances (marks say which, and change nothing), and no orientation at a place in the list of measured variables where the code takes a length for an angle; refuted there (C107_ukf_compass)."
 },
 "C108": {
  "note": "partial: EKF, control and dynamic noise included. Whole runs, any queue, when neither roll nor yaw is measured (C108_any_queue_partial). Whole runs, whatever is measured: every estimate into which no roll or yaw measured exactly half a turn away has gone is mirrored (C108_whole_run_partial; marks on the estimates say which, and change nothing). Refuted at exactly half a turn (C108_half_turn). Unscented filter, whole runs, whatever is measured (C108_ukf_partial): exactly mirrored, for every estimate into which no roll or yaw averaged or normalised to exactly half a turn has gone and no sigma point drawn from a matrix that is not positive definite."
 },
 "C109": {
  "note": "partial: EKF node with any queue, for measurements without a gate, when the estimate is not predicted to the present, under the conditions of C01_published_partial (C109_published_partial); as an inequality of whole covariance matrices for one correction (C109_correction). Refuted for gated measurements (C109_gated) and for predicted estimates (C109_predicted)."
 },
 "C110": {
  "note": "Proved with exact arithmetic against an independent description of the ellipsoid (radii of curvature, length of the meridian as an integral, radius and flattening of WGS 84)."
 },
 "C111": {
  "note": "proved for the EKF: one correction (C111_correction), one prediction (C111_prediction), the first measurement (C111_first), any sequence of measurements in order (C111_run, C111_variable). The truth, its motion and all errors are arbitrary. Refuted for angles half a turn apart (C111_half_turn) and for the unscented filter (C111_unscented: its gain ignores the process noise, its reported covariance does not account for that)."
 },
 "C112": {
  "note": "proved: only messages of one stamp are combined, for all arrivals (C112_same_stamp); on ordered topics, with losses, exactly the estimates of which both messages arrive (C112_exactly_partial), all of them without losses (C112_all_partial, C112_node_partial), and for messages that arrive next to each other whatever the stamps (C112_together); the node sends both under one stamp (C112_stamps). False: by default nothing is heard, because publish_acceleration is off (C112_deaf) and because node and listener use different topic names (C112_names); with permit_corrected_publication two estimates of one stamp can be mixed (C112_mixed); delays beyond the queue of ten lose estimates (C112_late). The synchroniser of message_filters is modelled from its published source."
 },
 "C113": {
  "note": "proved for a filter without control: the same state (C113_state_partial), and, if pose, velocities and accelerations are not correlated and there is no dynamic process noise, the same covariance, for the extended (C113_ekf_partial) and the unscented filter (C113_ukf_partial). False: commands (C113_command), correlations between the groups, which are not published (C113_correlation), dynamic process noise (C113_dynamic), and an unscented filter whose three constants are not given to the listener, which predicts the origin from every state (C113_unset, C113_unset_happens)."
 },
 "C114": {
  "note": "proved for whole nodes with the extended filter (C114_published_partial), when the process noise is positive definite and not dynamic, the initial covariance is uncorrelated with positive variances and both are set (so that reset restores them), and messages and set_pose leave no combination of what they measure certain; for the unscented filter along all predictions and corrections that follow a prediction, when the central weight is not negative (or the sigma points spread all the same) and no angle is confused (C114_ukf_partial), where no correction fails either (C114_ukf_corrects_partial). False: a first message that claims to be exact is believed (C114_first_measurement), after a reset with unset covariance what is not measured is known exactly (C114_unset_reset); for the unscented filter see also C100_negative_variance."
 },
 "C115": {
  "note": "proved for the velocities and the selected variables, for all sequences, frames and mountings (C115_velocities); for the covariances too when turning leaves those of the poses as they are (C115_same_partial): frames that differ by a shift (C115_shift), errors the same in all directions (C115_isotropic). False otherwise (C115_turned): the covariances stay in the axes of the frame of the poses although the velocities are along the axes of the robot; an error of position does turn with the heading (C115_position_error). The model assumes, as everywhere, rotations without rounding."
 },
 "C116": {
  "note": "proved for one prediction from the same state (C116_prediction), one correction whatever the states (C116_correction, also when the worse measurement is rejected), a further measurement (C116_extra), the first measurement (C116_first), and for whole sequences that agree with a motion, with further measurements at the stamps the other filter has too (C116_run_partial, C116_from_start_partial). False for further measurements at other times, because two short predictions add more variance than one long one (C116_in_between, see C104), and for measurements that do not agree with the estimate, because the covariance depends on the estimated heading (C116_other_heading)."
 },
 "C117": {
  "note": "proved from the parameter file and the raw messages to the messages sent, for the extended filter without control: when nothing is older than the estimate or history is kept (C117_honest_partial), and when every message arrives before the estimate has passed its stamp (C117_timely). Left out: late measurements without history (false, C97_late); motions the prediction does not integrate exactly; differential and relative inputs (C43, C88); IMUs mounted away from the base (C31, C32); the transform when the world frame is the map (C42)."
 },
 "C118": {
  "note": "proved from the parameter file and the raw messages to the messages sent, for the extended filter: outside 2D mode (C118_spatial_partial), and in 2D mode when sensors stand upright and measure height, roll and pitch independently of everything else, roll and pitch equally well (C118_planar_partial). Without the last it is false in 2D mode (C118_turned): a sensor turned about the vertical with independent errors of different size in roll and pitch rate gives an indefinite covariance. Left out: an initial covariance with correlations (false, C01), a pose set by hand with correlations before anything has been measured."
 },
 "C119": {
  "note": "proved for pose messages, twist messages and set_pose, for a node with either filter. An odometry message is left out because there it is false (C119_first_odometry): its pose initialises the filter, its twist is then fused against an initial variance of 1e-9, so a robot that reports one metre per second is said to stand. A node with the unscented filter loses the velocities altogether (C18_first_odometry)."
 },
 "C120": {
  "note": "proved from the parameter file and the raw messages to the messages sent, for the extended filter and for inputs that are not differential. For differential inputs it is false (C120_twice): a first pose that comes twice with one stamp gives a velocity divided by zero, which the filter takes over and the node sends. Angular accelerations depend on uninitialised memory and are left out."
 },
 "C121": {
  "note": "proved for the extended filter without control and for UTM, when the robot stands until navsat_transform has its transform or a datum (set by parameter or service, and true), the zone is not set by hand, the IMU sits on the robot as the base does, and the frames known when a fix is used say how the robot was turned at the fix (navsat_transform asks for a wrong time, C59). Late messages must find an older state in the history (C121_timely: or none is late). For a robot that moves while navsat_transform starts without a datum it is false (C121_rolling)."
 },
 "C122": {
  "note": "proved for the extended filter, with the bound shown to be sharp (C122_sharp). Errors of angles must be less than half a turn, and the motion must be honest in the sense of C111."
 },
 "C123": {
  "note": "proved for the extended filter at rest without commands, messages in order of time. Without process noise it is false (C123_deaf): a sensor that is off by more than its threshold is rejected for ever."
 },
 "C124": {
  "note": "for the extended filter; C124_measured shows that the variables must not be measured. The growth is shown for the filter object and measurements in any order of time."
 },
 "C125": {
  "note": "holds if the velocities and accelerations are known exactly and have no process noise (C125_stops_partial). False for measured velocities: only the pose block is scaled, so the velocity keeps its variance and the variance of the position grows by tau^2 r with every message (C125_grows). For the extended filter."
 },
 "C126": {
  "note": "for any filter core, so for the extended and the unscented filter. Diagnostics are C61 and C103."
 },
 "C127": {
  "note": "false as stated: the listener keeps only the whole seconds of a stamp, so each answer is the true state of a time later than the one asked for by the fraction of a second in the stamp of one of the messages (C127_late, for every run in C127_answers_partial); true for whole stamps and for a robot that stands. If no stamp is a whole second, no answer about a moving robot is true (C127_never_true). Extended filter in the listener; the unscented prediction of the mean is not exact."
 },
 "C128": {
  "note": "the last half sentence is false for the first message, which replaces value and variance whatever the initial covariance is (C128_first_message, any variable); for the variables it does not select, and everything else, proved. Finite estimates; readings above the variance floor 1e-9 and without a rejection threshold."
 },
 "C129": {
  "note": "the limit is exact for every message but the first, which sets the variable whatever the variance (C129_first_message); C129_exact gives the distance for every variance. For rates and accelerations: believed after enough readings if there is process noise (C129_believed); with a second source the inflated readings lose all influence, shown without process noise (C129_second_source). Extended filter."
 },
 "C130": {
  "note": "the criterion of overlapping distributions is false: the fraction of the difference by which the output moves does not depend on the difference (C130_any_distance). What decides is the process noise between readings against the variance: C130_follows and C130_oscillates (lower bound), C130_eliminated (upper bound after a while, for large variances). For rates and accelerations in messages that read one variable; extended filter without control."
 },
 "C131": {
  "note": "proved of the extended filter for every correction, every list of messages of one time and every reachable node (C131_jump, C131_threshold, C131_batch, C131_many, C131_node); exact for messages about one variable (C131_exact). False of the first message, which is not gated (C131_first_message). For the unscented filter partial: on fresh sigma points and on those of a prediction, while no angle wraps (C131_ukf_partial, C131_ukf_predicted_partial)."
 },
 "C132": {
  "note": "false: corrections use 1e-9 instead (C132_counts_partial, C132_ukf_counts_partial, and C132_not_micro for the difference that makes), and the first message is stored with the variance of zero, after which other messages of its time about the variable are ignored (C132_first_message)."
 },
 "C133": {
  "note": "false: predictions correlate position and velocity, and a reading of the velocity then moves the position as if the robot had gone with the corrected velocity since the last estimate (C133_velocity_shift, C133_retroactive; a run from rest: C133_jumps, C133_no_bound). True between messages (C133_between_partial) and for messages about one variable exactly where the covariance with it is zero (C133_shift_partial, with the size of the jump otherwise). Extended filter."
 },
 "C134": {
  "note": "false: the second reading gets the weight it would get without process noise, however long the pause (C134_pause_ignored), and of three equally certain readings the third counts 3/7 or more (C134_third_counts_more). What the filter computes exactly: C134_bank_partial. The estimate stays in the range of the readings, more process noise never makes it slower, and it never reports a smaller variance than the extended filter (C134_between_partial, C134_faster_partial, C134_never_surer_partial). Assumed throughout: the covariance stays positive definite (else the factorisation fails), the second message is later than the first (else C18)."
 },
 "C135": {
  "note": "C135_forgotten: the distance after n further readings is at most the range of all values times rho^n/(1-rho), rho = r/(r + delta q). C135_agree: a number of readings that does for every history. Both need process noise; without it the initial value keeps its weight among the readings (C135_kept)."
 },
 "C136": {
  "note": "false: rclcpp::Time raises an exception for a stamp with negative seconds and nothing catches it; one set_pose with such a stamp ends any node (C136_set_pose_ends), one pose ends a node that listens to it (C136_pose_ends). Nothing else does, as far as times are concerned: C136_exactly, C136_runs_on_partial (the clock is assumed to show no time before the epoch). Exceptions other than this one (int64 overflow of times, out of memory) are not modelled. The second half of the claim holds: C136_stamps."
 },
 "C137": {
  "note": "false of odometry inputs that select an acceleration: both halves are said to measure an acceleration of zero exactly, a pose input with the same settings measures none (C137_accelerations_differ). For all others and for every numbering it holds, for any filter and every run: C137_same_partial, from the parameters of an EKF node to what it sends in C137_ekf_nodes_partial. The halves must be delivered one after the other with the same TF buffer, and pose_use_child_frame must be off (a pose input has no such setting). With control, C137_nodes wants the configurations of the IMUs in the same order."
 },
 "C138": {
  "note": "false for equal stamps: the stamp of the message and the kept time of the last one are converted by different overloads of toSec, whose results differ in the last bit for many stamps, so that the time between is -2^-22 s: a metre becomes a velocity of -4194304 m/s with negative variances (C138_backwards), and a message that arrives twice is taken to say that the robot stands still (C138_repeated); in general C138_same_stamp. For stamps more than 1.3 microseconds apart it holds: C138_time, C138_later, C138_velocity_partial (poses in the target frame). Only the times are rounded in this model, the rest of the arithmetic is exact; subnormal numbers and overflow do not occur with these times."
 },
 "C139": {
  "note": "false for measurements: the callbacks drop messages older than the last one but not those with the same stamp, so every copy is another measurement. n copies count as one message with a covariance n times smaller (C139_copies), and a node that hears its first message twice reports half the covariance (C139_counts_twice); a fix that arrives again after a tick is converted and sent again (C139_sent_again). It holds for commands and requests (C139_last_pose, C139_requests_partial) and for the state of navsat_transform (C139_navsat_partial). For differential inputs see C138_repeated."
 },
 "C140": {
  "note": "false. reset_on_time_jump does nothing (C102_time_jump). Messages older than the last one of their topic are dropped, and set_pose and toggle do not clear last_message_times_: with any settings the node does what it would without the messages (C140_deaf). Without predict_to_current_time it sends nothing until the clock is where it was (C140_silent); with it, the filter predicts over a negative time and sends covariances from which process noise was taken off, down to negative variances (C140_negative). A reset makes it work again under the conditions of C27_reset_partial (C140_reset_partial)."
 },
 "C141": {
  "note": "false: Ukf::correct takes K P_zz K^T off the covariance with a P_zz that does not contain R. On fresh sigma points the result is between the right covariance and twice that (C141_twice_partial, C141_measured_partial). After a reading of variance r the variance is above r exactly if it was above 1.618 r before (C141_golden), nearly 2 r if nothing was known (C141_nearly_twice), and after n + 1 readings at least r / sqrt(2 n + 1) (C141_root). For the first correction after a prediction, where the gain is computed from the sigma points before the process noise was added, the process noise of the step comes on top (C141_predicted_partial)."
 },
 "C142": {
  "note": "proved for all three axes, with control and dynamic process noise (C142_acceleration, C142_stays; C142_messages for messages alone, in terms of their stamps), and for heading and yaw rate in the plane without dynamic process noise (C142_yaw_rate). The readings must not be up to a rejection threshold."
 },
 "C143": {
  "note": "C143_never and C143_ukf_never from the parameters; C143_exactly for any settings: all that can overflow is the stamp of the transform, and C143_ends shows that with a longer offset it does. The two differences of clock readings at the end of a cycle are not in the model."
 },
 "C144": {
  "note": "C144_twist and C144_acceleration without exception; C144_pose for all modes of preparePose, C144_absolute where there is no exception; C144_fused and C144_started join it to the correction of the Kalman filter. C144_half_turn is the exception: half a turn between two poses is a turn to the left in the mirror, too. C144_node is the statement for whole runs of the node from messages to messages, for runs without half turns; C144_node_without_angles: none can occur when no angle is measured; C144_same_node: with diagonal noise it is the same node."
 },
 "C145": {
  "note": "C145_frames (what is sent) and C145_estimate (what is kept) for every filter and run; C145_parameters for loadParams; C145_ekf_node and C145_ukf_node from the parameters to what is sent; C145_navsat for navsat_transform, with C145_grid_name: the frame of the projection is called utm or local_enu on every robot; C145_listener for the listener."
 },
 "C146": {
  "note": "C146_any_queue for every queue that breaks ties in the same way for both nodes, C146_same_certainty for the sorted list.  C146_messages says it of the messages of whole nodes in space (two_d_mode off) whose inputs select no part of the pose: messages with the same stamps, frames and covariances and any finite values come in, and odometry messages with the same twist covariance go out.  C146_gated and C146_pose show that the two restrictions on the sensors are needed.  EKF only."
 },
 "C147": {
  "note": "C147_any_queue for every queue that breaks ties in the same way for both nodes, C147_surer for the sorted list.  C147_messages says it of the messages of whole nodes in space whose inputs select no part of the pose, for transforms that are rotations and translations and message covariances not below the filter's floor of 1e-9.  C116 compares two filters that are told the same motion; here the data are arbitrary, but only velocities and accelerations are measured.  C146_gated and C146_pose show that thresholds and measured positions have to be excluded.  EKF only."
 },
 "C148": {
  "note": "C148_superposition for the sorted list as queue; C148_messages for the messages of whole nodes in space with sensors of velocities and accelerations in the middle of the robot that do not remove gravity; C148_gated shows that thresholds have to be excluded.  Positions and angles are excluded as well: the motion model is not linear in them.  EKF only."
 },
 "C149": {
  "note": "C149_any_queue for every queue that breaks ties in the same way for both nodes, C149_undisturbed for the sorted list.  C149_messages for the messages of whole nodes in space and the rates of turn, with sensors mounted anywhere.  C149_position shows that measured positions have to be excluded: a position beside the track turns a moving robot and not a standing one.  EKF only."
 },
 "C150": {
  "note": "C150_any_queue for every queue that breaks ties in the same way for both nodes, C150_forgets for the sorted list and single variables.  C150_messages for the messages of whole nodes in space with sensors of velocities and accelerations in the middle of the robot (gravity not removed, or by an orientation in the message); elsewhere it is false (C150_lever): the lever arm brings the estimated rates into the measurement.  C150_gated shows that a rejection threshold breaks this: one robot uses a reading that the other rejects.  EKF only, without control."
 },
 "C151": {
  "note": "C151_turned: equality of the states of the nodes and of all they send; turned IMUs without orientation and without removal of gravity, turned odometry without pose.  C38 covers the removal of gravity from turned IMUs.  C151_one_direction shows that the condition on the selected axes is needed: a sensor that measures, without error, one speed in a direction at an angle to the robot's axes is taken for a measurement of two speeds, with wrong values (0.36 and 0.48 m/s in place of 1 and 0 for a sensor turned by 53 degrees)."
 }
}