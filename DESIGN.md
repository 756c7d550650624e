# Formal model of robot_localization: design

Subject: `/repo` (cra-ros-pkg/robot_localization, C++).  The code is read as text; nothing is built or run.
Model and proofs: Lean 4.33.0 with single Mathlib modules, in `/verif/lean`.

## Layout

* `Verif/Model/*`  one Lean definition per C++ function (or per block of one), each citing file and lines.
* `Verif/Spec/*`   what a user relies on, written without the model's helpers.
* `Verif/Proofs/*` helper lemmas.
* `Verif/Props/*`  the property theorems (named after the property id) and, beside each, an `example`
  that meets its hypotheses.

| model file | code |
|------------|------|
| FilterBase | filter_base.cpp: processMeasurement, validateDelta, reset, generic in the filter (`Core`) |
| Ekf, Planar | ekf.cpp; numerical members of filter_base.cpp; forceTwoD of ros_filter.cpp |
| Ukf | ukf.cpp |
| Llt | Eigen's LLT as ukf.cpp:391-392 uses it |
| Dbl | NaN and infinity in measurements; `fmod`, `normalize_angle` of the angles package |
| Queue, Node | ros_filter.cpp: queue, integrateMeasurements, history, services, periodicUpdate |
| Params, Settings, ControlPar, NodePar | ros_filter.cpp: loadParams (whole: NodePar); the complaints of copyCovariance; setControlParams; ukf_node.cpp |
| Diag | ros_filter.cpp: addDiagnostic, aggregateDiagnostics |
| Reports | ros_filter.cpp: diagnostics about stamps in the callbacks, publication of diagnostics in periodicUpdate |
| CovReports | ros_filter.cpp: diagnostics in copyCovariance and preparePose |
| Geometry, Lookup, Prepare | tf2 rotations and transforms; ros_filter_utilities.cpp: lookupTransformSafe; preparePose, prepareTwist, prepareAcceleration |
| Callbacks, Streams | ros_filter.cpp: sensor callbacks, several inputs side by side |
| Output | ros_filter.cpp: published messages, differentiateMeasurements, map to odom broadcast |
| Estimator, Listener, Query, Sync | robot_localization_estimator.cpp, ros_robot_localization_listener.cpp, robot_localization_listener_node.cpp |
| Throws, NavsatThrows | the exception for stamps before the epoch |
| Rounding | filter_utilities.hpp: toSec with rounding, and preparePose in differential mode with it |
| Navsat, NavsatPar, Utm | navsat_transform.cpp (constructor: NavsatPar), navsat_conversions.hpp |

Tools: `tools/manifest.py` writes MANIFEST.json from the theorem names and `tools/notes.json`; `tools/axioms.py` writes
AXIOMS.txt (axioms of each property theorem); `tools/mutate.py` tests the theorems against edited models
(`seeded/LOG.jsonl`).

## Trusted base

* Lean's kernel; axioms `propext`, `Classical.choice`, `Quot.sound` only (no axiom is declared here, no `sorry`,
  no `native_decide`, no `bv_decide`).  AXIOMS.txt lists them per theorem.
* The faithfulness of the transcription of the C++ text into `Verif/Model`.
* Modelling conventions:
  * `double` is modelled by the real numbers.  Rounding, overflow to infinity and NaN produced by arithmetic are not
    modelled, except where the code itself tests for them (NaN/inf in measurements: type `Dbl`) or where a division by
    zero is reachable and matters (differential mode: `Dbl` division; `1 / cos(pitch)`).  The state of EKF and UKF is an
    `Option`: `none` once it contains a value that is not finite; of the covariance nothing is said from then on.
  * `rclcpp::Time`/`Duration` are integers (nanoseconds).  The exceptions rclcpp raises for different clock types are
    not modelled (every `rclcpp::Time` that is compared is made with RCL_ROS_TIME or from a message).  Those for int64
    overflow are modelled apart from the rest for the filter node (`Model/Overflow.lean`, `Sys.runO`, C143: there are
    none).  The one for a message stamp with negative seconds, which ends the node that receives
    it, is modelled apart from the rest, for the filter node (`Model/Throws.lean`, `Sys.runX`, C136) and for
    navsat_transform (`Model/NavsatThrows.lean`, `Nav.runX`, C75): all other theorems about the nodes speak of `Sys.run` and
    `Nav.run`, which are the same for messages without such stamps (`C136_runs_on_partial`, `C75_late_stamps_partial`).  The
    listener does not make the conversion.  Conversions to `double` seconds are exact, except in Model/Rounding (C138).
  * `std::priority_queue` is modelled by its contract (top is some element with minimal stamp; which one among equals
    is unspecified), as a parameter of the model; theorems hold for every implementation of the contract.
  * `boost::circular_buffer` is modelled by its documented semantics; negative capacities are not modelled.
  * tf2, Eigen (`inverse`, `llt`), GeographicLib, yaml-cpp are library code: modelled by their mathematical meaning
    (rotation matrices, rigid transforms, inverse matrix) or as parameters with stated hypotheses: `Llt` for
    `Eigen::LLT` (instances are constructed: `Llt.some`, and `eigenLlt` in Proofs/Llt from Eigen's loop in
    Model/Llt; that loop is written from memory of Eigen's published source, which is not in the sandbox, and only
    C105_known and C105_forgets depend on what it does to matrices that are not positive definite),
    `TfBuffer` for tf2 lookups (target, source, time), `Geo` with the laws `Geo.Lawful` for the projections (an instance is constructed in `Spec/NavsatDemo`).
    `atan2` is `Complex.arg`.  `eulerAngles` is that of Eigen 3.4.  `allFramesAsYAML` is a list of frames with parents.
  * Undefined behaviour (out-of-range vector access, float-to-int overflow, uninitialised reads) is an explicit outcome
    of the model wherever it is reachable: `none` in Params, Callbacks, Settings, `outOfBounds` for covariances, `ub`
    for the listener.
  * Prepare functions: quaternions are normalised before use as the code does; messages are finite except where `Dbl`
    says otherwise.  Diagnostics about stamps are in Model/Reports, where other
    diagnostics are events with arbitrary content; those about covariances and orientations are in Model/CovReports.
  * Output: finite estimates; the differentiation needs a time different from the last one.
  * Listener: messages with finite velocities.  The time synchroniser of message_filters (policy `ExactTime`) is library
    code that is not in the sandbox; Model/Sync is written from memory of its published source.  Only C112 depends on it.
  * Navsat: coordinates within the legal limits or an exception (`Legal`); infinite positions, the zone "INV" and the
    sign of a latitude of minus zero are not modelled.
  * A `frequency` of zero is not modelled.
  * Model/System joins the parts to one filter node: parameters, raw messages of all inputs, transforms, queue, filter,
    published messages.  The transform buffer is a parameter of each event; the acceleration found by differentiating is a
    number also where the program has none.
  * Model/Together joins this node and `navsat_transform`.  Messages between the two may be lost, reordered or repeated; odometry
    that is not finite does not reach `navsat_transform`.
* Not modelled: logging and debug streams, message (de)serialisation, executors and threads (callbacks are atomic
  steps, which is what the single-threaded executor used by the nodes gives), parameter declaration plumbing, node mains,
  the middleware that delivers messages, GeographicLib's numerics, `reset_on_time_jump` (read by the code, never used).

## What the code does not do

Properties that turned out to be false are kept in full in properties.jsonl; the theorem that refutes them is named here,
what is left is proved under a name ending in `_partial`.

| property | what happens instead | theorem |
|----------|----------------------|---------|
| C01 | a first measurement on a correlated covariance, or a negative step, gives a matrix that is no covariance | C01_initialising_on_correlated_prior, C01_negative_step |
| C02 | the Jacobian ignores the control terms | C02_control_not_in_jacobian |
| C05 | the first measurement is copied without the NaN test | C05_first_measurement_contaminates |
| C08 | correlated errors with a zero eigenvalue make a measurement unusable | C08_correlated_errors_unusable |
| C11 | negative limits are used as they are | C11_negative_limit |
| C12 | scaling the pose block alone breaks a coupled process noise | C12_cross_terms |
| C13, C35 | out-of-plane commands act; out-of-plane correlations survive forceTwoD | C13_vertical_command, C13_correlated_message, C35_correlation_survives |
| C17 | after a prediction the UKF gain leaves out the process noise | C17_gain_ignores_process_noise |
| C18 | sigma points are stale at start-up and after reset | C18_second_measurement_ignored, C18_first_odometry (a whole node loses the velocities of its first odometry message), C18_stale_after_reset |
| C19 | the UKF ignores commands | C19_control_ignored |
| C20 | the UKF wraps state differences at measurement indices | C20_normalises_position |
| C22 | a lag below history_length is not enough | C22_lag_below_history_is_not_enough |
| C24 | replayed measurements see the wrong command, the newest command is lost | C24_replayed_under_wrong_control, C24_newest_control_lost |
| C26 | an untransformable set_pose wipes the estimate | C26_untransformable_pose_wipes_estimate |
| C27 | reset does not restore initial_state nor drop the command; covariances whose parameter is not set are zero after it, not the default | C27_initial_state_not_restored, C27_control_survives_reset, C27_default_noise_lost, C27_deaf_after_reset |
| C28, C30 | with smoothing, toggling leads to a big step and stamps go back | C28_big_step_with_smoothing, C30_stamp_goes_back_with_smoothing |
| C32 | accelerations selected for odometry or twist fuse a zero | C32_twist_fuses_zero_acceleration |
| C33 | lever arm uses the estimated, not the measured rate | C33_lever_error, C33_measured_rate_ignored |
| C36, C64, C67 | differential mode: equal stamps, covariance scaled by dt, uninitialised time | C36_same_stamp_contaminates, C64_scaled_by_dt_cubed, C67_first_cycle_arbitrary |
| C37 | relative mode: first pose in another frame | C37_other_frame |
| C38 | gravity taken off in the wrong frame | C38_residual, C38_upside_down |
| C43 | vertical pitch | C43_vertical_changes_rotation |
| C44, C46 | duplicate stamps; shrinking drops the newest | C44_duplicate_stamps, C46_shrinking_drops_newest |
| C47, C70 | stamps truncated to seconds; int overflow from 2.147 s | C47_half_seconds, C70_overflow |
| C49 | stale cache, endless recursion on a cycle | see Props/Ancestor |
| C50, C54, C74, C77 | local cartesian mode and zones are mixed up; jump at the equator | C50_local, C54_other_zone, see Props/NavsatMap |
| C51, C53, C73, C75 | bad datum keeps the old place; missing transforms; zone change with old heading; what ends the node | C51_bad_datum, C53_missing_transform, C73_zone_turned_map, C75_bad_fix |
| C56, C57, C66 | list lengths are not checked, out-of-bounds reads | C56_never_rejected, C57_missing_gains |
| C59, C65 | poses look up the wrong time; unknown frames are fused as the base | C59_pose_uses_latest, C65_unknown_frame_fused |
| C60, C61 | tf_prefix has no effect; Vy diagnosis counts Vx | C60_prefix_ignored, C61_missing_y_not_reported |
| C62 | the UKF mean angle flips for large variances | C62_angle_mean_flips |
| C63 | unused components leak through slanted mountings | C63_unused_leaks |
| C68 | an estimate that is not finite is published | C68_published_anyway |
| C71, C72 | queries for mounted frames lack accelerations and covariances; size 0 | C71_acceleration_lost, C72_zero_size |
| C80 | the default control_timeout is 0, not the sensor timeout | C80_default_ignores_commands |
| C82 | invalid frames are logged and used | C82_invalid_configuration_used |
| C83 | zero or negative variances of velocities and accelerations are never reported (`update_vector[i]` without the offset); for poses in a turned frame the wrong variances are looked at | C83_twist_never, C83_acceleration_never, C83_velocity_inputs, C83_zero_unreported, C83_turned_unreported |
| C84, C85 | the listener reads its noise out of bounds; service sends column-major and zeros on failure | C84_default_undefined, C85_column_major, C85_no_answer |
| C86 | queries before the buffer subtract noise | C86_past_not_covariance |
| C89 | the order of simultaneous measurements matters for headings, with thresholds, and at initialisation | C89_headings, C89_gated, C89_first_measurements |
| C90 | `reset` puts the robot at the origin of the world frame, so the choice of origin shows | C90_reset |
| C90 | an input with `relative` that gives poses in the world frame takes its first pose as the origin, so the choice of origin shows | C90_relative |
| C90 | before the first prediction of the UKF, rejection thresholds compare measurements with the origin of the world frame, so a message that repeats the estimate can be rejected and the next one ignored | C90_ukf_gate |
| C91 | a stamp of zero counts as never received; `latest_control_` is not initialised (filter_base.cpp:58) and acts until the control timeout after the epoch | C91_at_epoch, C91_uninitialised_control |
| C92 | `reset` makes the robot look along the x axis of the world frame, so the choice of heading shows | C92_reset |
| C92 | `preparePose` turns the covariance of roll and pitch into the world frame as if they were coordinates there; the measured roll and pitch do not depend on the heading of the world frame, their noise does (a quarter turn exchanges the two variances) | C92_tilt_noise, C92_tilt |
| C94 | an IMU pitched by θ on a robot rolled by 90° is fused as (90°, −θ, θ) instead of (90°, 0, 0): roll, pitch and yaw of the mounting are subtracted one by one | C94_pitched |
| C95 | a filter is initialised by one message to everything in it; the same data in two messages are initialised by the first and the second is almost ignored (default initial variance 1e-9) | C95_first_message |
| C96 | places on the equator have southern northings | C96_equator |
| C97 | a late measurement of a moving robot, without smoothing; a motion with turns | C97_late, C97_circle |
| C98 | the height, when altitudes are set to zero: zero for the node, the altitude for the transform | C98_height |
| C99 | `broadcast_utm_transform_as_parent_frame` is never read (a name with another underscore is); a delay below a second is none; filtered positions are published by default; without a datum the node does not wait but takes latitude and longitude zero | C99_parent_name, C99_delay, C99_filtered_default, C99_no_wait |
| C100 | with the default parameters the heading variance of a turning robot with uncertain roll is predicted negative (the mean of the angles is taken over unit vectors with weights of about ±10⁶) | C100_negative_variance |
| C101 | sigma points are not wrapped when the predicted heading is, and `correct` does not normalise their difference unless an angle is measured at the same place of the measurement: a message about x alone turns the robot (30 rad per metre in the witness) and leaves a negative variance | C101_position_turns_robot |
| C102 | `base_link_output_frame` and `imuN_angular_velocity_rejection_threshold` are documented, but other names are read (`base_link_frame_output`, `imuN_twist_rejection_threshold`); `stamped_control` is never read; `reset_on_time_jump` is read into a member that nothing uses | C102_output_frame_name, C102_imu_threshold_name, C102_stamped_control, C102_time_jump |
| C103 | a message that cannot be transformed is thrown away without a diagnostic (the warnings of `lookupTransformSafe` are commented out too); warnings about overtaken messages print only the `nanosec` field of the time | C103_untransformable_unreported, C103_seconds_not_told |
| C104 | when the robot turns, the predicted position depends on the frequency of the filter; at rest the covariance does, and that of the velocities always (C104_velocity_variance): process noise enters as `dt * Q` per step, so a cycle in between makes the position less certain | C104_turning, C104_less_sure, C104_velocity_variance |
| C105 | when a variable has variance zero (a first message may say so: the initial covariance is copied as it is), the Cholesky factorisation stops there, nothing looks at `info()`, and the unscented filter predicts with variances of all later variables squared and scaled by 0.000015 (defaults) | C105_known, C105_forgets |
| C106 | a node that was started with `disabled_at_startup` stores every message until it is enabled, however old they get; a batch of late messages leaves as many snapshots, which outlive the messages | C106_disabled_node_stores_everything, C106_more_snapshots_than_measurements |
| C107 | 0.01 in the control model, 1e-9 in the variance floor and 1e-6 after a failed set_pose are lengths without a unit; the dynamic process noise adds metres per second and radians per second; the unscented filter, corrected by a heading alone, takes the spread of the position for an angle | C107_control, C107_floor, C107_set_pose, C107_dynamic_noise, C107_ukf_compass |
| C108 | a heading measured exactly half a turn away turns the robot to the left, also in the mirror | C108_half_turn |
| C109 | a gated measurement may be rejected, and a prediction to the present adds noise | C109_gated, C109_predicted |
| C111 | the reported covariance does not cover the error when headings are half a turn apart, and in the unscented filter when the process noise of a step exceeds the noise of the measurement | C111_half_turn, C111_unscented |
| C112 | listener and filter node do not meet: their topic names differ in every namespace (`odom/filtered`, `acceleration/filtered` against `odometry/filtered`, `accel/filtered`), and accelerations are not published unless asked for; a stamp published twice can be paired with the wrong acceleration; accelerations eleven estimates late are lost | C112_names, C112_deaf, C112_mixed, C112_late |
| C113 | the listener knows neither commands, correlations between pose and velocities, nor dynamic process noise; an unscented filter without three `filter_args` predicts the origin at rest from every state, with no warning | C113_command, C113_correlation, C113_dynamic, C113_unset |
| C114 | the first message is copied into the covariance without the floor of 1e-9 that later ones get, so a message with zero covariance makes its variables certain; after `reset` with `initial_estimate_covariance` not set, everything the first message does not measure is certain | C114_first_measurement, C114_unset_reset |
| C115 | covariances of a differential input stay in the axes of the frame of its poses, while the velocities are along the axes of the robot: the same drive gives another variance of the forward speed in another frame | C115_turned |
| C116 | a further exact measurement in between makes the filter less sure of the position; a better compass that contradicts the estimate makes it less sure across | C116_in_between, C116_other_heading |
| C117 | a late message without history is fused as if it were new, so the next message sent is false | C97_late |
| C118 | in 2D mode `forceTwoD` shrinks the variances of roll and pitch (rates) and keeps their correlation | C118_turned |
| C119 | the first odometry message: only its pose (or, with another order of equal stamps in the queue, only its twist) is taken over, the other half is fused against the initial variance 1e-9 | C119_first_odometry |
| C120 | the first pose of a differential input, received twice with one stamp: the node sends numbers divided by zero | C120_twice |
| C121 | a robot that moves while `navsat_transform` starts without a datum: pose and fix of different times give a wrong transform | C121_rolling |
| C122 | an estimate and a message each half a standard deviation off, and a threshold of at most √(1/2): the message is rejected | C122_sharp |
| C123 | no process noise: a sensor that is off by more than its threshold is rejected for ever | C123_deaf |
| C124 | a measured variable: its initial covariance decides how far a measurement moves it | C124_measured |
| C125 | the process noise of the velocities is not scaled down at rest, so the position grows uncertain by what the measured velocity leaves open | C125_grows |
| C127 | the listener drops the fraction of a second in the stamps, so every answer is the state of up to a second later than asked for | C127_late, C127_never_true |
| C128 | With a very small initial covariance the filter is slow to trust measurements of high variance (state_estimation_nodes.rst) | Not the first message: its values and variances replace the initial ones (`C128_first_message`); true for variables that the first message does not select (`C128_slow_partial`, `C128_faster`) |
| C129 | A variable with an inflated variance is effectively ignored (preparing_sensor_data.rst) | Not in the first message, which sets it (`C129_first_message`), nor over many messages if nothing else measures it (`C129_believed`); true for each other message in the limit (`C129_limit_partial`) |
| C130 | The output oscillates between disagreeing sources if they differ by more than their variance, and does not if their distributions overlap (configuring_robot_localization.rst) | The difference has no influence on whether it oscillates (`C130_any_distance`); process noise and variance decide (`C130_oscillates`, `C130_eliminated`) |
| C131 | With a rejection threshold no message moves a variable by more than that many standard deviations | The first message is not gated and moves it by any amount (`C131_first_message`); true of all others |
| C132 | A variance of zero is raised by 1e-6 (preparing_sensor_data.rst) | It is raised to 1e-9 in corrections, and used as it is in the first message (`C132_not_micro`, `C132_first_message`) |
| C133 | The pose in the odom frame is continuous (state_estimation_nodes.rst) | A velocity moves the position, as if the robot had gone with it since the last estimate (`C133_jumps`, `C133_retroactive`) |
| C134 | The unscented filter weights readings by their certainty and follows faster with more process noise (state_estimation_nodes.rst) | The sigma points a correction uses lack the process noise of the step, and the covariance is reduced by `K Pzz Kᵀ` without the error of the reading (`C134_pause_ignored`, `C134_third_counts_more`) |
| C136 | No message makes the filter node exit | A stamp with negative seconds does, on any topic the node listens to and on `set_pose` (`C136_set_pose_ends`, `C136_pose_ends`) |
| C137 | An odometry input does what a pose and a twist input with the same settings do | With an acceleration selected, the pose half of an odometry message is said to measure an acceleration of zero, exactly, and a pose input measures none (`C137_accelerations_differ`) |
| C138 | Rounding of times does not matter for velocities from poses | For equal stamps the two conversions to seconds may differ by a bit: a robot that goes back with 4194304 m/s (`C138_backwards`), or stands still (`C138_repeated`) |
| C139 | What arrives twice counts once | A measurement that arrives n times counts n times: covariance divided by n (`C139_copies`, `C139_counts_twice`); a repeated fix is sent on again (`C139_sent_again`) |
| C140 | After the clock has been set back the node goes on | Old messages are dropped until the clock is where it was (`C140_deaf`), nothing is sent (`C140_silent`), or variances that may be negative are (`C140_negative`) |
| C141 | The unscented filter is as sure as its data make it | The variance of the measurement is left out where the covariance is lowered: nearly twice the variance of a reading (`C141_golden`, `C141_nearly_twice`), and after n + 1 readings at least r / √(2n + 1) (`C141_root`) |

Also seen in the text, without a property of their own: `reset_on_time_jump` is never used; the listener subscribes to
`odom/filtered` and `acceleration/filtered` while the nodes publish `odometry/filtered` and `accel/filtered`; an invalid
`filter_type` leaves `estimator_` null; UKF weights are uninitialised if `filter_args` has fewer than three entries; while a
node is disabled messages still pile up in its queue; set_pose does not clear `last_message_times_`; the control
update vector is reduced by the axes of an IMU configuration in the sensor frame.

## Plan per property

| id | modelled | proof |
|----|----------|-------|
| C01 | EKF predict/correct over real 15x15 matrices, processMeasurement | Joseph form is PSD for any gain; induction over the call sequence. Negative time steps lose it: counterexample. |
| C02 | transfer function, Jacobian entries | `HasFDerivAt` of x -> F(x) x, entry by entry with Mathlib derivatives |
| C03 | same | rotation block orthogonal with det 1; derivative of the rotation along the Euler rates equals R skew(w) |
| C04 | `normalize_angle` from C `fmod` | range and congruence lemma, then unfolding predict/correct |
| C05 | update index selection over `Dbl` | equality of corrections; counterexample for the initialising measurement |
| C06 | Mahalanobis gate | case analysis, default threshold squares to +inf |
| C07 | correct | congruence on selected indices (two-run) |
| C08 | correct | completion of squares in the PSD order |
| C09 | processMeasurement, generic in the filter | case analysis and induction over sequences |
| C10 | processMeasurement | case analysis |
| C11 | computeControlAcceleration, prepareControl | real arithmetic |
| C12 | computeDynamicProcessNoiseCovariance | entrywise; PSD kept for block diagonal noise, lost otherwise (counterexample) |
| C13 | forceTwoD, predict, correct | inductive invariant: planar state and block-structured covariance |
| C14 | measurement covariance subset | entrywise |
| C15 | predict with explicit stale matrices | result independent of the memory |
| C16 | setConstants, generateSigmaPoints | finite sums; `llt` is a parameter with L L^T = A |
| C17 | Ukf::correct | sums over sigma points give P H^T and H P H^T, then the EKF algebra |
| C18 | Ukf with its `uncorrected_` flag | refuted: witness; partial: holds once a predict has happened since |
| C19 | Ukf::predict | refuted: prediction independent of the control |
| C20 | Ukf::correct inner loop | refuted: witness; partial: holds when indices coincide |
| C21 | integrateMeasurements, queue contract | induction over the drain |
| C22 | integrateMeasurements, revertTo, history | ghost replay invariant; uniqueness of sorted permutations |
| C23 | clearExpiredHistory, histories | invariant over all node steps |
| C24 | integrateMeasurements control handling | refuted: witness; partial without late data |
| C25 | callbacks' stamp checks | invariant over all node steps |
| C26 | setPoseCallback | step lemma + invariant; refuted for untransformable poses |
| C27 | reset | refuted: witness (process noise, control); partial: list of fields that do return |
| C28 | toggle service, periodicUpdate | step lemmas and invariant |
| C29 | enable service, periodicUpdate | invariant |
| C30 | periodicUpdate publication | refuted: witness trace; partial for non-smoothing nodes |
| C31 | integrateMeasurements, empty queue branch | case analysis |
| C32 | update vector splitting in loadParams | all configurations; refuted for accelerations of odom/twist |
| C33 | prepareTwist geometry | vector algebra over SO(3) |
| C34 | covariance rotation | PSD congruence, trace of conjugation; exact matrix that arrives in the filter |
| C35 | forceTwoD | entrywise; correlation part refuted |
| C36 | preparePose differential branch | SE(3) algebra; `Dbl` division for dt = 0 |
| C37 | preparePose relative branch | SE(3) algebra |
| C38 | prepareAcceleration | SO(3) algebra; refuted for rotated mountings |
| C39 | imuCallback | case analysis |
| C40 | IMU part of loadParams | fold over sensors |
| C41 | getFilteredOdometryMessage, getFilteredAccelMessage | index arithmetic |
| C42 | periodicUpdate map branch | group identity |
| C43 | setRPY/getRPY | trigonometry with Mathlib `Complex.arg` |
| C44 | estimator buffer | invariant over operation lists |
| C45 | estimator getState | case analysis on sorted lists |
| C46 | estimator eviction | list lemmas; shrinking refuted |
| C47 | odomAndAccelCallback, estimator | refuted: truncation to seconds |
| C48 | listener getState | SE(3) algebra |
| C49 | findAncestorRecursiveYAML, findAncestor | graph reachability |
| C50 | navsat conversions, projection as parameter | SE(3) algebra; refuted in local cartesian mode |
| C51 | computeTransform, setManualDatum | SE(3) algebra |
| C52 | navsat callbacks | invariant over callback interleavings |
| C53 | prepareGpsOdometry | refuted: witness; partial with transform available |
| C54 | gpsFixCallback, fromLL, mapToLL | refuted: witness; partial in default UTM mode |
| C55 | zone arithmetic of LLtoUTM | floor/cast arithmetic |
| C56 | load_covariance | refuted: length never checked |
| C57 | control parameters, prepareControl | refuted: UB reachable; partial: when every list has 6 entries |
| C58 | addDiagnostic, aggregateDiagnostics | fold/maximum |
| C59 | lookupTransformSafe | decision table; time conversion refuted |
| C60 | appendPrefix, tf_prefix in loadParams | string lemmas; refuted: prefix has no effect |
| C61 | twist_var_counts | refuted: witness; partial |
| C62 | Ukf angle averages | trigonometric inequality; refuted for large variances |
| C63 | masks in prepareTwist/prepareAcceleration | matrix algebra; refuted for slanted mountings |
| C64 | differential covariance | scaling; refuted |
| C65 | preparePose with missing transforms | case analysis; refuted |
| C66 | update vectors of any length | all lists; refuted |
| C67 | differentiateMeasurements | difference quotient; first cycle refuted |
| C68 | periodicUpdate's validity check; EKF core | refuted; positive definite innovation covariance and planar invariant for what holds |
| C69 | all inputs side by side | frame conditions, injectivity of names |
| C70-C72 | listener queries | decision tables; overflow |
| C73-C79 | navsat node | invariants over runs, derivative of the projected path |
| C80-C83 | loadParams times and frames, copyCovariance | decision tables; refuted by default |
| C84-C87 | listener noise, service, predictions | PSD congruence; rigid body motion; refuted for the past |
| C88 | control part of loadParams, setControlParams, prepareControl | composition of the two; bounds by cases |
| C89 | correct, processMeasurement | information form of the update; permutation induction; refuted for angles, thresholds, initialisation |
| C90 | the node and both filters | simulation between two runs (Proofs/NodeSim), generic in the filter; equivariance of predict and correct; the whole node from messages and transforms to sent messages by `Proofs/SysSim` (C90_node_partial, C90_loaded_partial, C90_ukf_node_partial, C90_ukf_loaded_partial) |
| C91 | the node with both filters, prepareControl | the same simulation, with shifted clocks |
| C92 | the node and the EKF | the same simulation; rotation of transfer function, Jacobian, noise, gain and Joseph form (Proofs/Turn) |
| C92 | preparePose | associativity of transforms, roll, pitch and yaw of a turned rotation, the block rotation of the covariance entry by entry |
| C93 | the sensor callbacks with preparePose, prepareTwist, prepareAcceleration | composition; queue contents as multisets; two_d_mode by commutation: the callback in the plane is the one in space followed by `forceTwoD` |
| C94 | preparePose for IMUs | rotation algebra; refuted: witness |
| C95 | Ekf::correct, processMeasurement | information form: sums of weights over measurements; refuted at start-up |
| C96 | the series in `UTM` | Lipschitz bounds of its coefficients (Proofs/Utm) |
| C97 | runs of the node with the EKF | invariant over all events: everything held is the motion at its time (Proofs/Truth) |
| C98 | runs of the satellite navigation node, what is broadcast | invariant over all events: the last transform sent is the current one |
| C99 | constructor of navsat_transform (Model/NavsatPar) | case analysis over all parameter sets; refuted in four points, two of them over all runs |
| C100 | predicted covariance of the UKF | Cauchy–Schwarz over the sigma points (non-angular block); refuted for angles |
| C101 | UKF correction after the heading wraps | exact formula of the error; refuted for positions |
| C102 | `loadParams` as a whole (Model/NodePar) | case analysis over all parameter sets, induction over the numbered inputs; refuted in four points |
| C103 | the `addDiagnostic` calls about stamps, publication of diagnostics (Model/Reports) | case analysis of the callbacks, induction over runs; refuted for messages that cannot be transformed |
| C104 | `Ekf::predict` over several cycles (Model/Ekf, Model/Node) | the transfer function is a semigroup in the time when nothing turns; induction over cycles; for rates and accelerations the rows of the Jacobian are those of the identity; refuted in general |
| C105 | `Ukf::predict`, `generateSigmaPoints` and `Ekf::predict` (Model/Ukf, Model/Llt, Model/Ekf) | symmetric sigma points along one axis each, moments computed; block structure of the covariance kept by induction over cycles; loop invariant of the factorisation; refuted for variances of zero |
| C106 | queue, history, `revertTo`, `clearExpiredHistory` (Model/Node) | multiset of kept stamps decreases except by arrivals; counting invariant of snapshots against measurements inside the loop |
| C107 | EKF, UKF and node (Model/Ekf, Model/Ukf, Model/Node) | simulation of the node by itself in other units (`CoreSim`), diagonal change of basis in the matrices, uniqueness of the Cholesky factor; the UKF against itself with marks on its estimates (Props/RescaleUkf) |
| C108 | EKF, UKF and node (Model/Ekf, Model/Ukf, Model/Node) | the same simulation with signs instead of scale factors, angles up to full turns; when orientations are measured, against the filter with marks on its estimates (Props/Mirror), which is proved to send the same; UKF: the factor of the mirrored covariance is the mirrored factor (uniqueness), sigma points change places in pairs, marks as before (Proofs/Marks, Props/MirrorUkf) |
| C109 | EKF and node (Model/Ekf, Model/Node) | parallel sum of covariances for one correction; induction over the drained queue with "measured already, or still in the queue" |
| C110 | navsat_conversions.hpp `UTM` (Model/Utm) | derivatives of the series, exact cancellation of the powers up to the fourth, bounds for the rest; integral of the radius of curvature |
| C111 | EKF (Model/Ekf, Model/FilterBase) | "covers" as an inequality of quadratic forms; closed under sums and linear maps, hence under Joseph form, prediction and copy; induction over the measurements |
| C112 | synchroniser of the listener (Model/Sync), node (Model/Node) | invariant of the map of stamps along the arrivals: half-filled entries only, and every message newer than the other topic is kept; the two topics are exchanged by a symmetry of the model |
| C113 | estimator of the listener (Model/Query), messages (Model/Publish), EKF and UKF | equality of the two predictions from the contents of the messages (C47); counterexamples computed |
| C114 | node (Model/Node), EKF and UKF cores | positive definiteness as an invariant: Joseph form with a positive definite measurement part, noise added for positive steps, identity Jacobian for zero steps; for the UKF the posterior stays above the process noise of the last prediction, or above the EKF posterior |
| C115 | differential part of `preparePose`, `prepareTwist` (Model/Prepare) | induction over the messages with the invariant that the remembered poses differ by the transform of the frames |
| C116 | `Ekf.predict`, `Ekf.correct`, `Filt.processMeasurement` | order of quadratic forms; optimality of the gain (C08_optimal) against the gain of the other filter; induction over the sequence with equal states up to turns |
| C117 | `Sys.run` (`loadNode`, `prepare*`, callbacks, `Node.run`, output) | every prepared measurement is along the motion; the node model run on the events of the system (`Sys.run_node`), C97; output as functions of the estimate |
| C118 | `Sys.run` (`loadNode`, `prepare*`, callbacks, `Node.run`, `Differ.step`, output) | invariant of the whole node (`Sys.run_inv`: estimate, memory of `preparePose`, angular acceleration) with C34 for what is prepared |
| C119 | `Sys.run` of a message and a cycle | computation through `loadNode`, `prepare*`, `Node.sensor`, `Node.advance`, `odomMessage`; C43 for the rotation; once for any filter that starts as `FilterBase` says (`NodeConf.RunBy`), so for both |
| C120 | `Sys.run` from `loadNode` | `alive_estInv` along `Sys.run_inv`; prepared measurements are planar and proper (`firm_block`); refuted for differential inputs |
| C121 | `Duo.run` (`Sys.step`, `Nav.step`, messages between them) | both nodes and all messages on the way are true (`Duo.Right`): C117 for the filter, `Scene.Right` for `navsat_transform`; with a datum the robot need not stand; refuted for a robot that moves at the start without one |
| C122 | `Ekf.correct`, `Filt.processMeasurement` | error after a correction and innovation have a block-diagonal joint covariance that covers both (`covers_joint`); split by Cauchy-Schwarz (`joint_split`); induction over the messages |
| C123 | `Filt.processMeasurement` | `rest_until`: induction to the first message used, the covariance until then is `restFold`, bounded below by `fold_ge`; refuted without process noise |
| C124 | `Node.run`, `Filt.processMeasurement` | `withinSim`: a simulation between two nodes with equal estimates and covariances that differ within a set of variables closed under the Jacobian; growth: invariant `Unlearnt` |
| C125 | `Filt.processMeasurement`, `noiseQ` | invariant `StillOk` (only the pose uncertain, at rest, not above the first covariance); refutation: the exact covariance after n messages from a steady state of the velocity |
| C126 | `Sys.cycle`, `Sys.run` | case distinction over what a cycle sends, induction over runs for the counts; the transform by C42 |
| C127 | `Sync.listener`, `Listener.getState`, `Sys.run` | composition of C117, C112, C44, C45 and C03: what is stored is true, and a prediction of a true state is true |
| C128 | `Filt.processMeasurement`, `Ekf.predict`, `Ekf.correct` | refinement: the rows of the transfer matrix for these variables are those of the identity, so the filter simulates a bank of scalar filters; closed form and comparison by induction over the readings |
| C129 | `Ekf.correct`, `Filt.processMeasurement` | the measurement is taken in two parts (information form of C95), the inflated variable last; its correction is inverse to the sum of the variances; runs by C128 |
| C130 | `Filt.processMeasurement`, `Ekf.predict`, `Ekf.correct` | the bank of C128: contraction of the distance to each reading, affine equivariance, and the fixed point of the variance recursion; Props/Upright shows that such runs exist for any number of readings |
| C131 | `Ekf.correct`, `Filt.processMeasurement`, node, `ukfCorrectAt` | Cauchy-Schwarz in the innovation covariance: the step `K y` is covered by `K S Kᵀ`, which is what the correction takes from the covariance; covers add up over a list; invariants of C01 for the node |
| C132 | `Ekf.correct`, `Ukf.correct`, first message | the correction depends on the covariance of the message only through the sanitised part of it |
| C133 | `Ekf.correct`, `Ekf.predict`, `Filt.processMeasurement` | scalar correction in closed form; the entry of the predicted covariance from the rows of the Jacobian |
| C134 | `Ukf.predict`, `Ukf.correct`, `Filt.processMeasurement` | invariant `UkfBanked`: the rates and accelerations are a bank of scalar estimates with the recursion `Gauge.heard`; monotonicity of that recursion |
| C135 | `Ekf.predict`, `Ekf.correct`, `Filt.processMeasurement` | two banks (C128) side by side; the scalar Riccati step contracts, the estimates follow up to the difference of the variances |
| C136 | `Sys.stepX`, `Sys.runX`, `Sys.Ev.converted`, `Sys.cycleStamp` | invariant `TInv`: for any set of times, the times in the node stay in it while the events bring no others; with "not negative" for the exception, with "brought by an event" for the stamps |
| C137 | `Sys.step`, `Sys.run`, the callbacks of `Hub`, `odomData`, `poseData`, `twistData`, `loadNode`, `Stream.name` | simulation `SysSim` between two runs in which the streams have other names (`CoreSim.Name`, one to one because different streams have different names, C69); one odometry message against two messages |
| C138 | `Fp.timeSec`, `Fp.stampSec`, `Fp.between`, `preparePoseDt` | relative error of rounding to 53 bits, for any rounding to nearest; which number is rounded to which from the distance to the next ones; `preparePoseDt` with exact times is `preparePose` |
| C139 | `Sys.step`, `Filt.processMeasurement`, `Node.sensor`, `Nav.step` | each step twice, by cases; `C95_filter_readings_partial` for copies; for the first message the correction of a filter that has just been initialised by it, whole node |
| C140 | `Sys.step`, `Node.periodic`, `Node.integrate`, `Node.reset`, `Ekf.predict` | invariant over runs of events that come again; removal of messages by induction; for the covariances two cycles of the whole node with the diagonal of the prediction |
| C141 | `Ukf.correct`, `ukfCorrectAt`, `Filt.processMeasurement` | twice the right covariance less the computed one is a congruence of the prior; scalar inequalities; induction over readings with 1 / variance² |
| C142 | `Ekf.predict`, `Ekf.correct`, `Filt.processMeasurement` | the variance of the value τ before grows by process noise only, by induction over everything done to the filter; then a gain of 1/τ is no better than the one used |
| C143 | `Node.periodicX` and what it calls, `Sys.runO` (Model/Overflow: the control flow with checked sums and differences) | invariant: all times in the node, of measurements, commands, snapshots and estimate, are between 0 and 2^63; then the checked node is the unchecked one except for the stamp of the transform |
| C144 | `prepareTwist`, `prepareAcceleration`, `preparePose` | every operation of the transform library commutes with the mirror (rotations up to the sign of the quaternion, roll and yaw up to full turns); independent definition of the mirrored messages; whole nodes by a simulation over all events (`Proofs/SysSim`), the half turns tracked by marks |
| C145 | `loadParams`, the callbacks, `periodicUpdate`; `navsat_transform`; the listener | equation for every function that looks at the name of a frame (only emptiness and equality are tested), then induction over the run |
| C146 | `Ekf::predict`, `Ekf::correct`, the node | the two filters run as one (Proofs/Pair.lean) and an invariant of the pair: the covariance blocks from variable 6 on are equal while both states are finite; for messages: the prepare functions take update vector and covariance from the message and the transform alone |
| C147 | `Ekf::predict`, `Ekf::correct`, the node | as C146, with the order of the blocks as invariant of the pair; a step on the block is a step of a filter at rest that knows its pose (C116); for messages: a rotated covariance keeps the order and the floor |
| C148 | `Ekf::predict`, `Ekf::correct`, the node | the three nodes as one over a triple of filters; the linear relation as invariant, with equal covariances of the velocities (C146), hence equal gains; for messages: rotating readings is linear |
| C149 | `Ekf::predict`, `Ekf::correct`, the node | pair of filters; the weighted innovation of the chosen variables is the unique solution of the equations about them alone, so that messages of different shape have the same effect on them; for messages: rotating a covariance keeps the block of the rates apart |
| C150 | `Ekf::predict`, `Ekf::correct`, the node | pair of filters; the difference of the states goes through the same matrices as the covariance, so that its square stays below a multiple of the covariance (Joseph form); for messages: without lever arm both nodes make the same measurement of a message |
| C151 | `prepareTwist`, `prepareAcceleration`, `imuCallback`, the node | equality of the prepared measurements for a turned sensor, then induction over the events; refuted for sensors of one direction |
