{"id": "C01", "title": "EKF covariance is always a covariance", "statement": "However the EKF is driven (any order of measurements, gaps, outliers, rejected or partial measurements), the reported estimate error covariance stays symmetric and positive semi-definite, provided it started that way, the process noise is symmetric PSD, every measured covariance block that is used is PSD and time gaps are not negative.", "quantifier": "every initial covariance, every finite sequence of predict/correct/processMeasurement calls with arbitrary states, update vectors, thresholds and gains", "why_tests_cant": "a test runs a handful of sequences; loss of definiteness shows up only after particular histories", "anchors": ["src/ekf.cpp:Ekf::correct", "src/ekf.cpp:Ekf::predict", "src/filter_base.cpp:FilterBase::processMeasurement"]}
{"id": "C02", "title": "EKF covariance propagation uses the true Jacobian", "statement": "The matrix the EKF uses to propagate its covariance is exactly the derivative of the motion model it uses to propagate its state, at every state away from pitch = +-90 degrees and for every time step.", "quantifier": "every state vector with cos(pitch) != 0 and every time step", "why_tests_cant": "a wrong sign in one of 225 entries changes results only by a little at the sampled points", "anchors": ["src/ekf.cpp:Ekf::predict"]}
{"id": "C03", "title": "The motion model is rigid-body kinematics", "statement": "Position advances by the body velocity times dt plus half the body acceleration times dt squared, rotated into the world frame by the orientation in the state; that rotation is proper orthogonal; and roll/pitch/yaw advance with the rates that make the derivative of the orientation equal to orientation times the cross-product matrix of the body angular velocity.", "quantifier": "every orientation away from gimbal lock, every velocity, acceleration and step", "why_tests_cant": "it is an identity between trigonometric functions over all angles", "anchors": ["src/ekf.cpp:Ekf::predict", "src/ukf.cpp:Ukf::projectSigmaPoint"]}
{"id": "C04", "title": "Reported angles are normalised", "statement": "After every predict and every correct, roll, pitch and yaw lie in (-pi, pi] and differ from the un-normalised result by a multiple of 2 pi; nothing else in the state is changed by the normalisation.", "quantifier": "every state, measurement and step", "why_tests_cant": "range claims over all reals", "anchors": ["src/filter_base.cpp:FilterBase::wrapStateAngles", "src/ekf.cpp:Ekf::correct", "src/ekf.cpp:Ekf::predict", "src/ukf.cpp:Ukf::correct"]}
{"id": "C05", "title": "Non-finite measured values are ignored", "statement": "A measurement in which some selected components are NaN or infinite has exactly the effect of the same measurement with those components deselected; in particular a non-finite value never reaches the state.", "quantifier": "every filter state (initialised or not), every measurement and every set of non-finite components", "why_tests_cant": "the set of affected components and states is unbounded, and the first measurement takes a different path", "anchors": ["src/ekf.cpp:Ekf::correct", "src/ukf.cpp:Ukf::correct", "src/filter_base.cpp:FilterBase::processMeasurement"]}
{"id": "C06", "title": "Outlier gate is exact and all-or-nothing", "statement": "A correction changes the estimate only if the squared Mahalanobis distance of its innovation is below the squared threshold; otherwise state and covariance are left exactly as they were. With the default threshold no finite innovation is ever rejected.", "quantifier": "every estimate, measurement, threshold", "why_tests_cant": "boundary behaviour (equality) and completeness over all inputs", "anchors": ["src/filter_base.cpp:FilterBase::checkMahalanobisThreshold", "src/ekf.cpp:Ekf::correct", "src/ukf.cpp:Ukf::correct"]}
{"id": "C07", "title": "Deselected variables have no influence", "statement": "The result of a correction does not depend on measured values, variances or covariances of variables whose update flag is false.", "quantifier": "every pair of measurements that agree on the selected variables", "why_tests_cant": "non-interference is a two-run property", "anchors": ["src/ekf.cpp:Ekf::correct", "src/ukf.cpp:Ukf::correct", "src/filter_base.cpp:FilterBase::processMeasurement"]}
{"id": "C08", "title": "A correction never increases uncertainty and is optimal", "statement": "For a usable measurement the EKF posterior covariance is below the prior in the PSD order, and no other linear gain gives a smaller posterior.", "quantifier": "every PSD prior, every positive definite measurement covariance, every alternative gain", "why_tests_cant": "an optimality claim ranges over all gains", "anchors": ["src/ekf.cpp:Ekf::correct"]}
{"id": "C09", "title": "Filter time never runs backwards while measuring", "statement": "Processing a measurement moves the filter clock to the maximum of its clock and the stamp (once initialised), predicts exactly when the stamp is newer than the clock, by exactly the difference, and always performs the correction.", "quantifier": "every filter state and measurement; every sequence of measurements", "why_tests_cant": "depends on arrival orders", "anchors": ["src/filter_base.cpp:FilterBase::processMeasurement"]}
{"id": "C10", "title": "The first measurement initialises exactly what it measures", "statement": "The first measurement copies exactly the selected components of value and covariance into the estimate, leaves all others alone, marks the filter initialised and sets the clock to its stamp.", "quantifier": "every uninitialised filter and every measurement", "why_tests_cant": "all 2^15 update vectors and all values", "anchors": ["src/filter_base.cpp:FilterBase::processMeasurement"]}
{"id": "C11", "title": "Control acceleration is bounded, directed and expires", "statement": "The acceleration derived from a velocity command never exceeds the configured acceleration or deceleration limit in magnitude, never pushes the velocity away from the command, is zero for axes not under control, and a command at least control_timeout old is treated as a zero command.", "quantifier": "every state, command, gain, limit, age", "why_tests_cant": "piecewise function with boundaries over reals", "anchors": ["src/filter_base.cpp:FilterBase::prepareControl", "src/filter_base.cpp:FilterBase::computeControlAcceleration"]}
{"id": "C12", "title": "Dynamic process noise scales only the pose block", "statement": "With dynamic process noise the 6x6 pose block of the process noise is multiplied by the squared speed of the twist, everything else is unchanged; with it off the configured matrix is used unchanged.", "quantifier": "every state and process noise matrix", "why_tests_cant": "all entries, all states", "anchors": ["src/filter_base.cpp:FilterBase::computeDynamicProcessNoiseCovariance"]}
{"id": "C13", "title": "2D mode stays planar", "statement": "In 2D mode, starting planar with no correlation between planar and non-planar variables, the EKF estimate stays exactly planar (z, roll, pitch, their rates and the vertical acceleration all zero) for ever, whatever the measurements.", "quantifier": "every finite history of 2D measurements and predictions", "why_tests_cant": "inductive over histories; drift would show up only late", "anchors": ["src/ros_filter.cpp:RosFilter::forceTwoD", "src/ekf.cpp:Ekf::predict", "src/ekf.cpp:Ekf::correct"]}
{"id": "C14", "title": "Measurement variances are sanitised", "statement": "Each variance used in a correction is the absolute value of the supplied one, raised to at least 1e-9; covariances between different variables are used as supplied.", "quantifier": "every measurement covariance and update vector", "why_tests_cant": "boundary cases and all entries", "anchors": ["src/ekf.cpp:Ekf::correct", "src/ukf.cpp:Ukf::correct"]}
{"id": "C15", "title": "Prediction has no hidden memory (EKF)", "statement": "The result of an EKF prediction depends only on the current estimate, the control input, the parameters and the step: two filters that went through different histories and have the same estimate predict identically.", "quantifier": "every pair of histories leading to equal estimates", "why_tests_cant": "a two-run property; stale matrix entries survive between calls", "anchors": ["src/ekf.cpp:Ekf::predict"]}
{"id": "C16", "title": "UKF sigma points represent the estimate", "statement": "The UKF weights sum to one, and the weighted mean and covariance of the sigma points it draws equal the state and covariance it drew them from.", "quantifier": "every state, every PSD covariance, every alpha, kappa, beta with nonzero scaling", "why_tests_cant": "identity over all matrices", "anchors": ["src/ukf.cpp:Ukf::setConstants", "src/ukf.cpp:Ukf::generateSigmaPoints"]}
{"id": "C17", "title": "UKF correction agrees with the Kalman update", "statement": "For measurements of state components the UKF correction moves the state by the Kalman gain of the estimate, and its posterior covariance is PSD and at least the Kalman posterior.", "quantifier": "every estimate, every usable measurement", "why_tests_cant": "matrix identity over all inputs", "anchors": ["src/ukf.cpp:Ukf::correct"]}
{"id": "C18", "title": "UKF uses every measurement it is given", "statement": "A UKF given two measurements with the same stamp uses both, also when they are the first it ever receives or the first after a reset or set_pose.", "quantifier": "every pair of measurements, every history of set/reset", "why_tests_cant": "depends on a flag left over from earlier calls", "anchors": ["src/ukf.cpp:Ukf::correct", "src/ukf.cpp:Ukf::predict", "src/filter_base.cpp:FilterBase::reset"]}
{"id": "C19", "title": "UKF honours the control input", "statement": "With use_control enabled, a velocity command affects the UKF prediction as it does for the EKF.", "quantifier": "every estimate and command", "why_tests_cant": "a claim over all commands", "anchors": ["src/ukf.cpp:Ukf::predict", "src/filter_base.cpp:FilterBase::prepareControl"]}
{"id": "C20", "title": "UKF normalises exactly the angular differences", "statement": "In a UKF correction the difference between a sigma point and the state is normalised in its angular components and in no others.", "quantifier": "every update vector and sigma point", "why_tests_cant": "only visible for particular index combinations and large differences", "anchors": ["src/ukf.cpp:Ukf::correct"]}
{"id": "C21", "title": "Measurements are fused in time order, none lost, none early", "statement": "In every cycle the node fuses exactly the queued measurements whose stamp is not after the current time, in non-decreasing stamp order, and keeps exactly the others queued.", "quantifier": "every queue content, every tie-breaking of equal stamps, every cycle time, every sequence of cycles", "why_tests_cant": "arrival orders and ties", "anchors": ["src/ros_filter.cpp:RosFilter::integrateMeasurements", "src/ros_filter.cpp:RosFilter::enqueueMeasurement", "include/robot_localization/measurement.hpp:Measurement::operator()"]}
{"id": "C22", "title": "Lagged-data smoothing equals in-order fusion", "statement": "With smooth_lagged_data and enough history, whatever order measurements arrive in, the estimate after they have arrived is the one obtained by fusing them all in stamp order.", "quantifier": "every arrival order and batching of measurements whose lag is within the history", "why_tests_cant": "order independence over all interleavings", "anchors": ["src/ros_filter.cpp:RosFilter::integrateMeasurements", "src/ros_filter.cpp:RosFilter::revertTo", "src/ros_filter.cpp:RosFilter::saveFilterState"]}
{"id": "C23", "title": "History is sorted and bounded by history_length", "statement": "The retained snapshots and measurements are in time order, and after each cycle none is older than the cutoff.", "quantifier": "every sequence of cycles, resets and pose commands", "why_tests_cant": "inductive over histories", "anchors": ["src/ros_filter.cpp:RosFilter::clearExpiredHistory", "src/ros_filter.cpp:RosFilter::saveFilterState", "src/ros_filter.cpp:RosFilter::revertTo"]}
{"id": "C24", "title": "Replayed measurements see their own control input", "statement": "When measurements are replayed after a rewind, each is processed under the control input that was current when it was received, and afterwards the filter again holds the newest command.", "quantifier": "every history with late measurements and control messages", "why_tests_cant": "depends on counts of restored and new measurements", "anchors": ["src/ros_filter.cpp:RosFilter::integrateMeasurements", "src/ros_filter.cpp:RosFilter::revertTo"]}
{"id": "C25", "title": "Stale messages are dropped", "statement": "Between resets, the stamps accepted from one topic never decrease, and no message stamped at or before the last set_pose is accepted.", "quantifier": "every interleaving of messages, set_pose and reset", "why_tests_cant": "history property", "anchors": ["src/ros_filter.cpp:RosFilter::poseCallback", "src/ros_filter.cpp:RosFilter::twistCallback", "src/ros_filter.cpp:RosFilter::imuCallback", "src/ros_filter.cpp:RosFilter::accelerationCallback", "src/ros_filter.cpp:RosFilter::odometryCallback", "src/ros_filter.cpp:RosFilter::setPoseCallback"]}
{"id": "C26", "title": "set_pose takes effect completely", "statement": "After set_pose the pose estimate is the given one (in the world frame), velocities and accelerations are zero, pending and retained data are discarded, and nothing older than it is fused afterwards; a pose that cannot be transformed leaves the filter unchanged.", "quantifier": "every history before and after the call", "why_tests_cant": "crash/schedule style property over histories", "anchors": ["src/ros_filter.cpp:RosFilter::setPoseCallback"]}
{"id": "C27", "title": "reset returns the filter to its configured initial condition", "statement": "After reset the node behaves like one that has just been started with the same parameters.", "quantifier": "every history before the reset", "why_tests_cant": "requires comparing the whole reachable state", "anchors": ["src/ros_filter.cpp:RosFilter::reset", "src/filter_base.cpp:FilterBase::reset"]}
{"id": "C28", "title": "Toggling off freezes the estimate", "statement": "While toggled off the estimate does not change and pending measurements are discarded; toggling to the current state is refused; after toggling on, the time spent off is not treated as one big prediction step.", "quantifier": "every interleaving of toggles, messages and cycles", "why_tests_cant": "schedule property", "anchors": ["src/ros_filter.cpp:RosFilter::toggleFilterProcessingCallback", "src/ros_filter.cpp:RosFilter::periodicUpdate"]}
{"id": "C29", "title": "A disabled node is silent", "statement": "Until enabled, the node publishes nothing, broadcasts nothing and its cycle changes nothing; enabling is permanent.", "quantifier": "every history without an enable request", "why_tests_cant": "schedule property", "anchors": ["src/ros_filter.cpp:RosFilter::periodicUpdate", "src/ros_filter.cpp:RosFilter::enableFilterSrvCallback"]}
{"id": "C30", "title": "Published stamps increase", "statement": "Without permit_corrected_publication the stamps of the published odometry messages strictly increase between resets.", "quantifier": "every history", "why_tests_cant": "depends on rewinds and timeouts interleaving", "anchors": ["src/ros_filter.cpp:RosFilter::periodicUpdate"]}
{"id": "C31", "title": "Sensor timeout keeps the estimate alive", "statement": "With no pending measurement, an initialised filter is predicted to the current time exactly when at least the sensor timeout has elapsed; an uninitialised filter never moves.", "quantifier": "every time, every history", "why_tests_cant": "boundary at equality, all histories", "anchors": ["src/ros_filter.cpp:RosFilter::integrateMeasurements"]}
{"id": "C32", "title": "Each message type fuses only variables it carries", "statement": "Whatever the configuration flags, a pose message updates only pose variables, a twist message only velocities, an IMU only orientation, angular velocity and linear acceleration.", "quantifier": "all 2^15 configurations of every sensor", "why_tests_cant": "2^15 configurations per sensor kind", "anchors": ["src/ros_filter.cpp:RosFilter::loadParams"]}
{"id": "C33", "title": "Twists are transformed as rigid-body velocities", "statement": "A twist measured in a sensor frame mounted anywhere on the robot is converted to the velocity of the base frame origin of the same rigid motion; zero lever arm and identity rotation leave it unchanged.", "quantifier": "every mounting transform and twist", "why_tests_cant": "identity over SE(3)", "anchors": ["src/ros_filter.cpp:RosFilter::prepareTwist"]}
{"id": "C34", "title": "Rotated covariances stay covariances", "statement": "Transforming a measurement between frames keeps its covariance symmetric PSD and keeps its total variance; what the filter gets is the covariance of the message with both parts (linear and angular) and their cross terms turned by the mounting, in the rows and columns the message is about.", "quantifier": "every covariance and mounting rotation", "why_tests_cant": "matrix identity", "anchors": ["src/ros_filter.cpp:RosFilter::preparePose", "src/ros_filter.cpp:RosFilter::prepareTwist", "src/ros_filter.cpp:RosFilter::prepareAcceleration"]}
{"id": "C35", "title": "2D mode forces every measurement planar", "statement": "In 2D mode every measurement handed to the filter has zero and selected z, roll, pitch, vz, roll rate, pitch rate and az with small variance, uncorrelated with the rest, and keeps the other variables.", "quantifier": "every measurement of every kind", "why_tests_cant": "all masks and values", "anchors": ["src/ros_filter.cpp:RosFilter::forceTwoD"]}
{"id": "C36", "title": "Differential poses become the right velocity", "statement": "In differential mode the pose stream is turned into the body velocity which, applied for the elapsed time, carries the previous pose to the current one; the first pose and same-stamp poses contribute nothing.", "quantifier": "every pair of poses and time steps", "why_tests_cant": "identity over SE(3), division by zero corner", "anchors": ["src/ros_filter.cpp:RosFilter::preparePose"]}
{"id": "C37", "title": "Relative poses are relative to the first pose", "statement": "In relative mode the first pose maps to the origin and every later one to its pose relative to the first.", "quantifier": "every pose stream and mounting", "why_tests_cant": "identity over SE(3)", "anchors": ["src/ros_filter.cpp:RosFilter::preparePose"]}
{"id": "C38", "title": "Gravity removal leaves only kinematic acceleration", "statement": "With remove_gravitational_acceleration an IMU at rest yields zero linear acceleration in the base frame whatever its orientation and mounting, and a moving one yields the kinematic acceleration.", "quantifier": "every orientation and every mounting", "why_tests_cant": "identity over SO(3) x SO(3)", "anchors": ["src/ros_filter.cpp:RosFilter::prepareAcceleration"]}
{"id": "C39", "title": "IMU fields declared absent are ignored", "statement": "An IMU field whose covariance starts with -1 contributes nothing; the other fields are unaffected.", "quantifier": "every IMU message and configuration", "why_tests_cant": "all flag combinations", "anchors": ["src/ros_filter.cpp:RosFilter::imuCallback"]}
{"id": "C40", "title": "Measured acceleration disables control on that axis", "statement": "An axis whose acceleration is measured by some IMU is not driven by the control input, all other configured axes are.", "quantifier": "every set of sensor configurations in every order", "why_tests_cant": "combinatorial configuration space", "anchors": ["src/ros_filter.cpp:RosFilter::loadParams"]}
{"id": "C41", "title": "Published odometry carries the whole estimate", "statement": "The odometry and acceleration messages contain exactly the estimate, the pose/twist/acceleration covariance blocks at the positions the message format prescribes, and nothing before the first measurement.", "quantifier": "every estimate", "why_tests_cant": "index arithmetic over all entries", "anchors": ["src/ros_filter.cpp:RosFilter::getFilteredOdometryMessage", "src/ros_filter.cpp:RosFilter::getFilteredAccelMessage"]}
{"id": "C42", "title": "map->odom composed with odom->base is map->base", "statement": "When the world frame is the map frame, the broadcast map->odom transform composed with the odom->base transform it was computed from equals the estimated map->base pose.", "quantifier": "every estimate and odom->base transform", "why_tests_cant": "group identity", "anchors": ["src/ros_filter.cpp:RosFilter::periodicUpdate"]}
{"id": "C43", "title": "Orientation survives the quaternion round trip", "statement": "Converting roll/pitch/yaw to a quaternion and back returns the same angles for |pitch| < 90 degrees and normalised angles, and the same rotation always.", "quantifier": "every triple of angles", "why_tests_cant": "trigonometric identity over all angles", "anchors": ["src/ros_filter_utilities.cpp:stateToTF", "src/ros_filter_utilities.cpp:TFtoState", "src/ros_filter_utilities.cpp:quatToRPY"]}
{"id": "C44", "title": "Estimator buffer is sorted and bounded", "statement": "Whatever sequence of setState, capacity changes and clears is made, the buffer is in strictly increasing time order, never exceeds its capacity and contains only states that were set.", "quantifier": "every sequence of operations", "why_tests_cant": "inductive over histories", "anchors": ["src/robot_localization_estimator.cpp:RobotLocalizationEstimator::setState", "src/robot_localization_estimator.cpp:RobotLocalizationEstimator::setBufferCapacity"]}
{"id": "C45", "title": "Estimator answers from the right state", "statement": "A query at a stored time returns the stored state; between stored times it uses the stored state just before; after or before all of them it extrapolates from the newest or oldest; on an empty buffer it says so.", "quantifier": "every buffer and query time", "why_tests_cant": "all orders and boundaries", "anchors": ["src/robot_localization_estimator.cpp:RobotLocalizationEstimator::getState"]}
{"id": "C46", "title": "Estimator keeps the newest states", "statement": "When the buffer is full, setting a new state drops the oldest; shrinking the buffer keeps the newest states.", "quantifier": "every sequence of operations", "why_tests_cant": "capacity corner cases", "anchors": ["src/robot_localization_estimator.cpp:RobotLocalizationEstimator::setState", "src/robot_localization_estimator.cpp:RobotLocalizationEstimator::setBufferCapacity"]}
{"id": "C47", "title": "Listener stores every filter output at its own time", "statement": "Every pair of odometry and acceleration messages received is stored under its full time stamp and can be queried at that time.", "quantifier": "every message sequence and stamp", "why_tests_cant": "sub-second stamps", "anchors": ["src/ros_robot_localization_listener.cpp:RosRobotLocalizationListener::odomAndAccelCallback", "src/ros_robot_localization_listener.cpp:RosRobotLocalizationListener::getState"]}
{"id": "C48", "title": "Listener transforms states as rigid-body states", "statement": "A state queried for another frame on the robot is the pose and velocity of that frame under the same rigid motion.", "quantifier": "every state and mounting transform", "why_tests_cant": "identity over SE(3)", "anchors": ["src/ros_robot_localization_listener.cpp:RosRobotLocalizationListener::getState"]}
{"id": "C49", "title": "Ancestor search is correct", "statement": "The listener reports frame A as an ancestor of B exactly when A is reached from B by following parents.", "quantifier": "every finite frame tree", "why_tests_cant": "unbounded trees", "anchors": ["src/ros_robot_localization_listener.cpp:findAncestorRecursiveYAML", "src/ros_robot_localization_listener.cpp:RosRobotLocalizationListener::findAncestor"]}
{"id": "C50", "title": "fromLL and toLL are inverse", "statement": "After the transform is known, converting a geographic point to the map and back returns the point, and vice versa.", "quantifier": "every datum, heading, point and mode", "why_tests_cant": "identity over SE(3) and both projection modes", "anchors": ["src/navsat_transform.cpp:NavSatTransform::fromLLCallback", "src/navsat_transform.cpp:NavSatTransform::toLLCallback", "src/navsat_transform.cpp:NavSatTransform::cartesianToMap", "src/navsat_transform.cpp:NavSatTransform::mapToLL"]}
{"id": "C51", "title": "The datum maps to the starting pose", "statement": "The GPS position used to compute the transform maps to the odometry position used to compute it; with a manual datum the datum maps to the map origin.", "quantifier": "every fix, heading, declination, offset and odometry pose", "why_tests_cant": "group identity", "anchors": ["src/navsat_transform.cpp:NavSatTransform::computeTransform", "src/navsat_transform.cpp:NavSatTransform::setManualDatum"]}
{"id": "C52", "title": "Nothing is published before the transform is known", "statement": "No GPS odometry, filtered fix or conversion result is produced before a fix, a heading and an odometry pose (or a manual datum) have been received, and each fix produces at most one odometry message.", "quantifier": "every interleaving of callbacks", "why_tests_cant": "schedule property", "anchors": ["src/navsat_transform.cpp:NavSatTransform::transformCallback", "src/navsat_transform.cpp:NavSatTransform::computeTransform", "src/navsat_transform.cpp:NavSatTransform::prepareGpsOdometry", "src/navsat_transform.cpp:NavSatTransform::prepareFilteredGps"]}
{"id": "C53", "title": "GPS odometry is the fix expressed in the world frame", "statement": "The published GPS odometry position is the fix mapped into the world frame, corrected for the antenna offset when that offset is known and uncorrected otherwise.", "quantifier": "every fix, transform and antenna transform availability", "why_tests_cant": "availability of transforms is a schedule matter", "anchors": ["src/navsat_transform.cpp:NavSatTransform::prepareGpsOdometry", "src/navsat_transform.cpp:NavSatTransform::getRobotOriginWorldPose"]}
{"id": "C54", "title": "All geographic conversions use one projection", "statement": "Fixes, fromLL and toLL use the same projection (the configured UTM zone or the local cartesian frame) so that a fix at a point and fromLL of that point give the same map position.", "quantifier": "every fix, mode and zone", "why_tests_cant": "zones and modes", "anchors": ["src/navsat_transform.cpp:NavSatTransform::gpsFixCallback", "src/navsat_transform.cpp:NavSatTransform::fromLLCallback", "src/navsat_transform.cpp:NavSatTransform::mapToLL"]}
{"id": "C55", "title": "UTM zone selection is right", "statement": "For every longitude the central meridian used is within 3 degrees of it (outside the Norway/Svalbard exceptions).", "quantifier": "every longitude and latitude", "why_tests_cant": "boundaries of 60 zones over the reals", "anchors": ["include/robot_localization/navsat_conversions.hpp:UTM"]}
{"id": "C56", "title": "Malformed covariance parameters are rejected", "statement": "A covariance parameter of the wrong length is reported as an error and never read out of bounds.", "quantifier": "every parameter length", "why_tests_cant": "all lengths", "anchors": ["src/ros_filter.cpp:RosFilter::loadParams(load_covariance)"]}
{"id": "C57", "title": "Control configuration is always safe", "statement": "Whatever control parameters are given or missing, no access outside the configured arrays happens at run time.", "quantifier": "every combination of present/missing/wrong-length parameters", "why_tests_cant": "combinatorial", "anchors": ["src/ros_filter.cpp:RosFilter::loadParams", "src/filter_base.cpp:FilterBase::prepareControl"]}
{"id": "C58", "title": "Diagnostics report the worst level", "statement": "The aggregated diagnostic level is the maximum of all pending levels, static ones persist, dynamic ones are reported once.", "quantifier": "every sequence of diagnostics", "why_tests_cant": "history property", "anchors": ["src/ros_filter.cpp:RosFilter::addDiagnostic", "src/ros_filter.cpp:RosFilter::aggregateDiagnostics"]}
{"id": "C59", "title": "Transform lookup falls back as documented", "statement": "A lookup succeeds with the transform at the requested time if available, else the latest, else identity if both frames are equal, else fails; and measurements use the transform at their own stamp.", "quantifier": "every buffer content, frames and times", "why_tests_cant": "availability over time", "anchors": ["src/ros_filter_utilities.cpp:lookupTransformSafe", "src/ros_filter.cpp:RosFilter::preparePose"]}
{"id": "C60", "title": "tf_prefix is applied to frame names", "statement": "A configured tf_prefix is prepended once to every frame id, with leading slashes removed.", "quantifier": "every prefix and frame name", "why_tests_cant": "all strings", "anchors": ["include/robot_localization/filter_utilities.hpp:appendPrefix", "src/ros_filter.cpp:RosFilter::loadParams"]}
{"id": "C61", "title": "Missing-velocity diagnosis counts the right variables", "statement": "The start-up diagnosis that a velocity is not measured by any input is given exactly when no input measures it.", "quantifier": "every configuration", "why_tests_cant": "2^15 configurations per sensor", "anchors": ["src/ros_filter.cpp:RosFilter::loadParams"]}
{"id": "C62", "title": "UKF averages of angles keep the heading", "statement": "The average the UKF takes over the sigma points of an angle is that angle, whatever its variance; predicting a robot at rest does not turn it.", "quantifier": "every state, covariance, UKF parameter and time step", "why_tests_cant": "fails only once the heading variance has grown past a threshold, which short test drives never reach", "anchors": ["src/ukf.cpp:Ukf::predict", "src/ukf.cpp:Ukf::correct"]}
{"id": "C63", "title": "Unused components never reach the filter", "statement": "Components of a sensor that its configuration does not select do not influence the selected ones.", "quantifier": "every message, mounting and selection", "why_tests_cant": "needs mountings whose axes are not parallel to those of the robot, or fields that are not numbers", "anchors": ["src/ros_filter.cpp:RosFilter::prepareTwist", "src/ros_filter.cpp:RosFilter::preparePose", "src/ros_filter.cpp:RosFilter::prepareAcceleration"]}
{"id": "C64", "title": "Differential velocity covariance follows from the pose covariances", "statement": "In differential mode the covariance of the velocity is the sum of the covariances of the two poses divided by the square of the time between them.", "quantifier": "every pair of poses, covariances and time step", "why_tests_cant": "the filter still runs with wrong weights; nothing fails visibly", "anchors": ["src/ros_filter.cpp:RosFilter::preparePose"]}
{"id": "C65", "title": "A pose of another frame on the robot is converted to the pose of the base frame", "statement": "A pose reported for another frame on the robot is fused as the pose the base frame then has, and is not fused if the position of that frame on the robot is unknown.", "quantifier": "every pose, frame and state of the transform buffer", "why_tests_cant": "depends on a transform missing at one moment", "anchors": ["src/ros_filter.cpp:RosFilter::preparePose"]}
{"id": "C66", "title": "Sensor configuration vectors of the wrong length are rejected", "statement": "A sensor configuration that does not have fifteen entries is reported and not used; no access outside of it happens.", "quantifier": "every length of every configuration vector", "why_tests_cant": "an out of bounds access on a packed bit vector rarely crashes", "anchors": ["src/ros_filter.cpp:RosFilter::loadUpdateConfig", "src/ros_filter.cpp:RosFilter::loadParams"]}
{"id": "C67", "title": "Published angular acceleration is the rate of change of the estimate", "statement": "The angular acceleration in the acceleration message is the change of the estimated angular velocity divided by the time between the two estimates.", "quantifier": "every sequence of cycles and estimates", "why_tests_cant": "depends on uninitialised members and on estimates whose time differs from the time of the cycle", "anchors": ["src/ros_filter.cpp:RosFilter::differentiateMeasurements", "src/ros_filter.cpp:RosFilter::getFilteredAccelMessage"]}
{"id": "C68", "title": "Only finite estimates are published", "statement": "An estimate that contains NaN or infinity is never published.", "quantifier": "every state of the filter", "why_tests_cant": "non-finite estimates arise from rare inputs", "anchors": ["src/ros_filter.cpp:RosFilter::periodicUpdate", "src/ros_filter.cpp:RosFilter::validateFilterOutput"]}
{"id": "C69", "title": "Inputs do not disturb each other", "statement": "A message of one input changes neither the waiting measurements nor the stamps nor the remembered poses of any other input, whatever the number of inputs.", "quantifier": "any number of inputs of each kind, every message", "why_tests_cant": "unbounded number of inputs", "anchors": ["src/ros_filter.cpp:RosFilter::loadParams", "src/ros_filter.cpp:RosFilter::poseCallback", "src/ros_filter.cpp:RosFilter::imuCallback", "src/ros_filter.cpp:RosFilter::odometryCallback"]}
{"id": "C70", "title": "A query to the listener is answered for the time asked", "statement": "The transforms used to answer a query are looked up at the time of the query, and a query given as a ROS time is answered for that time.", "quantifier": "every query time", "why_tests_cant": "range of the clock; sub-second times", "anchors": ["src/ros_robot_localization_listener.cpp:RosRobotLocalizationListener::getState"]}
{"id": "C71", "title": "A queried state is complete", "statement": "Acceleration and covariance of a queried state are those of the frame asked for.", "quantifier": "every estimate, frame and mounting", "why_tests_cant": "values for every covariance and mounting", "anchors": ["src/ros_robot_localization_listener.cpp:RosRobotLocalizationListener::getState"]}
{"id": "C72", "title": "Only sensible queries are answered", "statement": "The listener returns a state only after it received one, only for the base or a frame below it, and only in a world frame that is not below the base.", "quantifier": "every listener, frame tree and query", "why_tests_cant": "every tree and cache", "anchors": ["src/ros_robot_localization_listener.cpp:RosRobotLocalizationListener::getState", "src/ros_robot_localization_listener.cpp:findAncestor"]}
{"id": "C73", "title": "The transform uses data that belong together", "statement": "Heading, fix and odometry pose used to compute the transform are the most recent ones received.", "quantifier": "every interleaving of messages, timers and service calls", "why_tests_cant": "needs the robot to move between calls", "anchors": ["src/navsat_transform.cpp:NavSatTransform::computeTransform", "src/navsat_transform.cpp:NavSatTransform::transformCallback", "src/navsat_transform.cpp:NavSatTransform::setUTMZoneCallback"]}
{"id": "C74", "title": "A small step of the receiver is a small step on the map", "statement": "Two fixes close to each other on the ground are mapped to positions as close to each other on the map.", "quantifier": "every pair of fixes", "why_tests_cant": "discontinuities at zone borders and at the equator", "anchors": ["src/navsat_transform.cpp:NavSatTransform::gpsFixCallback", "src/navsat_transform.cpp:NavSatTransform::cartesianToMap"]}
{"id": "C75", "title": "No message and no request ends the navsat node", "statement": "Whatever fixes, odometry, headings and requests arrive in whatever order, no exception leaves a callback.", "quantifier": "every sequence of events and every parameter", "why_tests_cant": "inputs outside the usual range and unusual order", "anchors": ["src/navsat_transform.cpp:NavSatTransform::gpsFixCallback", "src/navsat_transform.cpp:NavSatTransform::fromLLCallback", "src/navsat_transform.cpp:NavSatTransform::mapToLL", "src/navsat_transform.cpp:NavSatTransform::setUTMZoneCallback"]}
{"id": "C76", "title": "Covariances are turned with the positions", "statement": "The covariance of the published GPS odometry is that of the fix turned into the world frame; it stays symmetric and positive semidefinite, and the other way round for the filtered fix.", "quantifier": "every fix, odometry and transform", "why_tests_cant": "matrix identity for every rotation", "anchors": ["src/navsat_transform.cpp:NavSatTransform::prepareGpsOdometry", "src/navsat_transform.cpp:NavSatTransform::prepareFilteredGps"]}
{"id": "C77", "title": "The filtered fix is the place of the robot", "statement": "The filtered fix published after an odometry message is the geographic position of that odometry position: converting it to the map gives the odometry position.", "quantifier": "every odometry and transform", "why_tests_cant": "identity over all transforms and projections", "anchors": ["src/navsat_transform.cpp:NavSatTransform::prepareFilteredGps", "src/navsat_transform.cpp:NavSatTransform::mapToLL"]}
{"id": "C78", "title": "Headings are corrected in the right direction", "statement": "If the robot drives along its heading (corrected for declination and offset), the mapped fixes move along the heading of the odometry.", "quantifier": "every place, projection, heading, declination and offset", "why_tests_cant": "sign of the meridian convergence, which is small in most tests", "anchors": ["src/navsat_transform.cpp:NavSatTransform::computeTransform", "src/navsat_transform.cpp:NavSatTransform::setTransformGps"]}
{"id": "C79", "title": "The heading of a mounted IMU is that of the robot", "statement": "For a robot that stands level, the heading found from an IMU mounted in any way is the heading of the robot.", "quantifier": "every mounting rotation and every heading", "why_tests_cant": "tests use an IMU aligned with the robot or turned about one axis", "anchors": ["src/navsat_transform.cpp:NavSatTransform::imuCallback"]}
{"id": "C80", "title": "Commands stay in force for the control timeout", "statement": "A velocity command acts on the prediction for control_timeout seconds after it was given, by default for the sensor timeout, and counts as a zero command from then on.", "quantifier": "every parameter set, every command, every time", "why_tests_cant": "the default value of an unset parameter is rarely tested and the effect is a missing acceleration", "anchors": ["src/ros_filter.cpp:RosFilter<T>::loadParams", "src/filter_base.cpp:FilterBase::prepareControl"]}
{"id": "C81", "title": "A configured initial state is where the filter starts", "statement": "After the first measurement every variable it does not measure has the value given as initial_state and every variable it measures has the measured value; a list of the wrong length is ignored.", "quantifier": "every initial state list, every first measurement", "why_tests_cant": "tests start from the zero state", "anchors": ["src/ros_filter.cpp:RosFilter<T>::loadParams", "src/filter_base.cpp:FilterBase::processMeasurement"]}
{"id": "C82", "title": "No frame is broadcast as its own parent", "statement": "Whatever the configured frame names, no transform is broadcast from a frame to itself.", "quantifier": "every configuration of frame names, every state and transform buffer", "why_tests_cant": "combinations of five frame names", "anchors": ["src/ros_filter.cpp:RosFilter<T>::loadParams", "src/ros_filter.cpp:RosFilter<T>::periodicUpdate"]}
{"id": "C83", "title": "Bad variances of measured variables are reported", "statement": "A message whose covariance has a zero, negative or very large variance for a variable that is fused from it leads to a diagnostic warning, and only such a message does.", "quantifier": "every covariance matrix and every configuration", "why_tests_cant": "tests look at single entries of pose covariances", "anchors": ["src/ros_filter.cpp:RosFilter<T>::copyCovariance"]}
{"id": "C84", "title": "The listener predicts with the process noise of the filter", "statement": "Given the same parameter process_noise_covariance, the filter node and the listener use the same process noise; without it both use the default.", "quantifier": "every parameter list", "why_tests_cant": "the listener is never tested together with a parameter file that leaves the noise out", "anchors": ["src/ros_robot_localization_listener.cpp:RosRobotLocalizationListener::RosRobotLocalizationListener", "src/ros_filter.cpp:RosFilter<T>::loadParams"]}
{"id": "C85", "title": "The service sends what it documents", "statement": "The response of get_state has the state in the documented order and the covariance row by row, and can be told apart from the response to a query that failed.", "quantifier": "every answer of the listener", "why_tests_cant": "symmetric test matrices hide the order; failures are not tested through the service", "anchors": ["src/robot_localization_listener_node.cpp:getStateCallback", "srv/GetState.srv"]}
{"id": "C86", "title": "Covariances in answers are covariances", "statement": "If the filter sends proper covariances, every covariance in an answer of the listener is symmetric positive semidefinite, for every time and frame asked for.", "quantifier": "every sequence of messages, every time, frame, transform", "why_tests_cant": "a property of matrices over all reals and of times before the buffer", "anchors": ["src/robot_localization_estimator.cpp:RobotLocalizationEstimator::extrapolate", "src/ros_robot_localization_listener.cpp:RosRobotLocalizationListener::getState"]}
{"id": "C87", "title": "Answers between stored states follow the motion", "statement": "An answer for a time after a stored state is that state carried on by rigid body motion with its velocity and acceleration over the time between.", "quantifier": "every buffer, every time", "why_tests_cant": "an identity over all states", "anchors": ["src/robot_localization_estimator.cpp:RobotLocalizationEstimator::getState", "src/robot_localization_estimator.cpp:RobotLocalizationEstimator::interpolate"]}
{"id": "C88", "title": "The configured control parameters are the ones that act", "statement": "Each commanded axis accelerates with the configured gains and within the configured limits of that axis: acceleration values when speeding up, deceleration values when braking; the deceleration values default to the acceleration values, limits default to one; axes whose acceleration an IMU measures are not commanded.", "quantifier": "every combination of control parameters, every set of IMU configurations, every state, command and time", "why_tests_cant": "combinatorial in parameters, real valued in state and command", "anchors": ["src/ros_filter.cpp:RosFilter::loadParams", "src/filter_base.cpp:FilterBase::prepareControl", "src/filter_base.cpp:FilterBase::setControlParams"]}
{"id": "C89", "title": "Simultaneous measurements can be fused in any order", "statement": "The estimate after fusing several measurements of the same instant does not depend on the order in which they are fused.", "quantifier": "every initialised filter, every list of simultaneous measurements, every permutation", "why_tests_cant": "all permutations and all real matrices", "anchors": ["src/ekf.cpp:Ekf::correct", "src/filter_base.cpp:FilterBase::processMeasurement"]}
{"id": "C90", "title": "The origin of the world frame does not matter", "statement": "A node that is told everything as seen from another origin of the world frame says everything as seen from that origin: the same messages at the same times, positions moved, covariances equal.", "quantifier": "every configuration, every sequence of events, every displacement", "why_tests_cant": "all runs and all real displacements", "anchors": ["src/ros_filter.cpp:RosFilter::integrateMeasurements", "src/ekf.cpp:Ekf::predict", "src/ekf.cpp:Ekf::correct"]}
{"id": "C91", "title": "The epoch of the clock does not matter", "statement": "A node whose clock and whose stamps are all ahead by the same amount sends the same messages with stamps ahead by that amount.", "quantifier": "every configuration, every sequence of events, every shift", "why_tests_cant": "all runs and all shifts", "anchors": ["src/ros_filter.cpp:RosFilter::periodicUpdate", "src/filter_base.cpp:FilterBase::processMeasurement", "src/filter_base.cpp:FilterBase::prepareControl"]}
{"id": "C92", "title": "The heading of the world frame does not matter", "statement": "A node that is told everything as seen from a world frame turned about the vertical axis says everything as seen from that frame: the same messages at the same times, positions, headings and covariances turned.", "quantifier": "every configuration, every sequence of events, every angle", "why_tests_cant": "all runs and all real angles", "anchors": ["src/ekf.cpp:Ekf::predict", "src/ekf.cpp:Ekf::correct", "src/filter_base.cpp:FilterBase::processMeasurement"]}
{"id": "C93", "title": "What a message reports arrives in the filter", "statement": "An accepted message of the robot's own frame leaves one waiting measurement per kind of data in it, with the selected variables of that kind, the values and covariances of the message, its stamp and the threshold of that kind, and changes nothing else.", "quantifier": "every sensor configuration in absolute mode, every message, every state of the node", "why_tests_cant": "all real values, covariances and selections", "anchors": ["src/ros_filter.cpp:RosFilter::odometryCallback", "src/ros_filter.cpp:RosFilter::poseCallback", "src/ros_filter.cpp:RosFilter::twistCallback", "src/ros_filter.cpp:RosFilter::imuCallback", "src/ros_filter.cpp:RosFilter::accelerationCallback"]}
{"id": "C94", "title": "The orientation of a mounted IMU is that of the robot", "statement": "The orientation of an IMU that is turned against the robot is fused as the orientation of the robot.", "quantifier": "every mounting, every attitude of the robot", "why_tests_cant": "all real angles", "anchors": ["src/ros_filter.cpp:RosFilter::preparePose"]}
{"id": "C95", "title": "What is measured counts, not how it is cut into measurements", "statement": "A measurement and its parts with uncorrelated errors, fused one after the other at the same time, give the same estimate and covariance; so do any number of readings of a sensor and their mean with the variance divided by their number.", "quantifier": "every estimate, covariance, measurement, grouping of its variables and number of readings", "why_tests_cant": "all real values and covariances, all groupings, any number of readings", "anchors": ["src/ekf.cpp:Ekf::correct", "src/filter_base.cpp:FilterBase::processMeasurement"]}
{"id": "C96", "title": "The function UTM maps a zone like a map", "statement": "Within a UTM zone the function UTM keeps places apart and distances nearly true: going east increases the easting by the distance along the parallel times 0.9996 (within 0.3 %), going north increases the northing by the distance along the meridian (within 2 %), different places get different coordinates, eastings stay between 160 km and 840 km, and the two hemispheres and the two sides of Greenwich are mirror images.", "quantifier": "every latitude except the poles, every longitude", "why_tests_cant": "a series in real latitudes and longitudes; tests compare a few places", "anchors": ["include/robot_localization/navsat_conversions.hpp:UTM"]}
{"id": "C97", "title": "Data that agree with a motion are reproduced", "statement": "If the robot moves and every measurement, the initial state and every pose that is set are exactly what the motion says at their time, then every estimate the node publishes is the motion at its stamp (up to full turns of the angles), whatever the covariances, noise parameters, rejection thresholds, settings and the order of arrival.", "quantifier": "every motion, every sequence of agreeing measurements, service calls and cycles, every configuration of a node without velocity control", "why_tests_cant": "unbounded histories of real-valued data; a test fixes one trajectory and tolerates errors", "anchors": ["src/ekf.cpp:correct", "src/ekf.cpp:predict", "src/filter_base.cpp:processMeasurement", "src/ros_filter.cpp:integrateMeasurements", "src/ros_filter.cpp:revertTo", "src/ros_filter.cpp:periodicUpdate"]}
{"id": "C98", "title": "The transform on the air is the one the node uses", "statement": "When the conversion from geographic to map coordinates is answered, a transform between the map and the projection has been broadcast; it names the right frames in the configured direction and relates the answer to the coordinates of the place in the projection (except the height when altitudes are set to zero). This stays so after new datums, zone changes and any other events.", "quantifier": "every sequence of messages, timers and service calls, every place", "why_tests_cant": "group identity over all schedules and configurations", "anchors": ["src/navsat_transform.cpp:NavSatTransform::computeTransform", "src/navsat_transform.cpp:NavSatTransform::fromLLCallback"]}
{"id": "C99", "title": "Documented parameters of navsat_transform take effect", "statement": "Every parameter that the documentation and the shipped parameter file name for navsat_transform_node has the documented effect and default: numbers are taken over, switches switch what they name (including the direction of the broadcast under its documented name), the delay is the one set, and with wait_for_datum and no datum the node waits until the service is called.", "quantifier": "every set of parameter values, every run of the node", "why_tests_cant": "all combinations of names and values; absence of an effect over all runs", "anchors": ["src/navsat_transform.cpp:NavSatTransform::NavSatTransform", "doc/navsat_transform_node.rst", "params/navsat_transform.yaml"]}
{"id": "C100", "title": "The unscented filter predicts a covariance", "statement": "A prediction of the unscented filter leaves a positive semidefinite covariance, in particular no negative variance, for every spread of the sigma points that the documentation allows.", "quantifier": "every state, covariance, time step and process noise", "why_tests_cant": "quadratic forms over all states and covariances; the central weight is about minus one million by default", "anchors": ["src/ukf.cpp:Ukf::predict", "src/ukf.cpp:Ukf::setConstants"]}
{"id": "C101", "title": "A heading that passes half a turn", "statement": "When the predicted heading passes plus or minus half a turn, a measurement that contains no angle corrects the state as it would for any other heading.", "quantifier": "every prediction and every measured set of variables that contains no angle", "why_tests_cant": "identity over all sets of sigma points; the wrong correction needs a heading near half a turn", "anchors": ["src/ukf.cpp:Ukf::correct", "src/ukf.cpp:Ukf::predict"]}
{"id": "C102", "title": "The documented parameters of the filter nodes take effect", "statement": "A filter node that starts has, for every set of parameters, exactly the settings that the documentation promises for them: frames, rates and timeouts, switches, initial state, covariances, and for every numbered input its topic, mode, selected variables and thresholds. It starts whenever all parameters have the right types and sizes.", "quantifier": "every assignment of values to parameter names, every number of inputs", "why_tests_cant": "the set of parameter assignments is unbounded; tests use a handful of configuration files", "anchors": ["src/ros_filter.cpp:RosFilter::loadParams", "src/ros_filter.cpp:RosFilter::loadUpdateConfig", "src/ukf_node.cpp", "doc/state_estimation_nodes.rst"]}
{"id": "C103", "title": "Messages that are thrown away are reported", "statement": "Every sensor message, or part of one, that the node throws away is reported in its diagnostics: a warning under the key of its topic is in the next report that is sent, and a report only has such a warning if a message has been thrown away since the report before.", "quantifier": "every sequence of messages, cycles, resets, service calls and timer events, every topic and stamp, every state of the transform buffer", "why_tests_cant": "the set of histories is unbounded; tests look at single messages and not at when their report is sent", "anchors": ["src/ros_filter.cpp:RosFilter::odometryCallback", "src/ros_filter.cpp:RosFilter::imuCallback", "src/ros_filter.cpp:RosFilter::poseCallback", "src/ros_filter.cpp:RosFilter::twistCallback", "src/ros_filter.cpp:RosFilter::accelerationCallback", "src/ros_filter.cpp:RosFilter::periodicUpdate", "src/ros_filter_utilities.cpp:lookupTransformSafe"]}
{"id": "C104", "title": "How often the filter runs its cycle does not matter", "statement": "While no measurement arrives and no control is used, the estimate and its covariance for a time do not depend on how many cycles the filter ran on the way there: several predictions in a row give what one prediction over the whole time gives.", "quantifier": "every state, covariance, process noise, every number of cycles and all their times", "why_tests_cant": "the tests run at one frequency; every pair of schedules is a separate comparison", "anchors": ["src/ekf.cpp:Ekf::predict", "src/ros_filter.cpp:RosFilter::integrateMeasurements", "src/ros_filter.cpp:RosFilter::periodicUpdate"]}
{"id": "C105", "title": "The two filters agree on a robot at rest", "statement": "For a robot at rest whose errors are independent, without control, the unscented filter predicts the same state and the same covariance as the extended filter, whatever the variances, zero included.", "quantifier": "every pose, every diagonal covariance, process noise, time step and sigma-point parameters", "why_tests_cant": "the filters are tested separately on recorded data, and no test gives a variance of zero", "anchors": ["src/ukf.cpp:Ukf::predict", "src/ukf.cpp:Ukf::generateSigmaPoints", "src/ekf.cpp:Ekf::predict"]}
{"id": "C106", "title": "The memory of the node does not grow without bound", "statement": "The measurements a node keeps after a cycle are distinct messages it received, none older than history_length before the filter time (without smoothing: only messages stamped in the future), and it keeps no more filter snapshots than measurements, so memory is bounded by the rate of messages.", "quantifier": "every run from start-up under a clock that does not go back: any messages, late data, exhausted history, set_pose, resets, toggling", "why_tests_cant": "growth of memory shows only after hours, and only for some patterns of late messages", "anchors": ["src/ros_filter.cpp:RosFilter::integrateMeasurements", "src/ros_filter.cpp:RosFilter::revertTo", "src/ros_filter.cpp:RosFilter::clearExpiredHistory", "src/ros_filter.cpp:RosFilter::periodicUpdate"]}
{"id": "C107", "title": "The unit of length does not matter", "statement": "A node configured in, and told, all lengths in another unit sends the same messages in that unit: positions, velocities and accelerations scaled, angles equal, covariances scaled to match, gates and timing unchanged.", "quantifier": "every unit, configuration, initial state and sequence of measurements, commands, set_pose, resets and cycles", "why_tests_cant": "all real scale factors along all runs; the constants compared with lengths are hidden in several functions", "anchors": ["src/ekf.cpp:Ekf::predict", "src/ekf.cpp:Ekf::correct", "src/filter_base.cpp:FilterBase::computeControlAcceleration", "src/filter_base.cpp:FilterBase::computeDynamicProcessNoiseCovariance", "src/ros_filter.cpp:RosFilter::setPoseCallback", "src/ukf.cpp:Ukf::predict", "src/ukf.cpp:Ukf::correct"]}
{"id": "C108", "title": "Left and right are treated alike", "statement": "A node told everything as seen in a mirror that exchanges left and right sends what the other node sends, as seen in the mirror.", "quantifier": "every configuration, initial state and sequence of measurements, commands, set_pose, resets and cycles", "why_tests_cant": "a wrong sign in one of the 225 entries of a transfer matrix shows only for states that use it", "anchors": ["src/ekf.cpp:Ekf::predict", "src/ekf.cpp:Ekf::correct", "src/filter_base.cpp:FilterBase::computeControlAcceleration", "src/filter_base.cpp:FilterBase::wrapStateAngles", "src/ukf.cpp:Ukf::predict", "src/ukf.cpp:Ukf::correct"]}
{"id": "C109", "title": "What was measured is known at least as well as it was measured", "statement": "After a cycle, the variance published for every variable that the newest due measurement measures is at most the variance of that measurement (or 1e-9), whatever else is fused beside it.", "quantifier": "every configuration, run before the cycle, content of the queue (late messages included) and measured variable", "why_tests_cant": "all real covariances with any correlations, along all runs and replays", "anchors": ["src/ekf.cpp:Ekf::correct", "src/ros_filter.cpp:RosFilter::integrateMeasurements", "src/filter_base.cpp:FilterBase::processMeasurement"]}
{"id": "C110", "title": "The function UTM keeps angles, and the lengths of central meridians", "statement": "Everywhere inside a zone, off the poles and the equator, a small step on the WGS 84 ellipsoid in any direction is drawn turned by one angle and scaled by one factor (equations of Cauchy and Riemann up to five parts in a billion), the factor being between 0.9995 and 1.0011; on the central meridian the easting is 500 km and the northing is 0.9996 times the length of the meridian from the equator, to a billionth.", "quantifier": "every latitude except the poles (and, for angles, the equator) and every longitude inside a zone", "why_tests_cant": "derivatives of a series in real latitudes and longitudes; the effect of a wrong coefficient of a high power is millimetres to metres", "anchors": ["include/robot_localization/navsat_conversions.hpp:UTM"]}
{"id": "C111", "title": "The covariance covers the error", "statement": "If the first estimate, the measurements and the motion model are off from the truth by no more than their stated covariances say (in every direction, in standard deviations), then after any sequence of measurements the estimate of the extended Kalman filter is off by no more than its reported covariance says, for the sum of the squared bounds; gated measurements included, orientations up to full turns as long as none is off by a quarter of a turn.", "quantifier": "every truth over time, filter state, list of measurements in order with bounds of their own, correlated or not, and configuration", "why_tests_cant": "all real errors in all directions, along sequences of any length", "anchors": ["src/ekf.cpp:Ekf::correct", "src/ekf.cpp:Ekf::predict", "src/filter_base.cpp:FilterBase::processMeasurement"]}
{"id": "C112", "title": "The listener hears the estimates the node publishes", "statement": "A listener beside a filter node is called once for every published estimate, in order, with the odometry and the acceleration that belong together; messages that arrive without their partner are not used.", "quantifier": "every run of the node, every interleaving and every loss of messages on the two topics that keeps the order of each topic and lets neither run more than ten messages ahead", "why_tests_cant": "all interleavings, losses and stamps", "anchors": ["src/ros_robot_localization_listener.cpp:RosRobotLocalizationListener::RosRobotLocalizationListener", "src/ros_robot_localization_listener.cpp:RosRobotLocalizationListener::odomAndAccelCallback", "src/ros_filter.cpp:RosFilter::periodicUpdate"]}
{"id": "C113", "title": "The listener predicts what the filter would have predicted", "statement": "From a published estimate the listener computes, for any later or earlier time, the state and the covariance that the prediction step of the filter itself would give, for either type of filter.", "quantifier": "every published state and covariance, every time span, every process noise, every set of constants of the unscented filter", "why_tests_cant": "all states, covariances and time spans at once, and equality of two separately written computations", "anchors": ["src/robot_localization_estimator.cpp:RobotLocalizationEstimator::extrapolate", "src/robot_localization_estimator.cpp:RobotLocalizationEstimator::RobotLocalizationEstimator", "src/ros_robot_localization_listener.cpp:RosRobotLocalizationListener::odomAndAccelCallback", "src/ekf.cpp:Ekf::predict", "src/ukf.cpp:Ukf::predict"]}
{"id": "C114", "title": "No combination of variables is ever taken to be known exactly", "statement": "Every published covariance of a finite estimate gives every non-zero combination of the fifteen variables a positive variance: no correction makes the filter certain of anything, and none makes a variance negative.", "quantifier": "every run of a node, all combinations of variables, all messages", "why_tests_cant": "all directions of the state space along all runs", "anchors": ["src/ekf.cpp:Ekf::correct", "src/ekf.cpp:Ekf::predict", "src/ukf.cpp:Ukf::correct", "src/ukf.cpp:Ukf::predict", "src/filter_base.cpp:FilterBase::processMeasurement"]}
{"id": "C115", "title": "The frame of a differential input does not matter", "statement": "An input in differential mode measures the same velocities with the same covariances whichever fixed frame its poses are given in.", "quantifier": "all sequences of poses, all rigid transforms between the two frames, all covariances, all mountings", "why_tests_cant": "all rigid transforms and sequences", "anchors": ["src/ros_filter.cpp:RosFilter::preparePose", "src/ros_filter.cpp:RosFilter::prepareTwist"]}
{"id": "C116", "title": "Better data never make the filter less sure", "statement": "Of two extended filters that are told about the same motion, the one that is given smaller or equal measurement covariances, less process noise or further measurements never reports a larger variance of any combination of variables.", "quantifier": "all states, covariances, process noises, sequences of measurements; all combinations of the state variables", "why_tests_cant": "an order of matrices, preserved through every step of every sequence", "anchors": ["src/ekf.cpp:Ekf::correct", "src/ekf.cpp:Ekf::predict", "src/filter_base.cpp:FilterBase::processMeasurement"]}
{"id": "C117", "title": "Honest messages give honest messages", "statement": "A filter node started from its parameters, whose inputs carry only messages that say where the robot is, how it moves and how its frames are mounted, at their stamps, publishes odometry, transform and acceleration messages that are true at their stamps.", "quantifier": "all parameter files the node starts with, all motions the prediction integrates exactly, all sequences of messages of all inputs and of timer calls", "why_tests_cant": "the whole path from parameters and raw messages through transforms, queue, filter and output, for every interleaving", "anchors": ["src/ros_filter.cpp:RosFilter::periodicUpdate", "src/ros_filter.cpp:RosFilter::odometryCallback", "src/ros_filter.cpp:RosFilter::poseCallback", "src/ros_filter.cpp:RosFilter::twistCallback", "src/ros_filter.cpp:RosFilter::imuCallback", "src/ros_filter.cpp:RosFilter::loadParams"]}
{"id": "C118", "title": "Covariances in, covariances out", "statement": "If the covariances in the parameters and in all messages a filter node gets are covariance matrices (symmetric, no negative variance in any direction), then so are the covariances of pose, twist and acceleration in all messages it sends.", "quantifier": "all parameter files the node starts with, all sequences of messages of all inputs, commands, services and timer calls", "why_tests_cant": "an indefinite matrix shows in single directions after particular interleavings of rotations, late data, poses set by hand and resets; the claim is about every run", "anchors": ["src/ros_filter.cpp:RosFilter::periodicUpdate", "src/ros_filter.cpp:RosFilter::preparePose", "src/ros_filter.cpp:RosFilter::prepareTwist", "src/ros_filter.cpp:RosFilter::prepareAcceleration", "src/ros_filter.cpp:RosFilter::forceTwoD", "src/ros_filter.cpp:RosFilter::setPoseCallback", "src/ros_filter.cpp:RosFilter::differentiateMeasurements"]}
{"id": "C119", "title": "What only one message speaks about comes out as it went in", "statement": "Outside 2D mode: a node whose first message is a pose in the world frame sends, in the next cycle, an odometry message with this position, this rotation and this pose covariance, and the initial velocities. If the first message is a twist of the robot, the odometry message has these velocities and this covariance, and the initial pose. A pose set by hand in the world frame is sent in the next cycle with zero velocities. (The rotation must not point the robot straight up or down, all six variables of the input must be used.)", "quantifier": "all parameter files the node starts with, all queue implementations, all messages with unit quaternions, all later times, all states of an initialised node", "why_tests_cant": "the identity holds for every covariance and rotation and passes through message reading, frame lookup, matrix to angle conversion, initialisation and publication; a test compares a few poses up to rounding", "anchors": ["src/ros_filter.cpp:RosFilter::poseCallback", "src/ros_filter.cpp:RosFilter::twistCallback", "src/ros_filter.cpp:RosFilter::setPoseCallback", "src/ros_filter.cpp:RosFilter::periodicUpdate", "src/ros_filter.cpp:RosFilter::getFilteredOdometryMessage", "src/filter_base.cpp:FilterBase::processMeasurement"]}
{"id": "C120", "title": "A robot in the plane always hears numbers", "statement": "A node in 2D mode whose sensors stand upright and report numbers with proper covariances (positive definite; height, roll and pitch independent of the rest, roll and pitch equally good) sends, whenever an odometry message is due, a message of finite numbers with height, roll, pitch and the velocities out of the plane zero, and covariances that are covariances; the same for accelerations, with no vertical acceleration.", "quantifier": "all parameter files the node starts with in 2D mode, all sequences of messages, cycles, poses set by hand, commands, resets and toggles, with a clock that does not run backwards, all queue implementations", "why_tests_cant": "one division by zero or one correlated pair anywhere in an unbounded run makes every later message useless; a run that never does it shows nothing about the next", "anchors": ["src/ros_filter.cpp:RosFilter::preparePose", "src/ros_filter.cpp:RosFilter::prepareTwist", "src/ros_filter.cpp:RosFilter::prepareAcceleration", "src/ros_filter.cpp:RosFilter::forceTwoD", "src/ros_filter.cpp:RosFilter::periodicUpdate", "src/ekf.cpp:Ekf::correct", "src/filter_base.cpp:FilterBase::processMeasurement"]}
{"id": "C121", "title": "The filter and navsat_transform, feeding each other, stay with the truth", "statement": "The filter takes the positions navsat_transform makes of satellite fixes, navsat_transform takes the odometry of the filter. If what reaches the two from outside (sensor messages, fixes, headings, frames) is true of the motion of the robot (and a datum, if one is given, is the origin of the world), then everything either of them sends is true: the odometry, transforms and accelerations of the filter, the positions, latitudes and longitudes and the transform of navsat_transform.", "quantifier": "all parameter files the filter starts with, all motions the prediction integrates exactly, all map projections with an inverse, all interleavings of messages, fixes, headings, datums, cycles and timer calls, messages between the two delivered in any order, any number of times, late or never", "why_tests_cant": "the two nodes form a loop in which an error of one feeds the other, and which message meets which state of the other node depends on scheduling; a test sees a few schedules", "anchors": ["src/navsat_transform.cpp:NavSatTransform::transformCallback", "src/navsat_transform.cpp:NavSatTransform::computeTransform", "src/navsat_transform.cpp:NavSatTransform::prepareGpsOdometry", "src/navsat_transform.cpp:NavSatTransform::odomCallback", "src/ros_filter.cpp:RosFilter::odometryCallback", "src/ros_filter.cpp:RosFilter::periodicUpdate", "launch/dual_ekf_navsat_example.launch.py"]}
{"id": "C122", "title": "Honest messages pass the rejection threshold", "statement": "If the estimate is off by at most sqrt(k) of its standard deviations in every direction and a message by at most sqrt(l) of its own, the squared Mahalanobis distance of the message is at most k + l, so a threshold above sqrt(k + l) does not reject it; a message that is used leaves an error within k + l minus that squared distance. Along a run, the squared distances of all messages used add up to at most what the first estimate, the motion and the messages state together, and with thresholds that leave room for that, the run is the run without thresholds.", "quantifier": "all states, covariances, messages of any subset of variables, thresholds, and finite sequences of measurements with time steps between them", "why_tests_cant": "a claim about every direction of a 15-dimensional error, every covariance, and sums along unbounded runs; a threshold that a test passes may reject good data at the next sample", "anchors": ["src/filter_base.cpp:FilterBase::checkMahalanobisThreshold", "src/ekf.cpp:Ekf::correct", "src/filter_base.cpp:FilterBase::processMeasurement"]}
{"id": "C123", "title": "A sensor that was rejected is heard again", "statement": "While the estimate is at rest and all messages of a sensor of one variable are rejected, the process noise widens the variance, so that a message nearer than the threshold times what the noise alone has made of it is used, unless an earlier one was: the first message used moves the variable towards its value, those before leave it as it was. So a sensor that goes on, with values within any bound, is used at some time, if the process noise of the variable is not zero.", "quantifier": "all estimates at rest, covariances, diagonal process noises, sensors of one variable that is not an angle, with any values, variances and thresholds, any times in order, sequences of any length", "why_tests_cant": "how long a sensor stays rejected depends on noise, threshold and distance; a test run that is too short to see it come back shows nothing, nor does one in which it comes back", "anchors": ["src/filter_base.cpp:FilterBase::checkMahalanobisThreshold", "src/filter_base.cpp:FilterBase::processMeasurement", "src/ekf.cpp:Ekf::predict", "src/ekf.cpp:Ekf::correct"]}
{"id": "C124", "title": "Uncertainty about what is never measured does not touch the estimate", "statement": "If pose variables are never measured (all of the pose, the position, or x, y and heading), then the initial covariances and the process noise of these variables change no estimate that the extended filter publishes, nor when it publishes, nor the other covariances. More initial uncertainty only adds to the published covariance; one of the position is still there unchanged after any time. With constant process noise the variance of such a position or heading is at least its process noise times the time that has passed, so that it grows without bound.", "quantifier": "all configurations, all sequences of measurements without the variables, commands, poses set by hand, resets, toggles and cycles, all added covariances", "why_tests_cant": "equality of whole runs for all initial covariances; growth without bound is about runs of any length", "anchors": ["src/ekf.cpp:Ekf::predict", "src/ekf.cpp:Ekf::correct", "src/filter_base.cpp:FilterBase::processMeasurement", "src/ros_filter.cpp:RosFilter::periodicUpdate", "doc/state_estimation_nodes.rst:initial_estimate_covariance"]}
{"id": "C125", "title": "With the dynamic process noise the uncertainty of a standing robot stops growing", "statement": "If dynamic_process_noise_covariance is set and the robot stands still, the estimate error covariance does not grow.", "quantifier": "all standing states, all covariances and process noises, all sequences of measurements in any order of time", "why_tests_cant": "growth is slow and about runs of any length; a test of a few seconds sees a covariance that settles", "anchors": ["src/filter_base.cpp:FilterBase::computeDynamicProcessNoiseCovariance", "src/ekf.cpp:Ekf::predict", "src/ekf.cpp:Ekf::correct", "doc/state_estimation_nodes.rst:dynamic_process_noise_covariance"]}
{"id": "C126", "title": "The messages of a cycle belong together", "statement": "A cycle sends nothing, or one odometry message, with it one transform exactly if publish_tf is on and the transform exists (world frame = odometry frame, or map frame and the odometry transform is known), and one acceleration message exactly if publish_acceleration is on. All carry the stamp of the same estimate (the transform plus transform_time_offset) and the configured frames, and the transform is the pose in the odometry message. With the default frames a run contains as many transforms as odometry messages.", "quantifier": "every state of the node, both filters, every content of the transform buffer, every run", "why_tests_cant": "which of the three messages go out depends on five settings, the frames and the buffer", "anchors": ["src/ros_filter.cpp:RosFilter::periodicUpdate", "src/ros_filter.cpp:RosFilter::getFilteredOdometryMessage", "src/ros_filter.cpp:RosFilter::getFilteredAccelMessage"]}
{"id": "C127", "title": "The listener's answers are true when the filter is told the truth", "statement": "A filter node without control gets true messages about a motion its motion model integrates exactly. A listener gets any of the messages the node sends, in any order. Then every answer, for whatever time before, between or after the messages and for whatever frame, is the true state of that frame at the time asked for.", "quantifier": "every parameter set, motion, run of the node, set and order of arrivals, buffer size, process noise of the listener, time, frame", "why_tests_cant": "needs node, synchroniser, buffer and prediction together over all runs and arrival orders", "anchors": ["src/ros_robot_localization_listener.cpp:odomAndAccelCallback", "src/ros_robot_localization_listener.cpp:getState", "src/robot_localization_estimator.cpp:getState", "src/ros_filter.cpp:RosFilter::periodicUpdate"]}
{"id": "C128", "title": "Readings of a rate or acceleration are weighted by their certainty", "statement": "Fed with readings of single rates or accelerations, the extended filter without control keeps one independent estimate for each. Without process noise that is the mean of all readings weighted by their inverse variances, independent of order and times; with it, the estimate never leaves the range of the readings and tends to a constant reading. The larger the process noise and the initial covariance relative to the variance of the readings, the faster; with a very small initial covariance the filter is slow to trust readings.", "quantifier": "every number, order, time, value and variance of readings, every uncorrelated initial covariance, every process noise uncorrelated among these variables, every initial state", "why_tests_cant": "closed form over all sequences of readings, and a comparison of all pairs of settings", "anchors": ["src/filter_base.cpp:FilterBase::processMeasurement", "src/ekf.cpp:Ekf::correct", "src/ekf.cpp:Ekf::predict", "doc/state_estimation_nodes.rst:initial_estimate_covariance"]}
{"id": "C129", "title": "A variable whose variance is inflated is ignored", "statement": "The error of a selected variable of a measurement is independent of those of the others. As its variance in the measurement is inflated, estimate and covariance after the measurement tend to those after the same measurement with the variable deselected, at a rate inverse to the variance. Without a second source of the variable the practice is detrimental: its values are believed in the end. With a second source it works.", "quantifier": "every measurement without threshold, variable, variance, estimate, covariance, parameter set; runs of any length", "why_tests_cant": "a limit over all variances, for arbitrary correlations of the estimate, and statements about runs of any length", "anchors": ["src/ekf.cpp:Ekf::correct", "src/filter_base.cpp:FilterBase::processMeasurement", "doc/preparing_sensor_data.rst"]}
{"id": "C130", "title": "Two sources that disagree make the output oscillate unless their distributions overlap", "statement": "Two sources read the same variable differently, in turn. If their difference is larger than what their variances allow for, the output goes back and forth between the two values; if the distributions overlap it does not. Large enough variances eliminate the oscillation.", "quantifier": "every rate or acceleration, parameter set without control, process noise, values, variances, times, numbers of readings", "why_tests_cant": "bounds for all numbers of readings and all variances, and an exact scaling law", "anchors": ["src/ekf.cpp:Ekf::correct", "src/ekf.cpp:Ekf::predict", "doc/configuring_robot_localization.rst"]}
{"id": "C131", "title": "How far a message moves the estimate", "statement": "A message moves the estimate, in every direction of the state space, by at most its Mahalanobis distance times the square root of the variance it takes away in that direction. So with a rejection threshold of \u03b8 no message moves any variable by more than \u03b8 standard deviations, and N messages of one time by no more than \u03b8\u221aN of them; also in variables it does not measure.", "quantifier": "every state, covariance, message (any number of variables, any errors), threshold, list of messages, reachable node", "why_tests_cant": "a bound over all covariances and messages, and over all runs of the node", "anchors": ["src/ekf.cpp:Ekf::correct", "src/ukf.cpp:Ukf::correct", "src/filter_base.cpp:FilterBase::checkMahalanobisThreshold"]}
{"id": "C132", "title": "A variance of zero counts as 1e-6", "statement": "If a zero variance is encountered for a variable that is being fused, the filter adds 1e-6 to it (preparing_sensor_data.rst).", "quantifier": "every message, state, covariance, both filters", "why_tests_cant": "all messages and covariances; the difference only shows against the covariance of the estimate", "anchors": ["src/ekf.cpp:Ekf::correct", "src/ukf.cpp:Ukf::correct", "src/filter_base.cpp:FilterBase::processMeasurement", "doc/preparing_sensor_data.rst"]}
{"id": "C133", "title": "The pose is continuous when only velocities are fused", "statement": "The pose in the odom frame is continuous (state_estimation_nodes.rst): while a node fuses only velocities and accelerations, its pose changes with the time that passes and does not jump when a message arrives.", "quantifier": "every state, covariance, process noise, times, velocities and variances", "why_tests_cant": "the size of the jump as a function of everything it depends on", "anchors": ["src/ekf.cpp:Ekf::correct", "src/ekf.cpp:Ekf::predict", "doc/state_estimation_nodes.rst"]}
{"id": "C134", "title": "The unscented filter weights readings by their certainty", "statement": "Both filters implement the same estimation problem: fed with readings of rates and accelerations, the unscented filter weights them by their variances and the process noise, as the extended filter does (C128); the larger the process noise relative to the variance of a reading, the faster it follows (state_estimation_nodes.rst).", "quantifier": "every list of readings, times, variances, process noise, sigma point parameters with positive spread", "why_tests_cant": "the two filters are only compared on recorded data with loose tolerances", "anchors": ["src/ukf.cpp:Ukf::correct", "src/ukf.cpp:Ukf::predict", "doc/state_estimation_nodes.rst"]}
{"id": "C135", "title": "Old values of a rate or acceleration are forgotten", "statement": "A wrong initial value, a wrong initial covariance and wrong readings of a rate or acceleration are forgotten: two nodes that from some time on get the same readings come to the same estimate, whatever happened before.", "quantifier": "every initial estimate, every history of readings, every process noise, every variance and distance of the later readings", "why_tests_cant": "a test compares with one recorded truth, not two histories with each other", "anchors": ["src/ekf.cpp:Ekf::correct", "src/ekf.cpp:Ekf::predict", "src/filter_base.cpp:FilterBase::processMeasurement"]}
{"id": "C136", "title": "No message ends the filter node", "statement": "No message a sensor or a user may send makes the node exit: whatever arrives on its topics, it keeps running; and every message it sends carries the stamp of a message it received or a time its clock showed.", "quantifier": "every configuration, every state, every sequence of messages, service calls and cycles", "why_tests_cant": "the tests replay messages with stamps of a running system; a stamp with negative seconds never occurs in them", "anchors": ["src/ros_filter.cpp:RosFilter::odometryCallback", "src/ros_filter.cpp:RosFilter::poseCallback", "src/ros_filter.cpp:RosFilter::setPoseCallback", "src/ros_filter.cpp:RosFilter::periodicUpdate", "src/ekf_node.cpp:main"]}
{"id": "C137", "title": "By which input a message comes in does not matter", "statement": "An odometry input does what a pose input and a twist input with the same settings would do with the two halves of its messages, and inputs of a kind may be numbered in any order: two nodes that differ only in this send the same messages.", "quantifier": "every pair of configurations that differ only so, both filters, every sequence of messages, commands, service calls and cycles", "why_tests_cant": "would need pairs of runs for every way of numbering and splitting the inputs; names of topics decide about the memory of differential and relative inputs, about stale messages and about the order in the queue", "anchors": ["src/ros_filter.cpp:RosFilter::loadParams", "src/ros_filter.cpp:RosFilter::odometryCallback", "src/ros_filter.cpp:RosFilter::poseCallback", "src/ros_filter.cpp:RosFilter::twistCallback"]}
{"id": "C138", "title": "Rounding of times does not matter for velocities from poses", "statement": "Although times are computed with doubles, the velocity a differential input finds from two poses is the one that carries the first to the second in the time between their stamps, up to a small part of it; two poses with the same stamp give no velocity.", "quantifier": "every two poses and every two stamps a message can hold, every way to round to a nearest double", "why_tests_cant": "would need pairs of stamps near and at equality over the whole range of seconds since the epoch; for about half of the stamps of the present decade the two conversions agree", "anchors": ["src/ros_filter.cpp:RosFilter::preparePose", "include/robot_localization/filter_utilities.hpp:toSec"]}
{"id": "C139", "title": "What arrives twice counts once", "statement": "A message, command or request that is delivered a second time changes nothing: the nodes hold the state and send the estimates that they would with one delivery.", "quantifier": "every event, every state of the nodes, every number of copies of a measurement", "why_tests_cant": "would need every message repeated in every state and the whole state compared; a doubled measurement leaves the estimate where it was and only shows in the covariance", "anchors": ["src/ros_filter.cpp:RosFilter::enqueueMeasurement", "src/ros_filter.cpp:RosFilter::twistCallback", "src/ros_filter.cpp:RosFilter::setPoseCallback", "src/navsat_transform.cpp:NavSatTransform::gpsFixCallback"]}
{"id": "C140", "title": "After the clock has been set back the node goes on", "statement": "When the clock and the stamps go back, because a recording is played again or a simulation is started anew, the node uses the messages it then gets and publishes estimates with covariances that are covariances.", "quantifier": "every state of the node, every sequence of events after the clock was set back", "why_tests_cant": "the sequence of events is unbounded, and the node looks alive: it answers services and, with predict_to_current_time, keeps publishing", "anchors": ["src/ros_filter.cpp:RosFilter::poseCallback", "src/ros_filter.cpp:RosFilter::twistCallback", "src/ros_filter.cpp:RosFilter::integrateMeasurements", "src/ros_filter.cpp:RosFilter::periodicUpdate", "doc/state_estimation_nodes.rst"]}
{"id": "C141", "title": "The unscented filter is as sure as its data make it", "statement": "After a correction the covariance the unscented filter holds is that of the filter equations for the same prior: a measured variable is known at least as well as it was measured, and n + 1 readings of variance r at one time leave r / (n + 1).", "quantifier": "every state and covariance, every measurement, every sequence of readings", "why_tests_cant": "the estimate itself is right for one correction, and the covariance looks plausible: it is positive, falls with every reading and is never more than twice what it should be after one", "anchors": ["src/ukf.cpp:Ukf::correct"]}
{"id": "C142", "title": "Two readings of a velocity tell the acceleration", "statement": "If the extended filter takes two readings of a body velocity with variances r0 and r1 (at least 1e-9) a time tau apart, then the variance of the acceleration along that axis is afterwards at most (r0 + r1)/tau^2 + Qvv/tau + |Qva + Qav| + tau Qaa, whatever was known before, and later it grows by no more than Qaa per second. The same holds in the plane of heading and yaw rate.", "quantifier": "every filter state and covariance, every sequence of predictions, corrections, messages and commands between and after the two readings, every process noise", "why_tests_cant": "the bound must hold for any prior covariance, however large, for any attitude and for any number of other messages in between", "anchors": ["src/ekf.cpp:Ekf::predict", "src/ekf.cpp:Ekf::correct", "src/filter_base.cpp:FilterBase::processMeasurement"]}
{"id": "C143", "title": "No computation with times overflows", "statement": "No sum or difference of times in the filter node leaves the range of 64 bits, so the exception rclcpp raises for that never ends a node: for all parameters with which it starts and a transform_time_offset below 220 years, all stamps from the epoch on and all readings of the clock that a message can carry.", "quantifier": "every parameter file, every sequence of messages, service calls and cycles, both filters", "why_tests_cant": "an overflow needs a combination of stamp, clock, last estimate and parameter that a recorded run does not contain", "anchors": ["src/ros_filter.cpp:RosFilter::integrateMeasurements", "src/ros_filter.cpp:RosFilter::periodicUpdate", "src/filter_base.cpp:FilterBase::processMeasurement", "src/filter_base.cpp:FilterBase::prepareControl"]}
{"id": "C144", "title": "Left and right are treated alike in the messages", "statement": "If everything is told to the node as it is seen in a mirror that exchanges left and right (mountings of the sensors, poses, orientations, velocities, accelerations, covariances, the estimate), the measurements it makes of the messages are those it would have made, seen in the mirror, and the estimate is corrected to what is seen in the mirror; roll and yaw count up to full turns.  The exception is a roll or a yaw of exactly half a turn: the turn between two poses in differential mode, the orientation of an IMU against its mounting, or a measured angle against the estimate.", "quantifier": "every message, mounting, covariance (symmetric or not), state of the robot, mode (differential, relative, IMU, two-dimensional, gravity removed or not)", "why_tests_cant": "a sign error in one component shows only for a sensor mounted off the axis and a robot that turns; the tests have no pairs of mirrored set-ups", "anchors": ["src/ros_filter.cpp:RosFilter::prepareTwist", "src/ros_filter.cpp:RosFilter::prepareAcceleration", "src/ros_filter.cpp:RosFilter::preparePose"]}
{"id": "C145", "title": "The names of frames do not matter", "statement": "If all frames are renamed, in the parameters, in the messages, in the transforms and in the queries, so that no two get the same name and the empty name stays empty, the filter node keeps the same estimate and sends the same messages, with the frames renamed; so does navsat_transform, and the listener gives the same answers.  (The map, odom and base_link frames of the filter have to be given as parameters: the defaults are not renamed.  The frame of the projection, utm or local_enu, keeps its name.)", "quantifier": "every renaming, every set of parameters, filter, and sequence of messages, service calls, queries and cycles", "why_tests_cant": "a comparison with a fixed name, or of the wrong two frames, shows only with unusual names; the tests use one set of names", "anchors": ["src/ros_filter.cpp:RosFilter::loadParams", "src/ros_filter.cpp:RosFilter::preparePose", "src/ros_filter.cpp:RosFilter::periodicUpdate", "src/navsat_transform.cpp:NavSatTransform::transformCallback", "src/ros_robot_localization_listener.cpp:RosRobotLocalizationListener::getState"]}
{"id": "C146", "title": "How well velocities are known does not depend on what the sensors say", "statement": "Take two EKF nodes with the same switches.  Both get messages at the same times from sensors of the same kind and quality, which measure velocities and accelerations and have no rejection threshold.  Whatever values the sensors report, whatever is commanded, wherever the two start, and whatever their control parameters and pose noise: both send messages at the same times, and the covariances of velocities and accelerations in them are equal, as long as both estimates are finite.  With a rejection threshold, or with a measured position, this does not hold.", "quantifier": "every pair of filter configurations and of event sequences with the same timing, on a clock that does not go back", "why_tests_cant": "a Jacobian or noise entry that wrongly depends on the state changes the covariance by an amount no test has a reference for; the property compares two runs instead", "anchors": ["src/ekf.cpp:Ekf::predict", "src/ekf.cpp:Ekf::correct", "src/filter_base.cpp:FilterBase::processMeasurement"]}
{"id": "C147", "title": "Better velocity data never make a node less sure of the velocities", "statement": "Take two EKF nodes with the same switches.  Both get messages at the same times from sensors that measure velocities and accelerations and have no rejection threshold.  The sensors of the first have at most the variances of those of the second, and the first starts with at most the uncertainty and is configured with at most the process noise.  Whatever values the sensors report, whatever is commanded, wherever the two start: of no combination of velocities and accelerations does the first ever send a larger variance, as long as both estimates are finite.", "quantifier": "every pair of filter configurations and of event sequences with the same timing, on a clock that does not go back; every combination of variables", "why_tests_cant": "an order of matrices, preserved through every step of every run, between two runs with unrelated data", "anchors": ["src/ekf.cpp:Ekf::predict", "src/ekf.cpp:Ekf::correct", "src/filter_base.cpp:FilterBase::processMeasurement", "src/ros_filter.cpp:RosFilter::integrateMeasurements"]}
{"id": "C148", "title": "The estimated velocities are a weighted sum of the readings", "statement": "Take three EKF nodes with the same configuration, without control, that get messages at the same times from the same sensors.  The sensors measure velocities and accelerations and have no rejection threshold.  If every reading and every initial velocity of the first node is a times that of the second plus b times that of the third, for any fixed numbers a and b, then so is every velocity and acceleration that it sends, as long as all are finite.  So twice the readings give twice the velocity, and the error made by a fault of a sensor depends on the fault only, not on the true readings.", "quantifier": "every filter configuration without control, all real factors, every triple of event sequences with the same timing on a clock that does not go back, any length, set poses and resets included", "why_tests_cant": "a linear law over three whole runs with real-valued data; tests compare single runs with fixed numbers", "anchors": ["src/ekf.cpp:Ekf::predict", "src/ekf.cpp:Ekf::correct", "src/filter_base.cpp:FilterBase::processMeasurement", "src/ros_filter.cpp:RosFilter::integrateMeasurements"]}
{"id": "C149", "title": "What is measured of one velocity does not disturb the others", "statement": "Choose some velocities and accelerations that the motion model does not mix with the others, say the turn rate, or forward velocity and acceleration.  Two EKF nodes with the same switches get messages at the same times that measure velocities and accelerations only, have no rejection threshold, and do not correlate the chosen variables with other velocities or accelerations; neither do initial covariance and process noise.  If both nodes are told and commanded the same about the chosen variables, they send the same about them, covariances included, as long as both estimates are finite.  Whatever is measured of the other velocities, with whatever variances, or not at all, whatever is commanded of them, and wherever the robots are.", "quantifier": "every such set of variables, every pair of configurations that agree about them and of event sequences with the same timing on a clock that does not go back, any length, set poses and resets included", "why_tests_cant": "independence from data that two runs do not share, for matrices of every shape, over runs of any length", "anchors": ["src/ekf.cpp:Ekf::predict", "src/ekf.cpp:Ekf::correct", "src/filter_base.cpp:FilterBase::processMeasurement", "src/ros_filter.cpp:RosFilter::integrateMeasurements"]}
{"id": "C150", "title": "A wrong initial velocity is forgotten as fast as the filter claims", "statement": "Two EKF nodes with the same configuration, without control, start with different velocities and accelerations and then get the same messages, which measure velocities and accelerations only and have no rejection threshold.  If the initial states differ, in every combination of velocities and accelerations, by at most c of the configured standard deviations, then every two finite estimates they send differ by at most c of the standard deviations sent with them; in particular the influence of the initial velocities vanishes as soon as the filter claims to know the velocities.  With uncorrelated initial covariance, c squared is the sum of the squared differences divided by the variances.  Whatever the poses, and however wrong the initial velocities.", "quantifier": "every pair of initial states, every configuration and event sequence of that kind on a clock that does not go back, any length, set poses and resets included", "why_tests_cant": "a contraction that holds for all gains a run can produce, over runs of any length, and for all combinations of the variables at once", "anchors": ["src/ekf.cpp:Ekf::predict", "src/ekf.cpp:Ekf::correct", "src/filter_base.cpp:FilterBase::processMeasurement", "src/ros_filter.cpp:RosFilter::integrateMeasurements"]}
{"id": "C151", "title": "How a sensor of velocities is turned on the robot does not matter", "statement": "If sensors of velocities, turn rates and accelerations are turned in any way, in the same places on the robot, with transforms that say so, and report their readings and covariances in their own directions, then a node, with any filter, does and sends exactly the same as before.  This needs all or none of three axes of a turned sensor to be selected, or, if it stands upright before and after, both or none of the horizontal ones.", "quantifier": "every filter, every configuration with the axes of the turned sensors selected that way, every sequence of events of any length, every rotation of a sensor at every message, every state of the node", "why_tests_cant": "all rotations of all sensors, in runs of any length with any other events between", "anchors": ["src/ros_filter.cpp:RosFilter::prepareTwist", "src/ros_filter.cpp:RosFilter::prepareAcceleration", "src/ros_filter.cpp:RosFilter::imuCallback", "src/ros_filter.cpp:RosFilter::twistCallback"]}
