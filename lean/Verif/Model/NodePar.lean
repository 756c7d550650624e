import Verif.Model.NavsatPar
import Verif.Model.ControlPar
import Verif.Model.Streams
/-!
# The parameters of the filter nodes

Model of `RosFilter::loadParams` as a whole (`/repo/src/ros_filter.cpp:794-1874`), of the timer (2087-2092) and of
`/repo/src/ukf_node.cpp:45-48`: which names are read, and what the node makes of the values.  `none`: an exception ends the
node before it starts (a parameter of the wrong type), or undefined behaviour, or the numbering of the inputs never ends.
The single steps are in `Params`, `Settings`, `ControlPar` and `Callbacks`.  Not modelled: publishers, services, debug
output.
-/

namespace RL
open Nav (PVal Given)

/-- `declare_parameter(name, default)` for a string. -/
def _root_.RL.Nav.Given.string (o : Given) (name : String) (dflt : String) : Option String :=
  match o name with
  | none => some dflt
  | some (.string s) => some s
  | some _ => none

/-- The same for an integer. -/
def _root_.RL.Nav.Given.int (o : Given) (name : String) (dflt : Int) : Option Int :=
  match o name with
  | none => some dflt
  | some (.int n) => some n
  | some _ => none

/-- The same for a `std::vector<bool>`. -/
def _root_.RL.Nav.Given.bools (o : Given) (name : String) (dflt : List Bool) : Option (List Bool) :=
  match o name with
  | none => some dflt
  | some (.bools l) => some l
  | some _ => none

/-- The same for a rejection threshold, with the default `std::numeric_limits<double>::max()`. -/
def _root_.RL.Nav.Given.thresh (o : Given) (name : String) : Option Thresh :=
  match o name with
  | none => some .unlimited
  | some (.double x) => some (.sigmas x)
  | some _ => none

/-- `declare_parameter(name, PARAMETER_STRING)` and `get_parameter`: `some none` when it is not set. -/
def _root_.RL.Nav.Given.string? (o : Given) (name : String) : Option (Option String) :=
  match o name with
  | none => some none
  | some (.string s) => some (some s)
  | some _ => none

/-- The same for `PARAMETER_DOUBLE`. -/
def _root_.RL.Nav.Given.double? (o : Given) (name : String) : Option (Option ℝ) :=
  match o name with
  | none => some none
  | some (.double s) => some (some s)
  | some _ => none

/-- The same for `PARAMETER_DOUBLE_ARRAY`. -/
def _root_.RL.Nav.Given.doubles? (o : Given) (name : String) : Option (Option (List ℝ)) :=
  match o name with
  | none => some none
  | some (.doubles l) => some (some l)
  | some _ => none

/-- The same for `PARAMETER_BOOL_ARRAY`. -/
def _root_.RL.Nav.Given.bools? (o : Given) (name : String) : Option (Option (List Bool)) :=
  match o name with
  | none => some none
  | some (.bools l) => some (some l)
  | some _ => none

/-! ## Inputs -/

/-- A numbered input as it was configured. -/
structure SensorSet where
  par : SensorPar
  topic : String
  queueSize : Int
  removeGravity : Bool

/-- ros_filter.cpp:2618-2626 `loadUpdateConfig`. -/
def loadUpdateConfig (o : Given) (name : String) : Option (List Bool) :=
  o.bools (name ++ "_config") (List.replicate 15 false)

/-- ros_filter.cpp:1188-1222: an odometry input. -/
def readOdom (o : Given) (name topic : String) : Option SensorSet := do
  let differential ← o.bool (name ++ "_differential") false
  let relative ← o.bool (name ++ "_relative") false
  let useChild ← o.bool (name ++ "_pose_use_child_frame") false
  let pose ← o.thresh (name ++ "_pose_rejection_threshold")
  let twist ← o.thresh (name ++ "_twist_rejection_threshold")
  let queue ← o.int (name ++ "_queue_size") 10
  let config ← loadUpdateConfig o name
  return { par := { name := name, config := config, differential := differential, relative := relative
                    useChild := useChild, poseThresh := pose, twistThresh := twist, accelThresh := .unlimited }
           topic := topic, queueSize := queue, removeGravity := false }

/-- ros_filter.cpp:1346-1384: a pose input. -/
def readPose (o : Given) (name topic : String) : Option SensorSet := do
  let differential ← o.bool (name ++ "_differential") false
  let relative ← o.bool (name ++ "_relative") false
  let pose ← o.thresh (name ++ "_rejection_threshold")
  let queue ← o.int (name ++ "_queue_size") 10
  let config ← loadUpdateConfig o name
  return { par := { name := name, config := config, differential := differential, relative := relative
                    useChild := false, poseThresh := pose, twistThresh := .unlimited, accelThresh := .unlimited }
           topic := topic, queueSize := queue, removeGravity := false }

/-- ros_filter.cpp:1460-1478: a twist input. -/
def readTwist (o : Given) (name topic : String) : Option SensorSet := do
  let twist ← o.thresh (name ++ "_rejection_threshold")
  let queue ← o.int (name ++ "_queue_size") 10
  let config ← loadUpdateConfig o name
  return { par := { name := name, config := config, differential := false, relative := false
                    useChild := false, poseThresh := .unlimited, twistThresh := twist, accelThresh := .unlimited }
           topic := topic, queueSize := queue, removeGravity := false }

/-- ros_filter.cpp:1537-1590: an IMU. -/
def readImu (o : Given) (name topic : String) : Option SensorSet := do
  let differential ← o.bool (name ++ "_differential") false
  let relative ← o.bool (name ++ "_relative") false
  let pose ← o.thresh (name ++ "_pose_rejection_threshold")
  let twist ← o.thresh (name ++ "_twist_rejection_threshold")
  let accel ← o.thresh (name ++ "_linear_acceleration_rejection_threshold")
  let grav ← o.bool (name ++ "_remove_gravitational_acceleration") false
  let queue ← o.int (name ++ "_queue_size") 10
  let config ← loadUpdateConfig o name
  return { par := { name := name, config := config, differential := differential, relative := relative
                    useChild := false, poseThresh := pose, twistThresh := twist, accelThresh := accel }
           topic := topic, queueSize := queue, removeGravity := grav }

/-- ros_filter.cpp:1169-1186 and its repetitions: input number `i` of a kind; `some none` when there is none. -/
def sensorAt (o : Given) (kind : String) (read : String → String → Option SensorSet) (i : ℕ) : Option (Option SensorSet) :=
  match o.string? (inputName kind i) with
  | none => none
  | some none => some none
  | some (some topic) => (read (inputName kind i) topic).map some

/-- `do { ... } while (more_params);`, from number `i` on. -/
def sensorsFrom {S : Type} (at' : ℕ → Option (Option S)) (i : ℕ) : Option (List S) :=
  match at' i with
  | none => none
  | some none => some []
  | some (some s) => do
    let l ← sensorsFrom at' (i + 1)
    return s :: l
partial_fixpoint

/-! ## The rest -/

/-- ros_filter.cpp:850-912. -/
def readFrames (o : Given) : Option Frames := do
  let map ← o.string? "map_frame"
  let odom ← o.string? "odom_frame"
  let base ← o.string? "base_link_frame"
  let out ← o.string? "base_link_frame_output"
  let world ← o.string? "world_frame"
  let pre ← o.string? "tf_prefix"
  let fr := loadFrames { map := map, odom := odom, base := base, baseOut := out, world := world }
  return { world := prefixedFrame pre fr.world, map := prefixedFrame pre fr.map, odom := prefixedFrame pre fr.odom
           base := prefixedFrame pre fr.base, baseOut := prefixedFrame pre fr.baseOut }

/-- ros_filter.cpp:2087-2092: the period of the timer in nanoseconds.  A period below zero is an exception. -/
noncomputable def nodePeriod (frequency : ℝ) : Option Int :=
  open Classical in
  if frequency = 0 then none
  else
    match toInt64 (1000000000 / frequency) with
    | some r => if r < 0 then none else some r
    | none => none

/-- The times of a node. -/
structure NodeTimes where
  period : Int
  settings : TimeSettings
  tfOffset : Int
  tfTimeout : Int

/-- ros_filter.cpp:922-960, 973 and 2087-2092. -/
noncomputable def readTimes (o : Given) : Option NodeTimes := do
  let offset ← o.double "transform_time_offset" 0
  let tfOffset ← fromSeconds offset
  let timeout ← o.double "transform_timeout" 0
  let tfTimeout ← fromSeconds timeout
  let frequency ← o.double? "frequency"
  let sensor ← o.double? "sensor_timeout"
  let history ← o.double? "history_length"
  let control ← o.double? "control_timeout"
  let period ← nodePeriod (frequency.getD 30)
  let settings ← loadTimes
    { frequency := frequency, sensorTimeout := sensor, historyLength := history, controlTimeout := control }
  return { period := period, settings := settings, tfOffset := tfOffset, tfTimeout := tfTimeout }

/-- ros_filter.cpp:975-1062: the lists are only read when control is asked for. -/
def readControlLists (o : Given) (use : Bool) : Option ControlParams :=
  if use then do
    let config ← o.bools? "control_config"
    let accLimits ← o.doubles? "acceleration_limits"
    let accGains ← o.doubles? "acceleration_gains"
    let decLimits ← o.doubles? "deceleration_limits"
    let decGains ← o.doubles? "deceleration_gains"
    return { useControl := true, config := config, accLimits := accLimits, accGains := accGains
             decLimits := decLimits, decGains := decGains }
  else some { useControl := false, config := none, accLimits := none, accGains := none, decLimits := none, decGains := none }

/-- The switches of a node. -/
structure Switches where
  diagnostics : Bool
  publishTf : Bool
  publishAccel : Bool
  permitCorrected : Bool
  predictToCurrent : Bool
  twoD : Bool
  smooth : Bool
  useControl : Bool
  dynamic : Bool
  disabled : Bool

/-- ros_filter.cpp:819-1094: what is read as a switch.  `reset_on_time_jump_` is written at 963 and never read (292 and 2014
are comments). -/
def readSwitches (o : Given) : Option Switches := do
  let diagnostics ← o.bool "print_diagnostics" false
  let _debug ← o.bool "debug" false
  let publishTf ← o.bool "publish_tf" true
  let publishAccel ← o.bool "publish_acceleration" false
  let permitCorrected ← o.bool "permit_corrected_publication" false
  let predictToCurrent ← o.bool "predict_to_current_time" false
  let twoD ← o.bool "two_d_mode" false
  let smooth ← o.bool "smooth_lagged_data" false
  let _resetOnJump ← o.bool "reset_on_time_jump" false
  let useControl ← o.bool "use_control" false
  let dynamic ← o.bool "dynamic_process_noise_covariance" false
  let disabled ← o.bool "disabled_at_startup" false
  return { diagnostics := diagnostics, publishTf := publishTf, publishAccel := publishAccel
           permitCorrected := permitCorrected, predictToCurrent := predictToCurrent, twoD := twoD, smooth := smooth
           useControl := useControl, dynamic := dynamic, disabled := disabled }

/-- The inputs of a node, with the callback data made for them. -/
structure Inputs where
  odoms : List SensorSet
  poses : List SensorSet
  twists : List SensorSet
  imus : List SensorSet
  odomCds : List (CallbackData × CallbackData)
  poseCds : List CallbackData
  twistCds : List CallbackData
  imuCds : List (CallbackData × CallbackData × CallbackData)

/-- ros_filter.cpp:1165-1755. -/
def readInputs (o : Given) : Option Inputs := do
  let odoms ← sensorsFrom (sensorAt o "odom" (readOdom o)) 0
  let odomCds ← odoms.mapM fun s => odomData s.par
  let poses ← sensorsFrom (sensorAt o "pose" (readPose o)) 0
  let poseCds ← poses.mapM fun s => poseData s.par
  let twists ← sensorsFrom (sensorAt o "twist" (readTwist o)) 0
  let twistCds ← twists.mapM fun s => twistData s.par
  let imus ← sensorsFrom (sensorAt o "imu" (readImu o)) 0
  let imuCds ← imus.mapM fun s => imuData s.par
  return { odoms := odoms, poses := poses, twists := twists, imus := imus
           odomCds := odomCds, poseCds := poseCds, twistCds := twistCds, imuCds := imuCds }

/-- ros_filter.cpp:1863-1873: a covariance parameter, as the filter gets it and as the node keeps it (zero when it is not
set, 1841). -/
noncomputable def readCov (o : Given) (name : String) (dflt : Mat15) : Option (Mat15 × Mat15) :=
  match o.doubles? name with
  | none => none
  | some l =>
    match loadCovParam l with
    | .unset => some (dflt, 0)
    | .loaded m => some (m, m)
    | .rejected => none
    | .outOfBounds => none

/-- What a filter node has found out from its parameters. -/
structure NodeConf where
  frames : Frames
  gravity : ℝ
  times : NodeTimes
  sw : Switches
  control : ControlSettings
  initial : State
  inputs : Inputs
  noise : Mat15
  keptNoise : Mat15
  cov : Mat15
  keptCov : Mat15

/-- ros_filter.cpp:794-1874 `loadParams` and the timer.  The default of the gravity is in ros_filter.cpp:101. -/
noncomputable def loadNode (o : Given) : Option NodeConf := do
  let sw ← readSwitches o
  let gravity ← o.double "gravitational_acceleration" 9.80665
  let frames ← readFrames o
  let times ← readTimes o
  let ctl ← readControlLists o sw.useControl
  let initial ← o.doubles? "initial_state"
  let inputs ← readInputs o
  let control ← finalControl ctl (inputs.imus.map fun s => s.par.config)
  let q ← readCov o "process_noise_covariance" defaultQ
  let p ← readCov o "initial_estimate_covariance" ((1e-9 : ℝ) • 1)
  return { frames := frames, gravity := gravity, times := times, sw := sw, control := control
           initial := initialState initial, inputs := inputs, noise := q.1, keptNoise := q.2, cov := p.1, keptCov := p.2 }

/-- The parameters of the filter. -/
def NodeConf.par (c : NodeConf) : FilterPar := c.control.filterPar c.times.settings.controlTimeout c.sw.dynamic

/-- The configuration of the node's control flow. -/
noncomputable def NodeConf.cfg (c : NodeConf) : Cfg (ekfCore c.par) :=
  { smooth := c.sw.smooth, historyLength := c.times.settings.historyLength, predictToCurrent := c.sw.predictToCurrent
    useControl := c.control.useControl, permitCorrected := c.sw.permitCorrected, publishTf := c.sw.publishTf
    publishAccel := c.sw.publishAccel, sensorTimeout := c.times.settings.sensorTimeout
    processNoise := c.noise, initialCov := c.cov, keptNoise := c.keptNoise, keptCov := c.keptCov
    initialState := some c.initial, disabledAtStartup := c.sw.disabled, ctl0 := (0 : Fin 6 → ℝ) }

/-- ukf_node.cpp:45-48: the constants of the unscented filter: alpha, kappa, beta. -/
def readUkf (o : Given) : Option (ℝ × ℝ × ℝ) := do
  let alpha ← o.double "alpha" 0.001
  let kappa ← o.double "kappa" 0
  let beta ← o.double "beta" 2
  return (alpha, kappa, beta)

end RL
