import Verif.Model.Lookup
import Verif.Model.Planar
/-!
# From sensor messages to measurements

Model of `copyCovariance`, `prepareAcceleration`, `preparePose` and `prepareTwist` (`/repo/src/ros_filter.cpp:2550-3436`).
Positions, accelerations and covariances are numbers; velocities may be non-finite (they are after a division by zero in
differential mode, and `prepareTwist` passes on what a message contains).
-/

namespace RL
open Matrix

abbrev M6 := Matrix (Fin 6) (Fin 6) ℝ

/-- geometry_msgs/PoseWithCovarianceStamped. -/
structure PoseMsg where
  frame : String
  stamp : Int
  pos : V3
  ori : Quat
  cov : Fin 36 → ℝ

/-- geometry_msgs/TwistWithCovarianceStamped. -/
structure TwistMsg where
  frame : String
  stamp : Int
  lin : Fin 3 → Dbl
  ang : Fin 3 → Dbl
  cov : Fin 36 → ℝ

/-- sensor_msgs/Imu. -/
structure ImuMsg where
  frame : String
  stamp : Int
  ori : Quat
  oriCov : Fin 9 → ℝ
  vel : Fin 3 → Dbl
  velCov : Fin 9 → ℝ
  acc : V3
  accCov : Fin 9 → ℝ

/-- ros_filter.cpp:2550-2604 `copyCovariance` from a message, dimension 6.  (The diagnostics are in CovReports.) -/
def copyCov6 (arr : Fin 36 → ℝ) : M6 := .of fun i j => arr ⟨6 * i.val + j.val, by omega⟩

/-- The same with dimension 3. -/
def copyCov3 (arr : Fin 9 → ℝ) : M3 := .of fun i j => arr ⟨3 * i.val + j.val, by omega⟩

/-- ros_filter.cpp:2606-2615 `copyCovariance` into a message. -/
def copyOut6 (m : M6) : Fin 36 → ℝ := fun k => m ⟨k.val / 6, by omega⟩ ⟨k.val % 6, by omega⟩

/-- The loops of ros_filter.cpp:3026-3034, 3055-3062 and 3394-3401 over an identity matrix. -/
def rot6d (r : M3) : M6 := .of fun i j =>
  if hi : i.val < 3 then
    if hj : j.val < 3 then r ⟨i, hi⟩ ⟨j, hj⟩ else 0
  else
    if hj : j.val < 3 then 0 else r ⟨i - 3, by omega⟩ ⟨j - 3, by omega⟩

open Classical in
/-- ros_filter.cpp:2953-3010, 3323-3374 and 2664-2757: the update flags of three axes after a rotation. -/
noncomputable def maskAxes (r : M3) (u : Fin 3 → Bool) : Fin 3 → Bool := fun i =>
  let mask := r * Matrix.diagonal (fun j => if u j then (1 : ℝ) else 0)
  decide (Real.sqrt (mask i 0 * mask i 0 + mask i 1 * mask i 1 + mask i 2 * mask i 2) ≥ 1e-6)

/-- Three consecutive entries of the state vector. -/
def axis (off : ℕ) (h : off + 2 < 15) (i : Fin 3) : Fin 15 := ⟨off + i.val, by omega⟩

/-- Writing three consecutive entries. -/
def put {α : Type} (off : ℕ) (f : Fin 15 → α) (v : Fin 3 → α) : Fin 15 → α := fun i =>
  if h : off ≤ i.val ∧ i.val < off + 3 then v ⟨i.val - off, by omega⟩ else f i

/-- Writing a square block. -/
def putBlock (n off : ℕ) (R : Mat15) (c : Matrix (Fin n) (Fin n) ℝ) : Mat15 := .of fun i j =>
  if h : (off ≤ i.val ∧ i.val < off + n) ∧ (off ≤ j.val ∧ j.val < off + n) then
    c ⟨i.val - off, by omega⟩ ⟨j.val - off, by omega⟩
  else R i j

/-- `tf2::Matrix3x3 * tf2::Vector3` on possibly non-finite vectors (sum from the left). -/
noncomputable def mulDbl (m : M3) (v : Fin 3 → Dbl) : Fin 3 → Dbl := fun i =>
  (((v 0).smul (m i 0)).add ((v 1).smul (m i 1))).add ((v 2).smul (m i 2))

/-- What the node knows when it prepares a measurement: the buffer, its frames, whether it works in the plane, the state
and the angular acceleration computed in integrateMeasurements (ros_filter.cpp:769-791). -/
structure PrepCtx where
  buf : TfBuffer
  world : String
  base : String
  twoD : Bool
  state : State
  angAcc : V3
  gravity : ℝ

def PrepCtx.omega (c : PrepCtx) : V3 := ![c.state 9, c.state 10, c.state 11]

/-- The end of the prepare functions: two-dimensional mode. -/
noncomputable def finish (c : PrepCtx) (p : Payload) : Payload := if c.twoD then forceTwoD p else p

/-- ros_filter.cpp:3352-3424: the measurement `prepareTwist` makes with the transform `t`.  `p` holds the update vector
and what the caller put into measurement and covariance. -/
noncomputable def twistPayload (c : PrepCtx) (t : Tf) (msg : TwistMsg) (p : Payload) : Payload :=
  let rot := mulDbl t.rot msg.ang
  let lever := cross t.org c.omega
  let lin := fun i => (mulDbl t.rot msg.lin i).add (.fin (lever i))
  let uLin := maskAxes t.rot (fun i => p.upd (axis 6 (by omega) i))
  let uRot := maskAxes t.rot (fun i => p.upd (axis 9 (by omega) i))
  let r6 := rot6d (quatOf t.rot).mat
  let cov := r6 * copyCov6 msg.cov * r6ᵀ
  finish c
    { p with
      upd := put 9 (put 6 p.upd uLin) uRot
      z := put 9 (put 6 p.z lin) rot
      R := putBlock 6 6 p.R cov }

/-- ros_filter.cpp:3284-3436 `prepareTwist`: `none` when there is no transform. -/
noncomputable def prepareTwist (c : PrepCtx) (msg : TwistMsg) (target : String) (p : Payload) : Option Payload :=
  (lookupTransformSafe c.buf target (if msg.frame = "" then target else msg.frame) msg.stamp).map
    fun t => twistPayload c t msg p

/-- ros_filter.cpp:2692-2739: gravity as `prepareAcceleration` takes it off, with the transform `t`. -/
noncomputable def gravityPart (c : PrepCtx) (t : Tf) (msg : ImuMsg) (relative : Bool) : V3 :=
  let normAcc : V3 := ![0, 0, c.gravity]
  open Classical in
  if |msg.oriCov 0 + 1| < 1e-9 then
    (setRPY (c.state 3) (c.state 4) (c.state 5) * t.rot)⁻¹.mulVec normAcc
  else
    let q := if |Real.sqrt msg.ori.len2 - 1| > 0.01 then msg.ori.normalize else msg.ori
    if relative then (t.rot⁻¹ * q.mat⁻¹).mulVec normAcc
    else q.mat⁻¹.mulVec normAcc

/-- ros_filter.cpp:2676-2803: the measurement `prepareAcceleration` makes with the transform `t`. -/
noncomputable def accelPayload (c : PrepCtx) (t : Tf) (removeGravity : Bool) (msg : ImuMsg) (relative : Bool)
    (p : Payload) : Payload :=
  let a1 := t.rot.mulVec msg.acc + cross t.org c.angAcc - cross (cross t.org c.omega) c.omega
  let acc := if removeGravity then a1 - gravityPart c t msg relative else a1
  let u := maskAxes t.rot (fun i => p.upd (axis 12 (by omega) i))
  let r3 := (quatOf t.rot).mat
  let cov := r3 * copyCov3 msg.accCov * r3ᵀ
  finish c
    { p with
      upd := put 12 p.upd u
      z := put 12 p.z (fun i => .fin (acc i))
      R := putBlock 3 12 p.R cov }

/-- ros_filter.cpp:2629-2816 `prepareAcceleration`. -/
noncomputable def prepareAcceleration (c : PrepCtx) (removeGravity : Bool) (msg : ImuMsg) (target : String)
    (relative : Bool) (p : Payload) : Option Payload :=
  (lookupTransformSafe c.buf target (if msg.frame = "" then c.base else msg.frame) msg.stamp).map
    fun t => accelPayload c t removeGravity msg relative p

/-- The maps `initial_measurements_`, `previous_measurements_` and `previous_measurement_covariances_`.  The last two are
always written together. -/
structure PoseMem where
  init : String → Option Tf
  prev : String → Option (Tf × M6)

/-- ros_filter.cpp:2836-2861: the frame the pose is brought to and the frame it is taken to be in. -/
def poseFrames (c : PrepCtx) (msgFrame target : String) (differential imu : Bool) : String × String :=
  if target = "" then
    if msgFrame = "" then (c.world, c.world) else (msgFrame, msgFrame)
  else (target, if differential && !imu then target else msgFrame)

/-- ros_filter.cpp:2880-2913: the pose in the message. -/
noncomputable def msgPose (msg : PoseMsg) : Tf :=
  let q : Quat := open Classical in
    if msg.ori.x = 0 ∧ msg.ori.y = 0 ∧ msg.ori.z = 0 ∧ msg.ori.w = 0 then ⟨0, 0, 0, 1⟩
    else if |Real.sqrt msg.ori.len2 - 1| > 0.01 then msg.ori.normalize else msg.ori
  { rot := q.mat, org := msg.pos }

/-- ros_filter.cpp:3086-3117: an IMU orientation with the mounting angles taken off and turned by the mounting yaw. -/
noncomputable def imuRot (t pose : Tf) : M3 :=
  let off := quatToRPY (quatOf t.rot)
  let a := quatToRPY (quatOf pose.rot)
  let d : V3 := ![normalizeAngle (a 0 - off 0), normalizeAngle (a 1 - off 1), normalizeAngle (a 2 - off 2)]
  let e := (setRPY 0 0 (off 2)).mulVec d
  setRPY (e 0) (e 1) (e 2)

/-- ros_filter.cpp:2988-3010: the update vector of a pose after the rotation `r`. -/
noncomputable def poseUpd (r : M3) (u : Fin 15 → Bool) : Fin 15 → Bool :=
  put 3 (put 0 u (maskAxes r (fun i => u (axis 0 (by omega) i)))) (maskAxes r (fun i => u (axis 3 (by omega) i)))

/-- ros_filter.cpp:3012-3039: the covariance of the message, rotated from another frame on the robot if there is one. -/
noncomputable def poseCov (src : Option Tf) (msg : PoseMsg) : M6 :=
  match src with
  | some s => (rot6d (quatOf s.rot).mat)ᵀ * copyCov6 msg.cov * rot6d (quatOf s.rot).mat
  | none => copyCov6 msg.cov

/-- ros_filter.cpp:3119-3207: the velocity from two poses, as a message.  `t` is the transform to the target frame, `r6`
the rotation of covariances, `covR` the rotated covariance of the current pose. -/
noncomputable def diffTwist (t : Tf) (r6 covR : M6) (prevPose : Tf) (prevCov : M6) (pose : Tf) (last stamp : Int)
    (source : String) : TwistMsg :=
  let delta := Tf.mul { t with org := 0 } (prevPose.inverseTimes pose)
  let dt := toSec stamp - toSec last
  let rpy := quatToRPY (quatOf delta.rot)
  { frame := source
    stamp := stamp
    lin := fun i => Dbl.div (delta.org i) dt
    ang := fun i => Dbl.div (rpy i) dt
    cov := copyOut6 (dt • (covR + r6 * prevCov * r6ᵀ)) }

/-- ros_filter.cpp:3180-3190: the selected pose variables, as velocities. -/
def diffUpd (u : Fin 15 → Bool) : Fin 15 → Bool := fun i =>
  if h : 6 ≤ i.val ∧ i.val < 12 then u ⟨i.val - 6, by omega⟩ else false

/-- ros_filter.cpp:2944-3281: `preparePose` once the transforms have been looked up: `t` to the target frame, `src` from
the base to another frame on the robot.  `last` is the stamp of the previous message of the topic
(`last_message_times_`). -/
noncomputable def poseWith (c : PrepCtx) (mem : PoseMem) (last : Int) (t : Tf) (src : Option Tf) (msg : PoseMsg)
    (topic source : String) (differential relative imu : Bool) (p : Payload) : PoseMem × Option Payload :=
  let pose0 := msgPose msg
  let upd := poseUpd (if imu then setRPY 0 0 (getRPY t.rot 2) else t.rot) p.upd
  let cov := poseCov src msg
  let r6 := rot6d (if imu then setRPY 0 0 (getRPY t.rot 2) else (quatOf t.rot).mat)
  let covR := r6 * cov * r6ᵀ
  let pose := if imu then { pose0 with rot := imuRot t pose0 } else pose0
  let t' := if imu then Tf.id else t
  if differential then
    ({ mem with prev := fun s => if s = topic then some (pose, cov) else mem.prev s },
      (mem.prev topic).bind fun old =>
        prepareTwist c (diffTwist t' r6 covR old.1 old.2 pose last msg.stamp source) c.base { p with upd := diffUpd upd })
  else
    let pose1 := match src with
      | some s => pose.mul s
      | none => pose
    let first := (mem.init topic).getD pose1
    let pose2 := if relative then first.inverseTimes pose1 else pose1
    let pose3 := t'.mul pose2
    let rpy := quatToRPY (quatOf pose3.rot)
    (if relative then { mem with init := fun s => if s = topic then some first else mem.init s } else mem,
      some (finish c
        { p with
          upd := upd
          z := put 3 (put 0 p.z (fun i => .fin (pose3.org i))) (fun i => .fin (rpy i))
          R := putBlock 6 0 p.R covR }))

/-- ros_filter.cpp:2920-2928: the transform from the base to the frame whose pose is reported, if that is another one and
the transform is available. -/
def sourceTf (c : PrepCtx) (source : String) (time : Int) : Option Tf :=
  if source ≠ c.base then lookupTransformSafe c.buf source c.base time else none

/-- ros_filter.cpp:2819-3281 `preparePose`. -/
noncomputable def preparePose (c : PrepCtx) (mem : PoseMem) (last : Int) (msg : PoseMsg) (topic target source : String)
    (differential relative imu : Bool) (p : Payload) : PoseMem × Option Payload :=
  let fr := poseFrames c msg.frame target differential imu
  let time := poseLookupTime msg.stamp
  match lookupTransformSafe c.buf fr.1 fr.2 time with
  | none => (mem, none)
  | some t => poseWith c mem last t (sourceTf c source time) msg topic source differential relative imu p

end RL
