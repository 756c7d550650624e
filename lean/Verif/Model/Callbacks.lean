import Verif.Model.Node
import Verif.Model.Params
/-!
# Sensor callbacks

Model of `poseCallback`, `twistCallback`, `accelerationCallback`, `odometryCallback` and `imuCallback`
(`/repo/src/ros_filter.cpp:225-318, 513-627, 1877-2036, 2382-2471`) on top of the prepare functions, and of the
`CallbackData` that `loadParams` makes for each sensor (1165-1755).  Diagnostics about dropped messages are in Reports.
-/

namespace RL

/-- ros_filter.hpp:69-89 `CallbackData`. -/
structure CallbackData where
  topic : String
  upd : Fin 15 → Bool
  sum : ℕ
  differential : Bool
  relative : Bool
  useChild : Bool
  thresh : Thresh

/-- nav_msgs/Odometry. -/
structure OdomMsg where
  frame : String
  child : String
  stamp : Int
  pos : V3
  ori : Quat
  poseCov : Fin 36 → ℝ
  lin : Fin 3 → Dbl
  ang : Fin 3 → Dbl
  twistCov : Fin 36 → ℝ

/-- The node together with the memory of `preparePose`. -/
structure Hub (C : Core) (P : MQueue C) where
  node : Node C P
  mem : PoseMem

/-- ros_filter.cpp:252-259, 1977-1984 and 2420-2427: what is handed to the prepare functions. -/
def CallbackData.blank (cd : CallbackData) : Payload :=
  { upd := cd.upd, z := fun _ => .fin 0, R := 0, thresh := cd.thresh }

/-- ros_filter.cpp:532, 551-558 and 589-594: the three by three covariance of an IMU field as the lower right block of a six
by six one; the rest is zero. -/
def angularCov (cov : Fin 9 → ℝ) : Fin 36 → ℝ := fun k =>
  if h : 3 ≤ k.val / 6 ∧ 3 ≤ k.val % 6 then cov ⟨3 * (k.val / 6 - 3) + (k.val % 6 - 3), by omega⟩ else 0

/-- The message is dropped by the first test of each callback (last set_pose). -/
def Node.stale {C : Core} {P : MQueue C} (n : Node C P) (stamp : Int) : Prop := n.lastSetPose ≥ stamp

instance {C : Core} {P : MQueue C} (n : Node C P) (stamp : Int) : Decidable (n.stale stamp) :=
  inferInstanceAs (Decidable (_ ≥ _))

namespace Hub
variable {C : Core} {P : MQueue C}

/-- ros_filter.cpp:1939-2036 `poseCallback`. -/
noncomputable def poseCallback (mk : Payload → C.Z) (c : PrepCtx) (h : Hub C P) (msg : PoseMsg) (cd : CallbackData)
    (target source : String) (imu : Bool) : Hub C P :=
  if h.node.stale msg.stamp then h
  else
    let last := (h.node.lastMsg cd.topic).getD msg.stamp
    if last ≤ msg.stamp then
      let r := preparePose c h.mem last msg cd.topic target source cd.differential cd.relative imu cd.blank
      { node := h.node.sensor cd.topic msg.stamp (r.2.map mk), mem := r.1 }
    else h

/-- ros_filter.cpp:2382-2471 `twistCallback`. -/
noncomputable def twistCallback (mk : Payload → C.Z) (c : PrepCtx) (h : Hub C P) (msg : TwistMsg) (cd : CallbackData)
    (target : String) : Hub C P :=
  { h with node := h.node.sensor cd.topic msg.stamp ((prepareTwist c msg target cd.blank).map mk) }

/-- ros_filter.cpp:225-318 `accelerationCallback`.  `grav` is `remove_gravitational_acceleration_[topic]`. -/
noncomputable def accelCallback (mk : Payload → C.Z) (c : PrepCtx) (h : Hub C P) (msg : ImuMsg) (cd : CallbackData)
    (target : String) (grav : Bool) : Hub C P :=
  let r := prepareAcceleration c grav msg target cd.relative cd.blank
  { h with node := h.node.sensor cd.topic msg.stamp (r.map mk) }

/-- ros_filter.cpp:1877-1936 `odometryCallback`. -/
noncomputable def odomCallback (mk : Payload → C.Z) (c : PrepCtx) (h : Hub C P) (msg : OdomMsg) (poseCd twistCd : CallbackData) :
    Hub C P :=
  if h.node.stale msg.stamp then h
  else
    let h1 :=
      if poseCd.sum > 0 then
        h.poseCallback mk c { frame := msg.frame, stamp := msg.stamp, pos := msg.pos, ori := msg.ori, cov := msg.poseCov }
          poseCd c.world (if poseCd.useChild then msg.child else c.base) false
      else h
    if twistCd.sum > 0 then
      h1.twistCallback mk c { frame := msg.child, stamp := msg.stamp, lin := msg.lin, ang := msg.ang, cov := msg.twistCov }
        twistCd c.base
    else h1

open Classical in
/-- ros_filter.cpp:513-627 `imuCallback`. -/
noncomputable def imuCallback (mk : Payload → C.Z) (c : PrepCtx) (h : Hub C P) (msg : ImuMsg)
    (poseCd twistCd accelCd : CallbackData) (grav : Bool) : Hub C P :=
  if h.node.stale msg.stamp then h
  else
    let h1 :=
      if poseCd.sum > 0 ∧ ¬ |msg.oriCov 0 + 1| < 1e-9 then
        h.poseCallback mk c
          { frame := msg.frame, stamp := msg.stamp, pos := 0, ori := msg.ori, cov := angularCov msg.oriCov }
          poseCd c.base c.base true
      else h
    let h2 :=
      if twistCd.sum > 0 ∧ ¬ |msg.velCov 0 + 1| < 1e-9 then
        h1.twistCallback mk c
          { frame := msg.frame, stamp := msg.stamp, lin := fun _ => .fin 0, ang := msg.vel, cov := angularCov msg.velCov }
          twistCd c.base
      else h1
    if accelCd.sum > 0 ∧ ¬ |msg.accCov 0 + 1| < 1e-9 then h2.accelCallback mk c msg accelCd c.base grav
    else h2

end Hub

/-- The settings of one sensor (parameters `X_differential`, `X_relative`, ...). -/
structure SensorPar where
  name : String
  config : List Bool
  differential : Bool
  relative : Bool
  useChild : Bool
  poseThresh : Thresh
  twistThresh : Thresh
  accelThresh : Thresh

/-- ros_filter.cpp:1187-1194, 1347-1354 and 1548-1555: both modes together are taken as differential mode. -/
def SensorPar.rel (s : SensorPar) : Bool := if s.relative && s.differential then false else s.relative

/-- ros_filter.cpp:1233-1244: callback data of an odometry input.  `none`: access outside the configuration vector. -/
def odomData (s : SensorPar) : Option (CallbackData × CallbackData) := do
  let v ← odomVecs s.config
  let p ← flags v.1
  let t ← flags v.2
  return ({ topic := s.name ++ "_pose", upd := p, sum := sumTrue v.1, differential := s.differential, relative := s.rel
            useChild := s.useChild, thresh := s.poseThresh },
    { topic := s.name ++ "_twist", upd := t, sum := sumTrue v.2, differential := false, relative := false
      useChild := false, thresh := s.twistThresh })

/-- ros_filter.cpp:1389-1394: callback data of a pose input. -/
def poseData (s : SensorPar) : Option CallbackData := do
  let v ← poseVec s.config
  let p ← flags v
  return { topic := s.name, upd := p, sum := sumTrue v, differential := s.differential, relative := s.rel
           useChild := false, thresh := s.poseThresh }

/-- ros_filter.cpp:1483-1486: callback data of a twist input. -/
def twistData (s : SensorPar) : Option CallbackData := do
  let v ← twistVec s.config
  let t ← flags v
  return { topic := s.name, upd := t, sum := sumTrue v, differential := false, relative := false
           useChild := false, thresh := s.twistThresh }

/-- ros_filter.cpp:1689-1697: callback data of an IMU. -/
def imuData (s : SensorPar) : Option (CallbackData × CallbackData × CallbackData) := do
  let vp ← imuPoseVec s.config
  let vt ← imuTwistVec s.config
  let va ← imuAccelVec s.config
  let p ← flags vp
  let t ← flags vt
  let a ← flags va
  return ({ topic := s.name ++ "_pose", upd := p, sum := sumTrue vp, differential := s.differential, relative := s.rel
            useChild := false, thresh := s.poseThresh },
    { topic := s.name ++ "_twist", upd := t, sum := sumTrue vt, differential := s.differential, relative := s.rel
      useChild := false, thresh := s.twistThresh },
    { topic := s.name ++ "_acceleration", upd := a, sum := sumTrue va, differential := s.differential, relative := s.rel
      useChild := false, thresh := s.accelThresh })

end RL
