import Verif.Model.Callbacks
/-!
# What the node sends

Model of `getFilteredOdometryMessage`, `getFilteredAccelMessage`, `differentiateMeasurements` and the broadcasting part of
`periodicUpdate` (`/repo/src/ros_filter.cpp:409-510, 769-791, 2125-2234`), for a filter whose state is finite.
-/

namespace RL

/-- The frames of a node (ros_filter.cpp:840-911). -/
structure Frames where
  world : String
  map : String
  odom : String
  base : String
  baseOut : String

/-- ros_filter.cpp:409-466 `getFilteredOdometryMessage`; `none` for the return value `false`. -/
noncomputable def odomMessage (fr : Frames) (initialized : Bool) (x : State) (P : Mat15) (lastTime : Int) : Option OdomMsg :=
  if initialized then
    some
      { frame := fr.world
        child := fr.baseOut
        stamp := lastTime
        pos := ![x 0, x 1, x 2]
        ori := Quat.ofRPY (x 3) (x 4) (x 5)
        poseCov := fun k => P ⟨k.val / 6, by omega⟩ ⟨k.val % 6, by omega⟩
        lin := ![.fin (x 6), .fin (x 7), .fin (x 8)]
        ang := ![.fin (x 9), .fin (x 10), .fin (x 11)]
        twistCov := fun k => P ⟨k.val / 6 + 6, by omega⟩ ⟨k.val % 6 + 6, by omega⟩ }
  else none

/-- geometry_msgs/AccelWithCovarianceStamped. -/
structure AccelMsg where
  frame : String
  stamp : Int
  lin : V3
  ang : V3
  cov : Fin 36 → ℝ

/-- `last_diff_time_`, `last_state_twist_rot_`, `angular_acceleration_` and `angular_acceleration_cov_`.  The constructor
leaves the first three uninitialised (ros_filter.hpp:677-685). -/
structure Differ where
  lastTime : ℝ
  lastRate : V3
  acc : V3
  cov : M3

/-- ros_filter.cpp:769-791 `differentiateMeasurements`, for a time different from the last one (else the result is not
finite). -/
noncomputable def Differ.step (d : Differ) (initialized : Bool) (now : Int) (x : State) (P : Mat15) : Differ :=
  if initialized then
    let dt := toSec now - d.lastTime
    let w : V3 := ![x 9, x 10, x 11]
    { lastTime := toSec now
      lastRate := w
      acc := fun i => (w i - d.lastRate i) / dt
      cov := .of fun i j => P ⟨i.val + 9, by omega⟩ ⟨j.val + 9, by omega⟩ * 2 / (dt * dt) }
  else d

/-- ros_filter.cpp:469-510 `getFilteredAccelMessage`; a new message has a covariance of zeros. -/
def accelMessage (fr : Frames) (initialized : Bool) (x : State) (P : Mat15) (lastTime : Int) (d : Differ) : Option AccelMsg :=
  if initialized then
    some
      { frame := fr.baseOut
        stamp := lastTime
        lin := ![x 12, x 13, x 14]
        ang := d.acc
        cov := fun k =>
          if h : k.val / 6 < 3 ∧ k.val % 6 < 3 then P ⟨k.val / 6 + 12, by omega⟩ ⟨k.val % 6 + 12, by omega⟩
          else if h : 3 ≤ k.val / 6 ∧ 3 ≤ k.val % 6 then d.cov ⟨k.val / 6 - 3, by omega⟩ ⟨k.val % 6 - 3, by omega⟩
          else 0 }
  else none

/-- geometry_msgs/TransformStamped. -/
structure TfMsg where
  frame : String
  child : String
  stamp : Int
  org : V3
  ori : Quat

/-- `tf2::fromMsg`. -/
noncomputable def TfMsg.tf (m : TfMsg) : Tf := { rot := m.ori.mat, org := m.org }

/-- ros_filter.cpp:2126-2146 and 2166-2234: the transform that is broadcast for an odometry message, if any. -/
noncomputable def broadcast (fr : Frames) (buf : TfBuffer) (offset : Int) (m : OdomMsg) : Option TfMsg :=
  let world : TfMsg := { frame := m.frame, child := m.child, stamp := m.stamp + offset, org := m.pos, ori := m.ori }
  if m.frame = fr.odom then some world
  else if m.frame = fr.map then
    (buf fr.base fr.odom 0).map fun t =>
      let mo := world.tf.mul t
      { frame := fr.map, child := fr.odom, stamp := m.stamp + offset, org := mo.org, ori := quatOf mo.rot }
  else none

end RL
