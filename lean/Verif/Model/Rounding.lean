import Verif.Model.Prepare
/-!
# Stamps as doubles

Elsewhere in the model a time in seconds is exact.  Here it is a `double`, as `filter_utilities::toSec` computes it
(`/repo/include/robot_localization/filter_utilities.hpp:84-107`).  There are two ways: an `rclcpp::Time` is converted to a
`double` of nanoseconds and multiplied by the `double` nearest to `1e-9`; of the stamp of a message the seconds and the
nanoseconds are converted one by one and added.  The time between two messages (`/repo/src/ros_filter.cpp:3145-3146`) is the
difference between the one of the one kind and one of the other.  Only times are rounded here; the rest of the arithmetic
stays exact.  Each operation is rounded (no fused multiply-add).
-/

namespace RL
open Matrix
namespace Fp

/-- The values of a `double`: 53 bits of mantissa.  Exponents are not limited (no overflow, no subnormal numbers: the times
here are zero, or between 1e-9 and 1e19). -/
def Doubles : Set ℝ := { x | ∃ (m : ℤ) (e : ℤ), |m| ≤ 2 ^ 53 ∧ x = m * (2 : ℝ) ^ e }

/-- Rounding to a nearest `double`; which one of two is not said (IEEE 754: the even one). -/
structure Nearest (fl : ℝ → ℝ) : Prop where
  mem : ∀ x, fl x ∈ Doubles
  near : ∀ x, ∀ y ∈ Doubles, |fl x - x| ≤ |y - x|

variable (fl : ℝ → ℝ)

/-- filter_utilities.hpp:84-87 and 99-102: `static_cast<double>(nanoseconds) * 1e-9`. -/
noncomputable def timeSec (n : Int) : ℝ := fl (fl n * fl 1e-9)

/-- filter_utilities.hpp:104-107: `static_cast<double>(stamp.sec) + nanosecToSec(stamp.nanosec)`. -/
noncomputable def stampSec (n : Int) : ℝ := fl (fl ((n / 1000000000 : Int) : ℝ) + timeSec fl (n % 1000000000))

/-- ros_filter.cpp:3145-3146: `toSec(msg->header.stamp) - toSec(last_message_times_[topic_name])`. -/
noncomputable def between (stamp last : Int) : ℝ := fl (stampSec fl stamp - timeSec fl last)

end Fp

/-- ros_filter.cpp:3119-3207 `diffTwist` with any time between the messages. -/
noncomputable def diffTwistDt (dt : ℝ) (t : Tf) (r6 covR : M6) (prevPose : Tf) (prevCov : M6) (pose : Tf) (stamp : Int)
    (source : String) : TwistMsg :=
  let delta := Tf.mul { t with org := 0 } (prevPose.inverseTimes pose)
  let rpy := quatToRPY (quatOf delta.rot)
  { frame := source
    stamp := stamp
    lin := fun i => Dbl.div (delta.org i) dt
    ang := fun i => Dbl.div (rpy i) dt
    cov := copyOut6 (dt • (covR + r6 * prevCov * r6ᵀ)) }

/-- ros_filter.cpp:2944-3281 and 2819-2943: `preparePose` in differential mode, with any way to compute the time between two
stamps. -/
noncomputable def preparePoseDt (span : Int → Int → ℝ) (c : PrepCtx) (mem : PoseMem) (last : Int) (msg : PoseMsg)
    (topic target source : String) (imu : Bool) (p : Payload) : PoseMem × Option Payload :=
  let fr := poseFrames c msg.frame target true imu
  let time := poseLookupTime msg.stamp
  match lookupTransformSafe c.buf fr.1 fr.2 time with
  | none => (mem, none)
  | some t =>
    let src := sourceTf c source time
    let pose0 := msgPose msg
    let upd := poseUpd (if imu then setRPY 0 0 (getRPY t.rot 2) else t.rot) p.upd
    let cov := poseCov src msg
    let r6 := rot6d (if imu then setRPY 0 0 (getRPY t.rot 2) else (quatOf t.rot).mat)
    let covR := r6 * cov * r6ᵀ
    let pose := if imu then { pose0 with rot := imuRot t pose0 } else pose0
    let t' := if imu then Tf.id else t
    ({ mem with prev := fun s => if s = topic then some (pose, cov) else mem.prev s },
      (mem.prev topic).bind fun old =>
        prepareTwist c (diffTwistDt (span msg.stamp last) t' r6 covR old.1 old.2 pose msg.stamp source) c.base
          { p with upd := diffUpd upd })

end RL
