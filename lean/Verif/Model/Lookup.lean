import Verif.Model.Geometry
/-! # Transform lookup, ros_filter_utilities.cpp:122-196 -/

namespace RL

/-- A `tf2_ros::Buffer` seen through `lookupTransform(target, source, time)`: the transform, or `none` for an exception.
Time 0 (`tf2::TimePointZero`) asks for the latest.  Waiting for the timeout is part of the call. -/
abbrev TfBuffer := String → String → Int → Option Tf

/-- ros_filter_utilities.cpp:122-183 `lookupTransformSafe`: `none` for the return value `false`.  (The time goes through
a `double` of seconds; the rounding to some hundred nanoseconds is not modelled.) -/
def lookupTransformSafe (buf : TfBuffer) (target source : String) (time : Int) : Option Tf :=
  match buf target source time with
  | some t => some t
  | none =>
    match buf target source 0 with
    | some t => some t
    | none => if target = source then some Tf.id else none

/-- The time `preparePose` asks for, ros_filter.cpp:2916 and 2926: `rclcpp::Time(tf2::timeToSec(stamp))`.  The
constructor taking one number wants nanoseconds, so the seconds are truncated and taken as nanoseconds. -/
def poseLookupTime (stamp : Int) : Int := stamp.tdiv 1000000000

end RL
