import Verif.Model.Callbacks
/-! # Names of the inputs, ros_filter.cpp:1172-1176, 1328-1330, 1442-1444, 1518-1520 and 1233-1697 -/

namespace RL

/-- How a number is written to a `std::stringstream`. -/
def decimal (n : ℕ) : List Char :=
  if n < 10 then [Char.ofNat (48 + n)] else decimal (n / 10) ++ [Char.ofNat (48 + n % 10)]
termination_by n

/-- The streams of measurements of a node: parts of numbered inputs. -/
inductive Stream where
  | odomPose (n : ℕ)
  | odomTwist (n : ℕ)
  | pose (n : ℕ)
  | twist (n : ℕ)
  | imuPose (n : ℕ)
  | imuTwist (n : ℕ)
  | imuAccel (n : ℕ)
deriving DecidableEq

/-- The name of an input: `ss << "odom" << topic_ind++`. -/
def inputName (kind : String) (n : ℕ) : String := kind ++ String.ofList (decimal n)

/-- The topic names under which a node keeps the streams. -/
def Stream.name : Stream → String
  | .odomPose n => inputName "odom" n ++ "_pose"
  | .odomTwist n => inputName "odom" n ++ "_twist"
  | .pose n => inputName "pose" n
  | .twist n => inputName "twist" n
  | .imuPose n => inputName "imu" n ++ "_pose"
  | .imuTwist n => inputName "imu" n ++ "_twist"
  | .imuAccel n => inputName "imu" n ++ "_acceleration"

end RL
