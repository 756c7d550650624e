import Verif.Model.System
/-!
# The exception for stamps before the epoch

`rclcpp::Time` is constructed from the stamp of a message (a `builtin_interfaces::msg::Time`) with an exception,
`std::runtime_error`, when the seconds are negative.  Nothing catches it (`/repo/src/ekf_node.cpp:38-57`,
`ukf_node.cpp:38-59`: `rclcpp::spin` is not in a `try`), so it ends the node.  A stamp has negative seconds exactly when it
is negative as a number of nanoseconds.

The callbacks make the conversion in their first comparison (`/repo/src/ros_filter.cpp:232`, 526, 1885, 1948, 2390),
`setPoseCallback` when it stores the stamp (2311), `controlStampedCallback` when it stores the stamp (345), and a cycle when
it makes the transform from the odometry message it has just filled in (2130).
-/

namespace RL
namespace Sys
variable {C : Core} {P : MQueue C} (V : View C) (g : SysCfg C)

/-- The stamp of the message a callback runs for.  There is no callback without a subscription (1253, 1385, 1481, 1685,
1785). -/
def Ev.converted : Ev → Option Int
  | .odom i _ _ msg =>
    match g.inputs.odomCds[i]? with
    | some (a, b) => if a.sum + b.sum > 0 then some msg.stamp else none
    | none => none
  | .pose i _ _ msg =>
    match g.inputs.poseCds[i]? with
    | some a => if a.sum > 0 then some msg.stamp else none
    | none => none
  | .twist i _ _ msg =>
    match g.inputs.twistCds[i]? with
    | some b => if b.sum > 0 then some msg.stamp else none
    | none => none
  | .imu i _ _ msg =>
    match g.inputs.imuCds[i]?, g.inputs.imus[i]? with
    | some (a, b, d), some _ => if a.sum + b.sum + d.sum > 0 then some msg.stamp else none
    | _, _ => none
  | .command stamp _ => if g.cfg.useControl then some stamp else none
  | .setPose _ _ _ msg => some msg.stamp
  | _ => none

/-- ros_filter.cpp:2128-2130: the stamp a cycle converts, that of the estimate. -/
noncomputable def cycleStamp (s : Sys C P) : Ev → Option Int
  | .tick now now2 _ =>
    if s.hub.node.enabled then
      let a := s.hub.node.advance g.cfg now now2
      if a.filt.initialized then some a.filt.lastTime else none
    else none
  | _ => none

/-- Whether a conversion ends the node. -/
def ends : Option Int → Bool
  | some t => decide (t < 0)
  | none => false

/-- One step of a node that may end. -/
noncomputable def stepX (s : Sys C P) (e : Ev) : Option (Sys C P × List Sent) :=
  if ends (e.converted g) || ends (s.cycleStamp g e) then none else some (s.step V g e)

/-- A run of a node that may end; `none` when it has. -/
noncomputable def runX (s : Sys C P) : List Ev → Option (Sys C P × List Sent)
  | [] => some (s, [])
  | e :: es =>
    match s.stepX V g e with
    | none => none
    | some r =>
      match runX r.1 es with
      | none => none
      | some r' => some (r'.1, r.2 ++ r'.2)

end Sys
end RL
