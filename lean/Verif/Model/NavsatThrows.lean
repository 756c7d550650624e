import Verif.Model.Navsat
/-!
# The exception for stamps before the epoch, in navsat_transform

As in `Verif/Model/Throws.lean`: constructing an `rclcpp::Time` from a stamp with negative seconds throws, and nothing
catches it (`/repo/src/navsat_transform_node.cpp:37-48`).  The callbacks make the conversion in
`/repo/src/navsat_transform.cpp:680` (a usable fix), 697-699 (a heading, once odometry has arrived) and 755 (odometry,
always; on the way there 932-937 may have made it already for the heading of the same message).
-/

namespace RL.Nav

/-- The stamp an event makes the node convert.  A fix that cannot be projected has thrown before (668-670). -/
def Ev.converted (s : St) : Ev → Option Int
  | .fix m => if m.fix && m.pos.isSome then some m.stamp else none
  | .imu _ m => if s.imuSub && s.hasOdom then some m.stamp else none
  | .odom _ m => some m.stamp
  | _ => none

/-- One event of a node that may also end by such a conversion.  None of these callbacks sends anything before. -/
noncomputable def stepX (g : Geo) (p : Par) (broadcast asParent : Bool) (s : St) (e : Ev) : Res :=
  match e.converted s with
  | some t => if t < 0 then { outs := [], st := none } else step g p broadcast asParent s e
  | none => step g p broadcast asParent s e

/-- A run of such a node. -/
noncomputable def runX (g : Geo) (p : Par) (broadcast asParent : Bool) (s : St) : List Ev → Res
  | [] => { outs := [], st := some s }
  | e :: es =>
    let r := stepX g p broadcast asParent s e
    match r.st with
    | none => { outs := r.outs, st := none }
    | some s1 =>
      let q := runX g p broadcast asParent s1 es
      { outs := r.outs ++ q.outs, st := q.st }

end RL.Nav
