import Verif.Model.Estimator
import Verif.Model.Output
/-!
# `RosRobotLocalizationListener`

Model of `/repo/src/ros_robot_localization_listener.cpp`.  Messages have finite velocities.  The buffer of transforms is
seen through `lookupTransform` and through `allFramesAsYAML`; logging and the waiting loop of the constructor are left
out.
-/

namespace RL.Listen
open Matrix

/-- State and covariance of an `EstimatorState`. -/
structure Full where
  x : State
  P : Mat15

/-- robot_localization_estimator.hpp:59-66: a new `EstimatorState`. -/
def Full.zero : Full := { x := 0, P := 0 }

/-- ros_robot_localization_listener.cpp:176-248: the state made from a pair of messages. -/
noncomputable def fullOf (o : OdomMsg) (a : AccelMsg) : Full where
  x := ![o.pos 0, o.pos 1, o.pos 2, quatToRPY o.ori 0, quatToRPY o.ori 1, quatToRPY o.ori 2,
    (o.lin 0).val, (o.lin 1).val, (o.lin 2).val, (o.ang 0).val, (o.ang 1).val, (o.ang 2).val, a.lin 0, a.lin 1, a.lin 2]
  P := .of fun i j =>
    if h : i.val < 6 ∧ j.val < 6 then o.poseCov ⟨i.val * 6 + j.val, by omega⟩
    else if h : (6 ≤ i.val ∧ i.val < 12) ∧ 6 ≤ j.val ∧ j.val < 12 then
      o.twistCov ⟨(i.val - 6) * 6 + (j.val - 6), by omega⟩
    else if h : 12 ≤ i.val ∧ 12 ≤ j.val then a.cov ⟨(i.val - 12) * 6 + (j.val - 12), by omega⟩
    else 0

/-- builtin_interfaces/Time: the seconds of a stamp (the nanoseconds are never negative). -/
def stampSec (ns : Int) : Int := ns / 1000000000

/-- `base_frame_id_`, `world_frame_id_` and the estimator. -/
structure Listener where
  base : String
  world : String
  buf : Est.Buf Full

/-- ros_robot_localization_listener.cpp:71-166: a new listener; negative buffer sizes are not modelled. -/
def Listener.new (size : ℕ) : Listener := { base := "", world := "", buf := { items := [], cap := size } }

/-- ros_robot_localization_listener.cpp:172-252 `odomAndAccelCallback`. -/
noncomputable def Listener.callback (l : Listener) (o : OdomMsg) (a : AccelMsg) : Listener :=
  { base := if l.base = "" then o.child else l.base
    world := if l.world = "" then o.frame else l.world
    buf := l.buf.setState { time := stampSec o.stamp, val := fullOf o a } }

/-- What `allFramesAsYAML` tells: frames with their parents.  `tree[frame]["parent"].Scalar()` is empty for a frame
that is not listed. -/
abbrev Frames := List (String × String)

def Frames.parent (tree : Frames) (frame : String) : String := (tree.lookup frame).getD ""

/-- ros_robot_localization_listener.cpp:254-269 `findAncestorRecursiveYAML` with at most `depth` calls nested; `none` when
that is not enough. -/
def findRec (tree : Frames) : ℕ → String → String → Option Bool
  | 0, _, _ => none
  | depth + 1, source, target =>
    if source = target then some true
    else if tree.parent source = "" then some false
    else findRec tree depth (tree.parent source) target

/-- ros_robot_localization_listener.cpp:272-273: `ancestor_map` and `descendant_map`, entries pushed so far. -/
structure Cache where
  anc : List (String × String)
  desc : List (String × String)

/-- ros_robot_localization_listener.cpp:274-306 `findAncestor`; `none` when the recursion is deeper than `depth`. -/
def findAncestor (depth : ℕ) (tree : Frames) (c : Cache) (source target : String) : Option (Bool × Cache) :=
  if (source, target) ∈ c.anc then some (true, c)
  else if (source, target) ∈ c.desc then some (false, c)
  else
    match findRec tree depth source target, findRec tree depth target source with
    | some isAnc, some isDesc =>
      some (isAnc,
        { anc := if isAnc then c.anc ++ [(source, target)] else c.anc
          desc := if isDesc then c.desc ++ [(source, target)] else c.desc })
    | _, _ => none

/-- Eigen 3.4 `MatrixBase::eulerAngles(2, 1, 0)`: yaw, pitch, roll. -/
noncomputable def eulerAngles210 (m : M3) : V3 :=
  let r0 := atan2 (m 1 0) (m 0 0)
  let c2 := Real.sqrt (m 2 2 * m 2 2 + m 2 1 * m 2 1)
  let y := if r0 < 0 then r0 + Real.pi else r0
  let p := if r0 < 0 then atan2 (-m 2 0) (-c2) else atan2 (-m 2 0) c2
  ![y, p, atan2 (Real.sin y * m 0 2 - Real.cos y * m 1 2) (Real.cos y * m 1 1 - Real.sin y * m 0 1)]

/-- `AngleAxisd(a, UnitX())` and so on as matrices (Eigen `AngleAxis::toRotationMatrix`). -/
noncomputable def axisX (a : ℝ) : M3 :=
  !![1, 0, 0; 0, Real.cos a, -Real.sin a; 0, Real.sin a, Real.cos a]
noncomputable def axisY (a : ℝ) : M3 :=
  !![Real.cos a, 0, Real.sin a; 0, 1, 0; -Real.sin a, 0, Real.cos a]
noncomputable def axisZ (a : ℝ) : M3 :=
  !![Real.cos a, -Real.sin a, 0; Real.sin a, Real.cos a, 0; 0, 0, 1]

/-- `rot_6d` of ros_robot_localization_listener.cpp:496-505. -/
def rot6d (m : M3) : Matrix (Fin 6) (Fin 6) ℝ :=
  .of fun i j =>
    if h : i.val < 3 ∧ j.val < 3 then m ⟨i.val, h.1⟩ ⟨j.val, h.2⟩
    else if h : 3 ≤ i.val ∧ 3 ≤ j.val then m ⟨i.val - 3, by omega⟩ ⟨j.val - 3, by omega⟩
    else if i = j then 1 else 0

/-- ros_robot_localization_listener.cpp:425-514: the state of a frame mounted at `mount` on the base, in a world frame in
which the world frame of the filter is at `world`. -/
noncomputable def mounted (world mount : Tf) (e : Full) : Full :=
  let base : Tf := { rot := axisZ (e.x 5) * axisY (e.x 4) * axisX (e.x 3), org := ![e.x 0, e.x 1, e.x 2] }
  let target := (world.mul base).mul mount
  let ypr := eulerAngles210 target.rot
  let v : V3 := ![e.x 6, e.x 7, e.x 8]
  let w : V3 := ![e.x 9, e.x 10, e.x 11]
  let tv := mount.rotᵀ.mulVec (v + cross w mount.org)
  let tw := mount.rotᵀ.mulVec w
  let pose := rot6d mount.rot * (.of fun i j => e.P (Fin.castLE (by omega) i) (Fin.castLE (by omega) j)) * (rot6d mount.rot)ᵀ
  { x := ![target.org 0, target.org 1, target.org 2, ypr 2, ypr 1, ypr 0, tv 0, tv 1, tv 2, tw 0, tw 1, tw 2, 0, 0, 0]
    P := .of fun i j => if h : i.val < 6 ∧ j.val < 6 then pose ⟨i.val, h.1⟩ ⟨j.val, h.2⟩ else 0 }

/-- What a query ends with. -/
inductive Answer where
  /-- undefined behaviour -/
  | ub
  /-- `false` -/
  | no
  | state (e : Full)

/-- `static_cast<int>(time * 1000000000)`: undefined when the result is not an `int` (ros_robot_localization_listener.cpp
378, 411). -/
noncomputable def lookupNs (time : ℝ) : Option Int :=
  let v := time * 1000000000
  let r : Int := if 0 ≤ v then ⌊v⌋ else ⌈v⌉
  if -2147483648 ≤ r ∧ r ≤ 2147483647 then some r else none

/-- The state `estimator_->getState` leaves in `estimator_state`: nothing is written for an empty buffer
(robot_localization_estimator.cpp:95-149). -/
def written : Est.Result Full → Full
  | .future a => a.val
  | .interpolation a => a.val
  | .past a => a.val
  | .exact a => a.val
  | .empty => Full.zero
  | .failed => Full.zero

/-- ros_robot_localization_listener.cpp:309-515 `getState`, with the buffer of transforms `tf` (for `lookupTransform`) and
`tree` (for `allFramesAsYAML`) and the cache of `findAncestor`.  A recursion deeper than `depth` counts as undefined
behaviour (stack overflow). -/
noncomputable def Listener.getState (l : Listener) (ext : Full → ℝ → Full) (tf : TfBuffer) (tree : Frames) (depth : ℕ) (c : Cache)
    (time : ℝ) (frame : String) (worldFrame : String) : Answer × Cache :=
  if l.base = "" ∨ l.world = "" then (.no, c)
  else
    let e := written (l.buf.getState ext time)
    let wf := if worldFrame = "" then l.world else worldFrame
    if frame = l.base ∧ wf = l.world then (.state e, c)
    else
      let part2 (world : Tf) (c : Cache) : Answer × Cache :=
        match lookupNs time with
        | none => (.ub, c)
        | some ns =>
          match tf l.base frame ns with
          | none => (.no, c)
          | some mount =>
            match findAncestor depth tree c frame l.base with
            | none => (.ub, c)
            | some (false, c) => (.no, c)
            | some (true, c) => (.state (mounted world mount e), c)
      if wf = l.world then part2 Tf.id c
      else
        match lookupNs time with
        | none => (.ub, c)
        | some ns =>
          match tf wf l.world ns with
          | none => (.no, c)
          | some world =>
            match findAncestor depth tree c wf l.base with
            | none => (.ub, c)
            | some (true, c) => (.no, c)
            | some (false, c) => part2 world c

/-- ros_robot_localization_listener.cpp:517-534: `getState` for a `rclcpp::Time`; the time passed on. -/
def queryTime (ns now : Int) : Int := if ns = 0 then now.tdiv 1000000000 else ns.tdiv 1000000000

end RL.Listen
