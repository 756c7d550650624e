import Verif.Model.Prepare
import Verif.Model.Settings
import Verif.Model.Diag
/-!
# Diagnostics about the content of messages

What the prepare functions say about covariances and orientations (`/repo/src/ros_filter.cpp:2550-2604, 2880-2900`).  Whether they
say it depends on `print_diagnostics` for covariances, and on nothing for orientations.
-/

open Matrix

namespace RL

/-- ros_filter.cpp:2550-2604 `copyCovariance`: what is filed.  `m` is the matrix that is copied, `off` the offset of the
block in the state vector, `txt` writes the text. -/
noncomputable def covReports (txt : String → CovIssue → String) (print : Bool) (topic : String) (off dim : ℕ) (upd : Fin 15 → Bool)
    (m : Matrix (Fin dim) (Fin dim) ℝ) : List DiagEv :=
  if print then (covIssues upd off dim m).map fun c => .add 1 (topic ++ "_covariance") (txt topic c) false else []

open Classical in
/-- ros_filter.cpp:2880-2900: an orientation that is all zeros. -/
noncomputable def oriReports (txt : String) (topic : String) (upd : Fin 15 → Bool) (q : Quat) : List DiagEv :=
  if (q.x = 0 ∧ q.y = 0 ∧ q.z = 0 ∧ q.w = 0) ∧ (upd 3 = true ∨ upd 4 = true ∨ upd 5 = true) then
    [.add 1 (topic ++ "_orientation") txt false]
  else []

/-- ros_filter.cpp:3284-3337: what `prepareTwist` files. -/
noncomputable def twistNotes (txt : String → CovIssue → String) (print : Bool) (topic : String) (msg : TwistMsg) (upd : Fin 15 → Bool) :
    List DiagEv :=
  covReports txt print topic 6 6 upd (copyCov6 msg.cov)

/-- ros_filter.cpp:2629-2673: what `prepareAcceleration` files. -/
noncomputable def accelNotes (txt : String → CovIssue → String) (print : Bool) (topic : String) (msg : ImuMsg) (upd : Fin 15 → Bool) :
    List DiagEv :=
  covReports txt print topic 12 3 upd (copyCov3 msg.accCov)

/-- ros_filter.cpp:2819-3219: what `preparePose` files, including what `prepareTwist` does when it is called in
differential mode.  (Covariances are looked at with the update vector as it is after the rotation, 2988-3001.) -/
noncomputable def poseNotes (txt : String → CovIssue → String) (txtO : String) (print : Bool) (c : PrepCtx) (mem : PoseMem) (last : Int)
    (msg : PoseMsg) (topic target source : String) (differential imu : Bool) (upd0 : Fin 15 → Bool) : List DiagEv :=
  let fr := poseFrames c msg.frame target differential imu
  let time := poseLookupTime msg.stamp
  oriReports txtO topic upd0 msg.ori ++
    match lookupTransformSafe c.buf fr.1 fr.2 time with
    | none => []
    | some t =>
      let upd := poseUpd (if imu then setRPY 0 0 (getRPY t.rot 2) else t.rot) upd0
      let cov := poseCov (sourceTf c source time) msg
      let r6 := rot6d (if imu then setRPY 0 0 (getRPY t.rot 2) else (quatOf t.rot).mat)
      let covR := r6 * cov * r6ᵀ
      let pose := if imu then { msgPose msg with rot := imuRot t (msgPose msg) } else msgPose msg
      let t' := if imu then Tf.id else t
      covReports txt print topic 0 6 upd (copyCov6 msg.cov) ++
        if differential then
          match mem.prev topic with
          | none => []
          | some old =>
            twistNotes txt print (topic ++ "_twist") (diffTwist t' r6 covR old.1 old.2 pose last msg.stamp source) (diffUpd upd)
        else []

end RL
