import Verif.Model.Prepare
/-!
# Reading the configuration

Model of the parts of `RosFilter::loadParams` (`/repo/src/ros_filter.cpp:794-1874`) that decide what the node does with
what it receives: update vectors, control, start-up diagnosis, covariances, frame names.  Parameter lists can have any
length; `none` is undefined behaviour (access outside a `std::vector`).
-/

namespace RL

/-! ## Update vectors -/

/-- `std::fill(v.begin() + off, v.begin() + off + n, 0)`. -/
def fillFalse (off n : ℕ) (v : List Bool) : Option (List Bool) :=
  if off + n ≤ v.length then some (v.take off ++ List.replicate n false ++ v.drop (off + n)) else none

/-- `std::accumulate(v.begin(), v.end(), 0)`. -/
def sumTrue (v : List Bool) : ℕ := v.count true

/-- What `correct` and the prepare functions read of an update vector: its first `STATE_SIZE` entries. -/
def flags (v : List Bool) : Option (Fin 15 → Bool) :=
  if 15 ≤ v.length then some (fun i => v.getD i.val false) else none

/-- ros_filter.cpp:1223-1231: pose and twist vectors of an odometry input.  (Accelerations stay in both.) -/
def odomVecs (v : List Bool) : Option (List Bool × List Bool) := do
  let pose ← fillFalse 6 6 v
  let twist ← fillFalse 0 6 v
  return (pose, twist)

/-- ros_filter.cpp:1377-1384: the vector of a pose input. -/
def poseVec (v : List Bool) : Option (List Bool) := do
  let p ← fillFalse 6 6 v
  fillFalse 12 3 p

/-- ros_filter.cpp:1475-1478: the vector of a twist input.  (Accelerations stay.) -/
def twistVec (v : List Bool) : Option (List Bool) := fillFalse 0 6 v

/-- ros_filter.cpp:1619-1630: the orientation vector of an IMU. -/
def imuPoseVec (v : List Bool) : Option (List Bool) := do
  let a ← fillFalse 0 3 v
  let b ← fillFalse 6 6 a
  fillFalse 12 3 b

/-- ros_filter.cpp:1632-1643: the angular velocity vector of an IMU. -/
def imuTwistVec (v : List Bool) : Option (List Bool) := do
  let a ← fillFalse 0 6 v
  let b ← fillFalse 6 3 a
  fillFalse 12 3 b

/-- ros_filter.cpp:1645-1651: the acceleration vector of an IMU. -/
def imuAccelVec (v : List Bool) : Option (List Bool) := do
  let a ← fillFalse 0 6 v
  fillFalse 6 6 a

/-! ## Control -/

/-- `v[i]` on a `std::vector`. -/
def vecGet {α : Type} (v : List α) (i : ℕ) : Option α := v[i]?

/-- The control parameters as given: `none` for a parameter that is not set. -/
structure ControlParams where
  useControl : Bool
  config : Option (List Bool)
  accLimits : Option (List ℝ)
  accGains : Option (List ℝ)
  decLimits : Option (List ℝ)
  decGains : Option (List ℝ)

/-- The control settings of the node while parameters are read. -/
structure ControlSettings where
  useControl : Bool
  upd : List Bool
  accLimits : List ℝ
  accGains : List ℝ
  decLimits : List ℝ
  decGains : List ℝ

/-- ros_filter.cpp:1011-1021 and 1040-1050: gains of the wrong length become ones. -/
def fixGains (l : List ℝ) : List ℝ := if l.length ≠ 6 then List.replicate 6 1 else l

/-- ros_filter.cpp:974-1071. -/
def loadControl (p : ControlParams) : ControlSettings :=
  if p.useControl then
    let accLim := p.accLimits.getD (List.replicate 6 1)
    let accGain := (p.accGains.map fixGains).getD []
    { useControl :=
        (match p.config with
          | some v => decide (v.length = 6)
          | none => false) &&
        (match p.accLimits with
          | some l => decide (l.length = 6)
          | none => true) &&
        (match p.decLimits with
          | some l => decide (l.length = 6)
          | none => true)
      upd := p.config.getD []
      accLimits := accLim
      accGains := accGain
      decLimits := p.decLimits.getD accLim
      decGains := (p.decGains.map fixGains).getD accGain }
  else
    { useControl := false, upd := List.replicate 6 false, accLimits := List.replicate 6 1
      accGains := List.replicate 6 1, decLimits := List.replicate 6 1, decGains := List.replicate 6 1 }

/-- ros_filter.cpp:1662-1686, one axis: `if (control[i] && accel[12 + i]) control[i] = 0`. -/
def disableAxis (accel : List Bool) (upd : List Bool) (i : ℕ) : Option (List Bool) := do
  let c ← vecGet upd i
  if c then
    let a ← vecGet accel (12 + i)
    return if a then upd.set i false else upd
  else return upd

/-- ros_filter.cpp:1662-1686 for one IMU with the configuration `v`. -/
def imuControl (upd : List Bool) (v : List Bool) : Option (List Bool) := do
  let accel ← imuAccelVec v
  let a ← disableAxis accel upd 0
  let b ← disableAxis accel a 1
  disableAxis accel b 2

/-- ros_filter.cpp:1521-1755 over all IMUs, then 1762-1776: the control settings the filter gets, if any. -/
def finalControl (p : ControlParams) (imus : List (List Bool)) : Option ControlSettings := do
  let s := loadControl p
  let upd ← imus.foldlM imuControl s.upd
  return { s with upd := upd, useControl := s.useControl && decide (sumTrue upd ≠ 0) }

/-- filter_base.cpp:371-379: the accesses of `prepareControl` for one axis, with the settings given to
`setControlParams` (ros_filter.cpp:1778-1782). -/
def controlAccess (s : ControlSettings) (i : ℕ) : Option Unit := do
  let u ← vecGet s.upd i
  if u then
    let _ ← vecGet s.accLimits i
    let _ ← vecGet s.accGains i
    let _ ← vecGet s.decLimits i
    let _ ← vecGet s.decGains i
    return ()
  else return ()

/-- filter_base.cpp:353-381: all accesses of `prepareControl`. -/
def controlAccesses (s : ControlSettings) : Option Unit :=
  if s.useControl then (List.range 6).forM (fun i => controlAccess s i) else some ()

/-! ## Start-up diagnosis -/

/-- A configured input. -/
inductive Input where
  | odom (v : List Bool) (differential : Bool)
  | pose (v : List Bool) (differential : Bool)
  | twist (v : List Bool)
  | imu (v : List Bool) (differential : Bool)

/-- `abs_pose_var_counts` and `twist_var_counts`: by pose variable and by velocity, both numbered 0 to 5. -/
structure Counts where
  absPose : Fin 6 → ℕ
  twist : Fin 6 → ℕ

def b2n (b : Bool) : ℕ := if b then 1 else 0

/-- Adding flags `off..off+5` of a vector. -/
def addFlags (c : Fin 6 → ℕ) (v : List Bool) (off : ℕ) : Fin 6 → ℕ := fun i => c i + b2n (v.getD (off + i.val) false)

/-- The same for the last three. -/
def addAngular (c : Fin 6 → ℕ) (v : List Bool) (off : ℕ) : Fin 6 → ℕ := fun i =>
  if 3 ≤ i.val then c i + b2n (v.getD (off + i.val) false) else c i

/-- ros_filter.cpp:1298-1307: the velocities of an odometry input; for y the flag of x is added (1300). -/
def addOdomTwist (c : Fin 6 → ℕ) (v : List Bool) : Fin 6 → ℕ := fun i =>
  c i + b2n (v.getD (if i.val = 1 then 6 else 6 + i.val) false)

/-- ros_filter.cpp:1274-1308, 1408-1428, 1499-1507 and 1716-1740: the counts after one more input. -/
def Counts.add (c : Counts) : Input → Option Counts
  | .odom v d => do
    let (p, t) ← odomVecs v
    let c1 : Counts :=
      if sumTrue p > 0 then
        if d then { c with twist := addFlags c.twist p 0 } else { c with absPose := addFlags c.absPose p 0 }
      else c
    return if sumTrue t > 0 then { c1 with twist := addOdomTwist c1.twist t } else c1
  | .pose v d => do
    let p ← poseVec v
    return if sumTrue p > 0 then
        if d then { c with twist := addFlags c.twist p 0 } else { c with absPose := addFlags c.absPose p 0 }
      else c
  | .twist v => do
    let t ← twistVec v
    return if sumTrue t > 0 then { c with twist := addFlags c.twist t 6 } else c
  | .imu v d => do
    let p ← imuPoseVec v
    let t ← imuTwistVec v
    let c1 : Counts :=
      if sumTrue p > 0 then
        if d then { c with twist := addAngular c.twist p 0 } else { c with absPose := addAngular c.absPose p 0 }
      else c
    return if sumTrue t > 0 then { c1 with twist := addAngular c1.twist t 6 } else c1

/-- The diagnosis for one pose variable. -/
inductive VarDiag where
  | manyAbsolute
  | notMeasured
  | fine
deriving DecidableEq, Repr

/-- ros_filter.cpp:1794-1836 for one pose variable. -/
def varDiag (twoD : Bool) (c : Counts) (i : Fin 6) : VarDiag :=
  if c.absPose i > 1 then .manyAbsolute
  else if c.absPose i = 0 then
    if c.twist i = 0 ∧ (i = 0 ∨ i = 1 ∨ i = 5 ∨ twoD = false) then .notMeasured else .fine
  else .fine

/-- The diagnosis of a whole configuration. -/
def startupDiag (twoD : Bool) (inputs : List Input) (i : Fin 6) : Option VarDiag :=
  (inputs.foldlM Counts.add { absPose := fun _ => 0, twist := fun _ => 0 }).map (varDiag twoD · i)

/-! ## Covariance parameters -/

/-- What became of a covariance parameter. -/
inductive LoadCov where
  | unset
  | loaded (m : Mat15)
  | rejected
  | outOfBounds

/-- ros_filter.cpp:1839-1863 `load_covariance` into a matrix with `size` entries.  `Eigen::MatrixXd::Map` is column-major
and reads 225 numbers. -/
def loadCovariance (size : ℕ) (param : Option (List ℝ)) : LoadCov :=
  match param with
  | none => .unset
  | some l =>
    if l.length = 15 then .loaded (Matrix.diagonal fun i => l.getD i.val 0)
    else if size = 15 * 15 then
      if 225 ≤ l.length then .loaded (.of fun i j => l.getD (15 * j.val + i.val) 0) else .outOfBounds
    else .rejected

/-- The matrices it is used with (105-106, 1865, 1870) have 225 entries. -/
def loadCovParam (param : Option (List ℝ)) : LoadCov := loadCovariance (15 * 15) param

/-! ## Frame names -/

/-- `if (!s.empty() && s.at(0) == '/')` then without its first character. -/
def stripSlash (s : String) : String :=
  match s.toList with
  | '/' :: rest => String.ofList rest
  | _ => s

/-- filter_utilities.hpp:65-83 `appendPrefix`. -/
def appendPrefix (tfPrefix frame : String) : String :=
  if tfPrefix = "" then frame else stripSlash tfPrefix ++ "/" ++ stripSlash frame

/-- ros_filter.cpp:900-912: a frame name after the prefix parameter has been read.  The parameter is read into
`tf_prefix_path`; `tf_prefix` stays empty. -/
def prefixedFrame (param : Option String) (frame : String) : String :=
  match param with
  | some _ => appendPrefix "" frame
  | none => frame

end RL
