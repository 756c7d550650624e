import Verif.Model.Prepare
/-!
# `NavSatTransform`

Model of `/repo/src/navsat_transform.cpp` and of the zone choice in `/repo/include/robot_localization/navsat_conversions.hpp`.
Positions are finite or NaN; infinite ones are not modelled.  Where a GeographicLib exception leaves a callback, which ends
the node, the result is `none`.
-/

namespace RL.Nav
open Matrix

/-- The map projections of GeographicLib, without their false origins.  Zones are 1 to 60 (UTM) and 0 (UPS, the polar
regions). -/
structure Geo where
  /-- latitude and longitude to easting and northing -/
  proj : Int → ℝ → ℝ → ℝ × ℝ
  /-- and back, for one hemisphere -/
  unproj : Int → Bool → ℝ × ℝ → ℝ × ℝ
  /-- meridian convergence in degrees -/
  conv : Int → ℝ → ℝ → ℝ
  /-- `UTMUPS::StandardZone` -/
  standard : ℝ → ℝ → Int
  /-- `LocalCartesian` with origin latitude and longitude at height zero -/
  enu : ℝ → ℝ → ℝ → ℝ → ℝ → V3

/-- False easting and northing (GeographicLib UTMUPS.cpp). -/
def falseOrigin (zone : Int) (north : Bool) : ℝ × ℝ :=
  if zone = 0 then (2000000, 2000000) else (500000, if north then 0 else 10000000)

/-- `UTMUPS::CheckCoords` without `mgrslimits`, as documented in UTMUPS.hpp. -/
def Legal (zone : Int) (north : Bool) (x y : ℝ) : Prop :=
  if zone = 0 then
    if north then (1200000 ≤ x ∧ x ≤ 2800000) ∧ 1200000 ≤ y ∧ y ≤ 2800000
    else (700000 ≤ x ∧ x ≤ 3300000) ∧ 700000 ≤ y ∧ y ≤ 3300000
  else (0 ≤ x ∧ x ≤ 1000000) ∧ if north then -9100000 ≤ y ∧ y ≤ 9600000 else 900000 ≤ y ∧ y ≤ 19600000

structure Utm where
  zone : Int
  north : Bool
  x : ℝ
  y : ℝ
  conv : ℝ

open Classical in
/-- `UTMUPS::Forward(lat, lon, zone, northp, x, y, gamma, k, setzone)`; −1 is the standard zone.  `none`: exception. -/
noncomputable def Geo.forward (g : Geo) (lat lon : ℝ) (setzone : Int) : Option Utm :=
  let zone := if setzone = -1 then g.standard lat lon else setzone
  let north := decide (0 ≤ lat)
  let p := g.proj zone lat lon
  let o := falseOrigin zone north
  if 90 < |lat| ∨ (zone = 0 ∧ |lat| < 70) ∨ ¬Legal zone north (p.1 + o.1) (p.2 + o.2) then none
  else some { zone := zone, north := north, x := p.1 + o.1, y := p.2 + o.2, conv := g.conv zone lat lon }

open Classical in
/-- `UTMUPS::Reverse`. -/
noncomputable def Geo.reverse (g : Geo) (zone : Int) (north : Bool) (x y : ℝ) : Option (ℝ × ℝ) :=
  let o := falseOrigin zone north
  if Legal zone north x y then some (g.unproj zone north (x - o.1, y - o.2)) else none

/-- Parameters (navsat_transform.cpp:98-141). -/
structure Par where
  declination : ℝ
  yawOffset : ℝ
  zeroAlt : Bool
  publishGps : Bool
  odomYaw : Bool
  useLocal : Bool

/-- geographic_msgs/GeoPose. -/
structure GeoPose where
  lat : ℝ
  lon : ℝ
  alt : ℝ
  ori : Quat

/-- The members of the node. -/
structure St where
  base : String
  world : String
  gpsFrame : String
  manual : Bool
  datum : GeoPose
  good : Bool
  hasGps : Bool
  hasImu : Bool
  hasOdom : Bool
  gpsUpdated : Bool
  odomUpdated : Bool
  forceUtm : Bool
  zone : Int
  north : Bool
  conv : ℝ
  /-- origin of `gps_local_cartesian_` -/
  enu0 : ℝ × ℝ
  /-- origin of `transform_cartesian_pose_` (its rotation is the identity) -/
  cart : V3
  /-- `transform_orientation_` -/
  orient : Quat
  /-- `transform_world_pose_` -/
  start : Tf
  /-- `cartesian_world_transform_` and its inverse -/
  cw : Tf
  cwInv : Tf
  /-- origin of `latest_cartesian_pose_` (its rotation is never used) -/
  lastCart : V3
  lastCartCov : M6
  lastOdom : Tf
  lastOdomCov : M6
  gpsTime : Int
  odomTime : Int
  /-- whether `imu_sub_` exists -/
  imuSub : Bool

/-- A new node (navsat_transform.cpp:66-93, 160-187, 205-208); everything not listed is arbitrary or uninitialised.  With
`wait_for_datum` the datum is the one of the parameters. -/
structure St.Initial (p : Par) (waitForDatum : Bool) (s : St) : Prop where
  manual : s.manual = waitForDatum
  good : s.good = false
  hasGps : s.hasGps = false
  hasImu : s.hasImu = false
  hasOdom : s.hasOdom = false
  gpsUpdated : s.gpsUpdated = false
  odomUpdated : s.odomUpdated = false
  forceUtm : s.forceUtm = false
  zone : s.zone = 0
  north : s.north = true
  imuSub : s.imuSub = (!p.odomYaw && !waitForDatum)

/-- sensor_msgs/NavSatFix: `fix` is the status, `pos` is latitude, longitude and altitude unless one is NaN. -/
structure FixMsg where
  frame : String
  stamp : Int
  fix : Bool
  pos : Option (ℝ × ℝ × ℝ)
  cov : Fin 9 → ℝ

/-- The parts of sensor_msgs/Imu and nav_msgs/Odometry that are read. -/
structure HeadingMsg where
  frame : String
  stamp : Int
  ori : Quat

structure OdoMsg where
  frame : String
  child : String
  stamp : Int
  pos : V3
  ori : Quat
  cov : Fin 36 → ℝ

noncomputable def OdoMsg.pose (m : OdoMsg) : Tf := { rot := m.ori.mat, org := m.pos }

/-- navsat_transform.cpp:866-913 `setTransformGps`.  A GeographicLib exception is caught and changes nothing. -/
noncomputable def St.setTransformGps (g : Geo) (p : Par) (s : St) (lat lon alt : ℝ) : St :=
  if p.useLocal then
    let v := g.enu lat lon lat lon alt
    { s with enu0 := (lat, lon), conv := 0, cart := ![v 0, v 1, alt], hasGps := true }
  else
    match g.forward lat lon (if s.forceUtm then s.zone else -1) with
    | none => s
    | some u =>
      { s with zone := u.zone, north := u.north, conv := u.conv * (Real.pi / 180), cart := ![u.x, u.y, alt], hasGps := true }

/-- navsat_transform.cpp:685-734 `imuCallback`. -/
noncomputable def St.imu (buf : TfBuffer) (s : St) (m : HeadingMsg) : St :=
  if s.hasOdom then
    match lookupTransformSafe buf s.base m.frame m.stamp with
    | none => { s with orient := m.ori }
    | some t =>
      let off := quatToRPY (quatOf t.rot)
      let a := quatToRPY m.ori
      let r := (setRPY 0 0 (off 2)).mulVec ![normalizeAngle (a 0 - off 0), normalizeAngle (a 1 - off 1), normalizeAngle (a 2 - off 2)]
      { s with orient := Quat.ofRPY (r 0) (r 1) (r 2), hasImu := true }
  else s

/-- navsat_transform.cpp:915-941 `setTransformOdometry`. -/
noncomputable def St.setTransformOdometry (buf : TfBuffer) (p : Par) (s : St) (m : OdoMsg) : St :=
  let s1 := { s with start := m.pose, hasOdom := true }
  if !s1.good && p.odomYaw && !s1.manual then s1.imu buf { frame := m.child, stamp := m.stamp, ori := m.ori } else s1

/-- navsat_transform.cpp:383-418 `setManualDatum`. -/
noncomputable def St.setManualDatum (g : Geo) (buf : TfBuffer) (p : Par) (s : St) : St :=
  let s1 := s.setTransformGps g p s.datum.lat s.datum.lon s.datum.alt
  let s2 := s1.setTransformOdometry buf p
    { frame := s1.world, child := s1.base, stamp := 0, pos := 0, ori := ⟨0, 0, 0, 1⟩, cov := fun _ => 0 }
  s2.imu buf { frame := s2.base, stamp := 0, ori := s2.datum.ori }

/-- The yaw of the robot in the projection: navsat_transform.cpp:283-305 and 568-571. -/
noncomputable def St.heading (p : Par) (s : St) : ℝ :=
  getRPY s.orient.mat 2 + (p.declination + p.yawOffset + s.conv)

/-- navsat_transform.cpp:548-593 `getRobotOriginCartesianPose` for the pose with origin `v` and no rotation.
`tf2::quatRotate` with a unit quaternion is multiplication by its matrix. -/
noncomputable def St.robotOriginCartesian (buf : TfBuffer) (p : Par) (s : St) (v : V3) : V3 :=
  match lookupTransformSafe buf s.base s.gpsFrame 0 with
  | none => v
  | some t =>
    let rpy := getRPY s.orient.mat
    let q := Quat.ofRPY (rpy 0) (rpy 1) (s.heading p)
    ({ rot := 1, org := q.mat.mulVec t.org } : Tf).inv.apply v

/-- navsat_transform.cpp:249-347 `computeTransform` up to the broadcast. -/
noncomputable def St.computeTransform (g : Geo) (buf : TfBuffer) (p : Par) (s : St) : St :=
  let s := if !s.good && s.hasOdom && s.manual then s.setManualDatum g buf p else s
  if !s.good && s.hasOdom && s.hasGps && s.hasImu then
    let v := if s.manual then s.cart else s.robotOriginCartesian buf p s.cart
    let cart : Tf := { rot := (Quat.ofRPY 0 0 (s.heading p)).mat, org := v }
    let start : Tf := { rot := (Quat.ofRPY 0 0 (getRPY (quatOf s.start.rot).mat 2)).mat, org := s.start.org }
    let cw := start.mul cart.inv
    { s with cw := cw, cwInv := cw.inv, good := true }
  else s

/-- navsat_transform.cpp:499-520 `cartesianToMap`: the position. -/
noncomputable def St.cartesianToMap (p : Par) (s : St) (v : V3) : V3 :=
  let r := s.cw.apply v
  ![r 0, r 1, if p.zeroAlt then 0 else r 2]

/-- navsat_transform.cpp:522-546 `mapToLL`: latitude, longitude, altitude. -/
noncomputable def St.mapToLL (g : Geo) (s : St) (v : V3) : Option (ℝ × ℝ × ℝ) :=
  let r := s.cwInv.apply v
  (g.reverse s.zone s.north (r 0) (r 1)).map fun ll => (ll.1, ll.2, r 2)

/-- navsat_transform.cpp:637-683 `gpsFixCallback`. -/
noncomputable def St.fix (g : Geo) (p : Par) (s : St) (m : FixMsg) : Option St :=
  let s := { s with gpsFrame := m.frame }
  match m.fix, m.pos with
  | true, some (lat, lon, alt) =>
    let s := if !s.good && !s.manual then s.setTransformGps g p lat lon alt else s
    (g.forward lat lon (-1)).map fun u =>
      { s with
        lastCart := ![u.x, u.y, alt]
        lastCartCov := .of fun i j =>
          if h : i.val < 3 ∧ j.val < 3 then m.cov ⟨3 * i.val + j.val, by omega⟩ else 0
        gpsTime := m.stamp
        gpsUpdated := true }
  | _, _ => some s

/-- navsat_transform.cpp:736-757 `odomCallback`. -/
noncomputable def St.odom (buf : TfBuffer) (p : Par) (s : St) (m : OdoMsg) : St :=
  let s := { s with world := m.frame, base := m.child }
  let s := if s.good then s else s.setTransformOdometry buf p m
  { s with lastOdom := m.pose, lastOdomCov := copyCov6 m.cov, odomTime := m.stamp, odomUpdated := true }

/-- Messages and answers of the node. -/
inductive Out where
  /-- odometry/gps: position (the orientation is the identity or that of the correction), covariance, stamp, frame -/
  | gpsOdom (pos : V3) (cov : M6) (stamp : Int) (frame : String)
  /-- gps/filtered -/
  | filtered (lat lon alt : ℝ) (cov : M3) (stamp : Int) (frame : String)
  /-- answer of toLL; `none` for "failed" -/
  | ll (p : Option (ℝ × ℝ × ℝ))
  /-- answer of fromLL -/
  | map (p : Option V3)
  /-- the transform of `computeTransform`, navsat_transform.cpp:349-362, with the parent and the child frame -/
  | broadcast (t : Tf) (parent child : String)

/-- navsat_transform.cpp:595-635 `getRobotOriginWorldPose`, position only. -/
noncomputable def St.robotOriginWorld (buf : TfBuffer) (s : St) (v : V3) (time : Int) : V3 :=
  match lookupTransformSafe buf s.base s.gpsFrame time with
  | none => 0
  | some off =>
    match lookupTransformSafe buf s.world s.base time with
    | none => 0
    | some rob => ({ rot := 1, org := (quatOf rob.rot).mat.mulVec off.org } : Tf).inv.apply v

/-- navsat_transform.cpp:810-864 `prepareGpsOdometry`. -/
noncomputable def St.prepareGpsOdometry (buf : TfBuffer) (p : Par) (s : St) : St × List Out :=
  if s.good && s.gpsUpdated && s.odomUpdated then
    let v := s.cartesianToMap p s.lastCart
    let r := s.robotOriginWorld buf v (poseLookupTime s.gpsTime)
    let r6 := rot6d (quatOf s.cw.rot).mat
    let cov := r6 * s.lastCartCov * r6ᵀ
    ({ s with lastCartCov := cov, gpsUpdated := false },
      [.gpsOdom ![r 0, r 1, if p.zeroAlt then 0 else r 2] cov s.gpsTime s.world])
  else (s, [])

/-- navsat_transform.cpp:759-808 `prepareFilteredGps`. -/
noncomputable def St.prepareFilteredGps (g : Geo) (s : St) : Option (St × List Out) :=
  if s.good && s.odomUpdated then
    (s.mapToLL g s.lastOdom.org).map fun ll =>
      let r6 := rot6d (quatOf s.cwInv.rot).mat
      let cov := r6 * s.lastOdomCov * r6ᵀ
      ({ s with lastOdomCov := cov, odomUpdated := false },
        [.filtered ll.1 ll.2.1 ll.2.2 (.of fun i j => cov (Fin.castLE (by omega) i) (Fin.castLE (by omega) j)) s.odomTime s.base])
  else some (s, [])

/-- What an event does: what is sent, and the state afterwards, or `none` when an exception ends the node. -/
structure Res where
  outs : List Out
  st : Option St

/-- navsat_transform.cpp:225-247 `transformCallback`; `broadcast` stands for `broadcast_cartesian_transform`, `asParent` for
`…_as_parent_frame`. -/
noncomputable def St.timer (g : Geo) (buf : TfBuffer) (p : Par) (broadcast asParent : Bool) (s : St) : Res :=
  if s.good then
    let (s1, o1) := s.prepareGpsOdometry buf p
    if p.publishGps then
      match s1.prepareFilteredGps g with
      | some r => { outs := o1 ++ r.2, st := some r.1 }
      | none => { outs := o1, st := none }
    else { outs := o1, st := some s1 }
  else
    let s1 := s.computeTransform g buf p
    let s2 := if s1.good && !p.odomYaw && !s1.manual then { s1 with imuSub := false } else s1
    -- 349-362
    let t := if asParent then s2.cwInv else s2.cw
    let frame := if p.useLocal then "local_enu" else "utm"
    { outs := if s2.good && broadcast then
        [.broadcast { t with org := ![t.org 0, t.org 1, if p.zeroAlt then 0 else t.org 2] }
          (if asParent then frame else s2.world) (if asParent then s2.world else frame)] else []
      st := some s2 }

/-- navsat_transform.cpp:366-381 `datumCallback`. -/
def St.setDatum (s : St) (d : GeoPose) : St := { s with datum := d, manual := true, good := false }

/-- navsat_transform.cpp:420-434 `toLLCallback`. -/
noncomputable def St.toLL (g : Geo) (s : St) (v : V3) : Option Out :=
  if s.good then (s.mapToLL g v).map fun ll => .ll (some ll) else some (.ll none)

/-- navsat_transform.cpp:436-478 `fromLLCallback`. -/
noncomputable def St.fromLL (g : Geo) (p : Par) (s : St) (lat lon alt : ℝ) : Option Out :=
  let v : Option V3 :=
    if p.useLocal then
      let c := g.enu s.enu0.1 s.enu0.2 lat lon alt
      some ![c 0, c 1, alt]
    else (g.forward lat lon s.zone).map fun u => ![u.x, u.y, alt]
  v.map fun v => if s.good then .map (some (s.cartesianToMap p v)) else .map none

/-- navsat_transform.cpp:480-497 `setUTMZoneCallback`, for a zone that can be read (otherwise an exception ends the node).
The string "INV", for which `MGRS::Reverse` returns an invalid zone, is not modelled. -/
def St.setZone (s : St) (zone : Fin 61) (north : Bool) : St :=
  { s with zone := zone.val, north := north, forceUtm := true, manual := false, good := false, hasGps := false }

/-- What can happen to a node; the buffer of transforms is the one at that time. -/
inductive Ev where
  | fix (m : FixMsg)
  | imu (buf : TfBuffer) (m : HeadingMsg)
  | odom (buf : TfBuffer) (m : OdoMsg)
  | timer (buf : TfBuffer)
  | datum (d : GeoPose)
  | toLL (v : V3)
  | fromLL (lat lon alt : ℝ)
  | setZone (zone : Option (Fin 61 × Bool))

/-- One event.  Messages of the IMU arrive as long as there is a subscription. -/
noncomputable def step (g : Geo) (p : Par) (broadcast asParent : Bool) (s : St) : Ev → Res
  | .fix m => { outs := [], st := s.fix g p m }
  | .imu buf m => { outs := [], st := some (if s.imuSub then s.imu buf m else s) }
  | .odom buf m => { outs := [], st := some (s.odom buf p m) }
  | .timer buf => s.timer g buf p broadcast asParent
  | .datum d => { outs := [], st := some (s.setDatum d) }
  | .toLL v => { outs := (s.toLL g v).toList, st := (s.toLL g v).map fun _ => s }
  | .fromLL lat lon alt => { outs := (s.fromLL g p lat lon alt).toList, st := (s.fromLL g p lat lon alt).map fun _ => s }
  | .setZone none => { outs := [], st := none }
  | .setZone (some z) => { outs := [], st := some (s.setZone z.1 z.2) }

/-- A run: all that was sent, and the state after the events, `none` when an exception ended the node. -/
noncomputable def run (g : Geo) (p : Par) (broadcast asParent : Bool) (s : St) : List Ev → Res
  | [] => { outs := [], st := some s }
  | e :: es =>
    let r := step g p broadcast asParent s e
    match r.st with
    | none => { outs := r.outs, st := none }
    | some s1 =>
      let q := run g p broadcast asParent s1 es
      { outs := r.outs ++ q.outs, st := q.st }

/-- navsat_conversions.hpp:108-110, central meridian in `UTM`, for longitudes that fit an `int`. -/
noncomputable def centralMeridian (lon : ℝ) : Int :=
  if 0 ≤ lon then ⌊lon⌋ - ⌊lon⌋.tmod 6 + 3 else ⌈lon⌉ - ⌈lon⌉.tmod 6 - 3

end RL.Nav
