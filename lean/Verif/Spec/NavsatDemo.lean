import Verif.Proofs.NavsatMap
/-! # A small run of the satellite navigation node, for examples -/

namespace RL.Nav
open Matrix

/-- Declination and offset zero, heading from an IMU. -/
def demoPar (zeroAlt publishGps useLocal : Bool) : Par :=
  { declination := 0, yawOffset := 0, zeroAlt := zeroAlt, publishGps := publishGps, odomYaw := false, useLocal := useLocal }

/-- All frames coincide. -/
def demoBuf : TfBuffer := fun _ _ _ => some Tf.id

noncomputable def demoInit : St :=
  { base := "", world := "", gpsFrame := "", manual := false, datum := ⟨0, 0, 0, ⟨0, 0, 0, 1⟩⟩, good := false, hasGps := false
    hasImu := false, hasOdom := false, gpsUpdated := false, odomUpdated := false, forceUtm := false, zone := 0, north := true
    conv := 0, enu0 := (0, 0), cart := 0, orient := ⟨0, 0, 0, 1⟩, start := Tf.id, cw := Tf.id, cwInv := Tf.id, lastCart := 0
    lastCartCov := 0, lastOdom := Tf.id, lastOdomCov := 0, gpsTime := 0, odomTime := 0, imuSub := true }

theorem demoInit_initial (z pg l : Bool) : demoInit.Initial (demoPar z pg l) false := by
  constructor <;> rfl

def demoOdom (stamp : Int) (pos : V3) (ori : Quat) : OdoMsg :=
  { frame := "map", child := "base", stamp := stamp, pos := pos, ori := ori, cov := fun _ => 1 }

def demoFix (stamp : Int) (lat lon alt : ℝ) : FixMsg :=
  { frame := "gps", stamp := stamp, fix := true, pos := some (lat, lon, alt), cov := fun _ => 1 }

/-- At the origin of the map, facing east, at the given place. -/
def demoEvents (lat lon alt : ℝ) : List Ev :=
  [.odom demoBuf (demoOdom 1 0 ⟨0, 0, 0, 1⟩), .imu demoBuf { frame := "imu", stamp := 2, ori := ⟨0, 0, 0, 1⟩ },
   .fix (demoFix 3 lat lon alt), .timer demoBuf]

theorem quat_one : (⟨0, 0, 0, 1⟩ : Quat).mat = 1 := by
  ext i j
  fin_cases i <;> fin_cases j <;> simp [Quat.mat, Quat.len2]

theorem setRPY_zero : setRPY 0 0 0 = 1 := by
  ext i j
  fin_cases i <;> fin_cases j <;> simp [setRPY]

theorem ofRPY_zero : Quat.ofRPY 0 0 0 = ⟨0, 0, 0, 1⟩ := by
  simp [Quat.ofRPY]

theorem getRPY_one : getRPY (1 : M3) = ![0, 0, 0] := by
  have h := getRPY_setRPY 0 0 0 (by linarith [Real.pi_pos]) (by linarith [Real.pi_pos])
  rw [setRPY_zero, normalizeAngle_zero] at h
  exact h

theorem demo_lookup (a b : String) (t : Int) : lookupTransformSafe demoBuf a b t = some Tf.id := rfl

theorem demo_imu (s : St) (h : s.hasOdom = true) (f : String) (t : Int) :
    s.imu demoBuf { frame := f, stamp := t, ori := ⟨0, 0, 0, 1⟩ } = { s with orient := ⟨0, 0, 0, 1⟩, hasImu := true } := by
  unfold St.imu
  rw [if_pos h, demo_lookup]
  have q1 : quatToRPY (quatOf Tf.id.rot) = ![0, 0, 0] := by
    show getRPY (quatOf (1 : M3)).mat = _
    rw [(C43_matrix_to_quaternion IsRot.one).2, getRPY_one]
  have q2 : quatToRPY (⟨0, 0, 0, 1⟩ : Quat) = ![0, 0, 0] := by
    show getRPY _ = _
    rw [quat_one, getRPY_one]
  simp only [q1, q2]
  simp [setRPY_zero, ofRPY_zero]

/-- The state after odometry and heading. -/
noncomputable def demoBefore : St :=
  { demoInit with world := "map", base := "base", start := { rot := 1, org := 0 }, hasOdom := true,
                  lastOdom := { rot := 1, org := 0 }, lastOdomCov := copyCov6 fun _ => 1, odomTime := 1, odomUpdated := true,
                  orient := ⟨0, 0, 0, 1⟩, hasImu := true, gpsFrame := "gps" }

/-- The state just before the transform is computed. -/
noncomputable def demoReady (g : Geo) (p : Par) (lat lon alt : ℝ) (u : Utm) : St :=
  { demoBefore.setTransformGps g p lat lon alt with
    lastCart := ![u.x, u.y, alt]
    lastCartCov := .of fun i j => if i.val < 3 ∧ j.val < 3 then 1 else 0
    gpsTime := 3
    gpsUpdated := true }

theorem demo_ready (g : Geo) (p : Par) (hp : p.odomYaw = false) (bc ap : Bool) (lat lon alt : ℝ) (u : Utm)
    (hu : g.forward lat lon (-1) = some u) :
    (run g p bc ap demoInit ((demoEvents lat lon alt).take 3)).st = some (demoReady g p lat lon alt u) := by
  have e1 : (demoInit.odom demoBuf p (demoOdom 1 0 ⟨0, 0, 0, 1⟩)) =
      { demoInit with world := "map", base := "base", start := { rot := 1, org := 0 }, hasOdom := true
                      lastOdom := { rot := 1, org := 0 }, lastOdomCov := copyCov6 fun _ => 1, odomTime := 1, odomUpdated := true } := by
    simp [St.odom, St.setTransformOdometry, hp, OdoMsg.pose, demoOdom, quat_one, demoInit]
  simp only [demoEvents, List.take, run, step, e1]
  simp only [demoInit, if_true]
  rw [demo_imu _ rfl]
  simp only [St.fix, demoFix, Bool.not_false, Bool.and_self, if_true, hu, Option.map_some, demoReady]
  rfl

theorem demo_run (g : Geo) (p : Par) (hp : p.odomYaw = false) (hd : p.declination = 0) (ho : p.yawOffset = 0) (bc ap : Bool)
    (lat lon alt : ℝ) (u : Utm) (hu : g.forward lat lon (-1) = some u) (hc : u.conv = 0) :
    ∃ s, (run g p bc ap demoInit (demoEvents lat lon alt)).st = some s ∧ s.good = true ∧ s.odomUpdated = true ∧ s.gpsUpdated = true ∧
      s.gpsTime = 3 ∧ s.world = "map" ∧ s.base = "base" ∧ s.manual = false ∧
      s.cw = { rot := 1, org := -s.cart } ∧ s.lastCart = ![u.x, u.y, alt] ∧ s.lastOdom = { rot := 1, org := 0 } ∧
      (s.orient = ⟨0, 0, 0, 1⟩ ∧ s.hasImu = true ∧ s.hasOdom = true ∧ s.imuSub = false ∧ s.hasGps = true ∧ s.start = { rot := 1, org := 0 } ∧
        s.gpsFrame = "gps" ∧ s.conv = 0 ∧ s.forceUtm = false) ∧
      (p.useLocal = false → s.cart = ![u.x, u.y, alt] ∧ s.zone = u.zone ∧ s.north = u.north) ∧
      (p.useLocal = true → s.cart = ![g.enu lat lon lat lon alt 0, g.enu lat lon lat lon alt 1, alt] ∧ s.zone = 0 ∧ s.north = true ∧
        s.enu0 = (lat, lon)) := by
  have e : ∀ s1 : St, (run g p bc ap demoInit ((demoEvents lat lon alt).take 3)).st = some s1 →
      (run g p bc ap demoInit (demoEvents lat lon alt)).st = (step g p bc ap s1 (.timer demoBuf)).st := by
    intro s1 h
    simp only [demoEvents, List.take, run, step] at h ⊢
    rw [show (demoFix 3 lat lon alt) = demoFix 3 lat lon alt from rfl] at h ⊢
    generalize St.odom demoBuf p demoInit (demoOdom 1 0 ⟨0, 0, 0, 1⟩) = a at h ⊢
    cases hf : St.fix g p (if a.imuSub = true then St.imu demoBuf a { frame := "imu", stamp := 2, ori := ⟨0, 0, 0, 1⟩ } else a)
        (demoFix 3 lat lon alt) with
    | none => rw [hf] at h; cases h
    | some b =>
      rw [hf] at h
      simp only [Option.some.injEq] at h
      rw [← h]
      simp only
      cases (St.timer g demoBuf p bc ap b).st <;> rfl
  have h3 := demo_ready g p hp bc ap lat lon alt u hu
  rw [e _ h3]
  have hs := setTransformGps_same g p demoBefore lat lon alt
  obtain ⟨r, hr⟩ : ∃ r, r = demoReady g p lat lon alt u := ⟨_, rfl⟩
  have hgood : r.good = false := by rw [hr]; exact hs.good
  have hman : r.manual = false := by rw [hr]; exact hs.manual
  have hodo : r.hasOdom = true := by rw [hr]; exact hs.hasOdom
  have himu : r.hasImu = true := by rw [hr]; exact hs.hasImu
  have hori : r.orient = ⟨0, 0, 0, 1⟩ := by rw [hr]; exact hs.orient
  have hsta : r.start = { rot := 1, org := 0 } := by rw [hr]; exact hs.start
  have hgps : r.hasGps = true ∧ r.conv = 0 ∧ (p.useLocal = false → r.cart = ![u.x, u.y, alt] ∧ r.zone = u.zone ∧ r.north = u.north) ∧
      (p.useLocal = true → r.cart = ![g.enu lat lon lat lon alt 0, g.enu lat lon lat lon alt 1, alt] ∧ r.zone = 0 ∧ r.north = true ∧
        r.enu0 = (lat, lon)) := by
    rw [hr]
    unfold demoReady St.setTransformGps
    by_cases hl : p.useLocal = true
    · simp [hl, demoBefore, demoInit]
    · simp [hl, demoBefore, demoInit, hu, hc]
  rw [← hr]
  have hd2 : r.heading p = 0 := by
    simp [St.heading, hori, quat_one, getRPY_one, hd, ho, hgps.2.1]
  have hro : r.robotOriginCartesian demoBuf p r.cart = r.cart := by
    unfold St.robotOriginCartesian
    rw [demo_lookup]
    simp [Tf.id, Tf.inv, Tf.apply]
  have hct : r.computeTransform g demoBuf p =
      { r with cw := { rot := 1, org := -r.cart }, cwInv := ({ rot := 1, org := -r.cart } : Tf).inv, good := true } := by
    unfold St.computeTransform
    simp only [hgood, hodo, hman, hgps.1, himu, Bool.not_false, Bool.and_false, Bool.false_eq_true, if_false, Bool.and_self, if_true,
      hd2, hro, hsta, (C43_matrix_to_quaternion IsRot.one).2, getRPY_one]
    simp [Tf.mul, Tf.inv, ofRPY_zero, quat_one]
  simp only [step, St.timer, hgood, Bool.false_eq_true, if_false, hct, Bool.true_and, hp, hman, Bool.not_false, if_true, Bool.and_self]
  refine ⟨_, rfl, ?_⟩
  simp only
  rw [hr] at hgps ⊢
  refine ⟨trivial, hs.odomUpdated, rfl, rfl, hs.world, hs.base, trivial, trivial, rfl, hs.lastOdom, ⟨hs.orient, hs.hasImu, hs.hasOdom, trivial, hgps.1, hs.start,
    hs.gpsFrame, hgps.2.1, hs.forceUtm⟩, hgps.2.2.1, hgps.2.2.2⟩

end RL.Nav
