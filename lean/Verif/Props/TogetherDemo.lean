import Verif.Props.Together
import Verif.Props.FirstWord
import Verif.Props.NavsatMap
/-! # C121: two nodes to which the theorems apply -/

namespace RL
open Matrix Real Body
open Nav (Given)

/-- Parameters of a filter with poses from a scanner and positions from `navsat_transform`; the robot starts at one metre per
second. -/
noncomputable def matedParams : Given := fun n =>
  if n = "pose0" then some (.string "scanner")
  else if n = "pose0_config" then some (.bools (List.replicate 6 true ++ List.replicate 9 false))
  else if n = "odom0" then some (.string "odometry/gps")
  else if n = "odom0_config" then some (.bools (List.replicate 3 true ++ List.replicate 12 false))
  else if n = "initial_state" then some (.doubles (List.ofFn ahead.vec))
  else none

theorem mated_typed : NodeTyped matedParams where
  bools := by simp [switchNames, matedParams]
  strings := by simp [matedParams]
  doubles := by simp [matedParams]
  fits := by simp [Fits, matedParams]
  frequency := by
    intro f hf
    have : f = 30 := by
      rcases hf with hf | ⟨-, hf⟩
      · simp [matedParams] at hf
      · exact hf
    subst this
    norm_num
  initial := by simp [matedParams]
  covs := by simp [matedParams]
  config := by simp [Nav.Given.On, matedParams]
  lists := by simp [matedParams]

theorem mated_odom : SensorTyped matedParams ("odom" ++ "0") := by
  constructor <;> simp [matedParams]

theorem mated_pose : SensorTyped matedParams ("pose" ++ "0") := by
  constructor <;> simp [matedParams]

theorem mated_starts : ∃ c, loadNode matedParams = some c := by
  obtain ⟨c, h, -⟩ := C102_starts mated_typed (a := 1) (b := 1) (c := 0) (d := 0)
    ⟨fun i hi => by
      have : i = 0 := by omega
      subst this
      rw [name0]
      exact ⟨"odometry/gps", by simp [matedParams]⟩,
     fun i hi => by
      have : i = 0 := by omega
      subst this
      rw [name0]
      exact mated_odom,
     by rw [name1]; simp [matedParams]⟩
    ⟨fun i hi => by
      have : i = 0 := by omega
      subst this
      rw [name0]
      exact ⟨"scanner", by simp [matedParams]⟩,
     fun i hi => by
      have : i = 0 := by omega
      subst this
      rw [name0]
      exact mated_pose,
     by rw [name1]; simp [matedParams]⟩
    ⟨fun i hi => absurd hi (by omega), fun i hi => absurd hi (by omega), by rw [name0]; simp [matedParams]⟩
    ⟨fun i hi => absurd hi (by omega), fun i hi => absurd hi (by omega), by rw [name0]; simp [matedParams]⟩
  exact ⟨c, h⟩

/-- What is read for the inputs. -/
def scanner : SensorSet :=
  { par := { name := "pose0", config := List.replicate 6 true ++ List.replicate 9 false, differential := false, relative := false
             useChild := false, poseThresh := .unlimited, twistThresh := .unlimited, accelThresh := .unlimited }
    topic := "scanner", queueSize := 10, removeGravity := false }

def mate : SensorSet :=
  { par := { name := "odom0", config := List.replicate 3 true ++ List.replicate 12 false, differential := false, relative := false
             useChild := false, poseThresh := .unlimited, twistThresh := .unlimited, accelThresh := .unlimited }
    topic := "odometry/gps", queueSize := 10, removeGravity := false }

theorem mated_inputs {c : NodeConf} (h : loadNode matedParams = some c) :
    c.inputs.odoms[0]? = some mate ∧ c.inputs.poses[0]? = some scanner := by
  have h := loadNode_inputs h
  unfold readInputs at h
  obtain ⟨x1, e1, h⟩ := Option.bind_eq_some_iff.1 h
  obtain ⟨x2, -, h⟩ := Option.bind_eq_some_iff.1 h
  obtain ⟨x3, e3, h⟩ := Option.bind_eq_some_iff.1 h
  obtain ⟨x4, -, h⟩ := Option.bind_eq_some_iff.1 h
  obtain ⟨x5, -, h⟩ := Option.bind_eq_some_iff.1 h
  obtain ⟨x6, -, h⟩ := Option.bind_eq_some_iff.1 h
  obtain ⟨x7, -, h⟩ := Option.bind_eq_some_iff.1 h
  obtain ⟨x8, -, h⟩ := Option.bind_eq_some_iff.1 h
  injection h with h
  rw [← h]
  have s1 := sensorsFrom_some e1 0 (Nat.zero_le _)
  have s3 := sensorsFrom_some e3 0 (Nat.zero_le _)
  rw [Nat.zero_add] at s1 s3
  have a1 : sensorAt matedParams "odom" (readOdom matedParams) 0 = some (some mate) := by
    unfold sensorAt
    rw [name0]
    simp [Nav.Given.string?, Nav.Given.bool, Nav.Given.bools, Nav.Given.int, Nav.Given.thresh, Given.string?, Given.bool, Given.bools,
      Given.int, Given.thresh, matedParams, readOdom, loadUpdateConfig, mate]
  have a3 : sensorAt matedParams "pose" (readPose matedParams) 0 = some (some scanner) := by
    unfold sensorAt
    rw [name0]
    simp [Nav.Given.string?, Nav.Given.bool, Nav.Given.bools, Nav.Given.int, Nav.Given.thresh, Given.string?, Given.bool, Given.bools,
      Given.int, Given.thresh, matedParams, readPose, loadUpdateConfig, scanner]
  rw [a1] at s1
  rw [a3] at s3
  injection s1 with s1
  injection s3 with s3
  exact ⟨s1.symm, s3.symm⟩

/-- The world of a robot that drives east, from one degree north on the meridian of zone 31; the antenna is one metre above the
robot.  Only the first thousand seconds matter. -/
noncomputable def eastward (world base : String) : Nav.Scene :=
  { motion := drive, toWorld := { rot := 1, org := ![-500000, -110000, 0] }, off := ![0, 0, 1]
    place := fun t => open Classical in if 0 ≤ toSec t ∧ toSec t ≤ 1000 then (1, 3 + toSec t / 110000, 1) else (100, 0, 0)
    t0 := 1000000000, world := world, base := base, antenna := base ++ "_gps" }

theorem eastward_place (world base : String) (t : Int) (h : 0 ≤ toSec t ∧ toSec t ≤ 1000) :
    (eastward world base).place t = (1, 3 + toSec t / 110000, 1) := if_pos h

theorem eastward_sees (world base : String) (t : Int) (h : 0 ≤ toSec t ∧ toSec t ≤ 1000) :
    (eastward world base).Sees Nav.plain t { zone := 31, north := true, x := 500000 + toSec t, y := 110000, conv := 0 } := by
  unfold Nav.Scene.Sees
  rw [eastward_place world base t h]
  rw [Nav.plain_forward 1 (3 + toSec t / 110000) (by norm_num) (by norm_num) (by linarith [h.1]) (by linarith [h.2])]
  congr 2
  · ring
  · norm_num

theorem eastward_real (world base : String) : (eastward world base).Real Nav.plain where
  turned := ⟨0, by
    ext i j
    fin_cases i <;> fin_cases j <;> simp [eastward, rotZ]⟩
  antenna := by
    intro t u hu
    by_cases h : 0 ≤ toSec t ∧ toSec t ≤ 1000
    · obtain rfl := Option.some.inj (hu.symm.trans (eastward_sees world base t h))
      rw [eastward_place world base t h]
      show (1 : M3).mulVec _ + _ = (rot (drive t).eul).mulVec _ + (drive t).pos
      rw [drive_eq]
      show (1 : M3).mulVec _ + _ = (rot 0).mulVec _ + _
      rw [rot_zero, one_mulVec, one_mulVec]
      funext i
      fin_cases i <;> simp [eastward]
    · have hp : (eastward world base).place t = (100, 0, 0) := if_neg h
      unfold Nav.Scene.Sees at hu
      rw [hp] at hu
      unfold Nav.Geo.forward at hu
      simp only at hu
      rw [if_pos (Or.inl (by norm_num))] at hu
      cases hu

theorem eastward_bearing (world base : String) : (eastward world base).Bearing Nav.plain (Nav.demoPar false true false) 0 := by
  refine ⟨by simp, _, eastward_sees world base _ (by norm_num [eastward, toSec]), ?_⟩
  have e : (![(0 : Vec3) 0, (0 : Vec3) 1, (0 : Vec3) 2 + (Nav.demoPar false true false).declination +
      (Nav.demoPar false true false).yawOffset + 0 * (π / 180)] : Vec3) = 0 := by
    funext i
    fin_cases i <;> simp [Nav.demoPar]
  rw [e]
  show rot 0 = (1 : M3)ᵀ * rot (drive _).eul
  rw [drive_eq]
  show rot 0 = (1 : M3)ᵀ * rot 0
  rw [transpose_one, one_mul]

/-- The antenna is one metre above the robot; all other frames coincide. -/
noncomputable def mast (base : String) : TfBuffer := fun a b _ =>
  if a = base ∧ b = base ++ "_gps" then some { rot := 1, org := ![0, 0, 1] } else some Tf.id

theorem base_ne (base : String) : base ≠ base ++ "_gps" := by
  intro h
  have := congrArg String.length h
  simp [String.length_append] at this

theorem mast_sane (base : String) : SaneBuf (mast base) := by
  refine ⟨fun a b s t h => ?_, fun a s t h => ?_⟩
  · unfold mast at h
    split at h
    · injection h with h
      subst h
      exact IsRot.one
    · injection h with h
      subst h
      exact IsRot.one
  · unfold mast at h
    rw [if_neg] at h
    · injection h with h
      exact h.symm
    · rintro ⟨rfl, h2⟩
      exact base_ne _ h2

theorem mast_antenna (world base : String) : (eastward world base).KnowsAntenna (mast base) := by
  have e : ∀ time, mast base base (base ++ "_gps") time = some { rot := 1, org := ![0, 0, 1] } := fun _ => if_pos ⟨rfl, rfl⟩
  refine ⟨?_, fun time t h => ?_⟩
  · show mast base base (base ++ "_gps") 0 ≠ none
    rw [e]
    exact Option.some_ne_none _
  · have h : mast base base (base ++ "_gps") time = some t := h
    rw [e] at h
    injection h with h
    subst h
    rfl

theorem mast_turn (world base : String) (stamp : Int) : (eastward world base).KnowsTurn (mast base) stamp := by
  have e : ∀ a b time t, mast base a b time = some t → t.rot = 1 := by
    intro a b time t h
    unfold mast at h
    split at h <;> (injection h with h; subst h; rfl)
  refine ⟨?_, fun t h => ?_⟩
  · show (if _ then _ else _) ≠ none
    split <;> exact Option.some_ne_none _
  · have hr : t.rot = 1 := by rcases h with h | h <;> exact e _ _ _ _ h
    rw [hr]
    show _ = (rot (drive stamp).eul).mulVec _
    rw [drive_eq]
    show _ = (rot 0).mulVec _
    rw [rot_zero]

/-- The odometry of a cycle in which something was sent. -/
theorem cycle_odoms {C : Core} {P : MQueue C} (V : View C) (g : SysCfg C) (s : Sys C P) (now now2 : Int) (buf : TfBuffer) (t : Int)
    (m : OdomMsg) (h : Sent.odom t (some m) ∈ (s.cycle V g now now2 buf).2) :
    odomsOf (s.cycle V g now now2 buf).2 = [m] ∧ (s.cycle V g now now2 buf).1.hub.node.filt.initialized = true := by
  unfold Sys.cycle at h ⊢
  by_cases he : s.hub.node.enabled = true
  · rw [if_pos he] at h ⊢
    simp only at h ⊢
    unfold Node.periodic at h ⊢
    rw [he] at h ⊢
    simp only [Bool.not_true, Bool.false_eq_true, if_false] at h ⊢
    generalize s.hub.node.advance g.cfg now now2 = a at h ⊢
    unfold Node.publish at h ⊢
    by_cases hi : a.filt.initialized = true
    · rw [if_pos hi] at h ⊢
      simp only at h ⊢
      constructor
      · generalize (!g.cfg.permitCorrected && decide (a.lastPub ≥ a.filt.lastTime)) = b at h ⊢
        cases b with
        | true => simp at h
        | false =>
          simp only [Bool.not_false, Bool.and_true, Bool.true_and, if_true] at h ⊢
          generalize (g.cfg.publishTf && Sys.tfDue g.frames buf) = q at h ⊢
          generalize g.cfg.publishAccel = q' at h ⊢
          cases q <;> cases q' <;> simp [Sys.render, odomsOf] at h ⊢ <;> rw [← h.2] <;> rfl
      · split
        · exact hi
        · exact hi
    · rw [if_neg hi] at h
      cases h
  · rw [if_neg he] at h
    cases h

/-- A fix. -/
noncomputable def eastFix (world base : String) (t : Int) : Nav.FixMsg :=
  { frame := base ++ "_gps", stamp := t, fix := true, pos := some ((eastward world base).place t), cov := fun _ => 1 }

/-- The settings of `navsat_transform`. -/
noncomputable def eastCfg : NavCfg := { geo := Nav.plain, par := Nav.demoPar false true false, broadcast := true, asParent := false }

/-- One event, without what it sends. -/
noncomputable def navStep (s : Nav.St) (e : Nav.Ev) : Nav.Res := Nav.step eastCfg.geo eastCfg.par eastCfg.broadcast eastCfg.asParent s e

open Nav in
/-- The first messages make the transform known; the next fix is turned into a position. -/
theorem nav_mated (world base : String) (m : OdoMsg) (hf : m.frame = world) (hc : m.child = base) : ∃ n1 n2 n3 n4 n5 : St,
    navStep demoInit (.odom (mast base) m) = { outs := [], st := some n1 } ∧
    navStep n1 (.fix (eastFix world base 1000000000)) = { outs := [], st := some n2 } ∧
    navStep n2 (.imu (mast base) { frame := base, stamp := 1000000000, ori := ⟨0, 0, 0, 1⟩ }) = { outs := [], st := some n3 } ∧
    (navStep n3 (.timer (mast base))).st = some n4 ∧ gpsOf (navStep n3 (.timer (mast base))).outs = [] ∧ n4.good = true ∧
    navStep n4 (.fix (eastFix world base 2000000000)) = { outs := [], st := some n5 } ∧
    ∃ pos cov, gpsOf (navStep n5 (.timer (mast base))).outs = [gpsMessage pos cov 2000000000 world] := by
  obtain ⟨n1, h1⟩ : ∃ n1, n1 = demoInit.odom (mast base) eastCfg.par m := ⟨_, rfl⟩
  have f1 : n1.good = false ∧ n1.manual = false ∧ n1.hasOdom = true ∧ n1.imuSub = true ∧ n1.base = base ∧ n1.world = world ∧
      n1.odomUpdated = true ∧ n1.forceUtm = false := by
    rw [h1]
    simp [St.odom, St.setTransformOdometry, eastCfg, Nav.demoPar, demoInit, hf, hc]
  obtain ⟨a1, a2, a3, a4, a5, a6, a7, a8⟩ := f1
  have s1 := eastward_sees world base 1000000000 (by norm_num [toSec])
  have s2 := eastward_sees world base 2000000000 (by norm_num [toSec])
  obtain ⟨n2, h2, b1, b2, b3, b4, b5, b6, b7, b8⟩ : ∃ n2, n1.fix plain eastCfg.par (eastFix world base 1000000000) = some n2 ∧
      n2.good = false ∧ n2.manual = false ∧ n2.hasOdom = true ∧ n2.imuSub = true ∧ n2.base = base ∧ n2.world = world ∧
      n2.odomUpdated = true ∧ n2.hasGps = true := by
    unfold Scene.Sees at s1
    unfold St.fix
    simp only [eastFix, a1, a2, Bool.not_false, Bool.and_self, if_true, s1, Option.map_some]
    refine ⟨_, rfl, ?_⟩
    unfold St.setTransformGps
    simp only [a8, eastCfg, Nav.demoPar, Bool.false_eq_true, if_false, s1]
    exact ⟨trivial, trivial, a3, a4, a5, a6, a7, trivial⟩
  obtain ⟨n3, h3⟩ : ∃ n3, n3 = n2.imu (mast base) { frame := base, stamp := 1000000000, ori := ⟨0, 0, 0, 1⟩ } := ⟨_, rfl⟩
  have f3 : n3.good = false ∧ n3.manual = false ∧ n3.hasOdom = true ∧ n3.base = base ∧ n3.world = world ∧
      n3.odomUpdated = true ∧ n3.hasGps = true ∧ n3.hasImu = true := by
    rw [h3]
    unfold St.imu
    rw [if_pos b3, b5, (mast_sane base).lookup_self]
    exact ⟨b1, b2, b3, rfl, b6, b7, b8, rfl⟩
  obtain ⟨c1, c2, c3, c4, c5, c6, c7, c8⟩ := f3
  have e3 : (navStep n3 (.timer (mast base))) = n3.timer plain (mast base) eastCfg.par true false := rfl
  obtain ⟨n4, h4, h4', d1, d2, d3⟩ : ∃ n4, (n3.timer plain (mast base) eastCfg.par true false).st = some n4 ∧
      gpsOf (n3.timer plain (mast base) eastCfg.par true false).outs = [] ∧ n4.good = true ∧ n4.world = world ∧ n4.odomUpdated = true := by
    unfold St.timer
    rw [if_neg (by rw [c1]; decide)]
    unfold St.computeTransform
    simp only [c1, c2, c3, c7, c8, Bool.not_false, Bool.and_self, Bool.and_false, Bool.false_eq_true, if_false, if_true]
    refine ⟨_, rfl, ?_, ?_⟩
    · simp [gpsOf, eastCfg, Nav.demoPar]
    · simp [eastCfg, Nav.demoPar, c5, c6]
  obtain ⟨n5, h5, g1, g2, g3, g4, g5⟩ : ∃ n5, n4.fix plain eastCfg.par (eastFix world base 2000000000) = some n5 ∧
      n5.good = true ∧ n5.world = world ∧ n5.odomUpdated = true ∧ n5.gpsUpdated = true ∧ n5.gpsTime = 2000000000 := by
    unfold Scene.Sees at s2
    unfold St.fix
    simp only [eastFix, d1, Bool.not_true, Bool.false_and, Bool.false_eq_true, if_false, s2, Option.map_some]
    exact ⟨_, rfl, rfl, d2, d3, rfl, rfl⟩
  refine ⟨n1, n2, n3, n4, n5, ?_, ?_, ?_, ?_, ?_, d1, ?_, ?_⟩
  · rw [h1]
    rfl
  · rw [← h2]
    rfl
  · rw [h3]
    show Res.mk [] (some (if n2.imuSub then _ else _)) = _
    rw [if_pos b4]
  · rw [e3, h4]
  · rw [e3, h4']
  · rw [← h5]
    rfl
  · have e5 : (navStep n5 (.timer (mast base))) = n5.timer plain (mast base) eastCfg.par true false := rfl
    rw [e5]
    obtain ⟨n6, pos, cov, h6⟩ : ∃ n6 pos cov, n5.prepareGpsOdometry (mast base) eastCfg.par =
        (n6, [.gpsOdom pos cov 2000000000 world]) := by
      unfold St.prepareGpsOdometry
      rw [if_pos (by rw [g1, g3, g4]; rfl)]
      simp only [g5, g2]
      exact ⟨_, _, _, rfl⟩
    refine ⟨pos, cov, ?_⟩
    unfold St.timer
    rw [if_pos g1, h6]
    show gpsOf (match n6.prepareFilteredGps plain with
      | some r => { outs := [.gpsOdom pos cov 2000000000 world] ++ r.2, st := some r.1 }
      | none => { outs := [.gpsOdom pos cov 2000000000 world], st := none } : Res).outs = _
    cases hr : n6.prepareFilteredGps plain with
    | none => rfl
    | some r =>
      unfold St.prepareFilteredGps at hr
      split at hr
      · obtain ⟨ll, -, hr⟩ := Option.map_eq_some_iff.1 hr
        rw [← hr]
        rfl
      · injection hr with hr
        rw [← hr]
        rfl

/-- The pose the scanner tells. -/
noncomputable def scanPose (world : String) (t : Int) : PoseMsg :=
  { frame := world, stamp := t, pos := ![toSec t, 0, 0], ori := ⟨0, 0, 0, 1⟩, cov := fun _ => 1 }

/-- The first pose reaches `navsat_transform` through the filter; `navsat_transform` finds its transform; the robot drives on;
the next fix reaches the filter through `navsat_transform`. -/
noncomputable def matedRun (world base : String) (junk : State) : List Duo.Ev :=
  [.filter (.pose 0 noTf junk (scanPose world 1000000000)), .filter (.tick 1000000000 1000000000 noTf), .toNav (mast base) 0,
   .nav (.fix (eastFix world base 1000000000)), .nav (.imu (mast base) { frame := base, stamp := 1000000000, ori := ⟨0, 0, 0, 1⟩ }),
   .nav (.timer (mast base)), .nav (.fix (eastFix world base 2000000000)), .nav (.timer (mast base)),
   .toFilter 0 noTf junk 0, .filter (.tick 2000000000 2000000000 noTf)]

theorem duo_nav {C : Core} {P : MQueue C} (V : View C) (g : SysCfg C) (sys : Sys C P) (t t' : Nav.St) (odoms gps : List OdomMsg) (e : Nav.Ev)
    (h : (navStep t e).st = some t') : (Duo.step V g eastCfg { sys := sys, nav := some t, odoms := odoms, gps := gps } (.nav e)).1 =
      { sys := sys, nav := some t', odoms := odoms, gps := gps ++ gpsOf (navStep t e).outs } := by
  show Duo.mk sys (navStep t e).st odoms (gps ++ gpsOf (navStep t e).outs) = _
  rw [h]

/-- The hypotheses of `C121_timely` (and with them those of `C121_together_partial`) are met by a robot that drives. -/
example (junk : State) (d : Differ) : ∃ c, loadNode matedParams = some c ∧ ¬ matedParams.On "use_control" ∧ c.frames.world ≠ "" ∧
    c.frames.base ≠ "" ∧ Follows drive ∧ (∀ t, HeadUp (drive t)) ∧ eastCfg.geo.Lawful ∧
    (eastward c.frames.world c.frames.baseOut).Real eastCfg.geo ∧ Nav.demoInit.Initial eastCfg.par false ∧
    Timely 0 (Duo.filterEvents (ekfView c.par) c.sys eastCfg
      { sys := Sys.start c.sys (demoQ c.par) () (0 : Fin 6 → ℝ) 0 d, nav := some Nav.demoInit, odoms := [], gps := [] }
      (matedRun c.frames.world c.frames.baseOut junk)) ∧
    Duo.Holds (ekfView c.par) c.sys eastCfg (TrueWorld c eastCfg (eastward c.frames.world c.frames.baseOut))
      { sys := Sys.start c.sys (demoQ c.par) () (0 : Fin 6 → ℝ) 0 d, nav := some Nav.demoInit, odoms := [], gps := [] }
      (matedRun c.frames.world c.frames.baseOut junk) := by
  obtain ⟨c, h⟩ := mated_starts
  have doc := C102_settings_partial h
  have off : ∀ n, matedParams n = none → ¬ matedParams.On n := fun n h => by simp [Nav.Given.On, h]
  have ho : c.frames.odom = "odom" := by
    rcases doc.frames.odom with h | ⟨-, h⟩
    · simp [matedParams] at h
    · exact h
  have hw : c.frames.world = "odom" := by
    rcases doc.frames.world with h | ⟨-, h⟩
    · simp [matedParams] at h
    · rw [h, ho]
  have hb : c.frames.base = "base_link" := by
    rcases doc.frames.base with h | ⟨-, h⟩
    · simp [matedParams] at h
    · exact h
  have hx : c.initial = ahead.vec := doc.initial ahead.vec (by simp [matedParams])
  obtain ⟨hi1, hi2⟩ := mated_inputs h
  have hww : c.frames.world ≠ "" := by rw [hw]; decide
  refine ⟨c, h, off _ (by simp [matedParams]), hww, by rw [hb]; decide, C97_straight ahead rfl, ?_, Nav.plain_lawful,
    eastward_real _ _, Nav.demoInit_initial _ _ _, ?_⟩
  · intro t
    unfold HeadUp
    rw [drive_eq]
    simp
  obtain ⟨s0, hs0⟩ : ∃ s, s = Sys.start c.sys (demoQ c.par) () (0 : Fin 6 → ℝ) 0 d := ⟨_, rfl⟩
  rw [← hs0]
  have one : (⟨0, 0, 0, 1⟩ : Quat).mat = 1 := Nav.quat_one
  have hu : (scanPose c.frames.world 1000000000).ori.len2 = 1 := by norm_num [scanPose, Quat.len2]
  have hv : NotVertical (scanPose c.frames.world 1000000000).ori := by
    show |(⟨0, 0, 0, 1⟩ : Quat).mat 2 0| < 1
    rw [one]
    simp
  obtain ⟨m, hm, -, m1, m2, m3, -⟩ := C119_first_pose h (off _ (by simp [matedParams])) (off _ (by simp [matedParams]))
    (off _ (by simp [matedParams])) hww (demoQ c.par) 0 0 d hi2 rfl
    (fun j hj => by interval_cases j <;> simp [Selects, scanner]) rfl rfl noTf noTf_sane junk (scanPose c.frames.world 1000000000) rfl hu hv
    (by norm_num [scanPose]) 1000000000 1000000000 (by norm_num [scanPose]) noTf
  rw [← hs0] at hm
  have m3 : m.stamp = 1000000000 := m3
  obtain ⟨s1, hs1⟩ : ∃ s1, s1 = (s0.step (ekfView c.par) c.sys (.pose 0 noTf junk (scanPose c.frames.world 1000000000))).1 := ⟨_, rfl⟩
  have hs1' : (s0.step (ekfView c.par) c.sys (.pose 0 noTf junk (scanPose c.frames.world 1000000000))).2 = [] := by
    simp only [Sys.step]
    split
    · split <;> rfl
    · rfl
  have hm : Sent.odom 1000000000 (some m) ∈ (s1.cycle (ekfView c.par) c.sys 1000000000 1000000000 noTf).2 := by
    have hm : _ ∈ (s0.step (ekfView c.par) c.sys (.pose 0 noTf junk (scanPose c.frames.world 1000000000))).2 ++
      ((((s0.step (ekfView c.par) c.sys (.pose 0 noTf junk (scanPose c.frames.world 1000000000))).1).cycle (ekfView c.par) c.sys
        1000000000 1000000000 noTf).2 ++ []) := hm
    rw [hs1', ← hs1, List.nil_append, List.append_nil] at hm
    exact hm
  obtain ⟨ho1, ho2⟩ := cycle_odoms _ _ _ _ _ _ _ _ hm
  obtain ⟨s2, hs2⟩ : ∃ s2, s2 = (s1.cycle (ekfView c.par) c.sys 1000000000 1000000000 noTf).1 := ⟨_, rfl⟩
  rw [← hs2] at ho2
  obtain ⟨n1, n2, n3, n4, n5, e1, e2, e3, e4, e4', hgood, e5, pos, cov, e6⟩ :=
    nav_mated c.frames.world c.frames.baseOut m.heard m1 m2
  -- the states
  have d1 : (Duo.step (ekfView c.par) c.sys eastCfg { sys := s0, nav := some Nav.demoInit, odoms := [], gps := [] }
      (.filter (.pose 0 noTf junk (scanPose c.frames.world 1000000000)))).1 = { sys := s1, nav := some Nav.demoInit, odoms := [], gps := [] } := by
    show Duo.mk _ _ ([] ++ odomsOf _) _ = _
    rw [hs1', hs1]
    rfl
  have d2 : (Duo.step (ekfView c.par) c.sys eastCfg { sys := s1, nav := some Nav.demoInit, odoms := [], gps := [] }
      (.filter (.tick 1000000000 1000000000 noTf))).1 = { sys := s2, nav := some Nav.demoInit, odoms := [m], gps := [] } := by
    show Duo.mk (s1.cycle _ _ _ _ _).1 _ ([] ++ odomsOf (s1.cycle _ _ _ _ _).2) _ = _
    rw [ho1, ← hs2]
    rfl
  have d3 : (Duo.step (ekfView c.par) c.sys eastCfg { sys := s2, nav := some Nav.demoInit, odoms := [m], gps := [] }
      (.toNav (mast c.frames.baseOut) 0)).1 = { sys := s2, nav := some n1, odoms := [m], gps := [] } := by
    have := duo_nav (ekfView c.par) c.sys s2 _ _ [m] [] _ (congrArg Nav.Res.st e1)
    rw [e1] at this
    exact this
  have d4 := duo_nav (ekfView c.par) c.sys s2 _ _ [m] [] _ (congrArg Nav.Res.st e2)
  have d5 := duo_nav (ekfView c.par) c.sys s2 _ _ [m] [] _ (congrArg Nav.Res.st e3)
  have d6 := duo_nav (ekfView c.par) c.sys s2 _ _ [m] [] _ e4
  have d7 := duo_nav (ekfView c.par) c.sys s2 _ _ [m] [] _ (congrArg Nav.Res.st e5)
  rw [e2] at d4
  rw [e3] at d5
  rw [e4'] at d6
  rw [e5] at d7
  change _ = Duo.mk s2 (some n2) [m] [] at d4
  change _ = Duo.mk s2 (some n3) [m] [] at d5
  change _ = Duo.mk s2 (some n4) [m] [] at d6
  change _ = Duo.mk s2 (some n5) [m] [] at d7
  obtain ⟨last, d8⟩ : ∃ last, (Duo.step (ekfView c.par) c.sys eastCfg { sys := s2, nav := some n5, odoms := [m], gps := [] }
      (.nav (.timer (mast c.frames.baseOut)))).1 =
      { sys := s2, nav := last, odoms := [m], gps := [gpsMessage pos cov 2000000000 c.frames.world] } := by
    refine ⟨(navStep n5 (.timer (mast c.frames.baseOut))).st, ?_⟩
    show Duo.mk s2 _ [m] ([] ++ gpsOf (navStep n5 (.timer (mast c.frames.baseOut))).outs) = _
    rw [e6]
    rfl
  have still : (eastward c.frames.world c.frames.baseOut).Still 1000000000 := ⟨rfl, rfl, rfl⟩
  constructor
  · unfold matedRun
    simp only [Duo.filterEvents]
    rw [d1, d2, d3, d4, d5, d6, d7, d8]
    show 0 ≤ (1000000000 : Int) ∧ 0 ≤ (1000000000 : Int) ∧ (1000000000 : Int) ≤ 1000000000 ∧ (1000000000 : Int) ≤ 2000000000 ∧
      (1000000000 : Int) ≤ 2000000000 ∧ (2000000000 : Int) ≤ 2000000000 ∧ True
    norm_num
  · unfold matedRun
    simp only [Duo.Holds]
    rw [d1, d2, d3, d4, d5, d6, d7, d8]
    refine ⟨⟨noTf_sane, fun set hset => ?_⟩, trivial, ⟨mast_sane _, ?_⟩, ?_, ?_, ?_, ?_, ?_, ⟨noTf_sane, ?_⟩, trivial, trivial⟩
    · rw [hi2] at hset
      injection hset with hset
      subst hset
      have sel : ∀ j : Fin 15, Selects scanner.par.config j.val ↔ j.val < 6 := by
        intro j
        fin_cases j <;> simp [Selects, scanner]
      refine ⟨rfl, fun _ => ⟨⟨rfl, rfl⟩, Or.inl (driven_tells c.frames 1000000000), ?_⟩⟩
      intro _ x0 hx0 i hi
      have hx0 : (some c.initial : Option State) = some x0 := by
        rw [← hx0, hs0]
        rfl
      injection hx0 with hx0
      have h6 : 6 ≤ i.val := by
        by_contra hlt
        exact hi ⟨rfl, by omega, (sel i).2 (by omega)⟩
      have : ahead.vec i = (drive (scanPose c.frames.world 1000000000).stamp).vec i := by
        rw [drive_eq]
        obtain ⟨i, hlt⟩ := i
        change 6 ≤ i at h6
        interval_cases i <;> rfl
      rw [← hx0, hx, this]
      exact SameVal.rfl' _ _
    · intro t m' _ hk _ _
      have hk : some m = some m' := hk
      injection hk with hk
      rw [← hk, m3]
      exact still
    · intro t _
      exact ⟨rfl, fun x _ hx => ⟨(Option.some.inj hx).symm, fun _ _ => still⟩⟩
    · intro t _ _ _
      refine ⟨(mast_sane _).rot, (mast_sane _).self, rfl, 0, ?_, eastward_bearing _ _⟩
      rw [rot_zero]
      exact one
    · intro t _
      exact ⟨(mast_sane _).rot, (mast_sane _).self, mast_antenna _ _, fun _ _ => mast_turn _ _ _⟩
    · intro t ht
      injection ht with ht
      subst ht
      exact ⟨rfl, fun x _ hx => ⟨(Option.some.inj hx).symm, fun hn => by rw [hgood] at hn; cases hn⟩⟩
    · intro t _
      exact ⟨(mast_sane _).rot, (mast_sane _).self, mast_antenna _ _, fun _ _ => mast_turn _ _ _⟩
    · intro m' set _ hset
      rw [hi1] at hset
      injection hset with hset
      subst hset
      refine ⟨⟨rfl, rfl, rfl, rfl, fun j h3 => ?_⟩, fun hn => ?_⟩
      · fin_cases j <;> simp [Selects, mate] at h3 ⊢
      · rw [ho2] at hn
        cases hn

/-- The state of `navsat_transform` when it starts with the parameter `wait_for_datum`. -/
noncomputable def awaiting : Nav.St :=
  { Nav.demoInit with manual := true, datum := { lat := 1, lon := 3, alt := 0, ori := ⟨0, 0, 0, 1⟩ }, imuSub := false }

theorem awaiting_initial (p : Nav.Par) : awaiting.Initial p true := by
  constructor <;> simp [awaiting, Nav.demoInit]

/-- `navsat_transform` keeps a datum it has been given, unless the zone is set by hand. -/
theorem step_manual {g : Nav.Geo} {p : Nav.Par} {bc ap : Bool} {s s' : Nav.St} (h : s.manual = true) (e : Nav.Ev) (he : ∀ z, e ≠ .setZone z)
    (hs : (Nav.step g p bc ap s e).st = some s') : s'.manual = true := by
  cases e with
  | fix m =>
    simp only [Nav.step, Nav.St.fix] at hs
    split at hs
    · split at hs
      · rename_i hc
        simp [h] at hc
      · obtain ⟨_, -, rfl⟩ := Option.map_eq_some_iff.1 hs
        exact h
    · cases hs
      exact h
  | imu buf m =>
    simp only [Nav.step, Option.some.injEq] at hs
    subst hs
    split
    · exact (Nav.imu_same _ _ _).manual.trans h
    · exact h
  | odom buf m =>
    simp only [Nav.step, Option.some.injEq] at hs
    subst hs
    unfold Nav.St.odom
    show (if s.good = true then _ else _ : Nav.St).manual = true
    split
    · exact h
    · exact (Nav.setTransformOdometry_same _ _ _ _).1.manual.trans h
  | timer buf =>
    rcases Nav.timer_cases g buf p bc ap s s' hs with ⟨-, c1, c2, gu, ou, e⟩ | ⟨-, i, e⟩
    · rw [e]
      exact h
    · obtain ⟨s1, hs1, ⟨-, e1⟩ | ⟨-, -, -, -, e1⟩⟩ := Nav.computeTransform_cases g buf p s <;> rw [e, e1] <;>
        show s1.manual = true <;> rw [hs1] <;> split
      · exact (Nav.setManualDatum_same _ _ _ _).manual.trans h
      · exact h
      · exact (Nav.setManualDatum_same _ _ _ _).manual.trans h
      · exact h
  | datum d =>
    simp only [Nav.step, Option.some.injEq] at hs
    subst hs
    rfl
  | toLL v =>
    obtain ⟨_, -, rfl⟩ := Option.map_eq_some_iff.1 hs
    exact h
  | fromLL lat lon alt =>
    obtain ⟨_, -, rfl⟩ := Option.map_eq_some_iff.1 hs
    exact h
  | setZone z => exact absurd rfl (he z)

/-- `navsat_transform` has a datum. -/
def Duo.Marked {C : Core} {P : MQueue C} (s : Duo C P) : Prop := ∀ t, s.nav = some t → t.manual = true

theorem Duo.Marked.step {C : Core} {P : MQueue C} {V : View C} {g : SysCfg C} {n : NavCfg} {s : Duo C P} (h : s.Marked) (e : Duo.Ev)
    (he : ∀ z, e ≠ .nav (.setZone z)) : (s.step V g n e).1.Marked := by
  have hn : ∀ e, (∀ z, e ≠ .setZone z) → (s.stepNav n e).1.Marked := by
    intro e he
    unfold Duo.stepNav
    cases ht : s.nav with
    | none => exact h
    | some t => exact fun t' h' => step_manual (h t ht) e he h'
  cases e with
  | filter e => exact h
  | nav e => exact hn e fun z hz => he z (by rw [hz])
  | toNav buf k =>
    unfold Duo.step
    simp only
    split
    · exact hn _ (by simp)
    · exact h
  | toFilter i buf junk k =>
    unfold Duo.step
    simp only
    split <;> exact h

/-- The datum is the origin of the world of `eastward`. -/
theorem eastward_marks (world base : String) : (eastward world base).Marks Nav.plain (Nav.demoPar false true false) awaiting.datum := by
  refine ⟨_, 0, Nav.plain_forward 1 3 (by norm_num) (by norm_num) (by norm_num) (by norm_num), ?_, ?_, by simp, ?_, ?_⟩
  · show (1 : M3).mulVec _ + _ = _
    rw [one_mulVec]
    funext i
    fin_cases i <;> norm_num [eastward, awaiting]
  · rw [rot_zero]
    exact Nav.quat_one
  · show (1 : M3) = _
    ext i j
    fin_cases i <;> fin_cases j <;> simp [Nav.demoPar, rotZ]
  · intro u0 hu0
    obtain rfl := Option.some.inj (hu0.symm.trans (eastward_sees world base _ (by norm_num [eastward, toSec])))
    exact ⟨rfl, rfl⟩

/-- A robot that never stands: `navsat_transform` starts with a datum. -/
noncomputable def markedRun (world base : String) (junk : State) : List Duo.Ev :=
  [.filter (.pose 0 noTf junk (scanPose world 1000000000)), .filter (.tick 1000000000 1000000000 noTf), .toNav (mast base) 0,
   .nav (.timer (mast base)), .nav (.fix (eastFix world base 2000000000)), .nav (.timer (mast base)),
   .nav (.fix (eastFix world base 3000000000)), .nav (.timer (mast base))]

/-- The hypotheses of `C121_timely` with a datum. -/
example (junk : State) (d : Differ) : ∃ c, loadNode matedParams = some c ∧ ¬ matedParams.On "use_control" ∧ c.frames.world ≠ "" ∧
    c.frames.base ≠ "" ∧ Follows drive ∧ (∀ t, HeadUp (drive t)) ∧ eastCfg.geo.Lawful ∧
    (eastward c.frames.world c.frames.baseOut).Real eastCfg.geo ∧ awaiting.Initial eastCfg.par true ∧
    (eastward c.frames.world c.frames.baseOut).Marks eastCfg.geo eastCfg.par awaiting.datum ∧
    ¬ (eastward c.frames.world c.frames.baseOut).Still 2000000000 ∧
    Timely 0 (Duo.filterEvents (ekfView c.par) c.sys eastCfg
      { sys := Sys.start c.sys (demoQ c.par) () (0 : Fin 6 → ℝ) 0 d, nav := some awaiting, odoms := [], gps := [] }
      (markedRun c.frames.world c.frames.baseOut junk)) ∧
    Duo.Holds (ekfView c.par) c.sys eastCfg (TrueWorld c eastCfg (eastward c.frames.world c.frames.baseOut))
      { sys := Sys.start c.sys (demoQ c.par) () (0 : Fin 6 → ℝ) 0 d, nav := some awaiting, odoms := [], gps := [] }
      (markedRun c.frames.world c.frames.baseOut junk) := by
  obtain ⟨c, h⟩ := mated_starts
  have doc := C102_settings_partial h
  have off : ∀ n, matedParams n = none → ¬ matedParams.On n := fun n h => by simp [Nav.Given.On, h]
  have ho : c.frames.odom = "odom" := by
    rcases doc.frames.odom with h | ⟨-, h⟩
    · simp [matedParams] at h
    · exact h
  have hw : c.frames.world = "odom" := by
    rcases doc.frames.world with h | ⟨-, h⟩
    · simp [matedParams] at h
    · rw [h, ho]
  have hb : c.frames.base = "base_link" := by
    rcases doc.frames.base with h | ⟨-, h⟩
    · simp [matedParams] at h
    · exact h
  have hx : c.initial = ahead.vec := doc.initial ahead.vec (by simp [matedParams])
  obtain ⟨hi1, hi2⟩ := mated_inputs h
  have hww : c.frames.world ≠ "" := by rw [hw]; decide
  refine ⟨c, h, off _ (by simp [matedParams]), hww, by rw [hb]; decide, C97_straight ahead rfl, ?_, Nav.plain_lawful,
    eastward_real _ _, awaiting_initial _, eastward_marks _ _, ?_, ?_, ?_⟩
  · intro t
    unfold HeadUp
    rw [drive_eq]
    simp
  · intro hs
    have := congrFun hs.1 0
    have : (drive 2000000000).pos 0 = (drive 1000000000).pos 0 := this
    rw [drive_eq, drive_eq] at this
    norm_num [toSec] at this
  · show 0 ≤ (1000000000 : Int) ∧ 0 ≤ (1000000000 : Int) ∧ (1000000000 : Int) ≤ 1000000000 ∧ True
    norm_num
  · have h0 : Duo.Marked (C := ekfCore c.par) (P := demoQ c.par)
        { sys := Sys.start c.sys (demoQ c.par) () (0 : Fin 6 → ℝ) 0 d, nav := some awaiting, odoms := [], gps := [] } := by
      intro t ht
      cases ht
      rfl
    have no : ∀ {s : Duo (ekfCore c.par) (demoQ c.par)} {t : Nav.St}, s.Marked → s.nav = some t → t.manual = false → False :=
      fun hs ht hn => absurd ((hs _ ht).symm.trans hn) (by decide)
    have fix : ∀ (s : Duo (ekfCore c.par) (demoQ c.par)) k, s.Marked → TrueWorld c eastCfg (eastward c.frames.world c.frames.baseOut) s
        (.nav (.fix (eastFix c.frames.world c.frames.baseOut k))) := fun s k hs t ht =>
      ⟨rfl, fun x _ hx => ⟨(Option.some.inj hx).symm, fun _ hn => (no hs ht hn).elim⟩⟩
    have tim : ∀ s : Duo (ekfCore c.par) (demoQ c.par), TrueWorld c eastCfg (eastward c.frames.world c.frames.baseOut) s
        (.nav (.timer (mast c.frames.baseOut))) := fun s t _ =>
      ⟨(mast_sane _).rot, (mast_sane _).self, mast_antenna _ _, fun _ _ => mast_turn _ _ _⟩
    refine ⟨⟨noTf_sane, fun set hset => ?_⟩, trivial, ⟨mast_sane _, fun t m ht _ _ hn => ?_⟩, tim _, fix _ _ ?_, tim _, fix _ _ ?_, tim _,
      trivial⟩
    · rw [hi2] at hset
      injection hset with hset
      subst hset
      have sel : ∀ j : Fin 15, Selects scanner.par.config j.val ↔ j.val < 6 := by
        intro j
        fin_cases j <;> simp [Selects, scanner]
      refine ⟨rfl, fun _ => ⟨⟨rfl, rfl⟩, Or.inl (driven_tells c.frames 1000000000), ?_⟩⟩
      intro _ x0 hx0 i hi
      have hx0 : (some c.initial : Option State) = some x0 := hx0
      injection hx0 with hx0
      have h6 : 6 ≤ i.val := by
        by_contra hlt
        exact hi ⟨rfl, by omega, (sel i).2 (by omega)⟩
      have : ahead.vec i = (drive (scanPose c.frames.world 1000000000).stamp).vec i := by
        rw [drive_eq]
        obtain ⟨i, hlt⟩ := i
        change 6 ≤ i at h6
        interval_cases i <;> rfl
      rw [← hx0, hx, this]
      exact SameVal.rfl' _ _
    · exact (no ((h0.step _ (by simp)).step _ (by simp)) ht hn).elim
    · exact (((h0.step _ (by simp)).step _ (by simp)).step _ (by simp)).step _ (by simp)
    · exact (((((h0.step _ (by simp)).step _ (by simp)).step _ (by simp)).step _ (by simp)).step _ (by simp)).step _ (by simp)

/-- The same robot, leaving at the first nanosecond; the antenna is on the robot. -/
noncomputable def rolling : Nav.Scene :=
  { motion := fun t => drive (t - 1), toWorld := { rot := 1, org := ![-500000, -110000, 0] }, off := 0
    place := fun t => open Classical in if 0 ≤ toSec (t - 1) ∧ toSec (t - 1) ≤ 1000 then (1, 3 + toSec (t - 1) / 110000, 0) else (100, 0, 0)
    t0 := 1, world := "map", base := "base", antenna := "gps" }

theorem rolling_sees (t : Int) (h : 0 ≤ toSec (t - 1) ∧ toSec (t - 1) ≤ 1000) :
    rolling.Sees Nav.plain t { zone := 31, north := true, x := 500000 + toSec (t - 1), y := 110000, conv := 0 } := by
  unfold Nav.Scene.Sees
  rw [show rolling.place t = (1, 3 + toSec (t - 1) / 110000, 0) from if_pos h]
  rw [Nav.plain_forward 1 (3 + toSec (t - 1) / 110000) (by norm_num) (by norm_num) (by linarith [h.1]) (by linarith [h.2])]
  congr 2
  · ring
  · norm_num

theorem rolling_real : rolling.Real Nav.plain where
  turned := ⟨0, by
    ext i j
    fin_cases i <;> fin_cases j <;> simp [rolling, rotZ]⟩
  antenna := by
    intro t u hu
    by_cases h : 0 ≤ toSec (t - 1) ∧ toSec (t - 1) ≤ 1000
    · obtain rfl := Option.some.inj (hu.symm.trans (rolling_sees t h))
      rw [show rolling.place t = (1, 3 + toSec (t - 1) / 110000, 0) from if_pos h]
      show (1 : M3).mulVec _ + _ = (rot (drive (t - 1)).eul).mulVec _ + (drive (t - 1)).pos
      rw [drive_eq]
      show (1 : M3).mulVec _ + _ = (rot 0).mulVec _ + _
      rw [rot_zero, one_mulVec, one_mulVec]
      funext i
      fin_cases i <;> simp [rolling]
    · have hp : rolling.place t = (100, 0, 0) := if_neg h
      unfold Nav.Scene.Sees at hu
      rw [hp] at hu
      unfold Nav.Geo.forward at hu
      simp only at hu
      rw [if_pos (Or.inl (by norm_num))] at hu
      cases hu

/-- C121 is false of a robot that does not stand when `navsat_transform` starts: every message is true (the pose at its stamp,
the heading, the place at its stamp), but the pose and the place are of different times, and the transform is wrong by what
the robot has driven in between. -/
theorem C121_rolling : rolling.Real Nav.plain ∧ Follows rolling.motion ∧
    Nav.demoInit.Initial (Nav.demoPar false true false) false ∧
    (∃ lat lon alt, rolling.place 3 = (lat, lon, alt) ∧ ∃ s,
      (Nav.run Nav.plain (Nav.demoPar false true false) true false Nav.demoInit
        [.odom Nav.demoBuf (Nav.demoOdom 1 (rolling.motion 1).pos ⟨0, 0, 0, 1⟩),
         .imu Nav.demoBuf { frame := "imu", stamp := 2, ori := ⟨0, 0, 0, 1⟩ }, .fix (Nav.demoFix 3 lat lon alt),
         .timer Nav.demoBuf]).st = some s ∧ s.good = true ∧ s.cw ≠ rolling.toWorld) := by
  refine ⟨rolling_real, ?_, Nav.demoInit_initial _ _ _, 1, 3 + toSec 2 / 110000, 0, if_pos (by norm_num [toSec]), ?_⟩
  · intro t d
    have := C97_straight ahead rfl (t - 1) d
    rwa [show t - 1 + d = t + d - 1 by ring] at this
  have hu := rolling_sees 3 (by norm_num [toSec])
  obtain ⟨s, h1, h2, -, -, -, -, -, -, h3, -, -, -, h4, -⟩ := Nav.demo_run Nav.plain (Nav.demoPar false true false) rfl rfl rfl true false
    1 (3 + toSec 2 / 110000) 0 _ (by
      unfold Nav.Scene.Sees at hu
      rw [show rolling.place 3 = (1, 3 + toSec 2 / 110000, 0) from if_pos (by norm_num [toSec])] at hu
      exact hu) rfl
  refine ⟨s, ?_, h2, ?_⟩
  · have e : (rolling.motion 1).pos = 0 := by
      show (drive (1 - 1)).pos = 0
      rw [drive_eq]
      funext i
      fin_cases i <;> simp [toSec]
    rw [e]
    exact h1
  · intro h
    have := congrFun (congrArg Tf.org (h3.symm.trans h)) 0
    rw [(h4 rfl).1] at this
    norm_num [rolling, toSec] at this

end RL
