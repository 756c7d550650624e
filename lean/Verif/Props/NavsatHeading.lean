import Verif.Props.NavsatMap
import Verif.Props.NavsatStart
import Mathlib.Analysis.Calculus.Deriv.Prod
/-!
# Properties C51, C73, C78: examples, the direction of the correction, and where old headings are used
-/

namespace RL.Nav
open Matrix Real

/-- The robot of the example drives off along its heading: the mapped position follows. -/
theorem hasDerivAt_apply (t : Tf) {x : ℝ → V3} {v : V3} {a : ℝ} (h : HasDerivAt x v a) :
    HasDerivAt (fun b => t.apply (x b)) (t.rot.mulVec v) a := by
  rw [hasDerivAt_pi] at h ⊢
  intro i
  simp only [Tf.apply, mulVec, dotProduct, Pi.add_apply]
  exact (HasDerivAt.fun_sum fun j _ => (h j).const_mul (t.rot i j)).add_const _

/-- **C78**.  `ψ` is the true heading, counterclockwise from east: the heading of the IMU corrected for declination and offset.
A robot that drives along it with speed `v` has in the projection a velocity turned by the meridian convergence `γ`
(GeographicLib: the bearing of grid north, so true directions are turned counterclockwise by it) and scaled by `k`.  In
the map the fixes then move along the heading of the odometry. -/
theorem C78_direction (g : Geo) (p : Par) (bc ap : Bool) (s s' : St) (buf : TfBuffer) (hm : s.manual = false) (hng : s.good = false)
    (hs : (step g p bc ap s (.timer buf)).st = some s') (hg : s'.good = true) (hq : IsRot s.start.rot)
    (x : ℝ → V3) (a k v ψ γ : ℝ) (hγ : s.conv = γ) (hψ : ψ = getRPY s.orient.mat 2 + p.declination + p.yawOffset)
    (hx : HasDerivAt x ![k * (cos γ * (v * cos ψ) - sin γ * (v * sin ψ)), k * (sin γ * (v * cos ψ) + cos γ * (v * sin ψ)), 0] a) :
    HasDerivAt (fun b => s'.cw.apply (x b)) ![k * v * cos (getRPY s.start.rot 2), k * v * sin (getRPY s.start.rot 2), 0] a := by
  obtain ⟨off, -, -, -, h2, -, -⟩ := C51_start g p bc ap s s' buf hm hng hs hg hq
  rw [hγ, ← hψ] at h2
  have h := hasDerivAt_apply s'.cw hx
  have e : (![k * (cos γ * (v * cos ψ) - sin γ * (v * sin ψ)), k * (sin γ * (v * cos ψ) + cos γ * (v * sin ψ)), 0] : V3) =
      (k * v) • ![cos (ψ + γ), sin (ψ + γ), 0] := by
    ext i
    fin_cases i
    · simp [cos_add]
      ring
    · simp [sin_add]
      ring
    · simp
  rw [e, mulVec_smul, h2] at h
  have e2 : ((k * v) • ![cos (getRPY s.start.rot 2), sin (getRPY s.start.rot 2), 0] : V3) =
      ![k * v * cos (getRPY s.start.rot 2), k * v * sin (getRPY s.start.rot 2), 0] := by
    ext i
    fin_cases i <;> simp
  rwa [e2] at h

/-- **C78**: the convergence is that of the place of the last fix, taken in radians. -/
theorem C78_convergence {g : Geo} (p : Par) (hu : p.useLocal = false) (bc ap : Bool) {s0 : St} (hg : g.Lawful) (hi : s0.Initial p false) (es1 es2 : List Ev)
    (m : FixMsg) (lat lon alt : ℝ) (hm : m.fix = true) (hp : m.pos = some (lat, lon, alt))
    (he1 : ∀ e ∈ es1, Plain e) (he2 : ∀ e ∈ es2, Plain e ∧ ∀ m, e = .fix m → ¬Usable m)
    {s : St} (hr : (run g p bc ap s0 (es1 ++ .fix m :: es2)).st = some s) (hng : s.good = false) :
    s.conv * (180 / π) = g.conv (g.standard lat lon) lat lon := by
  obtain ⟨-, u, hf, h, -⟩ := C73_last_fix_partial hg p bc ap hi es1 es2 m lat lon alt hm hp he1 he2 hr hng
  obtain ⟨-, h2, -⟩ := h hu
  have hc : u.conv = g.conv (g.standard lat lon) lat lon := by
    obtain ⟨h1, -, -, -, h, -⟩ := forward_some hf
    rw [if_pos rfl] at h1
    rw [h, h1]
  rw [h2, hc]
  field_simp

/-! ## Old headings -/

theorem step_imuSub (g : Geo) (p : Par) (bc ap : Bool) (s : St) (e : Ev) (s' : St) (h : (step g p bc ap s e).st = some s')
    (hn : s.imuSub = false) : s'.imuSub = false := by
  cases e with
  | fix m =>
    simp only [step, St.fix] at h
    split at h
    · rename_i lat lon alt hf hp
      simp only [Option.map_eq_some_iff] at h
      obtain ⟨u, -, rfl⟩ := h
      have hs := setTransformGps_same g p { s with gpsFrame := m.frame } lat lon alt
      split
      · exact hs.imuSub.trans hn
      · exact hn
    · simp only [Option.some.injEq] at h
      rw [← h]
      exact hn
  | imu buf m =>
    simp only [step, hn, Bool.false_eq_true, if_false, Option.some.injEq] at h
    rw [← h]
    exact hn
  | odom buf m =>
    simp only [step, St.odom, Option.some.injEq] at h
    rw [← h]
    simp only
    split
    · exact hn
    · exact (setTransformOdometry_same buf p { s with world := m.frame, base := m.child } m).1.imuSub.trans hn
  | timer buf =>
    rcases timer_cases g buf p bc ap s s' h with ⟨hg, c1, c2, gu, ou, rfl⟩ | ⟨hng, i, hs'⟩
    · exact hn
    · simp only [step, St.timer, hng, Bool.false_eq_true, if_false, Option.some.injEq] at h
      rw [← h]
      split
      · rfl
      · obtain ⟨s1, hs1, ⟨-, e⟩ | ⟨-, -, -, -, e⟩⟩ := computeTransform_cases g buf p s
        · rw [e, hs1]
          split
          · exact (setManualDatum_same g buf p s).imuSub.trans hn
          · exact hn
        · rw [e, hs1]
          simp only
          split
          · exact (setManualDatum_same g buf p s).imuSub.trans hn
          · exact hn
  | datum d =>
    simp only [step, Option.some.injEq] at h
    rw [← h]
    exact hn
  | toLL v =>
    simp only [step, Option.map_eq_some_iff] at h
    obtain ⟨-, -, rfl⟩ := h
    exact hn
  | fromLL lat lon alt =>
    simp only [step, Option.map_eq_some_iff] at h
    obtain ⟨-, -, rfl⟩ := h
    exact hn
  | setZone z =>
    cases z with
    | none => cases h
    | some z =>
      simp only [step, Option.some.injEq] at h
      rw [← h]
      exact hn

/-- Whether an event is a message of the IMU. -/
def Ev.isImu : Ev → Bool
  | .imu _ _ => true
  | _ => false

/-- **C73**, refuted in general: once the subscription to the IMU is gone, which is when the transform is first known, no
message of the IMU has any effect, not even when the zone is set anew and the transform has to be computed again. -/
theorem C73_imu_ignored (g : Geo) (p : Par) (bc ap : Bool) (s : St) (hn : s.imuSub = false) (es : List Ev) :
    run g p bc ap s es = run g p bc ap s (es.filter fun e => !e.isImu) := by
  induction es generalizing s with
  | nil => rfl
  | cons e es ih =>
    have hrec : ∀ s1, (step g p bc ap s e).st = some s1 → run g p bc ap s1 es = run g p bc ap s1 (es.filter fun e => !e.isImu) :=
      fun s1 h => ih s1 (step_imuSub g p bc ap s e s1 h hn)
    cases hb : e.isImu with
    | true =>
      rw [List.filter_cons_of_neg (by simp [hb])]
      cases e <;> simp only [Ev.isImu, Bool.false_eq_true] at hb
      rename_i buf m
      simp only [run, step, hn, Bool.false_eq_true, if_false, List.nil_append]
      exact ih s hn
    | false =>
      rw [List.filter_cons_of_pos (by simp [hb])]
      simp only [run]
      cases hs : (step g p bc ap s e).st with
      | none => rfl
      | some s1 =>
        simp only
        rw [hrec s1 hs]

/-- A robot that has driven ten metres and faces north at the end. -/
noncomputable def demoTurn : OdoMsg := demoOdom 4 ![10, 0, 0] (Quat.ofRPY 0 0 (π / 2))

noncomputable def demoTurnEvents : List Ev :=
  [.odom demoBuf demoTurn, .imu demoBuf { frame := "imu", stamp := 5, ori := Quat.ofRPY 0 0 (π / 2) },
   .setZone (some (31, true)), .fix (demoFix 6 48 3 100)]

theorem demo_turned (g : Geo) (p : Par) (hl : p.useLocal = false) (bc ap : Bool) {s : St} (hg : s.good = true) (hi : s.imuSub = false) (u : Utm)
    (hf : g.forward 48 3 (-1) = some u) (hf1 : g.forward 48 3 31 = some u) :
    ∃ s', (run g p bc ap s demoTurnEvents).st = some s' ∧ s'.good = false ∧ s'.hasGps = true ∧ s'.hasImu = s.hasImu ∧ s'.hasOdom = s.hasOdom ∧
      s'.manual = false ∧ s'.start = s.start ∧ s'.orient = s.orient ∧ s'.imuSub = false ∧ s'.conv = u.conv * (π / 180) := by
  have e1 : s.odom demoBuf p demoTurn = { s with world := "map", base := "base", lastOdom := demoTurn.pose, lastOdomCov := copyCov6 demoTurn.cov,
                                                  odomTime := 4, odomUpdated := true } := by
    unfold St.odom
    simp only [hg, if_true]
    rfl
  simp only [demoTurnEvents, run, step, e1, hi, Bool.false_eq_true, if_false, St.setZone]
  simp only [St.fix, demoFix, Bool.not_false, Bool.and_self, if_true, hf, Option.map_some]
  refine ⟨_, rfl, ?_⟩
  unfold St.setTransformGps
  have h31 : (((31 : Fin 61).val : ℕ) : Int) = 31 := rfl
  simp only [hl, Bool.false_eq_true, if_false, if_true, h31, hf1]
  exact ⟨trivial, trivial, trivial, trivial, trivial, trivial, trivial, trivial, trivial⟩

/-- **C73**, refuted: the robot has driven on and turned to the north, the zone is set anew and a fix arrives.  The transform
about to be computed takes the new fix, the old pose of the odometry and the old heading of the IMU. -/
theorem C73_zone_old_pose :
    ∃ s, (run plain (demoPar false false false) false false demoInit (demoEvents 48 3 100 ++ demoTurnEvents)).st = some s ∧
      s.good = false ∧ s.hasGps = true ∧ s.hasImu = true ∧ s.hasOdom = true ∧ s.manual = false ∧
      s.start ≠ demoTurn.pose ∧ s.orient.mat = 1 ∧ (Quat.ofRPY 0 0 (π / 2)).mat ≠ 1 := by
  have hf := plain_forward 48 3 (by norm_num) (by norm_num) (by norm_num) (by norm_num)
  have hf1 := plain_forward_31 48 3 (by norm_num) (by norm_num) (by norm_num) (by norm_num)
  obtain ⟨s1, hs, hg, -, -, -, -, -, hm, -, -, -, ⟨ho, hi, hodo, hsub, -, hst, -⟩, -⟩ := demo_run plain (demoPar false false false) rfl rfl rfl
    false false 48 3 100 _ hf rfl
  rw [run_join _ _ _ _ _ _ _ _ hs]
  obtain ⟨s2, h1, h2, h3, h4, h5, h6, h7, h8, -⟩ := demo_turned plain (demoPar false false false) rfl false false hg hsub _ hf
    (hf1.trans (by norm_num))
  refine ⟨s2, h1, h2, h3, h4.trans hi, h5.trans hodo, h6, ?_, ?_, ?_⟩
  · rw [h7, hst]
    intro h
    have := congrArg (fun t => t.org 0) h
    simp [OdoMsg.pose, demoTurn, demoOdom] at this
  · rw [h8, ho, quat_one]
  · rw [mat_yaw]
    intro h
    have := congrFun (congrFun h 0) 0
    simp [Body.rotZ] at this

/-- **C73**, refuted: an odometry message after the zone was set brings the pose up to date; the transform the timer then
computes still uses the old heading, and turns the map by a quarter turn against the projection although the robot
has the same heading in both. -/
theorem C73_zone_turned_map :
    ∃ s, (run plain (demoPar false false false) false false demoInit (demoEvents 48 3 100 ++ demoTurnEvents ++
        [.odom demoBuf demoTurn, .imu demoBuf { frame := "imu", stamp := 5, ori := Quat.ofRPY 0 0 (π / 2) }, .timer demoBuf])).st = some s ∧
      s.good = true ∧ s.cw.rot.mulVec ![1, 0, 0] = ![0, 1, 0] := by
  have hf := plain_forward 48 3 (by norm_num) (by norm_num) (by norm_num) (by norm_num)
  have hf1 := plain_forward_31 48 3 (by norm_num) (by norm_num) (by norm_num) (by norm_num)
  obtain ⟨s1, hs, hg, -, -, -, -, -, hm, -, -, -, ⟨ho, hi, hodo, hsub, -, hst, -⟩, -⟩ := demo_run plain (demoPar false false false) rfl rfl rfl
    false false 48 3 100 _ hf rfl
  obtain ⟨s2, h1, h2, h3, h4, h5, h6, h7, h8, h9, h10⟩ := demo_turned plain (demoPar false false false) rfl false false hg hsub _ hf
    (hf1.trans (by norm_num))
  rw [List.append_assoc, run_join _ _ _ _ _ _ _ _ hs, run_join _ _ _ _ _ _ _ _ h1]
  have e1 : s2.odom demoBuf (demoPar false false false) demoTurn =
      { s2 with world := "map", base := "base", start := demoTurn.pose, hasOdom := true, lastOdom := demoTurn.pose,
                lastOdomCov := copyCov6 demoTurn.cov, odomTime := 4, odomUpdated := true } := by
    unfold St.odom St.setTransformOdometry
    simp only [h2, Bool.false_eq_true, if_false, demoPar, Bool.and_false, Bool.false_and]
    rfl
  obtain ⟨s3, hs0⟩ : ∃ s3, s3 = s2.odom demoBuf (demoPar false false false) demoTurn := ⟨_, rfl⟩
  have hs3 := hs0.trans e1
  have hi3 : s3.imuSub = false := by rw [hs3]; exact h9
  simp only [run, step, ← hs0, hi3, Bool.false_eq_true, if_false]
  have hg3 : s3.good = false := by rw [hs3]; exact h2
  have hm3 : s3.manual = false := by rw [hs3]; exact h6
  have hrot : s3.start.rot = Body.rotZ (π / 2) := by
    rw [hs3]
    exact mat_yaw (π / 2)
  obtain ⟨s4, hs4⟩ : ∃ s4, (step plain (demoPar false false false) false false s3 (.timer demoBuf)).st = some s4 := by
    simp only [step, St.timer, hg3, Bool.false_eq_true, if_false]
    exact ⟨_, rfl⟩
  have hg4 : s4.good = true := by
    rcases timer_cases _ _ _ _ _ _ _ hs4 with ⟨h, -⟩ | ⟨-, i, rfl⟩
    · rw [hg3] at h
      cases h
    obtain ⟨s5, hs5, ⟨e, -⟩ | ⟨-, e0, -⟩⟩ := computeTransform_cases plain demoBuf (demoPar false false false) s3
    · rw [hm3] at hs5
      simp only [Bool.and_false, Bool.false_eq_true, if_false] at hs5
      rw [hs5, hg3, hs3] at e
      simp [h3, h4, hi] at e
    · exact e0
  obtain ⟨off, -, -, -, hd, -, -⟩ := C51_start plain (demoPar false false false) false false s3 s4 demoBuf hm3 hg3 hs4 hg4
    (by rw [hrot]; exact Listen.isRot_rotZ _)
  refine ⟨s4, ?_, hg4, ?_⟩
  · simp only [step] at hs4
    rw [hs4]
  · have ho3 : getRPY s3.orient.mat 2 = 0 := by
      have : s3.orient = ⟨0, 0, 0, 1⟩ := by
        rw [hs3]
        exact h8.trans ho
      rw [this, quat_one, getRPY_one]
      rfl
    have hc3 : s3.conv = 0 := by
      rw [hs3]
      exact h10.trans (by simp)
    have hy : getRPY s3.start.rot 2 = π / 2 := by
      rw [hrot, ← mat_yaw, mat_ofRPY, getRPY_setRPY _ _ _ (by linarith [pi_pos]) (by linarith [pi_pos])]
      exact (normalizeAngle_of_mem (by linarith [pi_pos]) (by linarith [pi_pos]))
    rw [ho3, hc3, hy] at hd
    simpa [demoPar] using hd

/-- **C73**, refuted: a message of the IMU whose transform is not available replaces the corrected heading by its own,
uncorrected. -/
theorem C73_uncorrected (p : Par) (g : Geo) (bc ap : Bool) (s : St) (buf : TfBuffer) (m : HeadingMsg) (ho : s.hasOdom = true) (hi : s.imuSub = true)
    (ht : lookupTransformSafe buf s.base m.frame m.stamp = none) :
    ∃ s', (step g p bc ap s (.imu buf m)).st = some s' ∧ s'.orient = m.ori ∧ s'.hasImu = s.hasImu := by
  simp only [step, hi, if_true, St.imu, ho]
  rw [ht]
  exact ⟨_, rfl, rfl, rfl⟩

/-! ## Examples -/

/-- C73, C78: a run with odometry, heading and fix before the timer. -/
example : ∃ s, (run plain (demoPar false false false) false false demoInit
      ([.odom demoBuf (demoOdom 1 0 ⟨0, 0, 0, 1⟩), .imu demoBuf { frame := "imu", stamp := 2, ori := ⟨0, 0, 0, 1⟩ }] ++
        .fix (demoFix 3 48 3 100) :: [])).st = some s ∧
    s.good = false ∧ s.hasGps = true ∧ s.cart = ![500000, 5280000, 100] ∧ demoInit.Initial (demoPar false false false) false ∧
    (∀ e ∈ ([.odom demoBuf (demoOdom 1 0 ⟨0, 0, 0, 1⟩), .imu demoBuf { frame := "imu", stamp := 2, ori := ⟨0, 0, 0, 1⟩ }] : List Ev), Plain e) := by
  have hf := plain_forward 48 3 (by norm_num) (by norm_num) (by norm_num) (by norm_num)
  have h := demo_ready plain (demoPar false false false) rfl false false 48 3 100 _ hf
  have hpl : ∀ e ∈ ([.odom demoBuf (demoOdom 1 0 ⟨0, 0, 0, 1⟩), .imu demoBuf { frame := "imu", stamp := 2, ori := ⟨0, 0, 0, 1⟩ }] : List Ev),
      Plain e := by
    intro e he
    simp only [List.mem_cons, List.not_mem_nil, or_false] at he
    rcases he with rfl | rfl <;> exact ⟨fun d => by simp, fun z => by simp⟩
  refine ⟨_, h, (setTransformGps_same _ _ _ _ _ _).good, ?_, ?_, demoInit_initial _ _ _, hpl⟩
  · exact (C73_last_fix_partial plain_lawful _ false false (demoInit_initial _ _ _) _ [] (demoFix 3 48 3 100) 48 3 100 rfl rfl hpl
      (by simp) h (setTransformGps_same _ _ _ _ _ _).good).1
  · obtain ⟨u, hu, h2, -⟩ := (C73_last_fix_partial plain_lawful _ false false (demoInit_initial _ _ _) _ [] (demoFix 3 48 3 100) 48 3 100 rfl rfl hpl
      (by simp) h (setTransformGps_same _ _ _ _ _ _).good).2
    rw [hf] at hu
    simp only [Option.some.injEq] at hu
    rw [(h2 rfl).1, ← hu]
    norm_num

theorem demo_sane : SaneBuf demoBuf := ⟨fun _ _ _ t h => by cases h; exact IsRot.one, fun _ _ t h => by cases h; rfl⟩

/-- C51, manual datum: on the earth, and not. -/
example : ∃ s, (run plain (demoPar false false false) false false demoInit (demoEvents 48 3 100 ++ [.datum ⟨47, 3, 100, ⟨0, 0, 0, 1⟩⟩])).st = some s ∧
    s.manual = true ∧ s.good = false ∧ s.hasOdom = true ∧ ∃ v, datumCoords plain (demoPar false false false) none 47 3 100 = some v ∧ v ≠ s.cart := by
  have hf := plain_forward 48 3 (by norm_num) (by norm_num) (by norm_num) (by norm_num)
  have hf2 := plain_forward 47 3 (by norm_num) (by norm_num) (by norm_num) (by norm_num)
  obtain ⟨s1, hs, hg, -, -, -, -, -, hm, -, -, -, ⟨ho, hi, hodo, hsub, -, hst, -⟩, hc, -⟩ := demo_run plain (demoPar false false false) rfl rfl rfl
    false false 48 3 100 _ hf rfl
  rw [run_join _ _ _ _ _ _ _ _ hs]
  simp only [run, step, St.setDatum]
  refine ⟨_, rfl, rfl, rfl, hodo, ![500000, 5170000, 100], ?_, ?_⟩
  · simp only [datumCoords, demoPar, Bool.false_eq_true, if_false, Option.getD_none, hf2, Option.map_some]
    norm_num
  · simp only [(hc rfl).1]
    intro h
    have := congrFun h 1
    norm_num at this

example : ∃ s, (run plain (demoPar false false false) false false demoInit (demoEvents 48 3 100 ++ [.datum ⟨91, 3, 100, ⟨0, 0, 0, 1⟩⟩])).st = some s ∧
    s.manual = true ∧ s.good = false ∧ s.hasOdom = true ∧ s.hasGps = true ∧ 90 < |s.datum.lat| := by
  have hf := plain_forward 48 3 (by norm_num) (by norm_num) (by norm_num) (by norm_num)
  obtain ⟨s1, hs, hg, -, -, -, -, -, hm, -, -, -, ⟨ho, hi, hodo, hsub, hgps, hst, -⟩, hc, -⟩ := demo_run plain (demoPar false false false) rfl rfl rfl
    false false 48 3 100 _ hf rfl
  rw [run_join _ _ _ _ _ _ _ _ hs]
  simp only [run, step, St.setDatum]
  refine ⟨_, rfl, rfl, rfl, hodo, hgps, ?_⟩
  norm_num [abs_of_pos]

/-- C73: a message without a transform, after the heading was known. -/
example : ∃ s : St, s.hasOdom = true ∧ s.imuSub = true ∧ s.hasImu = true ∧
    lookupTransformSafe (fun _ _ _ => none) s.base "imu" 7 = none ∧ s.orient ≠ Quat.ofRPY 0 0 π := by
  refine ⟨demoBefore, rfl, rfl, rfl, ?_, ?_⟩
  · rfl
  · intro h
    have := congrArg Quat.w h
    simp only [demoBefore, Quat.ofRPY, zero_mul, cos_zero, sin_zero, mul_one, mul_zero, add_zero] at this
    rw [show π * 0.5 = π / 2 by ring, cos_pi_div_two] at this
    norm_num at this

end RL.Nav
