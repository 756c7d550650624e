import Verif.Spec.NavsatDemo
import Mathlib.Analysis.Calculus.Deriv.Add
import Mathlib.Analysis.Calculus.Deriv.Mul
/-!
# Properties C51, C73, C78, C79: how the transform comes about
-/

namespace RL.Nav
open Matrix Real

theorem rotZ_dir (a b : ℝ) : (Body.rotZ a * (Body.rotZ b)ᵀ).mulVec ![cos b, sin b, 0] = ![cos a, sin a, 0] := by
  rw [rotZ_sub, rotZ_mulVec]
  have := sin_sq_add_cos_sq b
  ext i
  fin_cases i
  · simp [cos_sub, sin_sub]
    linear_combination cos a * this
  · simp [cos_sub, sin_sub]
    linear_combination sin a * this
  · simp

theorem start_apply (a b : Tf) (h : IsRot b.rot) : (a.mul b.inv).apply b.org = a.org := by
  simp only [Tf.apply, Tf.mul, Tf.inv]
  rw [mulVec_mulVec, mulVec_neg, ← add_assoc, add_neg_cancel, zero_add]

/-- **C51** without manual datum.  When the timer completes the transform, the position of the robot in the projection (the
antenna position less the antenna offset turned by the attitude of the robot) maps to the odometry position, and the
corrected heading maps to the heading of the odometry.  `off` is the antenna in the frame of the robot, zero if not known. -/
theorem C51_start (g : Geo) (p : Par) (bc ap : Bool) (s s' : St) (buf : TfBuffer) (hm : s.manual = false) (hng : s.good = false)
    (hs : (step g p bc ap s (.timer buf)).st = some s') (hg : s'.good = true) (hq : IsRot s.start.rot) :
    ∃ off : V3, (∀ t, lookupTransformSafe buf s.base s.gpsFrame 0 = some t → off = t.org) ∧
      (lookupTransformSafe buf s.base s.gpsFrame 0 = none → off = 0) ∧
      let rpy := getRPY s.orient.mat
      let h := rpy 2 + p.declination + p.yawOffset + s.conv
      s'.cw.apply (s.cart - (Body.rot ![rpy 0, rpy 1, h]).mulVec off) = s.start.org ∧
      s'.cw.rot.mulVec ![cos h, sin h, 0] = ![cos (getRPY s.start.rot 2), sin (getRPY s.start.rot 2), 0] ∧
      s'.cw.rot.mulVec ![0, 0, 1] = ![0, 0, 1] ∧ IsRot s'.cw.rot := by
  have hcw : s'.cw = ({ rot := (Quat.ofRPY 0 0 (getRPY (quatOf s.start.rot).mat 2)).mat, org := s.start.org } : Tf).mul
      ({ rot := (Quat.ofRPY 0 0 (s.heading p)).mat, org := s.robotOriginCartesian buf p s.cart } : Tf).inv := by
    rcases timer_cases g buf p bc ap s s' hs with ⟨h, -⟩ | ⟨-, i, rfl⟩
    · rw [hng] at h
      cases h
    · obtain ⟨s1, hs1, ⟨-, e⟩ | ⟨-, -, e, -, -⟩⟩ := computeTransform_cases g buf p s
      · rw [hm] at hs1
        simp only [Bool.and_false, Bool.false_eq_true, if_false] at hs1
        rw [hs1] at e
        simp only [e] at hg
        rw [hng] at hg
        cases hg
      · rw [hm] at hs1
        simp only [Bool.and_false, Bool.false_eq_true, if_false] at hs1
        subst hs1
        rw [hm] at e
        simpa using e
  have hh : s.heading p = getRPY s.orient.mat 2 + p.declination + p.yawOffset + s.conv := by
    unfold St.heading
    ring
  have hrot : IsRot (Quat.ofRPY 0 0 (s.heading p)).mat := by
    rw [mat_yaw]
    exact Listen.isRot_rotZ _
  have hsq : (quatOf s.start.rot).mat = s.start.rot := (C43_matrix_to_quaternion hq).2
  have hrob : ∀ off : V3, (∀ t, lookupTransformSafe buf s.base s.gpsFrame 0 = some t → off = t.org) →
      (lookupTransformSafe buf s.base s.gpsFrame 0 = none → off = 0) →
      s.robotOriginCartesian buf p s.cart =
        s.cart - (Body.rot ![getRPY s.orient.mat 0, getRPY s.orient.mat 1, s.heading p]).mulVec off := by
    intro off h1 h2
    unfold St.robotOriginCartesian
    cases hl : lookupTransformSafe buf s.base s.gpsFrame 0 with
    | none => simp [h2 hl]
    | some t =>
      simp only
      rw [h1 t hl, mat_ofRPY, setRPY_eq]
      simp [Tf.apply, Tf.inv, sub_eq_add_neg]
  refine ⟨((lookupTransformSafe buf s.base s.gpsFrame 0).map Tf.org).getD 0, fun t ht => by rw [ht]; rfl, fun h => by rw [h]; rfl, ?_⟩
  simp only
  rw [← hh]
  refine ⟨?_, ?_, ?_, ?_⟩
  · rw [← hrob _ (fun t ht => by rw [ht]; rfl) (fun h => by rw [h]; rfl), hcw]
    exact start_apply { rot := (Quat.ofRPY 0 0 (getRPY (quatOf s.start.rot).mat 2)).mat, org := s.start.org }
      { rot := (Quat.ofRPY 0 0 (s.heading p)).mat, org := s.robotOriginCartesian buf p s.cart } hrot
  · rw [hcw]
    simp only [Tf.mul, Tf.inv, mat_yaw]
    rw [hsq]
    exact rotZ_dir _ _
  · rw [hcw]
    simp only [Tf.mul, Tf.inv, mat_yaw, rotZ_sub, rotZ_mulVec]
    simp
  · rw [hcw]
    simp only [Tf.mul, Tf.inv, mat_yaw, rotZ_sub]
    exact Listen.isRot_rotZ _

/-- The coordinates of a place that is made the datum. -/
noncomputable def datumCoords (g : Geo) (p : Par) (forced : Option Int) (lat lon alt : ℝ) : Option V3 :=
  if p.useLocal then some ![0, 0, alt] else (g.forward lat lon (forced.getD (-1))).map fun u => ![u.x, u.y, alt]

theorem setTransformGps_coords {g : Geo} (hg : g.Lawful) (p : Par) (s : St) (lat lon alt : ℝ) :
    (∀ v, datumCoords g p (if s.forceUtm then some s.zone else none) lat lon alt = some v →
      (s.setTransformGps g p lat lon alt).cart = v ∧ (s.setTransformGps g p lat lon alt).hasGps = true) ∧
    (datumCoords g p (if s.forceUtm then some s.zone else none) lat lon alt = none → s.setTransformGps g p lat lon alt = s) := by
  unfold datumCoords St.setTransformGps
  by_cases hl : p.useLocal = true
  · simp [hl, hg.enu_origin]
  · have e : (if s.forceUtm then some s.zone else none).getD (-1) = if s.forceUtm then s.zone else -1 := by
      split <;> rfl
    rw [e]
    simp only [hl, Bool.false_eq_true, if_false]
    cases g.forward lat lon (if s.forceUtm = true then s.zone else -1) with
    | none => simp
    | some u => simp

/-- The IMU message made up from a manual datum, and any other in the frame of the robot itself, is taken over. -/
theorem imu_self {buf : TfBuffer} (hb : SaneBuf buf) (s : St) (ho : s.hasOdom = true) (t : Int) (q : Quat) :
    (s.imu buf { frame := s.base, stamp := t, ori := q }).hasImu = true ∧
    (s.imu buf { frame := s.base, stamp := t, ori := q }).orient = Quat.ofRPY (quatToRPY q 0) (quatToRPY q 1) (quatToRPY q 2) := by
  unfold St.imu
  rw [if_pos ho, hb.lookup_self]
  have q1 : quatToRPY (quatOf Tf.id.rot) = ![0, 0, 0] := by
    show getRPY (quatOf (1 : M3)).mat = _
    rw [(C43_matrix_to_quaternion IsRot.one).2, getRPY_one]
  refine ⟨rfl, ?_⟩
  simp only [q1]
  have n : ∀ i, normalizeAngle (quatToRPY q i - 0) = quatToRPY q i := by
    intro i
    rw [sub_zero]
    exact normalizeAngle_getRPY q.mat i
  have n0 := n 0
  have n1 := n 1
  have n2 := n 2
  simp only [cons_val_zero, cons_val_one, cons_val, setRPY_zero, one_mulVec, n0, n1, n2]

/-- What `setManualDatum` achieves. -/
theorem setManualDatum_eq {g : Geo} (hg : g.Lawful) {buf : TfBuffer} (hb : SaneBuf buf) (p : Par) (s : St) (hm : s.manual = true) :
    (s.setManualDatum g buf p).hasImu = true ∧ (s.setManualDatum g buf p).hasOdom = true ∧
    (s.setManualDatum g buf p).orient = Quat.ofRPY (quatToRPY s.datum.ori 0) (quatToRPY s.datum.ori 1) (quatToRPY s.datum.ori 2) ∧
    (s.setManualDatum g buf p).start = { rot := 1, org := 0 } ∧
    (∀ v, datumCoords g p (if s.forceUtm then some s.zone else none) s.datum.lat s.datum.lon s.datum.alt = some v →
      (s.setManualDatum g buf p).cart = v ∧ (s.setManualDatum g buf p).hasGps = true) ∧
    (datumCoords g p (if s.forceUtm then some s.zone else none) s.datum.lat s.datum.lon s.datum.alt = none →
      (s.setManualDatum g buf p).cart = s.cart ∧ (s.setManualDatum g buf p).hasGps = s.hasGps) := by
  have hc := setTransformGps_coords hg p s s.datum.lat s.datum.lon s.datum.alt
  have h1 := setTransformGps_same g p s s.datum.lat s.datum.lon s.datum.alt
  unfold St.setManualDatum
  simp only
  generalize s.setTransformGps g p s.datum.lat s.datum.lon s.datum.alt = s1 at h1 hc
  have e2 : s1.setTransformOdometry buf p
      { frame := s1.world, child := s1.base, stamp := 0, pos := 0, ori := ⟨0, 0, 0, 1⟩, cov := fun _ => 0 } =
      { s1 with start := { rot := 1, org := 0 }, hasOdom := true } := by
    have hm1 := h1.manual
    rw [hm] at hm1
    simp [St.setTransformOdometry, hm1, OdoMsg.pose, quat_one]
  rw [e2]
  obtain ⟨a1, a2⟩ := imu_self hb { s1 with start := { rot := 1, org := 0 }, hasOdom := true } rfl 0 s1.datum.ori
  have h3 := imu_same buf { s1 with start := { rot := 1, org := 0 }, hasOdom := true } { frame := s1.base, stamp := 0, ori := s1.datum.ori }
  refine ⟨a1, h3.hasOdom, ?_, h3.start, fun v hv => ?_, fun hn => ?_⟩
  · rw [a2, h1.datum]
  · exact ⟨h3.cart.trans (hc.1 v hv).1, h3.hasGps.trans (hc.1 v hv).2⟩
  · rw [← hc.2 hn]
    exact ⟨h3.cart, h3.hasGps⟩

theorem timer_manual {g : Geo} (hg : g.Lawful) {buf : TfBuffer} (hb : SaneBuf buf) (p : Par) (bc ap : Bool) (s : St)
    (hm : s.manual = true) (hng : s.good = false) (ho : s.hasOdom = true) (hgps : (s.setManualDatum g buf p).hasGps = true) :
    ∃ s', (step g p bc ap s (.timer buf)).st = some s' ∧ s'.good = true ∧ s'.cw.apply (s.setManualDatum g buf p).cart = 0 ∧
      ∃ h, h = (s.setManualDatum g buf p).heading p ∧ s'.cw.rot.mulVec ![cos h, sin h, 0] = ![1, 0, 0] := by
  obtain ⟨m1, m2, m3, m4, -, -⟩ := setManualDatum_eq hg hb p s hm
  have hsm := setManualDatum_same g buf p s
  have hst : ∃ s', (step g p bc ap s (.timer buf)).st = some s' := by
    simp only [step, St.timer, hng, Bool.false_eq_true, if_false]
    exact ⟨_, rfl⟩
  obtain ⟨s', hs⟩ := hst
  refine ⟨s', hs, ?_⟩
  rcases timer_cases g buf p bc ap s s' hs with ⟨h, -⟩ | ⟨-, i, rfl⟩
  · rw [hng] at h
    cases h
  obtain ⟨s1, hs1, ⟨e, -⟩ | ⟨-, e0, e, -, -⟩⟩ := computeTransform_cases g buf p s
  · rw [hng, ho, hm] at hs1
    simp only [Bool.not_false, Bool.and_self, if_true] at hs1
    rw [hs1, hsm.good, hng, m1, m2, hgps] at e
    cases e
  · rw [hng, ho, hm] at hs1
    simp only [Bool.not_false, Bool.and_self, if_true] at hs1
    refine ⟨e0, ?_, _, rfl, ?_⟩
    · simp only [e, hs1, hsm.manual, hm, if_true]
      rw [start_apply { rot := (Quat.ofRPY 0 0 (getRPY (quatOf (s.setManualDatum g buf p).start.rot).mat 2)).mat
                        org := (s.setManualDatum g buf p).start.org }
        { rot := (Quat.ofRPY 0 0 ((s.setManualDatum g buf p).heading p)).mat, org := (s.setManualDatum g buf p).cart }
        (by rw [mat_yaw]; exact Listen.isRot_rotZ _), m4]
    · simp only [e, hs1, Tf.mul, Tf.inv, mat_yaw]
      rw [rotZ_dir, m4]
      simp only [(C43_matrix_to_quaternion IsRot.one).2, getRPY_one]
      simp

/-- **C51** with a manual datum that can be projected: the datum maps to the origin of the map, and its corrected heading to
the direction of the first axis. -/
theorem C51_manual_partial {g : Geo} (hg : g.Lawful) {buf : TfBuffer} (hb : SaneBuf buf) (p : Par) (bc ap : Bool) (s : St)
    (hm : s.manual = true) (hng : s.good = false) (ho : s.hasOdom = true) {v : V3}
    (hv : datumCoords g p (if s.forceUtm then some s.zone else none) s.datum.lat s.datum.lon s.datum.alt = some v) :
    ∃ s', (step g p bc ap s (.timer buf)).st = some s' ∧ s'.good = true ∧ s'.cw.apply v = 0 ∧
      ∃ c, s'.cw.rot.mulVec ![cos (quatToRPY s.datum.ori 2 + p.declination + p.yawOffset + c),
        sin (quatToRPY s.datum.ori 2 + p.declination + p.yawOffset + c), 0] = ![1, 0, 0] ∧ (p.useLocal = true → c = 0) ∧
        (p.useLocal = false → ∀ u, g.forward s.datum.lat s.datum.lon (if s.forceUtm then s.zone else -1) = some u → c = u.conv * (π / 180)) := by
  obtain ⟨m1, m2, m3, m4, m5, -⟩ := setManualDatum_eq hg hb p s hm
  obtain ⟨m6, m7⟩ := m5 v hv
  obtain ⟨s', h1, h2, h3, h, hh, h4⟩ := timer_manual hg hb p bc ap s hm hng ho m7
  refine ⟨s', h1, h2, by rw [← m6]; exact h3, (s.setManualDatum g buf p).conv, ?_, ?_⟩
  · have e : h = quatToRPY (Quat.ofRPY (quatToRPY s.datum.ori 0) (quatToRPY s.datum.ori 1) (quatToRPY s.datum.ori 2)) 2 +
        p.declination + p.yawOffset + (s.setManualDatum g buf p).conv := by
      rw [hh]
      unfold St.heading quatToRPY
      rw [m3]
      unfold quatToRPY
      ring
    rw [e] at h4
    rw [yaw_again] at h4
    exact h4
  · have hconv : (s.setManualDatum g buf p).conv = (s.setTransformGps g p s.datum.lat s.datum.lon s.datum.alt).conv := by
      unfold St.setManualDatum
      exact (imu_same _ _ _).conv.trans (setTransformOdometry_same _ _ _ _).1.conv
    rw [hconv]
    unfold St.setTransformGps
    refine ⟨fun hl => by simp [hl], fun hl u hu => ?_⟩
    rw [if_neg (by simp [hl]), hu]

/-- **C51**, refuted for a datum that is not on the earth: the transform is computed all the same, with whatever place was
used before. -/
theorem C51_bad_datum {g : Geo} (hg : g.Lawful) {buf : TfBuffer} (hb : SaneBuf buf) (p : Par) (hu : p.useLocal = false) (bc ap : Bool)
    (s : St) (hm : s.manual = true) (hng : s.good = false) (ho : s.hasOdom = true) (hgps : s.hasGps = true) (hbad : 90 < |s.datum.lat|) :
    ∃ s', (step g p bc ap s (.timer buf)).st = some s' ∧ s'.good = true ∧ s'.cw.apply s.cart = 0 := by
  obtain ⟨-, -, -, -, -, m6⟩ := setManualDatum_eq hg hb p s hm
  have hn : datumCoords g p (if s.forceUtm then some s.zone else none) s.datum.lat s.datum.lon s.datum.alt = none := by
    unfold datumCoords
    simp only [hu, Bool.false_eq_true, if_false, Option.map_eq_none_iff]
    unfold Geo.forward
    simp only
    rw [if_pos (Or.inl hbad)]
  obtain ⟨m7, m8⟩ := m6 hn
  obtain ⟨s', h1, h2, h3, -⟩ := timer_manual hg hb p bc ap s hm hng ho (m8.trans hgps)
  rw [m7] at h3
  exact ⟨s', h1, h2, h3⟩

/-- **C79**: whatever way the IMU is mounted (unless it is mounted pointing straight up or down), the heading found for a
robot that stands level is the heading of the robot.  `m` is the matrix of the mounting, `y` the heading. -/
theorem C79_mounted (buf : TfBuffer) (s : St) (ho : s.hasOdom = true) (msg : HeadingMsg) {t : Tf}
    (ht : lookupTransformSafe buf s.base msg.frame msg.stamp = some t) (hrot : IsRot t.rot) (hv : |t.rot 2 0| < 1) (y : ℝ)
    (hq : msg.ori.mat = Body.rotZ y * t.rot) :
    (s.imu buf msg).hasImu = true ∧ (s.imu buf msg).orient.mat = Body.rotZ y := by
  have hoff : quatToRPY (quatOf t.rot) = getRPY t.rot := by
    unfold quatToRPY
    rw [(C43_matrix_to_quaternion hrot).2]
  have hpitch : -(π / 2) < getRPY t.rot 1 ∧ getRPY t.rot 1 < π / 2 := by
    rw [abs_lt] at hv
    have e1 : getRPY t.rot 1 = -arcsin (t.rot 2 0) := by
      unfold getRPY
      rw [if_neg (not_le.2 (abs_lt.2 hv))]
      rfl
    rw [e1]
    have h1 := Real.arcsin_lt_pi_div_two.2 hv.2
    have h2 := Real.neg_pi_div_two_lt_arcsin.2 hv.1
    constructor <;> linarith
  have ha : quatToRPY msg.ori = ![getRPY t.rot 0, getRPY t.rot 1, normalizeAngle (y + getRPY t.rot 2)] := by
    unfold quatToRPY
    have e := C43_same_rotation_partial hrot hv
    have e2 : Body.rotZ y * t.rot = setRPY (getRPY t.rot 0) (getRPY t.rot 1) (y + getRPY t.rot 2) := by
      refine (congrArg (Body.rotZ y * ·) e.symm).trans ?_
      simp only [setRPY_eq]
      simp only [Body.rot, cons_val_zero, cons_val_one, cons_val]
      rw [← Matrix.mul_assoc, ← Matrix.mul_assoc]
      congr 2
      ext i j
      fin_cases i <;> fin_cases j <;> simp [Body.rotZ, mul3, cos_add, sin_add] <;> ring
    rw [hq, e2, getRPY_setRPY _ _ _ hpitch.1 hpitch.2, normalizeAngle_getRPY]
  have hn : ∀ b, cos (normalizeAngle (normalizeAngle (y + b) - b)) = cos y ∧ sin (normalizeAngle (normalizeAngle (y + b) - b)) = sin y := by
    intro b
    rw [cos_normalizeAngle, sin_normalizeAngle]
    obtain ⟨-, -, k, hk⟩ := normalizeAngle_spec (y + b)
    rw [hk, show y + b - k * (2 * π) - b = y - k * (2 * π) by ring]
    exact ⟨cos_sub_int_mul_two_pi y k, sin_sub_int_mul_two_pi y k⟩
  unfold St.imu
  rw [if_pos ho, ht]
  refine ⟨rfl, ?_⟩
  simp only [hoff, ha, cons_val_zero, cons_val_one, cons_val, sub_self, normalizeAngle_zero]
  obtain ⟨n1, n2⟩ := hn (getRPY t.rot 2)
  generalize normalizeAngle (normalizeAngle (y + getRPY t.rot 2) - getRPY t.rot 2) = z at n1 n2
  have hz : (setRPY 0 0 (getRPY t.rot 2)).mulVec ![0, 0, z] = ![0, 0, z] := by
    ext i
    fin_cases i <;> simp [setRPY, mulVec3]
  rw [hz]
  simp only [cons_val_zero, cons_val_one, cons_val]
  rw [mat_yaw]
  simp only [Body.rotZ, n1, n2]

/-- A mount turned by a quarter and a robot facing west. -/
example : ∃ (t : Tf) (q : Quat), IsRot t.rot ∧ |t.rot 2 0| < 1 ∧ q.mat = Body.rotZ π * t.rot ∧ t.rot ≠ 1 := by
  refine ⟨{ rot := Body.rotZ (π / 2), org := 0 }, quatOf (Body.rotZ π * Body.rotZ (π / 2)), Listen.isRot_rotZ _, ?_, ?_, ?_⟩
  · simp [Body.rotZ]
  · exact (C43_matrix_to_quaternion ((Listen.isRot_rotZ _).mul (Listen.isRot_rotZ _))).2
  · intro h
    have := congrFun (congrFun h 0) 0
    simp [Body.rotZ] at this

/-! ## What the transform is computed from -/

/-- Events that do not change the mode. -/
def Plain (e : Ev) : Prop := (∀ d, e ≠ .datum d) ∧ ∀ z, e ≠ .setZone z

/-- A fix that can be used. -/
def Usable (m : FixMsg) : Prop := m.fix = true ∧ m.pos.isSome

theorem run_append (g : Geo) (p : Par) (bc ap : Bool) (s : St) (a b : List Ev) (s' : St) (h : (run g p bc ap s (a ++ b)).st = some s') :
    ∃ s1, (run g p bc ap s a).st = some s1 ∧ (run g p bc ap s1 b).st = some s' := by
  induction a generalizing s with
  | nil => exact ⟨s, rfl, h⟩
  | cons e a ih =>
    simp only [List.cons_append, run] at h ⊢
    cases hs : (step g p bc ap s e).st with
    | none => rw [hs] at h; cases h
    | some s2 =>
      rw [hs] at h
      obtain ⟨s1, h1, h2⟩ := ih s2 h
      exact ⟨s1, h1, h2⟩

theorem run_join (g : Geo) (p : Par) (bc ap : Bool) (s : St) (a b : List Ev) (s1 : St) (h : (run g p bc ap s a).st = some s1) :
    (run g p bc ap s (a ++ b)).st = (run g p bc ap s1 b).st := by
  induction a generalizing s with
  | nil =>
    simp only [run, Option.some.injEq] at h
    rw [h, List.nil_append]
  | cons e a ih =>
    simp only [List.cons_append, run] at h ⊢
    cases hs : (step g p bc ap s e).st with
    | none => rw [hs] at h; cases h
    | some s2 =>
      rw [hs] at h
      exact ih s2 h

/-- While there is no datum and the transform is not known, one step changes only what the event is about. -/
theorem step_waiting (g : Geo) (p : Par) (bc ap : Bool) (s : St) (e : Ev) (s' : St) (he : Plain e)
    (h : (step g p bc ap s e).st = some s') (hm : s.manual = false) (hz : s.forceUtm = false) (hi : s.good = false → s.imuSub = !p.odomYaw) :
    s'.manual = false ∧ s'.forceUtm = false ∧ (s'.good = false → s'.imuSub = !p.odomYaw) ∧ (s.good = true → s'.good = true) ∧
    (s'.good = false →
      ((∀ m, e = .fix m → ¬Usable m) → s'.cart = s.cart ∧ s'.conv = s.conv ∧ s'.hasGps = s.hasGps ∧ s'.zone = s.zone ∧
        s'.north = s.north ∧ s'.enu0 = s.enu0) ∧
      ((∀ m, e ≠ .fix m) → s'.gpsFrame = s.gpsFrame) ∧
      ((∀ b m, e ≠ .odom b m) → s'.start = s.start ∧ s'.base = s.base ∧ s'.world = s.world ∧ s'.hasOdom = s.hasOdom) ∧
      ((∀ b m, e ≠ .odom b m) ∨ p.odomYaw = false → (∀ b m, e ≠ .imu b m) → s'.orient = s.orient ∧ s'.hasImu = s.hasImu)) := by
  cases e with
  | fix m =>
    simp only [step, St.fix] at h
    split at h
    · rename_i lat lon alt hf hp
      have hu : Usable m := ⟨hf, by rw [hp]; rfl⟩
      simp only [Option.map_eq_some_iff] at h
      obtain ⟨u, -, rfl⟩ := h
      have hs := setTransformGps_same g p { s with gpsFrame := m.frame } lat lon alt
      split
      · refine ⟨hs.manual.trans hm, hs.forceUtm.trans hz, fun hg => hs.imuSub.trans (hi (hs.good.symm.trans hg)),
          fun hg => hs.good.trans hg, fun _ => ⟨fun h => absurd hu (h m rfl), fun h => absurd rfl (h m), fun _ => ⟨hs.start, hs.base, hs.world,
          hs.hasOdom⟩, fun _ _ => ⟨hs.orient, hs.hasImu⟩⟩⟩
      · exact ⟨hm, hz, hi, fun hg => hg, fun _ => ⟨fun h => absurd hu (h m rfl), fun h => absurd rfl (h m), fun _ => ⟨rfl, rfl, rfl, rfl⟩,
          fun _ _ => ⟨rfl, rfl⟩⟩⟩
    · simp only [Option.some.injEq] at h
      rw [← h]
      exact ⟨hm, hz, hi, fun hg => hg, fun _ => ⟨fun _ => ⟨rfl, rfl, rfl, rfl, rfl, rfl⟩, fun h => absurd rfl (h m), fun _ => ⟨rfl, rfl, rfl, rfl⟩,
          fun _ _ => ⟨rfl, rfl⟩⟩⟩
  | imu buf m =>
    simp only [step, Option.some.injEq] at h
    have hs := imu_same buf s m
    by_cases hi2 : s.imuSub = true
    · rw [if_pos hi2] at h
      rw [← h]
      exact ⟨hs.manual.trans hm, hs.forceUtm.trans hz, fun hg => hs.imuSub.trans (hi (hs.good.symm.trans hg)),
          fun hg => hs.good.trans hg, fun _ => ⟨fun _ => ⟨hs.cart, hs.conv, hs.hasGps, hs.zone, hs.north, hs.enu0⟩, fun _ => hs.gpsFrame,
          fun _ => ⟨hs.start, hs.base, hs.world, hs.hasOdom⟩, fun _ h => absurd rfl (h buf m)⟩⟩
    · rw [if_neg hi2] at h
      rw [← h]
      exact ⟨hm, hz, hi, fun hg => hg, fun _ => ⟨fun _ => ⟨rfl, rfl, rfl, rfl, rfl, rfl⟩, fun _ => rfl, fun _ => ⟨rfl, rfl, rfl, rfl⟩,
          fun _ _ => ⟨rfl, rfl⟩⟩⟩
  | odom buf m =>
    simp only [step, St.odom, Option.some.injEq] at h
    by_cases hg : s.good = true
    · rw [if_pos hg] at h
      rw [← h]
      refine ⟨hm, hz, fun h => hi h, fun hg => hg, fun h => ?_⟩
      simp only at h
      rw [hg] at h
      cases h
    · rw [if_neg hg] at h
      obtain ⟨hs, -, -⟩ := setTransformOdometry_same buf p { s with world := m.frame, base := m.child } m
      have ho : p.odomYaw = false → (St.setTransformOdometry buf p { s with world := m.frame, base := m.child } m).orient = s.orient ∧
          (St.setTransformOdometry buf p { s with world := m.frame, base := m.child } m).hasImu = s.hasImu := by
        intro hy
        unfold St.setTransformOdometry
        simp [hy]
      rw [← h]
      exact ⟨hs.manual.trans hm, hs.forceUtm.trans hz, fun hg => hs.imuSub.trans (hi (hs.good.symm.trans hg)),
          fun hg => hs.good.trans hg, fun _ => ⟨fun _ => ⟨hs.cart, hs.conv, hs.hasGps, hs.zone, hs.north, hs.enu0⟩, fun _ => hs.gpsFrame,
          fun h => absurd rfl (h buf m), fun h _ => ho (h.resolve_left fun h => h buf m rfl)⟩⟩
  | timer buf =>
    rcases timer_cases g buf p bc ap s s' h with ⟨hg, c1, c2, gu, ou, rfl⟩ | ⟨hng, i, hs'⟩
    · refine ⟨hm, hz, hi, fun hg => hg, fun h => ?_⟩
      simp only at h
      rw [hg] at h
      cases h
    · obtain ⟨s1, hs1, ⟨-, e⟩ | ⟨-, e0, -, -, e⟩⟩ := computeTransform_cases g buf p s
      · rw [hm] at hs1
        simp only [Bool.and_false, Bool.false_eq_true, if_false] at hs1
        rw [hs1] at e
        have hs2 : s' = s := by
          simp only [step, St.timer, hng, Bool.false_eq_true, if_false, Option.some.injEq, e, Bool.false_and] at h
          exact h.symm
        rw [hs2]
        exact ⟨hm, hz, hi, fun hg => hg, fun _ => ⟨fun _ => ⟨rfl, rfl, rfl, rfl, rfl, rfl⟩, fun _ => rfl, fun _ => ⟨rfl, rfl, rfl, rfl⟩,
          fun _ _ => ⟨rfl, rfl⟩⟩⟩
      · rw [hm] at hs1
        simp only [Bool.and_false, Bool.false_eq_true, if_false] at hs1
        have hgood : s'.good = true := by rw [hs']; exact e0
        refine ⟨?_, ?_, fun hg => ?_, fun _ => hgood, fun hg => ?_⟩
        · rw [hs', e, hs1]
          exact hm
        · rw [hs', e, hs1]
          exact hz
        · rw [hgood] at hg
          cases hg
        · rw [hgood] at hg
          cases hg
  | datum d => exact absurd rfl (he.1 d)
  | toLL v =>
    simp only [step, Option.map_eq_some_iff] at h
    obtain ⟨-, -, rfl⟩ := h
    exact ⟨hm, hz, hi, fun hg => hg, fun _ => ⟨fun _ => ⟨rfl, rfl, rfl, rfl, rfl, rfl⟩, fun _ => rfl, fun _ => ⟨rfl, rfl, rfl, rfl⟩,
          fun _ _ => ⟨rfl, rfl⟩⟩⟩
  | fromLL lat lon alt =>
    simp only [step, Option.map_eq_some_iff] at h
    obtain ⟨-, -, rfl⟩ := h
    exact ⟨hm, hz, hi, fun hg => hg, fun _ => ⟨fun _ => ⟨rfl, rfl, rfl, rfl, rfl, rfl⟩, fun _ => rfl, fun _ => ⟨rfl, rfl, rfl, rfl⟩,
          fun _ _ => ⟨rfl, rfl⟩⟩⟩
  | setZone z => exact absurd rfl (he.2 z)

/-- What holds while there is no datum. -/
structure Waiting (p : Par) (s : St) : Prop where
  manual : s.manual = false
  force : s.forceUtm = false
  sub : s.good = false → s.imuSub = !p.odomYaw

theorem run_waiting (g : Geo) (p : Par) (bc ap : Bool) (s : St) (es : List Ev) (he : ∀ e ∈ es, Plain e) (s' : St)
    (h : (run g p bc ap s es).st = some s') (hw : Waiting p s) : Waiting p s' ∧ (s'.good = false → s.good = false) := by
  have := run_ind_ev g p bc ap Plain (fun t => Waiting p t ∧ (t.good = false → s.good = false))
    (fun a e b he hs ⟨h1, h2⟩ => by
      obtain ⟨a1, a2, a3, a4, -⟩ := step_waiting g p bc ap a e b he hs h1.manual h1.force h1.sub
      refine ⟨⟨a1, a2, a3⟩, fun hb => h2 ?_⟩
      cases ha : a.good with
      | false => rfl
      | true => rw [a4 ha] at hb; cases hb) s es he s' h ⟨hw, fun h => h⟩
  exact this

theorem St.Initial.waiting {p : Par} {s : St} (h : s.Initial p false) : Waiting p s :=
  ⟨h.manual, h.forceUtm, fun _ => by rw [h.imuSub]; simp⟩

/-- **C73**, fix: as long as the transform is not known and neither datum nor zone is set, the position in use is that of the
last usable fix, in its own zone (or in a local frame there). -/
theorem C73_last_fix_partial {g : Geo} (hg : g.Lawful) (p : Par) (bc ap : Bool) {s0 : St} (hi : s0.Initial p false) (es1 es2 : List Ev)
    (m : FixMsg) (lat lon alt : ℝ) (hm : m.fix = true) (hp : m.pos = some (lat, lon, alt))
    (he1 : ∀ e ∈ es1, Plain e) (he2 : ∀ e ∈ es2, Plain e ∧ ∀ m, e = .fix m → ¬Usable m)
    {s : St} (hr : (run g p bc ap s0 (es1 ++ .fix m :: es2)).st = some s) (hng : s.good = false) :
    s.hasGps = true ∧ ∃ u, g.forward lat lon (-1) = some u ∧
      (p.useLocal = false → s.cart = ![u.x, u.y, alt] ∧ s.conv = u.conv * (π / 180) ∧ s.zone = u.zone ∧ s.north = u.north) ∧
      (p.useLocal = true → s.cart = ![0, 0, alt] ∧ s.conv = 0 ∧ s.enu0 = (lat, lon)) := by
  obtain ⟨s1, h1, h2⟩ := run_append g p bc ap s0 es1 _ s hr
  simp only [run] at h2
  cases hs : (step g p bc ap s1 (.fix m)).st with
  | none => rw [hs] at h2; cases h2
  | some s2 =>
    rw [hs] at h2
    simp only at h2
    obtain ⟨w1, -⟩ := run_waiting g p bc ap s0 es1 he1 s1 h1 hi.waiting
    have hpl : Plain (.fix m) := ⟨fun d => by simp, fun z => by simp⟩
    obtain ⟨a1, a2, a3, a4, -⟩ := step_waiting g p bc ap s1 _ s2 hpl hs w1.manual w1.force w1.sub
    obtain ⟨w3, hback⟩ := run_waiting g p bc ap s2 es2 (fun e he => (he2 e he).1) s h2 ⟨a1, a2, a3⟩
    have hng1 : s1.good = false := by
      cases hc : s1.good with
      | false => rfl
      | true => have := a4 hc; rw [hback hng] at this; cases this
    simp only [step, St.fix, hm, hp, hng1, w1.manual, Bool.not_false, Bool.and_self, if_true, Option.map_eq_some_iff] at hs
    obtain ⟨u, hu, hs⟩ := hs
    have hkeep := run_ind_ev g p bc ap (fun e => Plain e ∧ ∀ m, e = .fix m → ¬Usable m)
      (fun t => Waiting p t ∧ (t.good = true ∨ t.cart = s2.cart ∧ t.conv = s2.conv ∧ t.hasGps = s2.hasGps ∧ t.zone = s2.zone ∧ t.north = s2.north ∧
        t.enu0 = s2.enu0))
      (fun a e b he hs ⟨k1, k2⟩ => by
        obtain ⟨b1, b2, b3, b4, b5⟩ := step_waiting g p bc ap a e b he.1 hs k1.manual k1.force k1.sub
        refine ⟨⟨b1, b2, b3⟩, ?_⟩
        rcases k2 with k2 | k2
        · exact Or.inl (b4 k2)
        · cases hb : b.good with
          | true => exact Or.inl rfl
          | false =>
            obtain ⟨c1, c2, c3, c4, c5, c6⟩ := (b5 hb).1 he.2
            rw [c1, c2, c3, c4, c5, c6]
            exact Or.inr k2) s2 es2 he2 s h2 ⟨⟨a1, a2, a3⟩, Or.inr ⟨rfl, rfl, rfl, rfl, rfl, rfl⟩⟩
    obtain ⟨k1, k2, k3, k4, k5, k6⟩ := hkeep.2.resolve_left (by rw [hng]; simp)
    rw [k1, k2, k3, k4, k5, k6, ← hs]
    unfold St.setTransformGps
    by_cases hl : p.useLocal = true
    · simp only [hl, if_true, hg.enu_origin]
      exact ⟨trivial, u, hu, fun h => (Bool.noConfusion h), fun _ => ⟨by simp, trivial, trivial⟩⟩
    · simp only [hl, Bool.false_eq_true, if_false, w1.force, hu]
      exact ⟨trivial, u, rfl, fun _ => ⟨rfl, rfl, rfl, rfl⟩, fun h => (False.elim h)⟩

/-- **C73**, odometry: the pose in use is that of the last odometry message. -/
theorem C73_last_odometry_partial (g : Geo) (p : Par) (bc ap : Bool) {s0 : St} (hi : s0.Initial p false) (es1 es2 : List Ev)
    (buf : TfBuffer) (m : OdoMsg) (he1 : ∀ e ∈ es1, Plain e) (he2 : ∀ e ∈ es2, Plain e ∧ ∀ b m, e ≠ .odom b m)
    {s : St} (hr : (run g p bc ap s0 (es1 ++ .odom buf m :: es2)).st = some s) (hng : s.good = false) :
    s.hasOdom = true ∧ s.start = m.pose ∧ s.base = m.child ∧ s.world = m.frame := by
  obtain ⟨s1, h1, h2⟩ := run_append g p bc ap s0 es1 _ s hr
  simp only [run, step] at h2
  obtain ⟨w1, -⟩ := run_waiting g p bc ap s0 es1 he1 s1 h1 hi.waiting
  have hpl : Plain (.odom buf m) := ⟨fun d => by simp, fun z => by simp⟩
  obtain ⟨a1, a2, a3, a4, -⟩ := step_waiting g p bc ap s1 (.odom buf m) (s1.odom buf p m) hpl rfl w1.manual w1.force w1.sub
  obtain ⟨w3, hback⟩ := run_waiting g p bc ap _ es2 (fun e he => (he2 e he).1) s h2 ⟨a1, a2, a3⟩
  have hng1 : s1.good = false := by
    cases hc : s1.good with
    | false => rfl
    | true => have := a4 hc; rw [hback hng] at this; cases this
  have hkeep := run_ind_ev g p bc ap (fun e => Plain e ∧ ∀ b m, e ≠ .odom b m)
    (fun t => Waiting p t ∧ (t.good = true ∨ t.start = (s1.odom buf p m).start ∧ t.base = (s1.odom buf p m).base ∧
      t.world = (s1.odom buf p m).world ∧ t.hasOdom = (s1.odom buf p m).hasOdom))
    (fun a e b he hs ⟨k1, k2⟩ => by
      obtain ⟨b1, b2, b3, b4, b5⟩ := step_waiting g p bc ap a e b he.1 hs k1.manual k1.force k1.sub
      refine ⟨⟨b1, b2, b3⟩, ?_⟩
      rcases k2 with k2 | k2
      · exact Or.inl (b4 k2)
      · cases hb : b.good with
        | true => exact Or.inl rfl
        | false =>
          obtain ⟨c1, c2, c3, c4⟩ := (b5 hb).2.2.1 he.2
          rw [c1, c2, c3, c4]
          exact Or.inr k2) _ es2 he2 s h2 ⟨⟨a1, a2, a3⟩, Or.inr ⟨rfl, rfl, rfl, rfl⟩⟩
  obtain ⟨k1, k2, k3, k4⟩ := hkeep.2.resolve_left (by rw [hng]; simp)
  obtain ⟨o1, o2, o3⟩ := setTransformOdometry_same buf p { s1 with world := m.frame, base := m.child } m
  rw [k1, k2, k3, k4]
  unfold St.odom
  simp only
  rw [if_neg (by rw [hng1]; simp)]
  exact ⟨o2, o3, o1.base, o1.world⟩

/-- **C73**, heading: the heading in use is that of the last message of the IMU after the first odometry message, for a robot
that stands level and a mount whose transform is known. -/
theorem C73_last_heading_partial (g : Geo) (p : Par) (hy : p.odomYaw = false) (bc ap : Bool) {s0 : St} (hi : s0.Initial p false)
    (es1 es2 : List Ev) (buf : TfBuffer) (m : HeadingMsg) (he1 : ∀ e ∈ es1, Plain e) (he2 : ∀ e ∈ es2, Plain e ∧ ∀ b m, e ≠ .imu b m)
    {s1 : St} (h1 : (run g p bc ap s0 es1).st = some s1) (ho : s1.hasOdom = true)
    {t : Tf} (ht : lookupTransformSafe buf s1.base m.frame m.stamp = some t) (hrot : IsRot t.rot) (hv : |t.rot 2 0| < 1) (y : ℝ)
    (hq : m.ori.mat = Body.rotZ y * t.rot)
    {s : St} (hr : (run g p bc ap s1 (.imu buf m :: es2)).st = some s) (hng : s.good = false) :
    s.hasImu = true ∧ s.orient.mat = Body.rotZ y := by
  obtain ⟨m1, m2⟩ := C79_mounted buf s1 ho m ht hrot hv y hq
  simp only [run, step] at hr
  obtain ⟨w1, -⟩ := run_waiting g p bc ap s0 es1 he1 s1 h1 hi.waiting
  have hpl : Plain (.imu buf m) := ⟨fun d => by simp, fun z => by simp⟩
  obtain ⟨a1, a2, a3, a4, -⟩ := step_waiting g p bc ap s1 (.imu buf m) _ hpl rfl w1.manual w1.force w1.sub
  obtain ⟨w3, hback⟩ := run_waiting g p bc ap _ es2 (fun e he => (he2 e he).1) s hr ⟨a1, a2, a3⟩
  have hng1 : s1.good = false := by
    cases hc : s1.good with
    | false => rfl
    | true => have := a4 hc; rw [hback hng] at this; cases this
  have hsub : s1.imuSub = true := by rw [w1.sub hng1, hy]; rfl
  rw [if_pos hsub] at hr a1 a2 a3
  have hkeep := run_ind_ev g p bc ap (fun e => Plain e ∧ ∀ b m, e ≠ .imu b m)
    (fun t => Waiting p t ∧ (t.good = true ∨ t.orient = (s1.imu buf m).orient ∧ t.hasImu = (s1.imu buf m).hasImu))
    (fun a e b he hs ⟨k1, k2⟩ => by
      obtain ⟨b1, b2, b3, b4, b5⟩ := step_waiting g p bc ap a e b he.1 hs k1.manual k1.force k1.sub
      refine ⟨⟨b1, b2, b3⟩, ?_⟩
      rcases k2 with k2 | k2
      · exact Or.inl (b4 k2)
      · cases hb : b.good with
        | true => exact Or.inl rfl
        | false =>
          obtain ⟨c1, c2⟩ := (b5 hb).2.2.2 (Or.inr hy) he.2
          rw [c1, c2]
          exact Or.inr k2) _ es2 he2 s hr ⟨⟨a1, a2, a3⟩, Or.inr ⟨rfl, rfl⟩⟩
  obtain ⟨k1, k2⟩ := hkeep.2.resolve_left (by rw [hng]; simp)
  rw [k1, k2]
  exact ⟨m1, m2⟩

end RL.Nav
