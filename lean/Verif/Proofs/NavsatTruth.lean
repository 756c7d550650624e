import Verif.Spec.NavsatTruth
import Verif.Props.System
import Verif.Props.NavsatOut
/-! # `navsat_transform`, told the truth, tells the truth -/

namespace RL.Nav
open Matrix Real Body

/-- What the node knows is true. -/
structure Scene.Right (w : Scene) (g : Geo) (p : Par) (s : St) : Prop where
  manual : s.manual = true → w.Marks g p s.datum
  upright : s.manual = false → 0 < cos ((w.motion w.t0).eul 1)
  yaw : s.manual = false → p.odomYaw = true → w.Bearing g p (w.motion w.t0).eul
  force : s.forceUtm = false
  frames : s.hasOdom = true → s.world = w.world ∧ s.base = w.base
  start : s.good = false → s.manual = false → s.hasOdom = true → s.start = { rot := rot (w.motion w.t0).eul, org := (w.motion w.t0).pos }
  cart : s.good = false → s.manual = false → s.hasGps = true → s.gpsFrame = w.antenna ∧ ∃ u, w.Sees g w.t0 u ∧
    s.cart = ![u.x, u.y, (w.place w.t0).2.2] ∧ s.conv = u.conv * (π / 180) ∧ s.zone = u.zone ∧ s.north = u.north
  orient : s.good = false → s.manual = false → s.hasImu = true → ∃ e, s.orient.mat = rot e ∧ w.Bearing g p e
  known : s.good = true → s.hasOdom = true ∧ s.cw = w.toWorld ∧ s.cwInv = w.toWorld.inv ∧
    ∀ u, w.Sees g w.t0 u → s.zone = u.zone ∧ s.north = u.north
  fix : s.gpsUpdated = true → s.gpsFrame = w.antenna ∧ ∃ u, w.Sees g s.gpsTime u ∧ s.lastCart = ![u.x, u.y, (w.place s.gpsTime).2.2]
  odom : s.odomUpdated = true → s.lastOdom.org = (w.motion s.odomTime).pos

variable {w : Scene} {g : Geo} {p : Par} {s : St}

theorem Scene.Right.initial {wd : Bool} (h : s.Initial p wd) (hd : wd = true → w.Marks g p s.datum)
    (hup : wd = false → 0 < cos ((w.motion w.t0).eul 1)) (hy : wd = false → p.odomYaw = true → w.Bearing g p (w.motion w.t0).eul) :
    w.Right g p s where
  manual hm := hd (h.manual.symm.trans hm)
  upright hm := hup (h.manual.symm.trans hm)
  yaw hm := hy (h.manual.symm.trans hm)
  force := h.forceUtm
  frames ho := by rw [h.hasOdom] at ho; cases ho
  start _ _ ho := by rw [h.hasOdom] at ho; cases ho
  cart _ _ ho := by rw [h.hasGps] at ho; cases ho
  orient _ _ ho := by rw [h.hasImu] at ho; cases ho
  known hg := by rw [h.good] at hg; cases hg
  fix hg := by rw [h.gpsUpdated] at hg; cases hg
  odom hg := by rw [h.odomUpdated] at hg; cases hg

theorem rot_turns (e : Vec3) (a b c : ℤ) : rot ![e 0 + a * (2 * π), e 1 + b * (2 * π), e 2 + c * (2 * π)] = rot e := by
  unfold rot rotX rotY rotZ
  simp [Real.sin_add_int_mul_two_pi, Real.cos_add_int_mul_two_pi]

theorem rot_entries (e : Vec3) : rot e 0 0 = cos (e 2) * cos (e 1) ∧ rot e 1 0 = sin (e 2) * cos (e 1) ∧ rot e 2 0 = -sin (e 1) := by
  refine ⟨?_, ?_, ?_⟩ <;> simp [rot, rotX, rotY, rotZ, Matrix.mul_apply, Fin.sum_univ_three]

/-- Two attitudes that are the same rotation have the same yaw. -/
theorem yaw_unique {a b : Vec3} (ha : 0 < cos (a 1)) (hb : 0 < cos (b 1)) (h : rot a = rot b) : rotZ (a 2) = rotZ (b 2) := by
  obtain ⟨a1, a2, a3⟩ := rot_entries a
  obtain ⟨b1, b2, b3⟩ := rot_entries b
  rw [h] at a1 a2 a3
  have hs : sin (a 1) = sin (b 1) := by linarith
  have hc : cos (a 1) = cos (b 1) := by
    have e1 := sin_sq_add_cos_sq (a 1)
    have e2 := sin_sq_add_cos_sq (b 1)
    rw [hs] at e1
    nlinarith
  have c1 : cos (a 2) = cos (b 2) := by
    have : cos (a 2) * cos (b 1) = cos (b 2) * cos (b 1) := by rw [← b1, a1, hc]
    exact mul_right_cancel₀ hb.ne' this
  have s1 : sin (a 2) = sin (b 2) := by
    have : sin (a 2) * cos (b 1) = sin (b 2) * cos (b 1) := by rw [← b2, a2, hc]
    exact mul_right_cancel₀ hb.ne' this
  unfold rotZ
  rw [c1, s1]

/-- Angles read from a matrix give the same rotation, also with something added to the yaw. -/
theorem getRPY_bearing {e : Vec3} (he : 0 < cos (e 1)) (d : ℝ) :
    rot ![getRPY (rot e) 0, getRPY (rot e) 1, getRPY (rot e) 2 + d] = rot ![e 0, e 1, e 2 + d] := by
  obtain ⟨a, ha⟩ := getRPY_rot (k := { pos := 0, eul := e, vel := 0, rate := 0, acc := 0 }) he 0
  obtain ⟨b, hb⟩ := getRPY_rot (k := { pos := 0, eul := e, vel := 0, rate := 0, acc := 0 }) he 1
  obtain ⟨c, hc⟩ := getRPY_rot (k := { pos := 0, eul := e, vel := 0, rate := 0, acc := 0 }) he 2
  simp only at ha hb hc
  rw [ha, hb, hc, show e 2 + c * (2 * π) + d = e 2 + d + c * (2 * π) by ring]
  exact rot_turns ![e 0, e 1, e 2 + d] a b c

theorem rotZ_rot (a : ℝ) (e : Vec3) : (rotZ a)ᵀ * rot e = rot ![e 0, e 1, e 2 - a] := by
  have : (rotZ a)ᵀ * rotZ (e 2) = rotZ (e 2 - a) := by
    ext i j
    fin_cases i <;> fin_cases j <;> simp [rotZ, Matrix.mul_apply, Fin.sum_univ_three, cos_sub, sin_sub] <;> ring
  show (rotZ a)ᵀ * (rotZ (e 2) * rotY (e 1) * rotX (e 0)) = rotZ (e 2 - a) * rotY (e 1) * rotX (e 0)
  rw [← this]
  simp only [Matrix.mul_assoc]

/-- The transform computed from true messages is the true one. -/
theorem transform_true (hr : w.Real g) (hup : 0 < cos ((w.motion w.t0).eul 1)) {e : Vec3} (he : w.Bearing g p e) {u : Utm}
    (hu : w.Sees g w.t0 u) :
    (({ rot := rotZ (getRPY (rot (w.motion w.t0).eul) 2), org := (w.motion w.t0).pos } : Tf).mul
      ({ rot := rotZ (getRPY (rot e) 2 + (p.declination + p.yawOffset + u.conv * (π / 180)))
         org := ![u.x, u.y, (w.place w.t0).2.2] -
          (rot ![getRPY (rot e) 0, getRPY (rot e) 1, getRPY (rot e) 2 + (p.declination + p.yawOffset + u.conv * (π / 180))]).mulVec w.off } : Tf).inv) =
      w.toWorld := by
  obtain ⟨hc, u', hu', hb⟩ := he
  obtain ⟨a, ha⟩ := hr.turned
  have hant := hr.antenna w.t0 u hu
  have e1 : u' = u := Option.some.inj (hu'.symm.trans hu)
  rw [e1] at hb
  set d := p.declination + p.yawOffset + u.conv * (π / 180) with hd
  have hb' : rot ![e 0, e 1, e 2 + d] = w.toWorld.rotᵀ * rot (w.motion w.t0).eul := by
    rw [← hb, hd]
    congr 3
    rw [← add_assoc, ← add_assoc]
  have hz1 : rotZ (getRPY (rot (w.motion w.t0).eul) 2) = rotZ ((w.motion w.t0).eul 2) := by
    obtain ⟨n, hn⟩ := getRPY_rot (k := w.motion w.t0) hup 2
    rw [hn]
    unfold rotZ
    simp [Real.sin_add_int_mul_two_pi, Real.cos_add_int_mul_two_pi]
  have hz2 : rotZ (getRPY (rot e) 2 + d) = rotZ (e 2 + d) := by
    obtain ⟨n, hn⟩ := getRPY_rot (k := { pos := 0, eul := e, vel := 0, rate := 0, acc := 0 }) hc 2
    simp only at hn
    rw [hn, show e 2 + n * (2 * π) + d = e 2 + d + n * (2 * π) by ring]
    unfold rotZ
    simp [Real.sin_add_int_mul_two_pi, Real.cos_add_int_mul_two_pi]
  have hz3 : rotZ (e 2 + d) = rotZ ((w.motion w.t0).eul 2 - a) := by
    rw [ha, rotZ_rot] at hb'
    exact yaw_unique (a := ![e 0, e 1, e 2 + d]) (b := ![(w.motion w.t0).eul 0, (w.motion w.t0).eul 1, (w.motion w.t0).eul 2 - a]) hc hup hb'
  have hrot : rotZ (getRPY (rot (w.motion w.t0).eul) 2) * (rotZ (getRPY (rot e) 2 + d))ᵀ = w.toWorld.rot := by
    rw [hz1, hz2, hz3, rotZ_sub, ha]
    congr 1
    ring
  have hW : IsRot w.toWorld.rot := by
    rw [ha]
    exact Listen.isRot_rotZ a
  have horg : w.toWorld.rot.mulVec (![u.x, u.y, (w.place w.t0).2.2] - (rot ![e 0, e 1, e 2 + d]).mulVec w.off) + w.toWorld.org =
      (w.motion w.t0).pos := by
    rw [hb', Matrix.mulVec_sub, ← Matrix.mulVec_mulVec, Matrix.mulVec_mulVec _ w.toWorld.rot, hW.1, Matrix.one_mulVec, sub_add_eq_add_sub, hant]
    abel
  rw [getRPY_bearing hc]
  unfold Tf.mul Tf.inv
  simp only
  cases hw : w.toWorld with
  | mk r o =>
    rw [hw] at horg hrot
    simp only at horg hrot
    rw [Matrix.mulVec_mulVec, hrot, Matrix.mulVec_neg, ← horg]
    congr 1
    abel

theorem imu_right (h : w.Right g p s) (buf : TfBuffer) (m : HeadingMsg)
    (hm : s.good = false → s.manual = false → s.hasOdom = true → SaneBuf buf ∧ m.frame = s.base ∧ ∃ e, m.ori.mat = rot e ∧ w.Bearing g p e) :
    w.Right g p (s.imu buf m) := by
  have hs := imu_same buf s m
  refine ⟨?_, fun hn => h.upright (hs.manual.symm.trans hn), fun hn => h.yaw (hs.manual.symm.trans hn), hs.forceUtm.trans h.force,
    ?_, ?_, ?_, ?_, ?_, ?_, ?_⟩
  · rw [hs.manual, hs.datum]
    exact h.manual
  · rw [hs.hasOdom, hs.world, hs.base]
    exact h.frames
  · rw [hs.good, hs.manual, hs.hasOdom, hs.start]
    exact h.start
  · rw [hs.good, hs.manual, hs.hasGps, hs.gpsFrame, hs.cart, hs.conv, hs.zone, hs.north]
    exact h.cart
  · rw [hs.good, hs.manual]
    intro hg hn hi
    by_cases ho : s.hasOdom = true
    · obtain ⟨hb, hf, e, he, hbe⟩ := hm hg hn ho
      obtain ⟨f, t, q⟩ := m
      simp only at hf he
      subst hf
      rw [(imu_self hb s ho t q).2]
      refine ⟨e, ?_, hbe⟩
      rw [mat_ofRPY, setRPY_eq]
      have e1 : ∀ i, quatToRPY q i = getRPY (rot e) i := by
        intro i
        unfold quatToRPY
        rw [he]
      rw [e1, e1, e1]
      have := getRPY_bearing hbe.1 0
      rw [add_zero, add_zero] at this
      rw [this]
      congr 1
      funext i
      fin_cases i <;> rfl
    · have e1 : s.imu buf m = s := by
        unfold St.imu
        rw [if_neg ho]
      rw [e1] at hi ⊢
      exact h.orient hg hn hi
  · rw [hs.good, hs.hasOdom, hs.cw, hs.cwInv, hs.zone, hs.north]
    exact h.known
  · rw [hs.gpsUpdated, hs.gpsFrame, hs.gpsTime, hs.lastCart]
    exact h.fix
  · rw [hs.odomUpdated, hs.lastOdom, hs.odomTime]
    exact h.odom

theorem fix_right (hl : p.useLocal = false) (h : w.Right g p s) (m : FixMsg) (hm : w.Honest g p s (.fix m)) {s' : St}
    (hs : s.fix g p m = some s') : w.Right g p s' := by
  obtain ⟨hf, hx⟩ := hm
  have base : w.Right g p { s with gpsFrame := m.frame } :=
    ⟨h.manual, h.upright, h.yaw, h.force, h.frames, h.start, fun hg hn hi => ⟨hf, (h.cart hg hn hi).2⟩, h.orient, h.known, fun hu => ⟨hf, (h.fix hu).2⟩, h.odom⟩
  unfold St.fix at hs
  cases h1 : m.fix with
  | false =>
    rw [h1] at hs
    cases hs
    exact base
  | true =>
    cases h2 : m.pos with
    | none =>
      rw [h1, h2] at hs
      cases hs
      exact base
    | some x =>
      obtain ⟨lat, lon, alt⟩ := x
      rw [h1, h2] at hs
      obtain ⟨hp, hst⟩ := hx _ h1 h2
      simp only at hs
      obtain ⟨u, hu, rfl⟩ := Option.map_eq_some_iff.1 hs
      have hsee : w.Sees g m.stamp u := by
        unfold Scene.Sees
        rw [← hp]
        exact hu
      have halt : alt = (w.place m.stamp).2.2 := by rw [← hp]
      by_cases hg : s.good = true ∨ s.manual = true
      · have e1 : (if (!s.good && !s.manual) = true then
            St.setTransformGps g p { s with gpsFrame := m.frame } lat lon alt else { s with gpsFrame := m.frame }) =
            { s with gpsFrame := m.frame } := by
          rw [if_neg (by rcases hg with hg | hg <;> simp [hg])]
        rw [e1]
        refine ⟨h.manual, h.upright, h.yaw, h.force, h.frames, h.start, fun hn hn' => ?_, h.orient, h.known, fun _ => ⟨hf, u, hsee, by rw [← halt]⟩, h.odom⟩
        rcases hg with hg | hg
        · exact absurd (hg.symm.trans hn) (by decide)
        · exact absurd (hg.symm.trans hn') (by decide)
      · simp only [not_or, Bool.not_eq_true] at hg
        obtain ⟨hg, hnm⟩ := hg
        have hstill := hst hg hnm
        have hsee0 : w.Sees g w.t0 u := by
          unfold Scene.Sees
          rw [← hstill.2.2]
          exact hsee
        have e1 : (if (!s.good && !s.manual) = true then
            St.setTransformGps g p { s with gpsFrame := m.frame } lat lon alt else { s with gpsFrame := m.frame }) =
            { s with gpsFrame := m.frame, zone := u.zone, north := u.north, conv := u.conv * (π / 180), cart := ![u.x, u.y, alt]
                     hasGps := true } := by
          rw [hg, hnm]
          simp only [Bool.not_false, Bool.and_self, if_true]
          unfold St.setTransformGps
          simp only [hl, h.force, Bool.false_eq_true, if_false, hu]
        rw [e1]
        refine ⟨h.manual, h.upright, h.yaw, h.force, h.frames, h.start, fun _ _ _ => ⟨hf, u, hsee0, ?_, rfl, rfl, rfl⟩, h.orient, fun hn => ?_,
          fun _ => ⟨hf, u, hsee, by rw [← halt]⟩, h.odom⟩
        · rw [← hstill.2.2, ← halt]
        · exact absurd (hg.symm.trans hn) (by decide)

theorem odom_right (h : w.Right g p s) (buf : TfBuffer) (m : OdoMsg)
    (hm : w.Honest g p s (.odom buf m)) : w.Right g p (s.odom buf p m) := by
  obtain ⟨hb1, hb2, hf, hc, hp, ho, hst⟩ := hm
  have key : w.Right g p (if s.good then { s with world := m.frame, base := m.child } else
      St.setTransformOdometry buf p { s with world := m.frame, base := m.child } m) ∧
      (if s.good then { s with world := m.frame, base := m.child } else
      St.setTransformOdometry buf p { s with world := m.frame, base := m.child } m).hasOdom = true := by
    by_cases hg : s.good = true
    · rw [if_pos hg]
      exact ⟨⟨h.manual, h.upright, h.yaw, h.force, fun _ => ⟨hf, hc⟩, h.start, h.cart, h.orient, h.known, h.fix, h.odom⟩, (h.known hg).1⟩
    · rw [if_neg hg]
      have hg : s.good = false := by simpa using hg
      have hpose : s.manual = false → m.pose = { rot := rot (w.motion w.t0).eul, org := (w.motion w.t0).pos } := by
        intro hnm
        unfold OdoMsg.pose
        rw [hp, ho, (hst hg hnm).1, (hst hg hnm).2.1]
      have h1 : w.Right g p { s with world := m.frame, base := m.child, start := m.pose, hasOdom := true } :=
        ⟨h.manual, h.upright, h.yaw, h.force, fun _ => ⟨hf, hc⟩, fun _ hnm _ => hpose hnm, h.cart, h.orient, fun hn => absurd (hg.symm.trans hn) (by decide), h.fix, h.odom⟩
      refine ⟨?_, (setTransformOdometry_same buf p _ m).2.1⟩
      unfold St.setTransformOdometry
      simp only
      split
      · rename_i hc
        simp only [Bool.and_eq_true] at hc
        refine imu_right h1 buf _ fun _ hnm _ => ⟨⟨hb1, hb2⟩, rfl, (w.motion w.t0).eul, ?_, h.yaw hnm hc.1.2⟩
        rw [← (hst hg hnm).2.1]
        exact ho
      · exact h1
  obtain ⟨k, -⟩ := key
  unfold St.odom
  exact ⟨k.manual, k.upright, k.yaw, k.force, k.frames, k.start, k.cart, k.orient, k.known, k.fix, fun _ => hp⟩

theorem lookup_antenna {buf : TfBuffer} (h : w.KnowsAntenna buf) (time : Int) :
    ∃ t, lookupTransformSafe buf w.base w.antenna time = some t ∧ t.org = w.off := by
  unfold lookupTransformSafe
  cases h1 : buf w.base w.antenna time with
  | some t => exact ⟨t, rfl, h.2 _ _ h1⟩
  | none =>
    cases h2 : buf w.base w.antenna 0 with
    | some t => exact ⟨t, rfl, h.2 _ _ h2⟩
    | none => exact absurd h2 h.1

theorem lookup_turn {buf : TfBuffer} {stamp : Int} (h : w.KnowsTurn buf stamp) :
    ∃ t, lookupTransformSafe buf w.world w.base (poseLookupTime stamp) = some t ∧
      t.rot.mulVec w.off = (rot (w.motion stamp).eul).mulVec w.off ∧ ∃ time, buf w.world w.base time = some t := by
  unfold lookupTransformSafe
  cases h1 : buf w.world w.base (poseLookupTime stamp) with
  | some t => exact ⟨t, rfl, h.2 _ (Or.inl h1), _, h1⟩
  | none =>
    cases h2 : buf w.world w.base 0 with
    | some t => exact ⟨t, rfl, h.2 _ (Or.inr h2), _, h2⟩
    | none => exact absurd h2 h.1

/-- What `setManualDatum` takes from the projection of the datum. -/
theorem setManualDatum_gps (hl : p.useLocal = false) (hf : s.forceUtm = false) (buf : TfBuffer) {u : Utm}
    (hu : g.forward s.datum.lat s.datum.lon (-1) = some u) :
    (s.setManualDatum g buf p).cart = ![u.x, u.y, s.datum.alt] ∧ (s.setManualDatum g buf p).conv = u.conv * (π / 180) ∧
    (s.setManualDatum g buf p).zone = u.zone ∧ (s.setManualDatum g buf p).north = u.north ∧
    (s.setManualDatum g buf p).hasGps = true ∧ (s.setManualDatum g buf p).forceUtm = false := by
  have e1 : s.setTransformGps g p s.datum.lat s.datum.lon s.datum.alt =
      { s with zone := u.zone, north := u.north, conv := u.conv * (π / 180), cart := ![u.x, u.y, s.datum.alt], hasGps := true } := by
    unfold St.setTransformGps
    simp only [hl, hf, Bool.false_eq_true, if_false, hu]
  unfold St.setManualDatum
  simp only [e1]
  have h2 := (setTransformOdometry_same buf p
    { s with zone := u.zone, north := u.north, conv := u.conv * (π / 180), cart := ![u.x, u.y, s.datum.alt], hasGps := true }
    { frame := s.world, child := s.base, stamp := 0, pos := 0, ori := ⟨0, 0, 0, 1⟩, cov := fun _ => 0 }).1
  generalize St.setTransformOdometry buf p
    { s with zone := u.zone, north := u.north, conv := u.conv * (π / 180), cart := ![u.x, u.y, s.datum.alt], hasGps := true }
    { frame := s.world, child := s.base, stamp := 0, pos := 0, ori := ⟨0, 0, 0, 1⟩, cov := fun _ => 0 } = s2 at h2 ⊢
  have h3 := imu_same buf s2 { frame := s2.base, stamp := 0, ori := s2.datum.ori }
  exact ⟨h3.cart.trans h2.cart, h3.conv.trans h2.conv, h3.zone.trans h2.zone, h3.north.trans h2.north, h3.hasGps.trans h2.hasGps,
    h3.forceUtm.trans (h2.forceUtm.trans hf)⟩

/-- The transform computed from a datum. -/
theorem datum_true {d : GeoPose} {u : Utm} {e : Vec3} (he : d.ori.mat = rot e) (hc : 0 < cos (e 1))
    (ho : w.toWorld.rot.mulVec ![u.x, u.y, d.alt] + w.toWorld.org = 0)
    (hr : w.toWorld.rot = (rotZ (e 2 + p.declination + p.yawOffset + u.conv * (π / 180)))ᵀ) :
    (({ rot := rotZ (getRPY (quatOf (1 : M3)).mat 2), org := 0 } : Tf).mul
      ({ rot := rotZ (getRPY (Quat.ofRPY (quatToRPY d.ori 0) (quatToRPY d.ori 1) (quatToRPY d.ori 2)).mat 2 +
          (p.declination + p.yawOffset + u.conv * (π / 180)))
         org := ![u.x, u.y, d.alt] } : Tf).inv) = w.toWorld := by
  have hm : (Quat.ofRPY (quatToRPY d.ori 0) (quatToRPY d.ori 1) (quatToRPY d.ori 2)).mat = rot e := by
    rw [mat_ofRPY, setRPY_eq]
    have e1 : ∀ i, quatToRPY d.ori i = getRPY (rot e) i := by
      intro i
      unfold quatToRPY
      rw [he]
    rw [e1, e1, e1]
    have := getRPY_bearing hc 0
    rw [add_zero, add_zero] at this
    rw [this]
    congr 1
    funext i
    fin_cases i <;> rfl
  have hz : rotZ (getRPY (rot e) 2 + (p.declination + p.yawOffset + u.conv * (π / 180))) =
      rotZ (e 2 + p.declination + p.yawOffset + u.conv * (π / 180)) := by
    obtain ⟨n, hn⟩ := getRPY_rot (k := { pos := 0, eul := e, vel := 0, rate := 0, acc := 0 }) hc 2
    simp only at hn
    rw [hn, show e 2 + n * (2 * π) + (p.declination + p.yawOffset + u.conv * (π / 180)) =
      e 2 + p.declination + p.yawOffset + u.conv * (π / 180) + n * (2 * π) by ring]
    unfold rotZ
    simp [Real.sin_add_int_mul_two_pi, Real.cos_add_int_mul_two_pi]
  have h1 : rotZ (getRPY (quatOf (1 : M3)).mat 2) = 1 := by
    rw [(C43_matrix_to_quaternion IsRot.one).2, getRPY_one]
    ext i j
    fin_cases i <;> fin_cases j <;> simp [rotZ]
  rw [hm, hz, h1]
  unfold Tf.mul Tf.inv
  simp only
  rw [← hr]
  cases hw : w.toWorld with
  | mk r o =>
    rw [hw] at ho
    simp only at ho
    rw [Matrix.one_mul, Matrix.one_mulVec]
    congr 1
    rw [add_zero]
    exact (Matrix.mulVec_neg _ _).trans (eq_neg_of_add_eq_zero_right ho).symm

theorem timer_right (hg : g.Lawful) (hl : p.useLocal = false) (hr : w.Real g) (h : w.Right g p s) (buf : TfBuffer)
    (hm : w.Honest g p s (.timer buf)) (bc ap : Bool) {s' : St} (hs : (s.timer g buf p bc ap).st = some s') : w.Right g p s' := by
  obtain ⟨k1, k2, k3, k4, k5, k6, k7, k8⟩ := timer_keeps g buf p bc ap s s' hs
  have hlaw := hg
  rcases timer_cases g buf p bc ap s s' hs with ⟨hg, c1, c2, gu, ou, e⟩ | ⟨hg, i, e⟩
  · have hfix : s'.gpsUpdated = true → s'.gpsFrame = w.antenna ∧ ∃ u, w.Sees g s'.gpsTime u ∧ s'.lastCart = ![u.x, u.y, (w.place s'.gpsTime).2.2] := by
      intro hu
      rw [k1, k2, show s'.gpsFrame = s.gpsFrame from by rw [e]]
      exact h.fix (k3 hu).1
    have hodo : s'.odomUpdated = true → s'.lastOdom.org = (w.motion s'.odomTime).pos := by
      intro hu
      rw [k4, k7]
      exact h.odom (k8 hu).1
    subst e
    exact ⟨h.manual, h.upright, h.yaw, h.force, h.frames, h.start, h.cart, h.orient, h.known, hfix, hodo⟩
  · obtain ⟨s1, hs1, ⟨hc, e1⟩ | ⟨hc, e1, e2, e3, e4⟩⟩ := computeTransform_cases g buf p s
    · cases hnm : s.manual with
      | false =>
        rw [hnm] at hs1
        simp only [Bool.and_false, Bool.false_eq_true, if_false] at hs1
        subst hs1
        rw [e1] at e
        subst e
        exact ⟨h.manual, h.upright, h.yaw, h.force, h.frames, h.start, h.cart, h.orient, h.known, h.fix, h.odom⟩
      | true =>
        cases ho : s.hasOdom with
        | false =>
          rw [ho] at hs1
          simp only [Bool.and_false, Bool.false_and, Bool.false_eq_true, if_false] at hs1
          subst hs1
          rw [e1] at e
          subst e
          exact ⟨h.manual, h.upright, h.yaw, h.force, h.frames, h.start, h.cart, h.orient, h.known, h.fix, h.odom⟩
        | true =>
          rw [hg, ho, hnm] at hs1
          simp only [Bool.not_false, Bool.and_self, if_true] at hs1
          obtain ⟨m1, m2, -, -, -, -⟩ := setManualDatum_eq hlaw (⟨hm.1, hm.2.1⟩ : SaneBuf buf) p s hnm
          obtain ⟨u, b, hu, -⟩ := h.manual hnm
          obtain ⟨-, -, -, -, m3, -⟩ := setManualDatum_gps hl h.force buf hu
          have hsm := setManualDatum_same g buf p s
          rw [hs1, hsm.good, hg, m1, m2, m3] at hc
          simp at hc
    · cases hnm : s.manual with
      | false =>
        rw [hnm] at hs1
        simp only [Bool.and_false, Bool.false_eq_true, if_false] at hs1
        subst hs1
        simp only [Bool.and_eq_true] at hc
        obtain ⟨⟨⟨-, ho⟩, hgps⟩, himu⟩ := hc
        obtain ⟨hfr, u, hu, hcart, hconv, hzone, hnorth⟩ := h.cart hg hnm hgps
        obtain ⟨b, hb, hbe⟩ := h.orient hg hnm himu
        obtain ⟨t, ht, hoff⟩ := lookup_antenna hm.2.2.1 0
        have hcw : (s1.computeTransform g buf p).cw = w.toWorld := by
          rw [e2, hnm, ← transform_true hr (h.upright hnm) hbe hu, h.start hg hnm ho]
          have hh : s1.heading p = getRPY (rot b) 2 + (p.declination + p.yawOffset + u.conv * (π / 180)) := by
            unfold St.heading
            rw [hb, hconv]
          have hq : (quatOf (rot (w.motion w.t0).eul)).mat = rot (w.motion w.t0).eul := by
            refine (C43_matrix_to_quaternion ?_).2
            rw [← show setRPY _ _ _ = rot (w.motion w.t0).eul from (setRPY_eq _ _ _).trans (congrArg rot (by funext i; fin_cases i <;> rfl))]
            exact isRot_setRPY _ _ _
          have hrob : s1.robotOriginCartesian buf p s1.cart = ![u.x, u.y, (w.place w.t0).2.2] -
              (rot ![getRPY (rot b) 0, getRPY (rot b) 1, getRPY (rot b) 2 + (p.declination + p.yawOffset + u.conv * (π / 180))]).mulVec w.off := by
            unfold St.robotOriginCartesian
            rw [(h.frames ho).2, hfr, ht]
            simp only
            rw [hoff, mat_ofRPY, setRPY_eq, hh, hb, hcart]
            simp [Tf.apply, Tf.inv, sub_eq_add_neg]
          simp only [Bool.false_eq_true, if_false, hq, hrob, hh, mat_yaw]
        rw [hcw] at e3
        have e5 : s' = { s1 with cw := w.toWorld, cwInv := w.toWorld.inv, good := true, imuSub := i } := by
          rw [e, e4, hcw, e3]
        subst e5
        refine ⟨h.manual, h.upright, h.yaw, h.force, h.frames, fun hn => Bool.noConfusion hn, fun hn => Bool.noConfusion hn,
          fun hn => Bool.noConfusion hn, fun _ => ⟨ho, rfl, rfl, fun u0 hu0 => ?_⟩, h.fix, h.odom⟩
        obtain rfl : u0 = u := Option.some.inj (hu0.symm.trans hu)
        exact ⟨hzone, hnorth⟩
      | true =>
        have ho : s.hasOdom = true := by
          cases ho : s.hasOdom with
          | true => rfl
          | false =>
            rw [ho] at hs1
            simp only [Bool.and_false, Bool.false_and, Bool.false_eq_true, if_false] at hs1
            rw [hs1, ho] at hc
            simp at hc
        rw [hg, ho, hnm] at hs1
        simp only [Bool.not_false, Bool.and_self, if_true] at hs1
        obtain ⟨-, -, m3, m4, -, -⟩ := setManualDatum_eq hlaw (⟨hm.1, hm.2.1⟩ : SaneBuf buf) p s hnm
        obtain ⟨u, b, hu, horg, hb, hbc, hrot, hzn⟩ := h.manual hnm
        obtain ⟨g1, g2, g3, g4, g5, g6⟩ := setManualDatum_gps hl h.force buf hu
        have hsm := setManualDatum_same g buf p s
        have hcw : (s.computeTransform g buf p).cw = w.toWorld := by
          rw [e2, hs1, hsm.manual, hnm, m4, ← datum_true hb hbc horg hrot]
          have hh : (s.setManualDatum g buf p).heading p = getRPY (Quat.ofRPY (quatToRPY s.datum.ori 0) (quatToRPY s.datum.ori 1)
              (quatToRPY s.datum.ori 2)).mat 2 + (p.declination + p.yawOffset + u.conv * (π / 180)) := by
            unfold St.heading
            rw [m3, g2]
          simp only [if_true, hh, mat_yaw, g1]
        rw [hcw] at e3
        have e5 : s' = { s1 with cw := w.toWorld, cwInv := w.toWorld.inv, good := true, imuSub := i } := by
          rw [e, e4, hcw, e3]
        subst e5
        have hmt : (s.setManualDatum g buf p).manual = true := hsm.manual.trans hnm
        rw [hs1]
        refine ⟨fun _ => ?_, fun hn => ?_, fun hn => ?_, g6, fun _ => ?_, fun hn => Bool.noConfusion hn, fun hn => Bool.noConfusion hn,
          fun hn => Bool.noConfusion hn, fun _ => ⟨?_, rfl, rfl, fun u0 hu0 => ?_⟩, fun hu => ?_, fun hu => ?_⟩
        · show w.Marks g p (s.setManualDatum g buf p).datum
          rw [hsm.datum]
          exact h.manual hnm
        · exact absurd (hmt.symm.trans hn) (by decide)
        · exact absurd (hmt.symm.trans hn) (by decide)
        · exact ⟨hsm.world.trans (h.frames ho).1, hsm.base.trans (h.frames ho).2⟩
        · exact (setManualDatum_eq hlaw (⟨hm.1, hm.2.1⟩ : SaneBuf buf) p s hnm).2.1
        · exact ⟨g3.trans (hzn u0 hu0).1, g4.trans (hzn u0 hu0).2⟩
        · show (s.setManualDatum g buf p).gpsFrame = w.antenna ∧ ∃ u, w.Sees g (s.setManualDatum g buf p).gpsTime u ∧
            (s.setManualDatum g buf p).lastCart = ![u.x, u.y, (w.place (s.setManualDatum g buf p).gpsTime).2.2]
          rw [hsm.gpsFrame, hsm.gpsTime, hsm.lastCart]
          exact h.fix (hsm.gpsUpdated.symm.trans hu)
        · show (s.setManualDatum g buf p).lastOdom.org = (w.motion (s.setManualDatum g buf p).odomTime).pos
          rw [hsm.lastOdom, hsm.odomTime]
          exact h.odom (hsm.odomUpdated.symm.trans hu)

theorem gpsOdom_tells (hr : w.Real g) (hz : p.zeroAlt = true → ∀ t, (w.motion t).pos 2 = 0) (h : w.Right g p s) (buf : TfBuffer)
    (hm : w.Honest g p s (.timer buf)) (bc ap : Bool) (pos : V3) (cov : M6) (t : Int) (f : String)
    (ho : .gpsOdom pos cov t f ∈ (s.timer g buf p bc ap).outs) : f = w.world ∧ pos = (w.motion t).pos := by
  obtain ⟨hgood, hup, rfl, rfl, hpos, -⟩ := timer_gpsOdom g buf p bc ap s pos cov t f ho
  obtain ⟨hod, hcw, -⟩ := h.known hgood
  obtain ⟨hw, hb⟩ := h.frames hod
  refine ⟨hw, ?_⟩
  obtain ⟨hgf, u, hu, hlc⟩ := h.fix hup
  have hant := hr.antenna s.gpsTime u hu
  obtain ⟨off, h1, h2⟩ := lookup_antenna hm.2.2.1 (poseLookupTime s.gpsTime)
  obtain ⟨rob, h3, h4, time, h5⟩ := lookup_turn (hm.2.2.2 hgood hup)
  have hrob := hm.1 _ _ _ _ h5
  have e : ∀ i, s.robotOriginWorld buf (s.cartesianToMap p s.lastCart) (poseLookupTime s.gpsTime) i =
      s.cartesianToMap p s.lastCart i - (rot (w.motion s.gpsTime).eul).mulVec w.off i := by
    intro i
    unfold St.robotOriginWorld
    rw [hw, hb, hgf, h1]
    simp only [h3, (C43_matrix_to_quaternion hrob).2, h2, h4]
    simp [Tf.apply, Tf.inv, sub_eq_add_neg]
  have e2 : ∀ i, w.toWorld.apply s.lastCart i = (rot (w.motion s.gpsTime).eul).mulVec w.off i + (w.motion s.gpsTime).pos i := by
    intro i
    rw [hlc]
    exact congrFun hant i
  rw [hpos, e, e, e]
  unfold St.cartesianToMap
  rw [hcw]
  simp only [e2]
  funext i
  fin_cases i
  · simp
  · simp
  · by_cases hza : p.zeroAlt = true
    · simp [hza, hz hza]
    · simp [hza]

theorem filtered_tells (hg : g.Lawful) (hr : w.Real g) (h : w.Right g p s) (buf : TfBuffer)
    (bc ap : Bool) (lat lon alt : ℝ) (cov : M3) (t : Int) (f : String)
    (ho : .filtered lat lon alt cov t f ∈ (s.timer g buf p bc ap).outs) : w.Tells g p ap (.filtered lat lon alt cov t f) := by
  obtain ⟨hgood, hup, rfl, rfl, hll, -⟩ := timer_filtered g buf p bc ap s lat lon alt cov t f ho
  obtain ⟨hod, -, hcw, hzn⟩ := h.known hgood
  obtain ⟨hw, hb⟩ := h.frames hod
  refine ⟨hb, fun lat' lon' alt' u u0 hlat hlon hu hu0 hz hn hpos => ?_⟩
  obtain ⟨hzone, hnorth⟩ := hzn u0 hu0
  have hrot : IsRot w.toWorld.rot := by
    obtain ⟨a, ha⟩ := hr.turned
    rw [ha]
    exact Listen.isRot_rotZ a
  have hback : s.cwInv.apply s.lastOdom.org = ![u.x, u.y, alt'] := by
    rw [hcw, h.odom hup, ← hpos]
    exact apply_inv_apply hrot _
  unfold St.mapToLL at hll
  simp only [hback] at hll
  obtain ⟨ll, hrev, hll⟩ := Option.map_eq_some_iff.1 hll
  obtain ⟨f1, f2, f3, f4, -, f6, -, -⟩ := forward_some hu
  have hun := hg.unproj_proj _ _ _ _ hlat hlon hu
  unfold Geo.reverse at hrev
  simp only [hzone, hnorth, ← hz, ← hn] at hrev
  split at hrev
  · simp only [Option.some.injEq] at hrev
    have e1 : ((![u.x, u.y, alt'] : V3) 0 - (falseOrigin u.zone u.north).1, (![u.x, u.y, alt'] : V3) 1 - (falseOrigin u.zone u.north).2) =
        g.proj u.zone lat' lon' := by
      have a1 : u.x - (falseOrigin u.zone u.north).1 = (g.proj u.zone lat' lon').1 := by rw [f3]; ring
      have a2 : u.y - (falseOrigin u.zone u.north).2 = (g.proj u.zone lat' lon').2 := by rw [f4]; ring
      exact Prod.ext a1 a2
    rw [e1, hun] at hrev
    rw [← hrev] at hll
    injection hll with b1 b2
    injection b2 with b2 b3
    exact ⟨b1.symm, b2.symm, b3.symm⟩
  · cases hrev

theorem broadcast_tells (hl : p.useLocal = false) (h : w.Right g p s) (buf : TfBuffer) (bc ap : Bool)
    (hs' : ∀ s', (s.timer g buf p bc ap).st = some s' → w.Right g p s') (t : Tf) (parent child : String)
    (ho : .broadcast t parent child ∈ (s.timer g buf p bc ap).outs) : w.Tells g p ap (.broadcast t parent child) := by
  unfold St.timer at ho hs'
  by_cases hg : s.good = true
  · rw [if_pos hg] at ho
    exfalso
    have ho1 : ∀ o ∈ (s.prepareGpsOdometry buf p).2, o ≠ .broadcast t parent child := by
      intro o ho
      unfold St.prepareGpsOdometry at ho
      split at ho
      · simp only [List.mem_singleton] at ho
        rw [ho]
        simp
      · simp at ho
    generalize s.prepareGpsOdometry buf p = q at ho ho1
    obtain ⟨s1, o1⟩ := q
    simp only at ho ho1
    split at ho
    · split at ho
      · rename_i r hr
        simp only [List.mem_append] at ho
        rcases ho with ho | ho
        · exact ho1 _ ho rfl
        · unfold St.prepareFilteredGps at hr
          split at hr
          · obtain ⟨ll, -, rfl⟩ := Option.map_eq_some_iff.1 hr
            simp at ho
          · simp only [Option.some.injEq] at hr
            rw [← hr] at ho
            simp at ho
      · exact ho1 _ ho rfl
    · exact ho1 _ ho rfl
  · rw [if_neg hg] at ho hs'
    simp only at ho hs'
    generalize (if (St.computeTransform g buf p s).good && !p.odomYaw && !(St.computeTransform g buf p s).manual then
      { St.computeTransform g buf p s with imuSub := false } else St.computeTransform g buf p s) = s2 at ho hs'
    have hr2 := hs' s2 rfl
    split at ho
    · rename_i hc
      simp only [Bool.and_eq_true] at hc
      simp only [List.mem_singleton, hl, Bool.false_eq_true, if_false] at ho
      obtain ⟨hod, hcw, hcwi, -⟩ := hr2.known hc.1
      obtain ⟨hw, hb⟩ := hr2.frames hod
      injection ho with e1 e2 e3
      intro hza
      have same : ∀ a : Tf, ({ a with org := ![a.org 0, a.org 1, if p.zeroAlt then 0 else a.org 2] } : Tf) = a := by
        intro a
        obtain ⟨r, o⟩ := a
        congr 1
        funext i
        fin_cases i <;> simp [hza]
      rw [same] at e1
      cases ap with
      | true => exact ⟨by rw [e1]; exact hcwi, e2, e3.trans hw⟩
      | false => exact ⟨by rw [e1]; exact hcw, e2.trans hw, e3⟩
    · simp at ho

/-- A step of `navsat_transform`. -/
theorem step_right (hg : g.Lawful) (hr : w.Real g) (hl : p.useLocal = false)
    (hz : p.zeroAlt = true → ∀ t, (w.motion t).pos 2 = 0)
    (h : w.Right g p s) (bc ap : Bool) (e : Ev) (hm : w.Honest g p s e) :
    (∀ s', (step g p bc ap s e).st = some s' → w.Right g p s') ∧ ∀ o ∈ (step g p bc ap s e).outs, w.Tells g p ap o := by
  cases e with
  | fix m => exact ⟨fun s' hs => fix_right hl h m hm hs, fun o ho => by cases ho⟩
  | imu buf m =>
    refine ⟨fun s' hs => ?_, fun o ho => by cases ho⟩
    simp only [step, Option.some.injEq] at hs
    subst hs
    split
    · refine imu_right h buf m fun hn hnm ho => ?_
      obtain ⟨b1, b2, hf, he⟩ := hm hn hnm
      exact ⟨⟨b1, b2⟩, hf.trans (h.frames ho).2.symm, he⟩
    · exact h
  | odom buf m =>
    refine ⟨fun s' hs => ?_, fun o ho => by cases ho⟩
    simp only [step, Option.some.injEq] at hs
    subst hs
    exact odom_right h buf m hm
  | timer buf =>
    have hst : ∀ s', (s.timer g buf p bc ap).st = some s' → w.Right g p s' := fun s' hs => timer_right hg hl hr h buf hm bc ap hs
    refine ⟨hst, fun o ho => ?_⟩
    cases o with
    | gpsOdom pos cov t f => exact gpsOdom_tells hr hz h buf hm bc ap pos cov t f ho
    | filtered lat lon alt cov t f => exact filtered_tells hg hr h buf bc ap lat lon alt cov t f ho
    | ll _ => trivial
    | map _ => trivial
    | broadcast t parent child => exact broadcast_tells hl h buf bc ap hst t parent child ho
  | datum d =>
    refine ⟨fun s' hs => ?_, fun o ho => by cases ho⟩
    simp only [step, Option.some.injEq] at hs
    subst hs
    exact ⟨fun _ => hm, fun hn => Bool.noConfusion hn, fun hn => Bool.noConfusion hn, h.force, h.frames, fun _ hn => Bool.noConfusion hn,
      fun _ hn => Bool.noConfusion hn, fun _ hn => Bool.noConfusion hn, fun hn => Bool.noConfusion hn, h.fix, h.odom⟩
  | toLL v =>
    refine ⟨fun s' hs => ?_, fun o ho => ?_⟩
    · obtain ⟨_, -, rfl⟩ := Option.map_eq_some_iff.1 hs
      exact h
    · have ho : o ∈ (s.toLL g v).toList := ho
      rw [Option.mem_toList] at ho
      unfold St.toLL at ho
      split at ho
      · obtain ⟨_, -, rfl⟩ := Option.map_eq_some_iff.1 ho
        trivial
      · cases ho
        trivial
  | fromLL lat lon alt =>
    refine ⟨fun s' hs => ?_, fun o ho => ?_⟩
    · obtain ⟨_, -, rfl⟩ := Option.map_eq_some_iff.1 hs
      exact h
    · have ho : o ∈ (s.fromLL g p lat lon alt).toList := ho
      rw [Option.mem_toList] at ho
      unfold St.fromLL at ho
      obtain ⟨_, -, rfl⟩ := Option.map_eq_some_iff.1 ho
      split <;> trivial
  | setZone z => exact hm.elim

end RL.Nav
