import Verif.Props.Arrival
import Verif.Props.EkfPlanar
/-! # C93 in two dimensions: what a message reports about the plane arrives in the filter -/

namespace RL
open Matrix

variable {C : Core} {P : MQueue C}

/-- The same about the plane, and nothing that leaves it: the other variables are measured as zero. -/
structure FlatOf (q p : Payload) : Prop where
  plane : ∀ i ∈ ([iX, iY, iYaw, iVx, iVy, iVyaw, iAx, iAy] : List (Fin 15)),
    p.z i = q.z i ∧ p.upd i = q.upd i ∧ ∀ j, p.R i j = q.R i j
  out : ∀ i ∈ ([iZ, iRoll, iPitch, iVz, iVroll, iVpitch, iAz] : List (Fin 15)), p.z i = .fin 0 ∧ p.upd i = true ∧ p.R i i = 1e-6
  thresh : p.thresh = q.thresh

theorem forceTwoD_flatOf (q : Payload) : FlatOf q (forceTwoD q) :=
  ⟨(C35_forced_partial q).2.1, (C35_forced_partial q).1, (C35_forced_partial q).2.2⟩

/-- The node as it would be without `two_d_mode`. -/
def PrepCtx.space (c : PrepCtx) : PrepCtx := { c with twoD := false }

theorem prepareTwist_plane (c : PrepCtx) (h : c.twoD = true) (msg : TwistMsg) (target : String) (p : Payload) :
    prepareTwist c msg target p = (prepareTwist c.space msg target p).map forceTwoD := by
  unfold prepareTwist twistPayload finish
  simp only [h, if_true, Option.map_map]
  rfl

theorem prepareAcceleration_plane (c : PrepCtx) (h : c.twoD = true) (grav : Bool) (msg : ImuMsg) (target : String) (rel : Bool) (p : Payload) :
    prepareAcceleration c grav msg target rel p = (prepareAcceleration c.space grav msg target rel p).map forceTwoD := by
  unfold prepareAcceleration accelPayload finish
  simp only [h, if_true, Option.map_map]
  rfl

theorem poseWith_plane (c : PrepCtx) (h : c.twoD = true) (mem : PoseMem) (last : Int) (t : Tf) (src : Option Tf) (msg : PoseMsg)
    (topic source : String) (differential relative imu : Bool) (p : Payload) :
    poseWith c mem last t src msg topic source differential relative imu p =
      ((poseWith c.space mem last t src msg topic source differential relative imu p).1,
        (poseWith c.space mem last t src msg topic source differential relative imu p).2.map forceTwoD) := by
  unfold poseWith
  cases differential with
  | true =>
    simp only [if_true]
    congr 1
    cases mem.prev topic with
    | none => rfl
    | some old => exact prepareTwist_plane c h _ _ _
  | false =>
    simp only [Bool.false_eq_true, if_false, finish, h, if_true]
    rfl

theorem preparePose_plane (c : PrepCtx) (h : c.twoD = true) (mem : PoseMem) (last : Int) (msg : PoseMsg)
    (topic target source : String) (differential relative imu : Bool) (p : Payload) :
    preparePose c mem last msg topic target source differential relative imu p =
      ((preparePose c.space mem last msg topic target source differential relative imu p).1,
        (preparePose c.space mem last msg topic target source differential relative imu p).2.map forceTwoD) := by
  unfold preparePose
  dsimp only
  have e : lookupTransformSafe c.space.buf (poseFrames c.space msg.frame target differential imu).1
      (poseFrames c.space msg.frame target differential imu).2 (poseLookupTime msg.stamp) =
      lookupTransformSafe c.buf (poseFrames c msg.frame target differential imu).1
      (poseFrames c msg.frame target differential imu).2 (poseLookupTime msg.stamp) := rfl
  rw [e]
  cases lookupTransformSafe c.buf (poseFrames c msg.frame target differential imu).1
      (poseFrames c msg.frame target differential imu).2 (poseLookupTime msg.stamp) with
  | none => rfl
  | some t => exact poseWith_plane c h _ _ _ _ _ _ _ _ _ _ _

theorem poseCallback_plane (mk : Payload → C.Z) (c : PrepCtx) (hc : c.twoD = true) (h : Hub C P) (msg : PoseMsg) (cd : CallbackData)
    (target source : String) (imu : Bool) :
    h.poseCallback mk c msg cd target source imu = h.poseCallback (mk ∘ forceTwoD) c.space msg cd target source imu := by
  unfold Hub.poseCallback
  simp only [preparePose_plane c hc, Option.map_map]

theorem twistCallback_plane (mk : Payload → C.Z) (c : PrepCtx) (hc : c.twoD = true) (h : Hub C P) (msg : TwistMsg) (cd : CallbackData)
    (target : String) : h.twistCallback mk c msg cd target = h.twistCallback (mk ∘ forceTwoD) c.space msg cd target := by
  unfold Hub.twistCallback
  simp only [prepareTwist_plane c hc, Option.map_map]

theorem accelCallback_plane (mk : Payload → C.Z) (c : PrepCtx) (hc : c.twoD = true) (h : Hub C P) (msg : ImuMsg) (cd : CallbackData)
    (target : String) (grav : Bool) :
    h.accelCallback mk c msg cd target grav = h.accelCallback (mk ∘ forceTwoD) c.space msg cd target grav := by
  unfold Hub.accelCallback
  simp only [prepareAcceleration_plane c hc, Option.map_map]

theorem odomCallback_plane (mk : Payload → C.Z) (c : PrepCtx) (hc : c.twoD = true) (h : Hub C P) (msg : OdomMsg) (a b : CallbackData) :
    h.odomCallback mk c msg a b = h.odomCallback (mk ∘ forceTwoD) c.space msg a b := by
  unfold Hub.odomCallback
  simp only [poseCallback_plane mk c hc, twistCallback_plane mk c hc]
  rfl

theorem imuCallback_plane (mk : Payload → C.Z) (c : PrepCtx) (hc : c.twoD = true) (h : Hub C P) (msg : ImuMsg) (a b d : CallbackData)
    (grav : Bool) : h.imuCallback mk c msg a b d grav = h.imuCallback (mk ∘ forceTwoD) c.space msg a b d grav := by
  unfold Hub.imuCallback
  simp only [poseCallback_plane mk c hc, twistCallback_plane mk c hc, accelCallback_plane mk c hc]
  rfl

/-- C35, for every mode and every frame: in two_d_mode a measurement is prepared exactly when it would be in space, it says
about the plane what it would say in space, and the node remembers the same.  So what is shown of the preparation in space
(C33, C34, C36, C37, C38, C64, C65, C94) holds of the variables of the plane. -/
theorem C35_plane_as_in_space (c : PrepCtx) (h : c.twoD = true) :
    (∀ mem last msg topic target source differential relative imu p,
      (preparePose c mem last msg topic target source differential relative imu p).1 =
        (preparePose { c with twoD := false } mem last msg topic target source differential relative imu p).1 ∧
      Option.Rel FlatOf (preparePose { c with twoD := false } mem last msg topic target source differential relative imu p).2
        (preparePose c mem last msg topic target source differential relative imu p).2) ∧
    (∀ msg target p, Option.Rel FlatOf (prepareTwist { c with twoD := false } msg target p) (prepareTwist c msg target p)) ∧
    ∀ grav msg target rel p, Option.Rel FlatOf (prepareAcceleration { c with twoD := false } grav msg target rel p)
      (prepareAcceleration c grav msg target rel p) := by
  have key : ∀ o : Option Payload, Option.Rel FlatOf o (o.map forceTwoD) := by
    intro o
    cases o with
    | none => exact .none
    | some q => exact .some (forceTwoD_flatOf q)
  refine ⟨fun mem last msg topic target source differential relative imu p => ?_, fun msg target p => ?_, fun grav msg target rel p => ?_⟩
  · rw [preparePose_plane c h]
    exact ⟨rfl, key _⟩
  · rw [prepareTwist_plane c h]
    exact key _
  · rw [prepareAcceleration_plane c h]
    exact key _

theorem Arrives.plane {mk : Payload → C.Z} {topic : String} {stamp : Int} {ok : Payload → Prop} {h h' : Hub C P}
    (ha : Arrives (mk ∘ forceTwoD) topic stamp ok h h') : Arrives mk topic stamp (fun p => ∃ q, ok q ∧ FlatOf q p) h h' := by
  obtain ⟨⟨p, hp, hq⟩, h1, h2, h3, h4⟩ := ha
  exact ⟨⟨forceTwoD p, ⟨p, hp, forceTwoD_flatOf p⟩, hq⟩, h1, h2, h3, h4⟩

/-- C93 in two dimensions, for a pose of the robot: position in the plane and heading arrive as in the message. -/
theorem C93_pose_planar_partial (mk : Payload → C.Z) (c : PrepCtx) (hb : SaneBuf c.buf) (hd : c.twoD = true) (hw : c.world ≠ "")
    (h : Hub C P) (s : SensorPar) (a : CallbackData) (ha : poseData s = some a) (hc : s.config.length = 15)
    (hdiff : s.differential = false) (hrel : s.relative = false) (msg : PoseMsg) (hm : msg.frame = c.world)
    (hf : Fresh h s.name msg.stamp) :
    Arrives mk s.name msg.stamp (fun p => ∃ q, (SelectsAmong s q (· < 6) ∧ MeasuresPose q (msgPose msg) ∧
      CovAt6 q 0 (by omega) msg.cov ∧ q.thresh = s.poseThresh) ∧ FlatOf q p) h (h.poseCallback mk c msg a c.world c.base false) := by
  rw [poseCallback_plane mk c hd]
  exact (C93_pose_partial (mk ∘ forceTwoD) c.space hb rfl hw h s a ha hc hdiff hrel msg hm hf).plane

/-- C93 in two dimensions, for a velocity of the robot. -/
theorem C93_twist_planar_partial (mk : Payload → C.Z) (c : PrepCtx) (hb : SaneBuf c.buf) (hd : c.twoD = true)
    (h : Hub C P) (s : SensorPar) (b : CallbackData) (ha : twistData s = some b) (hc : s.config.length = 15)
    (msg : TwistMsg) (hm : msg.frame = c.base) (hl : ∀ i, (msg.lin i).isFin = true) (hang : ∀ i, (msg.ang i).isFin = true)
    (hf : Fresh h s.name msg.stamp) :
    Arrives mk s.name msg.stamp (fun p => ∃ q, (SelectsAmong s q (6 ≤ ·) ∧ (∀ i : Fin 3, q.z (axis 6 (by omega) i) = msg.lin i) ∧
      (∀ i : Fin 3, q.z (axis 9 (by omega) i) = msg.ang i) ∧ CovAt6 q 6 (by omega) msg.cov ∧ q.thresh = s.twistThresh) ∧ FlatOf q p)
      h (h.twistCallback mk c msg b c.base) := by
  rw [twistCallback_plane mk c hd]
  exact (C93_twist_partial (mk ∘ forceTwoD) c.space hb rfl h s b ha hc msg hm hl hang hf).plane

/-- C93 in two dimensions, for odometry. -/
theorem C93_odometry_planar_partial (mk : Payload → C.Z) (c : PrepCtx) (hb : SaneBuf c.buf) (hd : c.twoD = true) (hw : c.world ≠ "")
    (h : Hub C P) (s : SensorPar) (a b : CallbackData) (ha : odomData s = some (a, b)) (hc : s.config.length = 15)
    (hdiff : s.differential = false) (hrel : s.relative = false) (msg : OdomMsg) (hm : msg.frame = c.world)
    (hl : ∀ i, (msg.lin i).isFin = true) (hang : ∀ i, (msg.ang i).isFin = true)
    (B : Tf) (hB : ReportsPose c s msg (msgPose msg.poseMsg) B) (t : Tf)
    (ht : lookupTransformSafe c.buf c.base (if msg.child = "" then c.base else msg.child) msg.stamp = some t)
    (hf : Fresh h (s.name ++ "_pose") msg.stamp) (hf' : Fresh h (s.name ++ "_twist") msg.stamp) :
    ∃ h1 : Hub C P,
      ((∃ i : Fin 15, ¬ (6 ≤ i.val ∧ i.val < 12) ∧ Selects s.config i.val) →
        Arrives mk (s.name ++ "_pose") msg.stamp (fun p => ∃ q, (SelectsAmong s q (fun i => ¬ (6 ≤ i ∧ i < 12)) ∧ MeasuresPose q B ∧
          (s.useChild = false ∨ msg.child = c.base → CovAt6 q 0 (by omega) msg.poseCov) ∧ q.thresh = s.poseThresh) ∧ FlatOf q p) h h1) ∧
      ((¬ ∃ i : Fin 15, ¬ (6 ≤ i.val ∧ i.val < 12) ∧ Selects s.config i.val) → h1 = h) ∧
      ((∃ i : Fin 15, 6 ≤ i.val ∧ Selects s.config i.val) →
        Arrives mk (s.name ++ "_twist") msg.stamp (fun p => ∃ q, (q.thresh = s.twistThresh ∧ (msg.child = c.base →
          SelectsAmong s q (6 ≤ ·) ∧ (∀ i : Fin 3, q.z (axis 6 (by omega) i) = msg.lin i) ∧
          (∀ i : Fin 3, q.z (axis 9 (by omega) i) = msg.ang i) ∧ CovAt6 q 6 (by omega) msg.twistCov)) ∧ FlatOf q p)
          h1 (h.odomCallback mk c msg a b)) ∧
      ((¬ ∃ i : Fin 15, 6 ≤ i.val ∧ Selects s.config i.val) → h.odomCallback mk c msg a b = h1) := by
  rw [odomCallback_plane mk c hd]
  have hB' : ReportsPose c.space s msg (msgPose msg.poseMsg) B := by
    rcases hB with ⟨hs, h⟩ | ⟨hs, hc, S, hS, hl, h⟩
    · exact .direct hs h
    · exact .child hs hc S hS hl h
  obtain ⟨h1, g1, g2, g3, g4⟩ :=
    C93_odometry_partial (mk ∘ forceTwoD) c.space hb rfl hw h s a b ha hc hdiff hrel msg hm hl hang B hB' t ht hf hf'
  exact ⟨h1, fun hp => (g1 hp).plane, g2, fun hp => (g3 hp).plane, g4⟩

/-- C93 in two dimensions, for an IMU. -/
theorem C93_imu_planar_partial (mk : Payload → C.Z) (c : PrepCtx) (hb : SaneBuf c.buf) (hd : c.twoD = true) (hw : c.base ≠ "")
    (h : Hub C P) (s : SensorPar) (a b d : CallbackData) (ha : imuData s = some (a, b, d)) (hc : s.config.length = 15)
    (hdiff : s.differential = false) (hrel : s.relative = false) (msg : ImuMsg) (grav : Bool) (hm : msg.frame = c.base)
    (p1 : 0 ≤ msg.oriCov 0) (p2 : 0 ≤ msg.velCov 0) (p3 : 0 ≤ msg.accCov 0) (hn : msg.ori ≠ ⟨0, 0, 0, 0⟩)
    (hv : |msg.att 2 0| < 1) (hang : ∀ i, (msg.vel i).isFin = true)
    (hf : Fresh h (s.name ++ "_pose") msg.stamp) (hf2 : Fresh h (s.name ++ "_twist") msg.stamp)
    (hf3 : Fresh h (s.name ++ "_acceleration") msg.stamp) :
    ∃ h1 h2 : Hub C P,
      ((∃ i : Fin 15, (3 ≤ i.val ∧ i.val < 6) ∧ Selects s.config i.val) →
        Arrives mk (s.name ++ "_pose") msg.stamp (fun p => ∃ q, (SelectsAmong s q (fun i => 3 ≤ i ∧ i < 6) ∧
          (∀ i : Fin 3, q.z (axis 3 (by omega) i) = .fin (getRPY msg.att i)) ∧
          CovAt3 q 3 (by omega) msg.oriCov ∧ q.thresh = s.poseThresh) ∧ FlatOf q p) h h1) ∧
      ((¬ ∃ i : Fin 15, (3 ≤ i.val ∧ i.val < 6) ∧ Selects s.config i.val) → h1 = h) ∧
      ((∃ i : Fin 15, (9 ≤ i.val ∧ i.val < 12) ∧ Selects s.config i.val) →
        Arrives mk (s.name ++ "_twist") msg.stamp (fun p => ∃ q, (SelectsAmong s q (fun i => 9 ≤ i ∧ i < 12) ∧
          (∀ i : Fin 3, q.z (axis 9 (by omega) i) = msg.vel i) ∧
          CovAt3 q 9 (by omega) msg.velCov ∧ q.thresh = s.twistThresh) ∧ FlatOf q p) h1 h2) ∧
      ((¬ ∃ i : Fin 15, (9 ≤ i.val ∧ i.val < 12) ∧ Selects s.config i.val) → h2 = h1) ∧
      ((∃ i : Fin 15, 12 ≤ i.val ∧ Selects s.config i.val) →
        Arrives mk (s.name ++ "_acceleration") msg.stamp (fun p => ∃ q, (SelectsAmong s q (fun i => 12 ≤ i) ∧
          (∀ i : Fin 3, q.z (axis 12 (by omega) i) =
            .fin ((msg.acc - if grav then (msg.att)ᵀ.mulVec ![0, 0, c.gravity] else 0) i)) ∧
          CovAt3 q 12 (by omega) msg.accCov ∧ q.thresh = s.accelThresh) ∧ FlatOf q p) h2 (h.imuCallback mk c msg a b d grav)) ∧
      ((¬ ∃ i : Fin 15, 12 ≤ i.val ∧ Selects s.config i.val) → h.imuCallback mk c msg a b d grav = h2) := by
  rw [imuCallback_plane mk c hd]
  obtain ⟨h1, h2, g1, g2, g3, g4, g5, g6⟩ := C93_imu_partial (mk ∘ forceTwoD) c.space hb rfl hw h s a b d ha hc hdiff hrel msg grav hm
    p1 p2 p3 hn hv hang hf hf2 hf3
  exact ⟨h1, h2, fun hp => (g1 hp).plane, g2, fun hp => (g3 hp).plane, g4, fun hp => (g5 hp).plane, g6⟩

/-- A robot in the plane to which the theorems apply; the other hypotheses are those met in `Verif.Props.Arrival`. -/
example : ∃ c : PrepCtx, c.twoD = true ∧ SaneBuf c.buf ∧ c.world ≠ "" ∧ c.base ≠ "" ∧ arrivalOdom.frame = c.world ∧
    arrivalImu.frame = c.base ∧ (odomData sensorDemo).isSome ∧ (imuData sensorDemo).isSome :=
  ⟨{ poseDemo with twoD := true }, rfl, poseDemo_sane, by decide, by decide, rfl, rfl, rfl, rfl⟩

end RL
