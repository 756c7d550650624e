import Verif.Props.Imu
import Verif.Props.Mounted
import Verif.Props.Accel
import Verif.Spec.NavsatDemo
/-! # C93: what a message reports arrives in the filter -/

namespace RL
open Matrix

variable {C : Core} {P : MQueue C}

/-- The message is newer than the last `set_pose` and not older than the previous one of the topic. -/
def Fresh (h : Hub C P) (topic : String) (stamp : Int) : Prop :=
  h.node.lastSetPose < stamp ∧ ∀ t, h.node.lastMsg topic = some t → t ≤ stamp

/-- One measurement arrives: it waits to be fused, with the stamp of the message and the commands in force, the stamp is
remembered, and nothing else happens to queue, stamps and filter. -/
structure Arrives (mk : Payload → C.Z) (topic : String) (stamp : Int) (ok : Payload → Prop) (h h' : Hub C P) : Prop where
  queue : ∃ p, ok p ∧ P.elems h'.node.queue =
    { time := stamp, topic := topic, z := mk p, ctl := h.node.ctl, ctlTime := h.node.ctlTime } ::ₘ P.elems h.node.queue
  stamp : ∀ t, h'.node.lastMsg t = if t = topic then some stamp else h.node.lastMsg t
  filt : h'.node.filt = h.node.filt
  pose : h'.node.lastSetPose = h.node.lastSetPose
  ctl : h'.node.ctl = h.node.ctl ∧ h'.node.ctlTime = h.node.ctlTime

/-- The selected variables among a set. -/
def SelectsAmong (s : SensorPar) (p : Payload) (S : ℕ → Prop) : Prop :=
  ∀ i : Fin 15, p.upd i = true ↔ S i.val ∧ Selects s.config i.val

/-- A block of the covariance is the covariance of the message, row by row. -/
def CovAt6 (p : Payload) (off : ℕ) (h : off + 6 ≤ 15) (cov : Fin 36 → ℝ) : Prop :=
  ∀ i j : Fin 6, p.R ⟨off + i.val, by omega⟩ ⟨off + j.val, by omega⟩ = cov (finProdFinEquiv (i, j))
def CovAt3 (p : Payload) (off : ℕ) (h : off + 3 ≤ 15) (cov : Fin 9 → ℝ) : Prop :=
  ∀ i j : Fin 3, p.R ⟨off + i.val, by omega⟩ ⟨off + j.val, by omega⟩ = cov (finProdFinEquiv (i, j))

theorem sensor_arrives {h : Hub C P} {topic : String} {stamp : Int} (hf : Fresh h topic stamp) (mk : Payload → C.Z) {p : Payload}
    {ok : Payload → Prop} (hp : ok p) (mem : PoseMem) :
    Arrives mk topic stamp ok h { node := h.node.sensor topic stamp (some (mk p)), mem := mem } := by
  have h1 : ¬ h.node.lastSetPose ≥ stamp := not_le.2 hf.1
  have h2 : (h.node.lastMsg topic).getD stamp ≤ stamp := by
    cases e : h.node.lastMsg topic with
    | none => exact le_rfl
    | some t => exact hf.2 t e
  refine ⟨⟨p, hp, ?_⟩, ?_, ?_, ?_, ?_⟩
  all_goals simp only [Node.sensor, if_neg h1, if_pos h2, Node.enqueue]
  · exact P.elems_push _ _
  · intro t
    trivial
  · exact ⟨trivial, trivial⟩

theorem Arrives.fresh {mk : Payload → C.Z} {topic : String} {stamp : Int} {ok : Payload → Prop} {h h' : Hub C P}
    (ha : Arrives mk topic stamp ok h h') {u : String} (hu : u ≠ topic) (hf : Fresh h u stamp) : Fresh h' u stamp := by
  refine ⟨by rw [ha.pose]; exact hf.1, fun t ht => hf.2 t ?_⟩
  rwa [ha.stamp, if_neg hu] at ht

theorem maskAxes_one (u : Fin 3 → Bool) (i : Fin 3) : maskAxes (1 : M3) u i = u i := by
  have key := maskAxes_eq (1 : M3) u i
  have : (∑ j, if u j then (1 : M3) i j ^ 2 else 0) = if u i then 1 else 0 := by
    rw [Finset.sum_eq_single i]
    · simp
    · intro j _ hj
      simp [Matrix.one_apply_ne (Ne.symm hj)]
    · simp
  rw [this] at key
  cases hu : u i
  · rw [hu] at key
    simp only [Bool.false_eq_true, if_false, Real.sqrt_zero] at key
    rw [Bool.eq_false_iff]
    intro hm
    exact absurd (key.mp hm) (by norm_num)
  · rw [hu] at key
    simp only [if_true, Real.sqrt_one] at key
    exact key.mpr (by norm_num)

theorem poseUpd_one (u : Fin 15 → Bool) : poseUpd 1 u = u := by
  funext i
  unfold poseUpd put
  simp only [maskAxes_one]
  split
  · rename_i h
    congr 1
    apply Fin.ext
    simp [axis]
    omega
  · split
    · congr 1
      apply Fin.ext
      simp [axis]
    · rfl

theorem putBlock_at {n off : ℕ} (h : off + n ≤ 15) (R : Mat15) (M : Matrix (Fin n) (Fin n) ℝ) (i j : Fin n) :
    putBlock n off R M ⟨off + i.val, by omega⟩ ⟨off + j.val, by omega⟩ = M i j := by
  unfold putBlock
  rw [Matrix.of_apply, dif_pos ⟨⟨by simp, by simp⟩, ⟨by simp, by simp⟩⟩]
  congr <;> simp

/-- What `preparePose` makes of a pose of the robot in the world frame. -/
theorem preparePose_world (c : PrepCtx) (hb : SaneBuf c.buf) (hd : c.twoD = false) (mem : PoseMem) (last : Int) (msg : PoseMsg)
    (topic source : String) (p : Payload) (hw : c.world ≠ "") (hf : msg.frame = c.world)
    (hs : sourceTf c source (poseLookupTime msg.stamp) = none) :
    ∃ q, (preparePose c mem last msg topic c.world source false false false p).2 = some q ∧ MeasuresPose q (msgPose msg) ∧
      q.upd = p.upd ∧ CovAt6 q 0 (by omega) msg.cov ∧ q.thresh = p.thresh := by
  have hq1 : (quatOf (1 : M3)).mat = 1 := (C43_matrix_to_quaternion IsRot.one).2
  have e1 : poseFrames c msg.frame c.world false false = (c.world, c.world) := by simp [poseFrames, hw, hf]
  unfold preparePose
  simp only [e1, hs, hb.lookup_self]
  obtain ⟨q, h1, h2⟩ := poseWith_measures c hd mem last Tf.id IsRot.one none (by intro s hs; cases hs) msg topic source p
  rw [Tf.id_mul, Option.getD_none, Tf.mul_id] at h2
  refine ⟨q, h1, h2, ?_⟩
  simp only [poseWith, finish, hd, Bool.false_eq_true, if_false, Option.some.injEq] at h1
  subst h1
  refine ⟨poseUpd_one _, fun i j => ?_, rfl⟩
  show putBlock 6 0 p.R (rot6d (quatOf (1 : M3)).mat * copyCov6 msg.cov * (rot6d (quatOf (1 : M3)).mat)ᵀ) ⟨0 + i.val, _⟩ ⟨0 + j.val, _⟩ = _
  rw [hq1, rot6d_one, Matrix.one_mul, transpose_one, Matrix.mul_one, copyCov6_eq, putBlock_at (by omega)]
  rfl

/-- What `prepareTwist` makes of a velocity of the robot. -/
theorem prepareTwist_base (c : PrepCtx) (hb : SaneBuf c.buf) (hd : c.twoD = false) (msg : TwistMsg) (p : Payload)
    (hf : msg.frame = c.base) (hl : ∀ i, (msg.lin i).isFin = true) (ha : ∀ i, (msg.ang i).isFin = true) :
    ∃ q, prepareTwist c msg c.base p = some q ∧ (∀ i : Fin 3, q.z (axis 6 (by omega) i) = msg.lin i) ∧
      (∀ i : Fin 3, q.z (axis 9 (by omega) i) = msg.ang i) ∧ q.upd = p.upd ∧ CovAt6 q 6 (by omega) msg.cov ∧ q.thresh = p.thresh := by
  have hq1 : (quatOf (1 : M3)).mat = 1 := (C43_matrix_to_quaternion IsRot.one).2
  have hlk : lookupTransformSafe c.buf c.base (if msg.frame = "" then c.base else msg.frame) msg.stamp = some Tf.id := by
    rw [hf, ite_self]
    exact hb.lookup_self _ _
  obtain ⟨q, h1, h2, h3, h4⟩ := C33_identity c hd msg c.base p hlk hl ha
  refine ⟨q, h1, h2, h3, h4, ?_⟩
  obtain ⟨q', h1', -, -, hR, -, -, -, ht⟩ := prepareTwist_val c hd msg c.base p Tf.id hlk
  rw [h1] at h1'
  cases h1'
  refine ⟨fun i j => ?_, ht⟩
  rw [hR]
  show putBlock 6 6 p.R (rot6d (quatOf (1 : M3)).mat * copyCov6 msg.cov * (rot6d (quatOf (1 : M3)).mat)ᵀ) _ _ = _
  rw [hq1, rot6d_one, Matrix.one_mul, transpose_one, Matrix.mul_one, copyCov6_eq, putBlock_at (by omega)]
  rfl

theorem fillFalse_length {off n : ℕ} {v w : List Bool} (h : fillFalse off n v = some w) : w.length = v.length := by
  unfold fillFalse at h
  split at h
  · cases h
    simp
    omega
  · cases h

theorem sum_pos {v : List Bool} {f : Fin 15 → Bool} (hl : v.length = 15) (hf : flags v = some f) :
    sumTrue v > 0 ↔ ∃ i, f i = true := by
  have hs := flags_some hf
  unfold sumTrue
  rw [gt_iff_lt, List.count_pos_iff, List.mem_iff_getElem]
  constructor
  · rintro ⟨i, hi, he⟩
    refine ⟨⟨i, by omega⟩, ?_⟩
    rw [hs]
    simp [List.getD_eq_getElem?_getD, hi, he]
  · rintro ⟨i, hi⟩
    rw [hs] at hi
    refine ⟨i.val, by omega, ?_⟩
    rw [List.getD_eq_getElem _ _ (by omega)] at hi
    exact hi

/-! ## What the settings of a sensor become -/

theorem poseData_full {s : SensorPar} {a : CallbackData} (h : poseData s = some a) (hl : s.config.length = 15) :
    (∀ i : Fin 15, a.upd i = true ↔ i.val < 6 ∧ Selects s.config i.val) ∧ a.topic = s.name ∧ a.thresh = s.poseThresh ∧
      a.differential = s.differential ∧ a.relative = s.rel ∧ (a.sum > 0 ↔ ∃ i, a.upd i = true) := by
  have hs := (poseData_spec h).1
  unfold poseData poseVec at h
  simp only [Option.bind_eq_bind, Option.bind_eq_some_iff] at h
  obtain ⟨v, ⟨w, h1, h2⟩, f, h3, h4⟩ := h
  cases h4
  refine ⟨fun i => ?_, rfl, rfl, rfl, rfl, sum_pos (by rw [fillFalse_length h2, fillFalse_length h1, hl]) h3⟩
  rw [hs i]
  unfold Selects
  split <;> simp [*]

theorem twistData_full {s : SensorPar} {b : CallbackData} (h : twistData s = some b) (hl : s.config.length = 15) :
    (∀ i : Fin 15, b.upd i = true ↔ 6 ≤ i.val ∧ Selects s.config i.val) ∧ b.topic = s.name ∧ b.thresh = s.twistThresh ∧
      (b.sum > 0 ↔ ∃ i, b.upd i = true) := by
  unfold twistData twistVec at h
  simp only [Option.bind_eq_bind, Option.bind_eq_some_iff] at h
  obtain ⟨v, h1, f, h3, h4⟩ := h
  cases h4
  refine ⟨fun i => ?_, rfl, rfl, sum_pos (by rw [fillFalse_length h1, hl]) h3⟩
  show f i = true ↔ _
  rw [flags_some h3, fillFalse_get h1]
  unfold Selects
  by_cases h6 : i.val < 6
  · rw [if_pos (by omega)]
    simp
    omega
  · rw [if_neg (by omega)]
    simp only [iff_and_self]
    omega

theorem odomData_full {s : SensorPar} {a b : CallbackData} (h : odomData s = some (a, b)) (hl : s.config.length = 15) :
    (∀ i : Fin 15, a.upd i = true ↔ ¬ (6 ≤ i.val ∧ i.val < 12) ∧ Selects s.config i.val) ∧
    (∀ i : Fin 15, b.upd i = true ↔ 6 ≤ i.val ∧ Selects s.config i.val) ∧
    (a.topic = s.name ++ "_pose" ∧ b.topic = s.name ++ "_twist") ∧ (a.thresh = s.poseThresh ∧ b.thresh = s.twistThresh) ∧
    a.differential = s.differential ∧ a.relative = s.rel ∧ a.useChild = s.useChild ∧
    (a.sum > 0 ↔ ∃ i, a.upd i = true) ∧ (b.sum > 0 ↔ ∃ i, b.upd i = true) := by
  obtain ⟨ha, hb, -⟩ := odomData_spec h
  unfold odomData odomVecs at h
  simp only [Option.bind_eq_bind, Option.bind_eq_some_iff] at h
  obtain ⟨v, ⟨p, h1, t, h2, hv⟩, fp, hp, ft, ht, h4⟩ := h
  cases hv
  cases h4
  refine ⟨fun i => ?_, fun i => ?_, ⟨rfl, rfl⟩, ⟨rfl, rfl⟩, rfl, rfl, rfl, sum_pos (by rw [fillFalse_length h1, hl]) hp,
    sum_pos (by rw [fillFalse_length h2, hl]) ht⟩
  · rw [ha i]
    unfold Selects
    split <;> simp [*]
  · rw [hb i]
    unfold Selects
    split
    · simp
      omega
    · simp only [iff_and_self]
      omega

theorem imuData_full {s : SensorPar} {a b d : CallbackData} (h : imuData s = some (a, b, d)) (hl : s.config.length = 15) :
    (∀ i : Fin 15, a.upd i = true ↔ (3 ≤ i.val ∧ i.val < 6) ∧ Selects s.config i.val) ∧
    (∀ i : Fin 15, b.upd i = true ↔ (9 ≤ i.val ∧ i.val < 12) ∧ Selects s.config i.val) ∧
    (∀ i : Fin 15, d.upd i = true ↔ 12 ≤ i.val ∧ Selects s.config i.val) ∧
    (a.topic = s.name ++ "_pose" ∧ b.topic = s.name ++ "_twist" ∧ d.topic = s.name ++ "_acceleration") ∧
    (a.thresh = s.poseThresh ∧ b.thresh = s.twistThresh ∧ d.thresh = s.accelThresh) ∧
    a.differential = s.differential ∧ a.relative = s.rel ∧
    (a.sum > 0 ↔ ∃ i, a.upd i = true) ∧ (b.sum > 0 ↔ ∃ i, b.upd i = true) ∧ (d.sum > 0 ↔ ∃ i, d.upd i = true) := by
  obtain ⟨ha, hb, hd, -⟩ := imuData_spec h
  unfold imuData imuPoseVec imuTwistVec imuAccelVec at h
  simp only [Option.bind_eq_bind, Option.bind_eq_some_iff] at h
  obtain ⟨vp, ⟨x1, p1, x2, p2, p3⟩, vt, ⟨y1, t1, y2, t2, t3⟩, va, ⟨z1, a1, a2⟩, fp, hp, ft, ht, fa, hfa, h4⟩ := h
  cases h4
  refine ⟨fun i => ?_, fun i => ?_, fun i => ?_, ⟨rfl, rfl, rfl⟩, ⟨rfl, rfl, rfl⟩, rfl, rfl,
    sum_pos (by rw [fillFalse_length p3, fillFalse_length p2, fillFalse_length p1, hl]) hp,
    sum_pos (by rw [fillFalse_length t3, fillFalse_length t2, fillFalse_length t1, hl]) ht,
    sum_pos (by rw [fillFalse_length a2, fillFalse_length a1, hl]) hfa⟩
  · rw [ha i]
    unfold Selects
    split <;> simp [*]
  · rw [hb i]
    unfold Selects
    split <;> simp [*]
  · rw [hd i]
    unfold Selects
    split <;> simp [*]

/-! ## C93 -/

/-- C93 for a pose of the robot in the world frame, used as such: the selected variables arrive with the values and
covariances of the message. -/
theorem C93_pose_partial (mk : Payload → C.Z) (c : PrepCtx) (hb : SaneBuf c.buf) (hd : c.twoD = false) (hw : c.world ≠ "")
    (h : Hub C P) (s : SensorPar) (a : CallbackData) (ha : poseData s = some a) (hc : s.config.length = 15)
    (hdiff : s.differential = false) (hrel : s.relative = false) (msg : PoseMsg) (hm : msg.frame = c.world)
    (hf : Fresh h s.name msg.stamp) :
    Arrives mk s.name msg.stamp (fun p => SelectsAmong s p (· < 6) ∧ MeasuresPose p (msgPose msg) ∧
      CovAt6 p 0 (by omega) msg.cov ∧ p.thresh = s.poseThresh) h (h.poseCallback mk c msg a c.world c.base false) := by
  obtain ⟨h1, h2, h3, h4, h5, -⟩ := poseData_full ha hc
  have hr : s.rel = false := by unfold SensorPar.rel; rw [hrel]; rfl
  rw [hdiff] at h4
  rw [hr] at h5
  have hst : ¬ h.node.stale msg.stamp := not_le.2 hf.1
  have hlast : (h.node.lastMsg a.topic).getD msg.stamp ≤ msg.stamp := by
    rw [h2]
    cases e : h.node.lastMsg s.name with
    | none => exact le_rfl
    | some t => exact hf.2 t e
  unfold Hub.poseCallback
  rw [if_neg hst]
  simp only
  rw [if_pos hlast]
  simp only [h4, h5]
  obtain ⟨q, e, e1, e2, e3, e4⟩ := preparePose_world c hb hd h.mem ((h.node.lastMsg a.topic).getD msg.stamp) msg a.topic c.base
    a.blank hw hm (by simp [sourceTf])
  rw [e, Option.map_some, h2]
  refine sensor_arrives hf mk ⟨fun i => ?_, e1, e3, e4.trans h3⟩ _
  rw [e2]
  exact h1 i

/-- C93 for a velocity of the robot. -/
theorem C93_twist_partial (mk : Payload → C.Z) (c : PrepCtx) (hb : SaneBuf c.buf) (hd : c.twoD = false)
    (h : Hub C P) (s : SensorPar) (b : CallbackData) (ha : twistData s = some b) (hc : s.config.length = 15)
    (msg : TwistMsg) (hm : msg.frame = c.base) (hl : ∀ i, (msg.lin i).isFin = true) (hang : ∀ i, (msg.ang i).isFin = true)
    (hf : Fresh h s.name msg.stamp) :
    Arrives mk s.name msg.stamp (fun p => SelectsAmong s p (6 ≤ ·) ∧ (∀ i : Fin 3, p.z (axis 6 (by omega) i) = msg.lin i) ∧
      (∀ i : Fin 3, p.z (axis 9 (by omega) i) = msg.ang i) ∧ CovAt6 p 6 (by omega) msg.cov ∧ p.thresh = s.twistThresh)
      h (h.twistCallback mk c msg b c.base) := by
  obtain ⟨h1, h2, h3, -⟩ := twistData_full ha hc
  unfold Hub.twistCallback
  obtain ⟨q, e, e1, e2, e3, e4, e5⟩ := prepareTwist_base c hb hd msg b.blank hm hl hang
  rw [e, Option.map_some, h2]
  refine sensor_arrives hf mk ⟨fun i => ?_, e1, e2, e4, e5.trans h3⟩ _
  rw [e3]
  exact h1 i

/-- What `preparePose` makes of a pose of another frame on the robot. -/
theorem preparePose_child (c : PrepCtx) (hb : SaneBuf c.buf) (hd : c.twoD = false) (mem : PoseMem) (last : Int) (msg : PoseMsg)
    (topic source : String) (p : Payload) (B S : Tf) (hS : IsRot S.rot)
    (hw : c.world ≠ "") (hf : msg.frame = c.world) (hsrc : source ≠ c.base)
    (hl : lookupTransformSafe c.buf source c.base (poseLookupTime msg.stamp) = some S.inv)
    (hm : msgPose msg = B.mul S) :
    ∃ q, (preparePose c mem last msg topic c.world source false false false p).2 = some q ∧ MeasuresPose q B ∧
      q.upd = p.upd ∧ q.thresh = p.thresh := by
  obtain ⟨q, h1, h2⟩ := C65_converted_partial c hb hd mem last msg topic source p B S hS hw hf hsrc hl hm
  refine ⟨q, h1, h2, ?_⟩
  have e1 : poseFrames c msg.frame c.world false false = (c.world, c.world) := by simp [poseFrames, hw, hf]
  unfold preparePose at h1
  simp only [e1, hb.lookup_self, poseWith, finish, hd, Bool.false_eq_true, if_false, Option.some.injEq] at h1
  subst h1
  exact ⟨poseUpd_one _, rfl⟩

theorem suffix_ne (n : String) {x y : String} (h : x ≠ y) : n ++ x ≠ n ++ y := by
  intro he
  apply h
  have := congrArg String.toList he
  rw [String.toList_append, String.toList_append] at this
  exact String.toList_injective (List.append_cancel_left this)

/-- The pose `B` of the robot is what an odometry message reports: as the pose of its child frame if the sensor is
configured to, else directly. -/
inductive ReportsPose (c : PrepCtx) (s : SensorPar) (msg : OdomMsg) (pose B : Tf) : Prop
  | direct (hs : s.useChild = false ∨ msg.child = c.base) (h : pose = B)
  | child (hs : s.useChild = true) (hc : msg.child ≠ c.base) (S : Tf) (hS : IsRot S.rot)
      (hl : lookupTransformSafe c.buf msg.child c.base (poseLookupTime msg.stamp) = some S.inv) (h : pose = B.mul S)

/-- The pose part of an odometry message. -/
def OdomMsg.poseMsg (msg : OdomMsg) : PoseMsg :=
  { frame := msg.frame, stamp := msg.stamp, pos := msg.pos, ori := msg.ori, cov := msg.poseCov }

/-- C93 for an odometry message in the world frame: the pose of the robot it reports and its velocity arrive as two
measurements, each if one of its variables is selected. -/
theorem C93_odometry_partial (mk : Payload → C.Z) (c : PrepCtx) (hb : SaneBuf c.buf) (hd : c.twoD = false) (hw : c.world ≠ "")
    (h : Hub C P) (s : SensorPar) (a b : CallbackData) (ha : odomData s = some (a, b)) (hc : s.config.length = 15)
    (hdiff : s.differential = false) (hrel : s.relative = false) (msg : OdomMsg) (hm : msg.frame = c.world)
    (hl : ∀ i, (msg.lin i).isFin = true) (hang : ∀ i, (msg.ang i).isFin = true)
    (B : Tf) (hB : ReportsPose c s msg (msgPose msg.poseMsg) B) (t : Tf)
    (ht : lookupTransformSafe c.buf c.base (if msg.child = "" then c.base else msg.child) msg.stamp = some t)
    (hf : Fresh h (s.name ++ "_pose") msg.stamp) (hf' : Fresh h (s.name ++ "_twist") msg.stamp) :
    ∃ h1 : Hub C P,
      ((∃ i : Fin 15, ¬ (6 ≤ i.val ∧ i.val < 12) ∧ Selects s.config i.val) →
        Arrives mk (s.name ++ "_pose") msg.stamp (fun p => SelectsAmong s p (fun i => ¬ (6 ≤ i ∧ i < 12)) ∧ MeasuresPose p B ∧
          (s.useChild = false ∨ msg.child = c.base → CovAt6 p 0 (by omega) msg.poseCov) ∧ p.thresh = s.poseThresh) h h1) ∧
      ((¬ ∃ i : Fin 15, ¬ (6 ≤ i.val ∧ i.val < 12) ∧ Selects s.config i.val) → h1 = h) ∧
      ((∃ i : Fin 15, 6 ≤ i.val ∧ Selects s.config i.val) →
        Arrives mk (s.name ++ "_twist") msg.stamp (fun p => p.thresh = s.twistThresh ∧ (msg.child = c.base →
          SelectsAmong s p (6 ≤ ·) ∧ (∀ i : Fin 3, p.z (axis 6 (by omega) i) = msg.lin i) ∧
          (∀ i : Fin 3, p.z (axis 9 (by omega) i) = msg.ang i) ∧ CovAt6 p 6 (by omega) msg.twistCov))
          h1 (h.odomCallback mk c msg a b)) ∧
      ((¬ ∃ i : Fin 15, 6 ≤ i.val ∧ Selects s.config i.val) → h.odomCallback mk c msg a b = h1) := by
  obtain ⟨u1, u2, ⟨t1, t2⟩, ⟨th1, th2⟩, hdf, hrl, hch, s1, s2⟩ := odomData_full ha hc
  have hr : s.rel = false := by unfold SensorPar.rel; rw [hrel]; rfl
  rw [hdiff] at hdf
  rw [hr] at hrl
  have hst : ¬ h.node.stale msg.stamp := not_le.2 hf.1
  have hlast : (h.node.lastMsg a.topic).getD msg.stamp ≤ msg.stamp := by
    rw [t1]
    cases e : h.node.lastMsg (s.name ++ "_pose") with
    | none => exact le_rfl
    | some t => exact hf.2 t e
  simp only [u1] at s1
  simp only [u2] at s2
  -- the pose part
  have hpose : Arrives mk (s.name ++ "_pose") msg.stamp (fun p => SelectsAmong s p (fun i => ¬ (6 ≤ i ∧ i < 12)) ∧
      MeasuresPose p B ∧ (s.useChild = false ∨ msg.child = c.base → CovAt6 p 0 (by omega) msg.poseCov) ∧ p.thresh = s.poseThresh)
      h (h.poseCallback mk c msg.poseMsg a c.world (if a.useChild then msg.child else c.base) false) := by
    unfold Hub.poseCallback
    rw [if_neg (show ¬ h.node.stale msg.poseMsg.stamp from hst)]
    simp only
    rw [if_pos (show (h.node.lastMsg a.topic).getD msg.poseMsg.stamp ≤ msg.poseMsg.stamp from hlast)]
    simp only [hdf, hrl, hch]
    cases hB with
    | direct hs hp =>
      have hsrc : sourceTf c (if s.useChild = true then msg.child else c.base) (poseLookupTime msg.poseMsg.stamp) = none := by
        rcases hs with hs | hs
        · simp [hs, sourceTf]
        · simp [hs, sourceTf]
      obtain ⟨q, e, e1, e2, e3, e4⟩ := preparePose_world c hb hd h.mem ((h.node.lastMsg a.topic).getD msg.poseMsg.stamp) msg.poseMsg
        a.topic _ a.blank hw hm hsrc
      rw [e, Option.map_some, t1]
      refine sensor_arrives hf mk ⟨fun i => ?_, hp ▸ e1, fun _ => e3, e4.trans th1⟩ _
      rw [e2]
      exact u1 i
    | child hs hcb S hS hlk hp =>
      rw [if_pos hs]
      obtain ⟨q, e, e1, e2, e4⟩ := preparePose_child c hb hd h.mem ((h.node.lastMsg a.topic).getD msg.poseMsg.stamp) msg.poseMsg
        a.topic msg.child a.blank B S hS hw hm hcb hlk hp
      rw [e, Option.map_some, t1]
      refine sensor_arrives hf mk ⟨fun i => ?_, e1, fun hor => ?_, e4.trans th1⟩ _
      · rw [e2]
        exact u1 i
      · rcases hor with hor | hor
        · rw [hs] at hor; cases hor
        · exact absurd hor hcb
  -- the velocity part
  have htwist : ∀ h1 : Hub C P, Fresh h1 (s.name ++ "_twist") msg.stamp →
      Arrives mk (s.name ++ "_twist") msg.stamp (fun p => p.thresh = s.twistThresh ∧ (msg.child = c.base →
          SelectsAmong s p (6 ≤ ·) ∧ (∀ i : Fin 3, p.z (axis 6 (by omega) i) = msg.lin i) ∧
          (∀ i : Fin 3, p.z (axis 9 (by omega) i) = msg.ang i) ∧ CovAt6 p 6 (by omega) msg.twistCov)) h1
        (h1.twistCallback mk c { frame := msg.child, stamp := msg.stamp, lin := msg.lin, ang := msg.ang, cov := msg.twistCov } b c.base) := by
    intro h1 hf1
    unfold Hub.twistCallback
    obtain ⟨q, e, -, -, -, -, -, -, eth⟩ := prepareTwist_val c hd
      { frame := msg.child, stamp := msg.stamp, lin := msg.lin, ang := msg.ang, cov := msg.twistCov } c.base b.blank t ht
    rw [e, Option.map_some, t2]
    refine sensor_arrives hf1 mk ⟨eth.trans th2, fun hcb => ?_⟩ _
    obtain ⟨q', e', e1, e2, e3, e4, e5⟩ := prepareTwist_base c hb hd
      { frame := msg.child, stamp := msg.stamp, lin := msg.lin, ang := msg.ang, cov := msg.twistCov } b.blank hcb hl hang
    rw [e] at e'
    cases e'
    refine ⟨fun i => ?_, e1, e2, e4⟩
    rw [e3]
    exact u2 i
  refine ⟨if a.sum > 0 then h.poseCallback mk c msg.poseMsg a c.world (if a.useChild then msg.child else c.base) false else h,
    fun hp => ?_, fun hp => ?_, fun hp => ?_, fun hp => ?_⟩
  · rw [if_pos (s1.2 hp)]
    exact hpose
  · rw [if_neg fun hn => hp (s1.1 hn)]
  · unfold Hub.odomCallback
    rw [if_neg hst]
    simp only
    rw [if_pos (s2.2 hp)]
    refine htwist _ ?_
    split
    · exact hpose.fresh (suffix_ne _ (by decide)) hf'
    · exact hf'
  · unfold Hub.odomCallback
    rw [if_neg hst]
    simp only
    rw [if_neg fun hn => hp (s2.1 hn)]
    rfl

/-- What `preparePose` makes of the orientation of an IMU that sits on the robot as the base frame does. -/
theorem preparePose_level (c : PrepCtx) (hb : SaneBuf c.buf) (hd : c.twoD = false) (mem : PoseMem) (last : Int) (msg : PoseMsg)
    (topic : String) (p : Payload) (hw : c.base ≠ "") (hf : msg.frame = c.base) (hv : |(msgPose msg).rot 2 0| < 1) :
    ∃ q, (preparePose c mem last msg topic c.base c.base false false true p).2 = some q ∧
      (∀ i : Fin 3, q.z (axis 3 (by omega) i) = .fin (getRPY (msgPose msg).rot i)) ∧
      q.upd = p.upd ∧ CovAt6 q 0 (by omega) msg.cov ∧ q.thresh = p.thresh := by
  have hR := msgPose_isRot msg
  have hl : lookupTransformSafe c.buf c.base msg.frame (poseLookupTime msg.stamp) = some Tf.id := by
    rw [hf]; exact hb.lookup_self _ _
  have hi : imuRot Tf.id (msgPose msg) = (msgPose msg).rot := by
    have e := C43_same_rotation_partial hR hv
    have hq : quatToRPY (quatOf (Tf.id).rot) = ![0, 0, 0] := by
      have e : (Tf.id).rot = (1 : M3) := rfl
      rw [e, quatToRPY_quatOf IsRot.one]
      exact Nav.getRPY_one
    unfold imuRot
    simp only [hq, quatToRPY_quatOf hR, cons_val_zero, cons_val_one, cons_val, sub_zero, Nav.setRPY_zero, one_mulVec]
    have e1 : normalizeAngle (getRPY (msgPose msg).rot 1) = getRPY (msgPose msg).rot 1 := by
      obtain ⟨v1, v2⟩ := abs_lt.1 hv
      have : getRPY (msgPose msg).rot 1 = -Real.arcsin ((msgPose msg).rot 2 0) := by
        unfold getRPY
        rw [if_neg (by linarith)]
        simp
      rw [this]
      have := Real.arcsin_lt_pi_div_two.2 v2
      have := Real.neg_pi_div_two_lt_arcsin.2 v1
      exact normalizeAngle_of_mem (by linarith [Real.pi_pos]) (by linarith [Real.pi_pos])
    rw [e1]
    exact (setRPY_congr (normalizeAngle_mod _) (normalizeAngle_mod _)).trans e
  obtain ⟨q, h1, h2⟩ := preparePose_imu c hd mem last msg topic c.base hw p Tf.id _ hR hl hi
  refine ⟨q, h1, h2, ?_⟩
  have e1 : poseFrames c msg.frame c.base false true = (c.base, msg.frame) := by simp [poseFrames, hw]
  have e2 : sourceTf c c.base (poseLookupTime msg.stamp) = none := by simp [sourceTf]
  have e3 : setRPY 0 0 (getRPY (Tf.id).rot 2) = 1 := by
    have e : (Tf.id).rot = (1 : M3) := rfl
    rw [e, Nav.getRPY_one]
    exact Nav.setRPY_zero
  unfold preparePose at h1
  simp only [e1, e2, hl, poseWith, e3, finish, hd, Bool.false_eq_true, if_false, if_true, Option.some.injEq] at h1
  subst h1
  refine ⟨poseUpd_one _, fun i j => ?_, rfl⟩
  show putBlock 6 0 p.R (rot6d 1 * copyCov6 msg.cov * (rot6d 1)ᵀ) ⟨0 + i.val, _⟩ ⟨0 + j.val, _⟩ = _
  rw [rot6d_one, Matrix.one_mul, transpose_one, Matrix.mul_one, copyCov6_eq, putBlock_at (by omega)]
  rfl

theorem angularCov_at (cov : Fin 9 → ℝ) (i j : Fin 3) :
    angularCov cov (finProdFinEquiv ((⟨3 + i.val, by omega⟩, ⟨3 + j.val, by omega⟩) : Fin 6 × Fin 6)) = cov (finProdFinEquiv (i, j)) := by
  fin_cases i <;> fin_cases j <;> rfl

theorem CovAt6.angular {p : Payload} {off : ℕ} {h : off + 6 ≤ 15} {cov : Fin 9 → ℝ} (hc : CovAt6 p off h (angularCov cov)) :
    CovAt3 p (off + 3) (by omega) cov := by
  intro i j
  have e := hc ⟨3 + i.val, by omega⟩ ⟨3 + j.val, by omega⟩
  rw [angularCov_at] at e
  rw [← e]
  congr 1 <;> exact Fin.ext (by simp; omega)

/-- The orientation an IMU reports. -/
noncomputable def ImuMsg.att (msg : ImuMsg) : M3 :=
  (msgPose { frame := msg.frame, stamp := msg.stamp, pos := 0, ori := msg.ori, cov := angularCov msg.oriCov }).rot

theorem gravityPart_id (c : PrepCtx) (msg : ImuMsg) (hn : msg.ori ≠ ⟨0, 0, 0, 0⟩) (hp : ¬ |msg.oriCov 0 + 1| < 1e-9) :
    gravityPart c Tf.id msg false = (msg.att)ᵀ.mulVec ![0, 0, c.gravity] := by
  have hR : IsRot msg.att := msgPose_isRot _
  rw [← hR.inv]
  unfold gravityPart ImuMsg.att msgPose
  have hn' : ¬ (msg.ori.x = 0 ∧ msg.ori.y = 0 ∧ msg.ori.z = 0 ∧ msg.ori.w = 0) := by
    rintro ⟨a, b, d, e⟩
    apply hn
    cases h : msg.ori
    rw [h] at a b d e
    simp_all
  simp only [if_neg hp, if_neg hn', Bool.false_eq_true, if_false]

/-- What `prepareAcceleration` makes of an accelerometer that sits on the robot as the base frame does. -/
theorem prepareAcceleration_base (c : PrepCtx) (hb : SaneBuf c.buf) (hd : c.twoD = false) (rg : Bool) (msg : ImuMsg) (p : Payload)
    (hf : msg.frame = c.base) (hn : msg.ori ≠ ⟨0, 0, 0, 0⟩) (hp : ¬ |msg.oriCov 0 + 1| < 1e-9) :
    ∃ q, prepareAcceleration c rg msg c.base false p = some q ∧
      (∀ i : Fin 3, q.z (axis 12 (by omega) i) =
        .fin ((msg.acc - if rg then (msg.att)ᵀ.mulVec ![0, 0, c.gravity] else 0) i)) ∧
      q.upd = p.upd ∧ CovAt3 q 12 (by omega) msg.accCov ∧ q.thresh = p.thresh := by
  have hq1 : (quatOf (1 : M3)).mat = 1 := (C43_matrix_to_quaternion IsRot.one).2
  have hl : lookupTransformSafe c.buf c.base (if msg.frame = "" then c.base else msg.frame) msg.stamp = some Tf.id := by
    rw [hf, ite_self]
    exact hb.lookup_self _ _
  obtain ⟨q, h1, h2⟩ := prepareAcceleration_val c hd rg msg c.base false p Tf.id hl
  refine ⟨q, h1, fun i => ?_, ?_⟩
  · rw [h2, gravityPart_id c msg hn hp]
    congr 2
    have e1 : ∀ v : V3, cross (Tf.id).org v = 0 := by
      intro v
      funext i
      fin_cases i <;> simp [cross, Tf.id]
    have e2 : ∀ v : V3, cross 0 v = 0 := by
      intro v
      funext i
      fin_cases i <;> simp [cross]
    rw [e1, e1, e2]
    simp [Tf.id]
  · unfold prepareAcceleration at h1
    rw [hl, Option.map_some, Option.some.injEq] at h1
    subst h1
    simp only [accelPayload, finish, hd, Bool.false_eq_true, if_false]
    refine ⟨?_, fun i j => ?_, trivial⟩
    · funext i
      have e : (Tf.id).rot = (1 : M3) := rfl
      simp only [e, put, maskAxes_one]
      split
      · congr 1
        apply Fin.ext
        simp [axis]
        omega
      · rfl
    · show putBlock 3 12 p.R ((quatOf (1 : M3)).mat * copyCov3 msg.accCov * ((quatOf (1 : M3)).mat)ᵀ) _ _ = _
      rw [hq1, Matrix.one_mul, transpose_one, Matrix.mul_one, putBlock_at (by omega)]
      fin_cases i <;> fin_cases j <;> rfl

/-- C93 for an IMU that sits on the robot as the base frame does and reports all its fields: orientation, angular velocity
and acceleration arrive as three measurements, each if one of its variables is selected. -/
theorem C93_imu_partial (mk : Payload → C.Z) (c : PrepCtx) (hb : SaneBuf c.buf) (hd : c.twoD = false) (hw : c.base ≠ "")
    (h : Hub C P) (s : SensorPar) (a b d : CallbackData) (ha : imuData s = some (a, b, d)) (hc : s.config.length = 15)
    (hdiff : s.differential = false) (hrel : s.relative = false) (msg : ImuMsg) (grav : Bool) (hm : msg.frame = c.base)
    (p1 : 0 ≤ msg.oriCov 0) (p2 : 0 ≤ msg.velCov 0) (p3 : 0 ≤ msg.accCov 0) (hn : msg.ori ≠ ⟨0, 0, 0, 0⟩)
    (hv : |msg.att 2 0| < 1) (hang : ∀ i, (msg.vel i).isFin = true)
    (hf : Fresh h (s.name ++ "_pose") msg.stamp) (hf2 : Fresh h (s.name ++ "_twist") msg.stamp)
    (hf3 : Fresh h (s.name ++ "_acceleration") msg.stamp) :
    ∃ h1 h2 : Hub C P,
      ((∃ i : Fin 15, (3 ≤ i.val ∧ i.val < 6) ∧ Selects s.config i.val) →
        Arrives mk (s.name ++ "_pose") msg.stamp (fun p => SelectsAmong s p (fun i => 3 ≤ i ∧ i < 6) ∧
          (∀ i : Fin 3, p.z (axis 3 (by omega) i) = .fin (getRPY msg.att i)) ∧
          CovAt3 p 3 (by omega) msg.oriCov ∧ p.thresh = s.poseThresh) h h1) ∧
      ((¬ ∃ i : Fin 15, (3 ≤ i.val ∧ i.val < 6) ∧ Selects s.config i.val) → h1 = h) ∧
      ((∃ i : Fin 15, (9 ≤ i.val ∧ i.val < 12) ∧ Selects s.config i.val) →
        Arrives mk (s.name ++ "_twist") msg.stamp (fun p => SelectsAmong s p (fun i => 9 ≤ i ∧ i < 12) ∧
          (∀ i : Fin 3, p.z (axis 9 (by omega) i) = msg.vel i) ∧
          CovAt3 p 9 (by omega) msg.velCov ∧ p.thresh = s.twistThresh) h1 h2) ∧
      ((¬ ∃ i : Fin 15, (9 ≤ i.val ∧ i.val < 12) ∧ Selects s.config i.val) → h2 = h1) ∧
      ((∃ i : Fin 15, 12 ≤ i.val ∧ Selects s.config i.val) →
        Arrives mk (s.name ++ "_acceleration") msg.stamp (fun p => SelectsAmong s p (fun i => 12 ≤ i) ∧
          (∀ i : Fin 3, p.z (axis 12 (by omega) i) =
            .fin ((msg.acc - if grav then (msg.att)ᵀ.mulVec ![0, 0, c.gravity] else 0) i)) ∧
          CovAt3 p 12 (by omega) msg.accCov ∧ p.thresh = s.accelThresh) h2 (h.imuCallback mk c msg a b d grav)) ∧
      ((¬ ∃ i : Fin 15, 12 ≤ i.val ∧ Selects s.config i.val) → h.imuCallback mk c msg a b d grav = h2) := by
  obtain ⟨u1, u2, u3, ⟨t1, t2, t3⟩, ⟨th1, th2, th3⟩, hdf, hrl, s1, s2, s3⟩ := imuData_full ha hc
  have hr : s.rel = false := by unfold SensorPar.rel; rw [hrel]; rfl
  rw [hdiff] at hdf
  rw [hr] at hrl
  have hdr : d.relative = false := by
    have := (C37_modes s).2.2.2 _ ha
    simp only [modes, Prod.mk.injEq] at this
    rw [this.2.2.2, hrel]
    rfl
  have present : ∀ x : ℝ, 0 ≤ x → ¬ |x + 1| < 1e-9 := by
    intro x hx hlt
    rw [abs_of_nonneg (by linarith)] at hlt
    norm_num at hlt
    linarith
  have hst : ¬ h.node.stale msg.stamp := not_le.2 hf.1
  have hlast : (h.node.lastMsg a.topic).getD msg.stamp ≤ msg.stamp := by
    rw [t1]
    cases e : h.node.lastMsg (s.name ++ "_pose") with
    | none => exact le_rfl
    | some t => exact hf.2 t e
  simp only [u1] at s1
  simp only [u2] at s2
  simp only [u3] at s3
  set om : PoseMsg := { frame := msg.frame, stamp := msg.stamp, pos := 0, ori := msg.ori, cov := angularCov msg.oriCov }
  set tm : TwistMsg := { frame := msg.frame, stamp := msg.stamp, lin := fun _ => .fin 0, ang := msg.vel, cov := angularCov msg.velCov }
  have hpose : Arrives mk (s.name ++ "_pose") msg.stamp (fun p => SelectsAmong s p (fun i => 3 ≤ i ∧ i < 6) ∧
          (∀ i : Fin 3, p.z (axis 3 (by omega) i) = .fin (getRPY msg.att i)) ∧
          CovAt3 p 3 (by omega) msg.oriCov ∧ p.thresh = s.poseThresh) h (h.poseCallback mk c om a c.base c.base true) := by
    unfold Hub.poseCallback
    rw [if_neg (show ¬ h.node.stale om.stamp from hst)]
    simp only
    rw [if_pos (show (h.node.lastMsg a.topic).getD om.stamp ≤ om.stamp from hlast)]
    simp only [hdf, hrl]
    obtain ⟨q, e, e1, e2, e3, e4⟩ := preparePose_level c hb hd h.mem ((h.node.lastMsg a.topic).getD om.stamp) om a.topic a.blank hw hm hv
    rw [e, Option.map_some, t1]
    refine sensor_arrives hf mk ⟨fun i => ?_, e1, e3.angular, e4.trans th1⟩ _
    rw [e2]
    exact u1 i
  have htwist : ∀ h1 : Hub C P, Fresh h1 (s.name ++ "_twist") msg.stamp →
      Arrives mk (s.name ++ "_twist") msg.stamp (fun p => SelectsAmong s p (fun i => 9 ≤ i ∧ i < 12) ∧
          (∀ i : Fin 3, p.z (axis 9 (by omega) i) = msg.vel i) ∧
          CovAt3 p 9 (by omega) msg.velCov ∧ p.thresh = s.twistThresh) h1 (h1.twistCallback mk c tm b c.base) := by
    intro h1 hf1
    unfold Hub.twistCallback
    obtain ⟨q, e, -, e2, e3, e4, e5⟩ := prepareTwist_base c hb hd tm b.blank hm (fun _ => rfl) hang
    rw [e, Option.map_some, t2]
    refine sensor_arrives hf1 mk ⟨fun i => ?_, e2, e4.angular, e5.trans th2⟩ _
    rw [e3]
    exact u2 i
  have haccel : ∀ h1 : Hub C P, Fresh h1 (s.name ++ "_acceleration") msg.stamp →
      Arrives mk (s.name ++ "_acceleration") msg.stamp (fun p => SelectsAmong s p (fun i => 12 ≤ i) ∧
          (∀ i : Fin 3, p.z (axis 12 (by omega) i) =
            .fin ((msg.acc - if grav then (msg.att)ᵀ.mulVec ![0, 0, c.gravity] else 0) i)) ∧
          CovAt3 p 12 (by omega) msg.accCov ∧ p.thresh = s.accelThresh) h1 (h1.accelCallback mk c msg d c.base grav) := by
    intro h1 hf1
    unfold Hub.accelCallback
    obtain ⟨q, e, e2, e3, e4, e5⟩ := prepareAcceleration_base c hb hd grav msg d.blank hm hn (present _ p1)
    rw [hdr]
    simp only [e, Option.map_some, t3]
    refine sensor_arrives hf1 mk ⟨fun i => ?_, e2, e4, e5.trans th3⟩ _
    rw [e3]
    exact u3 i
  set h1 := if a.sum > 0 then h.poseCallback mk c om a c.base c.base true else h with h1d
  set h2 := if b.sum > 0 then h1.twistCallback mk c tm b c.base else h1 with h2d
  have f2 : Fresh h1 (s.name ++ "_twist") msg.stamp ∧ Fresh h1 (s.name ++ "_acceleration") msg.stamp := by
    rw [h1d]
    split
    · exact ⟨hpose.fresh (suffix_ne _ (by decide)) hf2, hpose.fresh (suffix_ne _ (by decide)) hf3⟩
    · exact ⟨hf2, hf3⟩
  have f3 : Fresh h2 (s.name ++ "_acceleration") msg.stamp := by
    rw [h2d]
    split
    · exact (htwist h1 f2.1).fresh (suffix_ne _ (by decide)) f2.2
    · exact f2.2
  have hcb : h.imuCallback mk c msg a b d grav = if d.sum > 0 then h2.accelCallback mk c msg d c.base grav else h2 := by
    unfold Hub.imuCallback
    rw [if_neg hst]
    simp only [present _ p1, present _ p2, present _ p3, not_false_eq_true, and_true]
    rfl
  refine ⟨h1, h2, fun hp => ?_, fun hp => ?_, fun hp => ?_, fun hp => ?_, fun hp => ?_, fun hp => ?_⟩
  · rw [h1d, if_pos (s1.2 hp)]
    exact hpose
  · rw [h1d, if_neg fun hn => hp (s1.1 hn)]
  · rw [h2d, if_pos (s2.2 hp)]
    exact htwist h1 f2.1
  · rw [h2d, if_neg fun hn => hp (s2.1 hn)]
  · rw [hcb, if_pos (s3.2 hp)]
    exact haccel h2 f3
  · rw [hcb, if_neg fun hn => hp (s3.1 hn)]

/-- A node that has been started and takes its first messages: odometry of another frame on the robot, and an IMU. -/
noncomputable def arrivalOdom : OdomMsg :=
  { frame := "odom", stamp := 7, child := "gps", pos := ![1, 2, 0], ori := ⟨0, 0, 0, 1⟩, poseCov := fun _ => 1
    lin := fun _ => .fin 1, ang := fun _ => .fin 0, twistCov := fun _ => 1 }
def arrivalImu : ImuMsg :=
  { frame := "base_link", stamp := 7, ori := ⟨0, 0, 0, 1⟩, oriCov := fun _ => 1, vel := fun _ => .fin 1, velCov := fun _ => 1
    acc := ![0, 0, 9], accCov := fun _ => 1 }

example (cfg : Cfg C) (ext0 : C.Ext) (c0 : C.Ctl) (m : PoseMem) (t : String) :
    Fresh (P := P) { node := Node.start cfg P ext0 c0 3, mem := m } t 7 := by
  refine ⟨by show (0 : Int) < 7; decide, fun t ht => ?_⟩
  cases ht

example : poseDemo.twoD = false ∧ SaneBuf poseDemo.buf ∧ poseDemo.world ≠ "" ∧ poseDemo.base ≠ "" ∧
    (odomData sensorDemo).isSome ∧ (imuData sensorDemo).isSome ∧ sensorDemo.config.length = 15 ∧
    sensorDemo.differential = false ∧ sensorDemo.relative = false ∧ arrivalOdom.frame = poseDemo.world ∧
    arrivalOdom.child ≠ poseDemo.base ∧ arrivalImu.frame = poseDemo.base :=
  ⟨rfl, poseDemo_sane, by decide, by decide, rfl, rfl, rfl, rfl, rfl, rfl, by decide, rfl⟩

example : arrivalImu.ori ≠ ⟨0, 0, 0, 0⟩ ∧ |arrivalImu.att 2 0| < 1 := by
  constructor
  · intro h
    simp [arrivalImu] at h
  · have h : ¬ ((1e-2 : ℝ) < 0) := by norm_num
    simp [ImuMsg.att, arrivalImu, msgPose, Quat.mat, Quat.len2, h]

/-- The odometry reports the pose of the GPS, three metres ahead of the base. -/
example : ReportsPose poseDemo { sensorDemo with useChild := true } arrivalOdom (msgPose arrivalOdom.poseMsg)
    { rot := 1, org := ![-2, 2, 0] } := by
  refine .child rfl (by decide) { rot := 1, org := ![3, 0, 0] } IsRot.one ?_ ?_
  · have e : (Tf.inv { rot := (1 : M3), org := ![3, 0, 0] }) = { rot := 1, org := ![-3, 0, 0] } := by
      simp [Tf.inv]
    rw [e]
    simp [lookupTransformSafe, poseDemo, arrivalOdom, demoCtx]
  · have h : ¬ ((1e-2 : ℝ) < 0) := by norm_num
    have hq : (⟨0, 0, 0, 1⟩ : Quat).mat = 1 := Nav.quat_one
    simp [msgPose, OdomMsg.poseMsg, arrivalOdom, Tf.mul, hq, Quat.len2, h]
    norm_num

end RL
