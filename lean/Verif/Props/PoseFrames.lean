import Verif.Props.Pose
/-!
# Relative poses (C37), covariance of differential velocities (C64), poses of other frames (C65), transform lookup (C59)
-/

namespace RL
open Matrix Real

/-! ## C64 -/

/-- The covariance of the difference of two independent measurements divided by the time between them. -/
noncomputable def Body.velocityCov (C0 C1 : M6) (dt : ℝ) : M6 := (1 / dt ^ 2) • (C0 + C1)

/-- C64 fails: the covariance given to the filter is that of the velocity times the third power of the time step. -/
theorem C64_scaled_by_dt_cubed (c : PrepCtx) (hb : SaneBuf c.buf) (hd : c.twoD = false) (mem : PoseMem) (last : Int)
    (msg : PoseMsg) (topic target : String) (ht : target ≠ "") (relative : Bool) (p : Payload) (T0 : Tf) (C0 : M6)
    (hm : mem.prev topic = some (T0, C0)) (hlt : last < msg.stamp) :
    ∃ q, (preparePose c mem last msg topic target c.base true relative false p).2 = some q ∧
      ∀ i j : Fin 6, q.R ⟨6 + i.val, by omega⟩ ⟨6 + j.val, by omega⟩ =
        toSec (msg.stamp - last) ^ 3 * Body.velocityCov C0 (copyCov6 msg.cov) (toSec (msg.stamp - last)) i j := by
  rw [preparePose_diff c hb hd mem last msg topic target ht relative p]
  simp only [hm, Option.map_some]
  refine ⟨_, rfl, ?_⟩
  intro i j
  have hdt : toSec msg.stamp - toSec last = toSec (msg.stamp - last) := by
    unfold toSec; push_cast; ring
  have hpos : 0 < toSec (msg.stamp - last) := by
    unfold toSec
    have : (0 : ℝ) < ((msg.stamp - last : Int) : ℝ) := by exact_mod_cast (by omega : 0 < msg.stamp - last)
    exact mul_pos this (by norm_num)
  have q2 : (quatOf Tf.id.rot).mat = 1 := (C43_matrix_to_quaternion IsRot.one).2
  unfold twistPayload finish
  simp only [hd, Bool.false_eq_true, if_false, q2, rot6d_one, Matrix.one_mul, transpose_one, Matrix.mul_one]
  simp only [diffTwist, copyCov6_copyOut6, Matrix.one_mul, transpose_one, Matrix.mul_one, hdt]
  have h : (6 ≤ 6 + i.val ∧ 6 + i.val < 6 + 6) ∧ (6 ≤ 6 + j.val ∧ 6 + j.val < 6 + 6) := by omega
  have e1 : ∀ k : Fin 6, (⟨6 + k.val - 6, by omega⟩ : Fin 6) = k := by intro k; ext; simp
  simp only [putBlock, of_apply, h, and_self, dite_true, e1, Matrix.smul_apply, Matrix.add_apply, smul_eq_mul,
    Body.velocityCov]
  field_simp
  ring

/-- C64 holds for poses one second apart. -/
theorem C64_one_second_partial (c : PrepCtx) (hb : SaneBuf c.buf) (hd : c.twoD = false) (mem : PoseMem) (last : Int)
    (msg : PoseMsg) (topic target : String) (ht : target ≠ "") (relative : Bool) (p : Payload) (T0 : Tf) (C0 : M6)
    (hm : mem.prev topic = some (T0, C0)) (hlt : msg.stamp = last + 1000000000) :
    ∃ q, (preparePose c mem last msg topic target c.base true relative false p).2 = some q ∧
      ∀ i j : Fin 6, q.R ⟨6 + i.val, by omega⟩ ⟨6 + j.val, by omega⟩ =
        Body.velocityCov C0 (copyCov6 msg.cov) 1 i j := by
  obtain ⟨q, h1, h2⟩ := C64_scaled_by_dt_cubed c hb hd mem last msg topic target ht relative p T0 C0 hm (by omega)
  refine ⟨q, h1, fun i j => ?_⟩
  have : toSec (msg.stamp - last) = 1 := by
    rw [hlt, show last + 1000000000 - last = 1000000000 by ring]
    unfold toSec
    norm_num
  rw [h2, this]
  ring

/-! ## C65 -/

/-- The pose a payload measures. -/
structure MeasuresPose (q : Payload) (T : Tf) : Prop where
  pos : ∀ i : Fin 3, q.z (axis 0 (by omega) i) = .fin (T.org i)
  ori : ∀ i : Fin 3, q.z (axis 3 (by omega) i) = .fin (getRPY T.rot i)

theorem poseWith_measures (c : PrepCtx) (hd : c.twoD = false) (mem : PoseMem) (last : Int) (t : Tf) (ht : IsRot t.rot)
    (src : Option Tf) (hsrc : ∀ s, src = some s → IsRot s.rot) (msg : PoseMsg) (topic source : String) (p : Payload) :
    ∃ q, (poseWith c mem last t src msg topic source false false false p).2 = some q ∧
      MeasuresPose q (t.mul ((msgPose msg).mul (src.getD Tf.id))) := by
  have hr : IsRot (t.mul ((msgPose msg).mul (src.getD Tf.id))).rot := by
    refine ht.mul ((msgPose_isRot msg).mul ?_)
    cases src with
    | none => exact IsRot.one
    | some s => exact hsrc s rfl
  have e : (match src with
      | some s => (msgPose msg).mul s
      | none => msgPose msg) = (msgPose msg).mul (src.getD Tf.id) := by
    cases src with
    | none => exact (Tf.mul_id _).symm
    | some s => rfl
  have hq : quatToRPY (quatOf (t.mul ((msgPose msg).mul (src.getD Tf.id))).rot) =
      getRPY (t.mul ((msgPose msg).mul (src.getD Tf.id))).rot := by
    unfold quatToRPY; rw [(C43_matrix_to_quaternion hr).2]
  refine ⟨_, rfl, ?_, ?_⟩
  · intro i
    simp only [poseWith, finish, hd, Bool.false_eq_true, if_false]
    fin_cases i <;> simp [put, axis] <;> cases src <;> simp [Tf.mul_id]
  · intro i
    simp only [poseWith, finish, hd, Bool.false_eq_true, if_false]
    rw [← hq]
    fin_cases i <;> simp [put, axis] <;> cases src <;> simp [Tf.mul_id]

/-- C65: when the place `S` of the reporting frame on the robot is known, the pose `B·S` of that frame is fused as the
pose `B` of the base. -/
theorem C65_converted_partial (c : PrepCtx) (hb : SaneBuf c.buf) (hd : c.twoD = false) (mem : PoseMem) (last : Int)
    (msg : PoseMsg) (topic source : String) (p : Payload) (B S : Tf) (hS : IsRot S.rot)
    (hw : c.world ≠ "") (hf : msg.frame = c.world) (hsrc : source ≠ c.base)
    (hl : lookupTransformSafe c.buf source c.base (poseLookupTime msg.stamp) = some S.inv)
    (hm : msgPose msg = B.mul S) :
    ∃ q, (preparePose c mem last msg topic c.world source false false false p).2 = some q ∧ MeasuresPose q B := by
  unfold preparePose
  have e1 : poseFrames c msg.frame c.world false false = (c.world, c.world) := by simp [poseFrames, hw, hf]
  have e2 : sourceTf c source (poseLookupTime msg.stamp) = some S.inv := by simp [sourceTf, hsrc, hl]
  simp only [e1, e2, hb.lookup_self]
  obtain ⟨q, h1, h2⟩ := poseWith_measures c hd mem last Tf.id IsRot.one (some S.inv)
    (by intro s hs; cases hs; exact Tf.isRot_inv hS) msg topic source p
  refine ⟨q, h1, ?_⟩
  rwa [Tf.id_mul, hm, Option.getD_some, Tf.mul_assoc, Tf.mul_inv hS, Tf.mul_id] at h2

/-- C65 fails when the place of the reporting frame on the robot is not known: its pose is fused as if it were the pose
of the base. -/
theorem C65_unknown_frame_fused (c : PrepCtx) (hb : SaneBuf c.buf) (hd : c.twoD = false) (mem : PoseMem) (last : Int)
    (msg : PoseMsg) (topic source : String) (p : Payload) (hw : c.world ≠ "") (hf : msg.frame = c.world)
    (hl : lookupTransformSafe c.buf source c.base (poseLookupTime msg.stamp) = none) :
    ∃ q, (preparePose c mem last msg topic c.world source false false false p).2 = some q ∧ MeasuresPose q (msgPose msg) := by
  unfold preparePose
  have e1 : poseFrames c msg.frame c.world false false = (c.world, c.world) := by simp [poseFrames, hw, hf]
  have e2 : sourceTf c source (poseLookupTime msg.stamp) = none := by simp [sourceTf, hl]
  simp only [e1, e2, hb.lookup_self]
  obtain ⟨q, h1, h2⟩ := poseWith_measures c hd mem last Tf.id IsRot.one none
    (by intro s hs; cases hs) msg topic source p
  refine ⟨q, h1, ?_⟩
  rwa [Tf.id_mul, Option.getD_none, Tf.mul_id] at h2

/-! ## C37 -/

/-- The memory after a list of messages of one topic in relative mode. -/
noncomputable def relRun (c : PrepCtx) (topic source : String) (p : Payload) :
    PoseMem → List PoseMsg → PoseMem
  | mem, [] => mem
  | mem, m :: ms => relRun c topic source p (preparePose c mem 0 m topic c.world source false true false p).1 ms

theorem preparePose_rel_world (c : PrepCtx) (hb : SaneBuf c.buf) (hd : c.twoD = false) (mem : PoseMem) (last : Int)
    (msg : PoseMsg) (topic : String) (p : Payload) (hw : c.world ≠ "") (hf : msg.frame = c.world)
    (hi : ∀ T, mem.init topic = some T → IsRot T.rot) :
    (preparePose c mem last msg topic c.world c.base false true false p).1.init topic =
        some ((mem.init topic).getD (msgPose msg)) ∧
    ∃ q, (preparePose c mem last msg topic c.world c.base false true false p).2 = some q ∧
      MeasuresPose q (((mem.init topic).getD (msgPose msg)).inv.mul (msgPose msg)) := by
  unfold preparePose
  have e1 : poseFrames c msg.frame c.world false false = (c.world, c.world) := by simp [poseFrames, hw, hf]
  have e2 : sourceTf c c.base (poseLookupTime msg.stamp) = none := by simp [sourceTf]
  simp only [e1, e2, hb.lookup_self]
  refine ⟨by simp [poseWith], ?_⟩
  set F := (mem.init topic).getD (msgPose msg) with hF
  have hFr : IsRot F.rot := by
    rw [hF]
    cases h : mem.init topic with
    | none => exact msgPose_isRot msg
    | some T => exact hi T h
  have hr : IsRot (F.inv.mul (msgPose msg)).rot := (Tf.isRot_inv hFr).mul (msgPose_isRot msg)
  have hq : quatToRPY (quatOf (F.inv.mul (msgPose msg)).rot) = getRPY (F.inv.mul (msgPose msg)).rot := by
    unfold quatToRPY; rw [(C43_matrix_to_quaternion hr).2]
  refine ⟨_, rfl, ?_, ?_⟩
  · intro i
    simp only [poseWith, finish, hd, Bool.false_eq_true, if_false, if_true, ← hF, Tf.id_mul, Tf.inverseTimes_eq]
    fin_cases i <;> simp [put, axis]
  · intro i
    simp only [poseWith, finish, hd, Bool.false_eq_true, if_false, if_true, ← hF, Tf.id_mul, Tf.inverseTimes_eq]
    rw [← hq]
    fin_cases i <;> simp [put, axis]

theorem relRun_init (c : PrepCtx) (hb : SaneBuf c.buf) (hd : c.twoD = false) (topic : String) (p : Payload) (hw : c.world ≠ "")
    (F : Tf) (hF : IsRot F.rot) :
    ∀ (ms : List PoseMsg) (mem : PoseMem), (∀ m ∈ ms, m.frame = c.world) → mem.init topic = some F →
      (relRun c topic c.base p mem ms).init topic = some F := by
  intro ms
  induction ms with
  | nil => intro mem _ h; exact h
  | cons m ms ih =>
    intro mem hf h
    apply ih _ (fun x hx => hf x (List.mem_cons_of_mem _ hx))
    have := (preparePose_rel_world c hb hd mem 0 m topic p hw (hf m List.mem_cons_self)
      (by intro T hT; rw [h] at hT; cases hT; exact hF)).1
    rw [this, h, Option.getD_some]

/-- C37: poses given in the world frame: the first one measures the origin, and every later one, after any number of
others, its pose relative to the first. -/
theorem C37_relative_to_first_partial (c : PrepCtx) (hb : SaneBuf c.buf) (hd : c.twoD = false) (topic : String) (p : Payload)
    (hw : c.world ≠ "") (mem : PoseMem) (h0 : mem.init topic = none) (m0 : PoseMsg) (ms : List PoseMsg) (m : PoseMsg)
    (last : Int) (hf : ∀ x ∈ m0 :: m :: ms, x.frame = c.world) :
    (∃ q, (preparePose c mem last m0 topic c.world c.base false true false p).2 = some q ∧ MeasuresPose q Tf.id) ∧
    ∃ q, (preparePose c (relRun c topic c.base p mem (m0 :: ms)) last m topic c.world c.base false true false p).2 = some q ∧
      ∃ T, (msgPose m0).mul T = msgPose m ∧ MeasuresPose q T := by
  constructor
  · obtain ⟨-, q, h1, h2⟩ := preparePose_rel_world c hb hd mem last m0 topic p hw (hf m0 (by simp))
      (by intro T hT; rw [h0] at hT; cases hT)
    refine ⟨q, h1, ?_⟩
    rwa [h0, Option.getD_none, Tf.inv_mul (msgPose_isRot m0)] at h2
  · have hi : (relRun c topic c.base p mem (m0 :: ms)).init topic = some (msgPose m0) := by
      rw [relRun]
      apply relRun_init c hb hd topic p hw _ (msgPose_isRot m0)
      · intro x hx
        exact hf x (by simp [hx])
      · have := (preparePose_rel_world c hb hd mem 0 m0 topic p hw (hf m0 (by simp))
          (by intro T hT; rw [h0] at hT; cases hT)).1
        rw [this, h0, Option.getD_none]
    obtain ⟨-, q, h1, h2⟩ := preparePose_rel_world c hb hd (relRun c topic c.base p mem (m0 :: ms)) last m topic p hw
      (hf m (by simp)) (by intro T hT; rw [hi] at hT; cases hT; exact msgPose_isRot m0)
    refine ⟨q, h1, _, ?_, h2⟩
    rw [hi, Option.getD_some, Tf.mul_inv_cancel_left (msgPose_isRot m0)]

/-- C37 fails for poses given in another frame: the first pose measures the place of that frame, not the origin. -/
theorem C37_other_frame (c : PrepCtx) (hd : c.twoD = false) (mem : PoseMem) (last : Int) (msg : PoseMsg) (topic : String)
    (p : Payload) (hw : c.world ≠ "") (h0 : mem.init topic = none) (t : Tf) (ht : IsRot t.rot)
    (hl : lookupTransformSafe c.buf c.world msg.frame (poseLookupTime msg.stamp) = some t) :
    ∃ q, (preparePose c mem last msg topic c.world c.base false true false p).2 = some q ∧ MeasuresPose q t := by
  unfold preparePose
  have e1 : poseFrames c msg.frame c.world false false = (c.world, msg.frame) := by simp [poseFrames, hw]
  have e2 : sourceTf c c.base (poseLookupTime msg.stamp) = none := by simp [sourceTf]
  simp only [e1, e2, hl]
  have hq : quatToRPY (quatOf t.rot) = getRPY t.rot := by
    unfold quatToRPY; rw [(C43_matrix_to_quaternion ht).2]
  refine ⟨_, rfl, ?_, ?_⟩
  · intro i
    simp only [poseWith, finish, hd, Bool.false_eq_true, if_false, if_true, h0, Option.getD_none, Tf.inverseTimes_eq,
      Tf.inv_mul (msgPose_isRot msg), Tf.mul_id]
    fin_cases i <;> simp [put, axis]
  · intro i
    simp only [poseWith, finish, hd, Bool.false_eq_true, if_false, if_true, h0, Option.getD_none, Tf.inverseTimes_eq,
      Tf.inv_mul (msgPose_isRot msg), Tf.mul_id]
    rw [← hq]
    fin_cases i <;> simp [put, axis]

/-! ## C59 -/

/-- What a lookup should return. -/
inductive LookupSpec (buf : TfBuffer) (target source : String) (time : Int) : Option Tf → Prop
  | atTime {t} : buf target source time = some t → LookupSpec buf target source time (some t)
  | latest {t} : buf target source time = none → buf target source 0 = some t → LookupSpec buf target source time (some t)
  | same : buf target source time = none → buf target source 0 = none → target = source →
      LookupSpec buf target source time (some Tf.id)
  | fail : buf target source time = none → buf target source 0 = none → target ≠ source →
      LookupSpec buf target source time none

/-- C59: a lookup gives the transform at the time, else the latest, else the identity for equal frames, else fails. -/
theorem C59_lookup (buf : TfBuffer) (target source : String) (time : Int) (r : Option Tf) :
    lookupTransformSafe buf target source time = r ↔ LookupSpec buf target source time r := by
  constructor
  · rintro rfl
    unfold lookupTransformSafe
    cases h1 : buf target source time with
    | some t => exact .atTime h1
    | none =>
      cases h2 : buf target source 0 with
      | some t => exact .latest h1 h2
      | none =>
        by_cases h : target = source
        · simp only [h, if_true]; subst h; exact .same h1 h2 rfl
        · simp only [h, if_false]; exact .fail h1 h2 h
  · intro h
    unfold lookupTransformSafe
    cases h with
    | atTime h => rw [h]
    | latest h1 h2 => rw [h1, h2]
    | same h1 h2 h => rw [h1, h2]; simp [h]
    | fail h1 h2 h => rw [h1, h2]; simp [h]

/-- C59: a velocity is transformed with the transform of its own stamp, if the buffer has it. -/
theorem C59_twist_own_stamp_partial (c : PrepCtx) (msg : TwistMsg) (p : Payload) (t : Tf) (hf : msg.frame ≠ "")
    (hl : c.buf c.base msg.frame msg.stamp = some t) :
    prepareTwist c msg c.base p = some (twistPayload c t msg p) := by
  unfold prepareTwist
  rw [if_neg hf, (C59_lookup _ _ _ _ _).mpr (.atTime hl), Option.map_some]

/-- C59 fails for poses: the transform of the stamp is in the buffer, but another one, the latest, is used. -/
theorem C59_pose_uses_latest (c : PrepCtx) (hd : c.twoD = false) (mem : PoseMem) (last : Int) (msg : PoseMsg)
    (topic : String) (p : Payload) (hw : c.world ≠ "") (tLatest : Tf) (hr : IsRot tLatest.rot)
    (h1 : c.buf c.world msg.frame (poseLookupTime msg.stamp) = none)
    (h0 : c.buf c.world msg.frame 0 = some tLatest) :
    ∃ q, (preparePose c mem last msg topic c.world c.base false false false p).2 = some q ∧
      MeasuresPose q (tLatest.mul (msgPose msg)) := by
  unfold preparePose
  have e1 : poseFrames c msg.frame c.world false false = (c.world, msg.frame) := by simp [poseFrames, hw]
  have e2 : sourceTf c c.base (poseLookupTime msg.stamp) = none := by simp [sourceTf]
  simp only [e1, e2, (C59_lookup _ _ _ _ _).mpr (.latest h1 h0)]
  obtain ⟨q, h3, h4⟩ := poseWith_measures c hd mem last tLatest hr none (by intro s hs; cases hs) msg topic c.base p
  refine ⟨q, h3, ?_⟩
  rwa [Option.getD_none, Tf.mul_id] at h4

/-- C59: with a stamp of less than a second since the epoch, or none, the time asked for is zero, which also means the
latest. -/
theorem C59_small_stamps (stamp : Int) (h : 0 ≤ stamp) : poseLookupTime stamp = 0 ↔ stamp < 1000000000 := by
  unfold poseLookupTime
  rw [Int.tdiv_eq_ediv_of_nonneg h]
  omega

example : poseDemo.world ≠ "" ∧ ("gps" : String) ≠ poseDemo.base ∧
    lookupTransformSafe poseDemo.buf "gps" poseDemo.base (poseLookupTime 7000000000) = some ({ rot := 1, org := ![3, 0, 0] } : Tf).inv ∧
    lookupTransformSafe poseDemo.buf "other" poseDemo.base (poseLookupTime 7000000000) = none := by
  refine ⟨by decide, by decide, ?_, ?_⟩
  · rw [C59_lookup]
    refine .atTime ?_
    simp [poseDemo, demoCtx, Tf.inv]
  · rw [C59_lookup]
    refine .fail ?_ ?_ (by decide) <;> simp [poseDemo, demoCtx]

/-- The frame "map" was at 1 when a pose was measured in it and is at 2 now: the pose is taken to be 1 m off. -/
theorem C59_witness :
    (∃ t, poseDemo.buf poseDemo.world "map" 7000000000 = some t ∧ t.org 0 = 1) ∧
    ∃ q, (preparePose poseDemo { init := fun _ => none, prev := fun _ => none } 0 (poseAt "map" 7000000000 0) "pose0"
        poseDemo.world poseDemo.base false false false (blank (fun _ => true) .unlimited)).2 = some q ∧ q.z 0 = .fin 2 := by
  constructor
  · exact ⟨_, rfl, rfl⟩
  · obtain ⟨q, h1, h2⟩ := C59_pose_uses_latest poseDemo rfl { init := fun _ => none, prev := fun _ => none } 0
      (poseAt "map" 7000000000 0) "pose0" (blank (fun _ => true) .unlimited) (by decide) { rot := 1, org := ![2, 0, 0] }
      IsRot.one rfl rfl
    refine ⟨q, h1, ?_⟩
    have := h2.pos 0
    simpa [axis, Tf.mul, Tf.apply, msgPose, poseAt] using this

end RL
