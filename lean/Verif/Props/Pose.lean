import Verif.Props.PrepareCov
/-!
# Poses as measurements: differential mode (C36, C64), relative mode (C37), poses of other frames on the robot (C65)
-/

namespace RL
open Matrix Real

/-- A buffer that maps a frame to itself by the identity, as tf does, and otherwise holds rigid transforms. -/
structure SaneBuf (buf : TfBuffer) : Prop where
  rot : ∀ a b s t, buf a b s = some t → IsRot t.rot
  self : ∀ a s t, buf a a s = some t → t = Tf.id

theorem SaneBuf.lookup_self {buf : TfBuffer} (h : SaneBuf buf) (f : String) (s : Int) :
    lookupTransformSafe buf f f s = some Tf.id := by
  unfold lookupTransformSafe
  cases h1 : buf f f s with
  | some t => simp only [h.self f s t h1]
  | none =>
    cases h2 : buf f f 0 with
    | some t => simp only [h.self f 0 t h2]
    | none => simp

/-- The orientation of a message is always a rotation: a zero quaternion stands for no rotation. -/
theorem msgPose_isRot (msg : PoseMsg) : IsRot (msgPose msg).rot := by
  apply isRot_quat
  have hz : ∀ q : Quat, ¬ (q.x = 0 ∧ q.y = 0 ∧ q.z = 0 ∧ q.w = 0) → 0 < q.len2 := by
    intro q hq
    have : 0 ≤ q.len2 := by
      unfold Quat.len2
      nlinarith [mul_self_nonneg q.x, mul_self_nonneg q.y, mul_self_nonneg q.z, mul_self_nonneg q.w]
    rcases this.lt_or_eq with h | h
    · exact h
    · exfalso
      apply hq
      unfold Quat.len2 at h
      have hx := mul_self_nonneg q.x
      have hy := mul_self_nonneg q.y
      have hz := mul_self_nonneg q.z
      have hw := mul_self_nonneg q.w
      exact ⟨mul_self_eq_zero.mp (by linarith), mul_self_eq_zero.mp (by linarith), mul_self_eq_zero.mp (by linarith),
        mul_self_eq_zero.mp (by linarith)⟩
  split
  · simp [Quat.len2]
  · rename_i h
    have hp := hz _ h
    split
    · have hs := (sqrt_pos.mpr hp).ne'
      have e : msg.ori.normalize.len2 = 1 := by
        unfold Quat.normalize
        simp only [Quat.len2]
        have : √msg.ori.len2 * √msg.ori.len2 = msg.ori.len2 := mul_self_sqrt hp.le
        simp only [Quat.len2] at this hs
        have h2 := mul_self_ne_zero.mpr hs
        have : ∀ a b c d r : ℝ, r * r = a * a + b * b + c * c + d * d → r * r ≠ 0 →
            a / r * (a / r) + b / r * (b / r) + c / r * (c / r) + d / r * (d / r) = 1 := by
          intro a b c d r e hr
          have hr0 : r ≠ 0 := fun h => hr (by rw [h, mul_zero])
          field_simp
          linarith
        exact this _ _ _ _ _ ‹_› h2
      rw [e]; exact one_ne_zero
    · exact hp.ne'

/-- Moving with constant body velocity `v` and rates `w` for a time. -/
noncomputable def Body.displace (v w : Body.Vec3) (dt : ℝ) : Tf := { rot := Body.rot (dt • w), org := dt • v }

/-- `preparePose` in differential mode for a pose in the target frame. -/
theorem preparePose_diff (c : PrepCtx) (hb : SaneBuf c.buf) (hd : c.twoD = false) (mem : PoseMem) (last : Int) (msg : PoseMsg)
    (topic target : String) (ht : target ≠ "") (relative : Bool) (p : Payload) :
    preparePose c mem last msg topic target c.base true relative false p =
      ({ mem with prev := fun s => if s = topic then some (msgPose msg, copyCov6 msg.cov) else mem.prev s },
        (mem.prev topic).map fun old => twistPayload c Tf.id
          (diffTwist Tf.id 1 (copyCov6 msg.cov) old.1 old.2 (msgPose msg) last msg.stamp c.base)
          { p with upd := diffUpd (poseUpd 1 p.upd) }) := by
  unfold preparePose
  have e1 : poseFrames c msg.frame target true false = (target, target) := by simp [poseFrames, ht]
  have e2 : sourceTf c c.base (poseLookupTime msg.stamp) = none := by simp [sourceTf]
  have q1 : (quatOf (1 : M3)).mat = 1 := (C43_matrix_to_quaternion IsRot.one).2
  simp only [e1, e2, hb.lookup_self]
  have q2 : (quatOf Tf.id.rot).mat = 1 := q1
  have q3 : Tf.id.rot = 1 := rfl
  unfold poseWith
  simp only [q2, rot6d_one, poseCov, Bool.false_eq_true, if_false, if_true, Matrix.one_mul, transpose_one,
    Matrix.mul_one, Prod.mk.injEq, true_and]
  cases mem.prev topic with
  | none => rfl
  | some old =>
    simp only [Option.bind_some, Option.map_some]
    unfold prepareTwist
    have e3 : (if (diffTwist Tf.id 1 (copyCov6 msg.cov) old.1 old.2 (msgPose msg) last msg.stamp c.base).frame = "" then c.base
        else (diffTwist Tf.id 1 (copyCov6 msg.cov) old.1 old.2 (msgPose msg) last msg.stamp c.base).frame) = c.base := by
      change (if c.base = "" then c.base else c.base) = c.base
      by_cases h : c.base = ""
      · rw [if_pos h]
      · rw [if_neg h]
    rw [e3, hb.lookup_self, q3]
    rfl

/-- C36: the velocity measured from two poses is the one that carries the first to the second in the time between them. -/
theorem C36_velocity (c : PrepCtx) (hb : SaneBuf c.buf) (hd : c.twoD = false) (mem : PoseMem) (last : Int) (msg : PoseMsg)
    (topic target : String) (ht : target ≠ "") (relative : Bool) (p : Payload) (T0 : Tf) (C0 : M6) (h0 : IsRot T0.rot)
    (hm : mem.prev topic = some (T0, C0)) (hlt : last < msg.stamp)
    (hv : |(T0.rotᵀ * (msgPose msg).rot) 2 0| < 1) :
    ∃ q v w, (preparePose c mem last msg topic target c.base true relative false p).2 = some q ∧
      (∀ i : Fin 3, q.z (axis 6 (by omega) i) = .fin (v i)) ∧ (∀ i : Fin 3, q.z (axis 9 (by omega) i) = .fin (w i)) ∧
      T0.mul (Body.displace v w (toSec (msg.stamp - last))) = msgPose msg := by
  rw [preparePose_diff c hb hd mem last msg topic target ht relative p]
  simp only [hm, Option.map_some]
  set D := T0.inverseTimes (msgPose msg) with hD
  have hDr : IsRot D.rot := h0.transpose.mul (msgPose_isRot msg)
  have hid : Tf.mul { Tf.id with org := 0 } D = D := Tf.id_mul D
  have hdt : toSec msg.stamp - toSec last = toSec (msg.stamp - last) := by
    unfold toSec; push_cast; ring
  have hpos : 0 < toSec (msg.stamp - last) := by
    unfold toSec
    have : (0 : ℝ) < ((msg.stamp - last : Int) : ℝ) := by exact_mod_cast (by omega : 0 < msg.stamp - last)
    exact mul_pos this (by norm_num)
  set dt := toSec (msg.stamp - last)
  have hrpy : quatToRPY (quatOf D.rot) = getRPY D.rot := by
    unfold quatToRPY; rw [(C43_matrix_to_quaternion hDr).2]
  refine ⟨_, fun i => D.org i / dt, fun i => getRPY D.rot i / dt, rfl, ?_, ?_, ?_⟩
  · intro i
    have : (twistPayload c Tf.id (diffTwist Tf.id 1 (copyCov6 msg.cov) T0 C0 (msgPose msg) last msg.stamp c.base)
        { p with upd := diffUpd (poseUpd 1 p.upd) }).z (axis 6 (by omega) i) =
        (mulDbl Tf.id.rot (fun i => Dbl.div (D.org i) dt) i).add (.fin (cross Tf.id.org c.omega i)) := by
      simp only [twistPayload, finish, hd, diffTwist, ← hD, hid, hdt, Bool.false_eq_true, if_false]
      fin_cases i <;> simp [put, axis]
    rw [this]
    simp only [Dbl.div, hpos.ne', if_false]
    rw [mulDbl_fin]
    simp [Tf.id, Dbl.add, cross]
    fin_cases i <;> simp
  · intro i
    have : (twistPayload c Tf.id (diffTwist Tf.id 1 (copyCov6 msg.cov) T0 C0 (msgPose msg) last msg.stamp c.base)
        { p with upd := diffUpd (poseUpd 1 p.upd) }).z (axis 9 (by omega) i) =
        mulDbl Tf.id.rot (fun i => Dbl.div (getRPY D.rot i) dt) i := by
      simp only [twistPayload, finish, hd, diffTwist, ← hD, hid, hdt, hrpy, Bool.false_eq_true, if_false]
      fin_cases i <;> simp [put, axis]
    rw [this]
    simp only [Dbl.div, hpos.ne', if_false]
    rw [mulDbl_fin]
    simp [Tf.id]
  · have e : Body.displace (fun i => D.org i / dt) (fun i => getRPY D.rot i / dt) dt = D := by
      apply Tf.ext
      · have hg : dt • (fun i => getRPY D.rot i / dt) = ![getRPY D.rot 0, getRPY D.rot 1, getRPY D.rot 2] := by
          funext i
          fin_cases i <;> simp <;> field_simp
        simp only [Body.displace, hg]
        rw [← setRPY_eq, C43_same_rotation_partial hDr hv]
      · funext i
        simp only [Body.displace, Pi.smul_apply, smul_eq_mul]
        field_simp
    rw [e, hD, Tf.inverseTimes_eq, Tf.mul_inv_cancel_left h0]

/-- C36: the first pose of a topic gives no measurement; it is remembered. -/
theorem C36_first_pose (c : PrepCtx) (mem : PoseMem) (last : Int) (msg : PoseMsg) (topic target source : String)
    (relative imu : Bool) (p : Payload) (hm : mem.prev topic = none) :
    (preparePose c mem last msg topic target source true relative imu p).2 = none ∧
      ((preparePose c mem last msg topic target source true relative imu p).1.prev topic = none ↔
        lookupTransformSafe c.buf (poseFrames c msg.frame target true imu).1 (poseFrames c msg.frame target true imu).2
          (poseLookupTime msg.stamp) = none) := by
  unfold preparePose
  simp only
  cases hl : lookupTransformSafe c.buf (poseFrames c msg.frame target true imu).1 (poseFrames c msg.frame target true imu).2
      (poseLookupTime msg.stamp) with
  | none => simp [hm]
  | some t => simp [poseWith, hm]

theorem mulDbl_not_fin (m : M3) (v : Fin 3 → Dbl) (k : Fin 3) (h : (v k).isFin = false) (i : Fin 3) :
    (mulDbl m v i).isFin = false := by
  rw [Bool.eq_false_iff]
  intro hf
  unfold mulDbl at hf
  obtain ⟨f2, f3⟩ := dbl_add_fin hf
  obtain ⟨f4, f5⟩ := dbl_add_fin f2
  have : (v k).isFin = true := by
    fin_cases k
    · exact dbl_smul_fin f4
    · exact dbl_smul_fin f5
    · exact dbl_smul_fin f3
  rw [this] at h
  exact absurd h (by decide)

theorem div_zero_not_fin (a : ℝ) : (Dbl.div a 0).isFin = false := by
  unfold Dbl.div
  simp only [if_true]
  split <;> rfl

/-- C36: two poses with the same stamp: none of the velocities is a number, so an initialised filter uses none of them. -/
theorem C36_same_stamp_partial (c : PrepCtx) (hb : SaneBuf c.buf) (hd : c.twoD = false) (mem : PoseMem) (msg : PoseMsg)
    (topic target : String) (ht : target ≠ "") (relative : Bool) (p : Payload) (old : Tf × M6)
    (hm : mem.prev topic = some old) :
    ∃ q, (preparePose c mem msg.stamp msg topic target c.base true relative false p).2 = some q ∧ q.indices = [] ∧
      ∀ i, 6 ≤ i.val ∧ i.val < 12 → (q.z i).isFin = false := by
  rw [preparePose_diff c hb hd mem msg.stamp msg topic target ht relative p]
  simp only [hm, Option.map_some]
  refine ⟨_, rfl, ?_⟩
  set m := diffTwist Tf.id 1 (copyCov6 msg.cov) old.1 old.2 (msgPose msg) msg.stamp msg.stamp c.base with hmdef
  have hl : ∀ i, (m.lin i).isFin = false := by
    intro i
    rw [hmdef]
    simp only [diffTwist, sub_self]
    exact div_zero_not_fin _
  have ha : ∀ i, (m.ang i).isFin = false := by
    intro i
    rw [hmdef]
    simp only [diffTwist, sub_self]
    exact div_zero_not_fin _
  have hz : ∀ i : Fin 15, 6 ≤ i.val ∧ i.val < 12 →
      ((twistPayload c Tf.id m { p with upd := diffUpd (poseUpd 1 p.upd) }).z i).isFin = false := by
    intro i hi
    unfold twistPayload finish
    simp only [hd, Bool.false_eq_true, if_false]
    by_cases h9 : 9 ≤ i.val ∧ i.val < 9 + 3
    · simp only [put, h9]
      exact mulDbl_not_fin _ _ 0 (ha 0) _
    · have h6 : 6 ≤ i.val ∧ i.val < 6 + 3 := by omega
      simp only [put, h9, h6, dite_false]
      rw [Bool.eq_false_iff]
      intro hf
      have := mulDbl_not_fin Tf.id.rot m.lin 0 (hl 0) ⟨i.val - 6, by omega⟩
      rw [(dbl_add_fin hf).1] at this
      exact absurd this (by decide)
  refine ⟨?_, hz⟩
  unfold Payload.indices
  rw [List.filter_eq_nil_iff]
  intro i _ hi
  simp only [Bool.and_eq_true, Bool.not_eq_true'] at hi
  by_cases hr : 6 ≤ i.val ∧ i.val < 12
  · have := hz i hr
    revert this hi
    cases (twistPayload c Tf.id m { p with upd := diffUpd (poseUpd 1 p.upd) }).z i <;>
      simp [Dbl.isNan, Dbl.isInf, Dbl.isFin]
  · have hu : (twistPayload c Tf.id m { p with upd := diffUpd (poseUpd 1 p.upd) }).upd i = false := by
      unfold twistPayload finish
      simp only [hd, Bool.false_eq_true, if_false]
      have h9 : ¬ (9 ≤ i.val ∧ i.val < 9 + 3) := by omega
      have h6 : ¬ (6 ≤ i.val ∧ i.val < 6 + 3) := by omega
      simp only [put, h9, h6, dite_false, diffUpd, hr]
    rw [hu] at hi
    exact absurd hi.1.1 (by decide)

/-- C36 fails while the filter waits for its first measurement: two poses with the same stamp that are used for the
position put a state into the filter that is not a number. -/
theorem C36_same_stamp_contaminates (c : PrepCtx) (hb : SaneBuf c.buf) (hd : c.twoD = false) (mem : PoseMem) (msg : PoseMsg)
    (topic target : String) (ht : target ≠ "") (relative : Bool) (old : Tf × M6) (hm : mem.prev topic = some old)
    (thr : Thresh) (x : State) :
    ∃ q, (preparePose c mem msg.stamp msg topic target c.base true relative false
        (blank (fun i => decide (i.val < 3)) thr)).2 = some q ∧ initState q x = none := by
  have hu : ∀ q, (preparePose c mem msg.stamp msg topic target c.base true relative false
        (blank (fun i => decide (i.val < 3)) thr)).2 = some q → q.upd 6 = true := by
    intro q hq
    rw [preparePose_diff c hb hd mem msg.stamp msg topic target ht relative] at hq
    simp only [hm, Option.map_some, Option.some.injEq] at hq
    rw [← hq]
    unfold twistPayload finish
    simp only [hd, Bool.false_eq_true, if_false]
    have all1 : (fun i => diffUpd (poseUpd 1 (blank (fun i => decide (i.val < 3)) thr).upd) (axis 6 (by omega) i)) =
        fun _ => true := by
      funext i
      have : diffUpd (poseUpd 1 (blank (fun i => decide (i.val < 3)) thr).upd) (axis 6 (by omega) i) =
          maskAxes 1 (fun _ => true) i := by
        fin_cases i <;> simp [diffUpd, poseUpd, put, axis, blank]
      rw [this]
      exact (C63_all_or_none IsRot.one i).1
    have := (C63_all_or_none IsRot.one 0).1
    simp only [put]
    norm_num
    rw [show (fun i => diffUpd (poseUpd 1 (blank (fun i => decide (i.val < 3)) thr).upd) (axis 6 (by omega) i)) =
        fun _ => true from all1]
    exact this
  obtain ⟨q, h1, -, h3⟩ := C36_same_stamp_partial c hb hd mem msg topic target ht relative
    (blank (fun i => decide (i.val < 3)) thr) old hm
  refine ⟨q, h1, ?_⟩
  unfold initState
  rw [if_neg]
  intro h
  have := h 6 (hu q h1)
  rw [h3 6 (by decide)] at this
  exact absurd this (by decide)

/-- A node with a buffer in which the frame "map" moves: at seven seconds it was at 1, the latest is 2. -/
noncomputable def poseDemo : PrepCtx :=
  { demoCtx 0 with
    buf := fun a b s =>
      if a = "odom" ∧ b = "map" then
        if s = 7000000000 then some { rot := 1, org := ![1, 0, 0] }
        else if s = 0 then some { rot := 1, org := ![2, 0, 0] }
        else none
      else if a = "gps" ∧ b = "base_link" then some { rot := 1, org := ![-3, 0, 0] }
      else none }

theorem poseDemo_sane : SaneBuf poseDemo.buf where
  rot := by
    intro a b s t h
    simp only [poseDemo] at h
    split at h
    · split at h
      · cases h; exact IsRot.one
      · split at h
        · cases h; exact IsRot.one
        · cases h
    · split at h
      · cases h; exact IsRot.one
      · cases h
  self := by
    intro a s t h
    simp only [poseDemo] at h
    split at h
    · rename_i h1
      exact absurd (h1.1.symm.trans h1.2) (by decide)
    · split at h
      · rename_i h1
        exact absurd (h1.1.symm.trans h1.2) (by decide)
      · cases h

/-- A pose in some frame, at a position, not turned. -/
def poseAt (frame : String) (stamp : Int) (pos : V3) : PoseMsg :=
  { frame := frame, stamp := stamp, pos := pos, ori := ⟨0, 0, 0, 1⟩, cov := fun _ => 1 }

example : poseDemo.twoD = false ∧ SaneBuf poseDemo.buf ∧ IsRot Tf.id.rot ∧ (5 : Int) < (poseAt "odom" 7 ![1, 2, 0]).stamp ∧
    |(Tf.id.rotᵀ * (msgPose (poseAt "odom" 7 ![1, 2, 0])).rot) 2 0| < 1 := by
  refine ⟨rfl, poseDemo_sane, IsRot.one, by decide, ?_⟩
  have h : ¬ ((1e-2 : ℝ) < 0) := by norm_num
  simp [Tf.id, msgPose, poseAt, Quat.mat, Quat.len2, h]
example : ({ init := fun _ => none, prev := fun s => if s = "pose0" then some (Tf.id, 1) else none } : PoseMem).prev "pose0" =
    some (Tf.id, 1) := rfl

end RL
