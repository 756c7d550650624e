import Verif.Props.Heading
import Verif.Props.Mounted
import Verif.Props.System
/-! # C92 on the messages: a pose from another frame, seen from world frames turned about the vertical axis -/

namespace RL
open Matrix Real

/-- The transform from a world frame to the one turned by `-θ` about the vertical axis. -/
noncomputable def turnTf (θ : ℝ) : Tf := { rot := Body.rot ![0, 0, θ], org := 0 }

/-- Two measurements of a pose that describe the same thing in world frames turned by `θ`: the position turned, the
heading larger by `θ` up to full turns, everything else measured the same.  Of the noise, what does not concern roll and
pitch. -/
structure Payload.TurnedPose (θ : ℝ) (q q' : Payload) : Prop where
  pos : ∃ a b, q.z 0 = .fin a ∧ q.z 1 = .fin b ∧ q'.z 0 = .fin (cos θ * a - sin θ * b) ∧ q'.z 1 = .fin (sin θ * a + cos θ * b)
  yaw : ∃ (a : ℝ) (k : ℤ), q.z 5 = .fin a ∧ q'.z 5 = .fin (a + θ + k * (2 * π))
  rest : ∀ i, i ≠ 0 → i ≠ 1 → i ≠ 5 → q'.z i = q.z i
  noise : ∀ i j, i ≠ 3 → i ≠ 4 → j ≠ 3 → j ≠ 4 → q'.R i j = turnCov θ q.R i j
  thresh : q'.thresh = q.thresh

theorem turnTf_rot (θ : ℝ) : (turnTf θ).rot = setRPY 0 0 θ := (setRPY_eq 0 0 θ).symm

theorem maskAxes_all {r : M3} (h : IsRot r) (i : Fin 3) : maskAxes r (fun _ => true) i = true := by
  rw [maskAxes_eq]
  have e : (r * rᵀ) i i = 1 := by rw [h.1]; simp
  have : ∑ j, (if true = true then r i j ^ 2 else 0) = 1 := by
    rw [← e, Matrix.mul_apply]
    exact Finset.sum_congr rfl fun j _ => by simp [sq]
  rw [this, sqrt_one]
  norm_num

theorem maskAxes_same {r s : M3} (hr : IsRot r) (hs : IsRot s) {u : Fin 3 → Bool} (h0 : u 0 = u 1) (h1 : u 1 = u 2) :
    maskAxes r u = maskAxes s u := by
  have e : u = fun _ => u 2 := by
    funext i
    fin_cases i
    · exact h0.trans h1
    · exact h1
    · rfl
  funext i
  rw [e]
  cases u 2
  · rw [maskAxes_false _ _ (fun _ => rfl), maskAxes_false _ _ (fun _ => rfl)]
  · rw [maskAxes_all hr, maskAxes_all hs]

/-- The angles of a rotation seen from the turned frame. -/
theorem getRPY_turned {A : M3} (h : IsRot A) (hv : |A 2 0| < 1) (θ : ℝ) :
    getRPY (setRPY 0 0 θ * A) 0 = getRPY A 0 ∧ getRPY (setRPY 0 0 θ * A) 1 = getRPY A 1 ∧
      ∃ k : ℤ, getRPY (setRPY 0 0 θ * A) 2 = getRPY A 2 + θ + k * (2 * π) := by
  have hp : -(π / 2) < getRPY A 1 ∧ getRPY A 1 < π / 2 := by
    have e : getRPY A 1 = -arcsin (A 2 0) := by
      unfold getRPY
      rw [if_neg (by linarith)]
      simp
    obtain ⟨h1, h2⟩ := abs_lt.1 hv
    rw [e]
    constructor
    · have := arcsin_lt_pi_div_two.2 h2
      linarith
    · have := neg_pi_div_two_lt_arcsin.2 h1
      linarith
  have hA := C43_same_rotation_partial h hv
  have e1 := getRPY_setRPY (getRPY A 0) (getRPY A 1) (getRPY A 2) hp.1 hp.2
  rw [hA] at e1
  have e2 : setRPY 0 0 θ * A = setRPY (getRPY A 0) (getRPY A 1) (getRPY A 2 + θ) := by
    rw [← yaw_mul_setRPY, hA]
  rw [e2, getRPY_setRPY _ _ _ hp.1 hp.2]
  have e0 := congrFun e1 0
  simp only [cons_val_zero] at e0
  refine ⟨?_, ?_, ?_⟩
  · simpa using e0.symm
  · simp
  · simpa using normalizeAngle_mod (getRPY A 2 + θ)

/-- Straight up or down, `getRPY` says so. -/
theorem notVertical_of_pitch {A : M3} (h : |getRPY A 1| < π / 2) : |A 2 0| < 1 := by
  by_contra hc
  have hpos := pi_pos
  have e : |getRPY A 1| = π / 2 := by
    unfold getRPY
    rw [if_pos (not_lt.1 hc)]
    split_ifs
    · simpa using (half_pos hpos).le
    · simpa using (half_pos hpos).le
  linarith

theorem rot6d_turn_mul (θ : ℝ) (C : M6) (i j : Fin 6) (h3 : i ≠ 3) (h4 : i ≠ 4) : (rot6d (setRPY 0 0 θ) * C) i j =
    if i = 0 then cos θ * C 0 j - sin θ * C 1 j else if i = 1 then sin θ * C 0 j + cos θ * C 1 j else C i j := by
  rw [Matrix.mul_apply, Fin.sum_univ_six]
  fin_cases i
  · simp [rot6d, setRPY]
    ring
  · simp [rot6d, setRPY]
  · simp [rot6d, setRPY]
  · exact absurd rfl h3
  · exact absurd rfl h4
  · simp [rot6d, setRPY]

theorem mul_rot6d_turn (θ : ℝ) (C : M6) (i j : Fin 6) (h3 : j ≠ 3) (h4 : j ≠ 4) : (C * (rot6d (setRPY 0 0 θ))ᵀ) i j =
    if j = 0 then cos θ * C i 0 - sin θ * C i 1 else if j = 1 then sin θ * C i 0 + cos θ * C i 1 else C i j := by
  have h := rot6d_turn_mul θ Cᵀ j i h3 h4
  rw [← Matrix.transpose_apply (C * _) j i, Matrix.transpose_mul, Matrix.transpose_transpose, h]
  rfl

/-- The noise of a pose seen from the turned frame, apart from roll and pitch. -/
theorem turnCov_pose (θ : ℝ) (C : M6) (i j : Fin 15) (hi3 : i ≠ 3) (hi4 : i ≠ 4) (hj3 : j ≠ 3) (hj4 : j ≠ 4) :
    putBlock 6 0 0 (rot6d (setRPY 0 0 θ) * C * (rot6d (setRPY 0 0 θ))ᵀ) i j = turnCov θ (putBlock 6 0 0 C) i j := by
  unfold turnCov
  rw [mul_turnT, turn_mul, turn_mul, turn_mul]
  by_cases hi : i.val < 6
  · by_cases hj : j.val < 6
    · obtain ⟨i, hI⟩ := i
      obtain ⟨j, hJ⟩ := j
      simp only at hi hj
      simp only [putBlock, Matrix.of_apply, hi, hj, Nat.zero_le, Nat.zero_add, and_self, dite_true, Nat.sub_zero]
      rw [mul_rot6d_turn _ _ _ _ (by simp [Fin.ext_iff] at hj3 ⊢; omega) (by simp [Fin.ext_iff] at hj4 ⊢; omega),
        rot6d_turn_mul _ _ _ _ (by simp [Fin.ext_iff] at hi3 ⊢; omega) (by simp [Fin.ext_iff] at hi4 ⊢; omega),
        rot6d_turn_mul _ _ _ _ (by simp [Fin.ext_iff] at hi3 ⊢; omega) (by simp [Fin.ext_iff] at hi4 ⊢; omega),
        rot6d_turn_mul _ _ _ _ (by simp [Fin.ext_iff] at hi3 ⊢; omega) (by simp [Fin.ext_iff] at hi4 ⊢; omega)]
      simp [Fin.ext_iff]
    · have h0 : j ≠ 0 := by rintro rfl; simp at hj
      have h1 : j ≠ 1 := by rintro rfl; simp at hj
      simp [putBlock, hj, h0, h1]
  · have h0 : i ≠ 0 := by rintro rfl; simp at hi
    have h1 : i ≠ 1 := by rintro rfl; simp at hi
    simp [putBlock, hi, h0, h1]

/-- What `preparePose` makes of an absolute or relative pose once the transforms are known, out of the plane. -/
theorem poseWith_spatial (c : PrepCtx) (hd : c.twoD = false) (mem : PoseMem) (last : Int) (t : Tf) (src : Option Tf)
    (msg : PoseMsg) (topic source : String) (relative : Bool) (p : Payload) :
    poseWith c mem last t src msg topic source false relative false p =
      let pose1 := src.elim (msgPose msg) (msgPose msg).mul
      let first := (mem.init topic).getD pose1
      let pose3 := t.mul (if relative then first.inverseTimes pose1 else pose1)
      (if relative then { mem with init := fun s => if s = topic then some first else mem.init s } else mem,
        some { p with
          upd := poseUpd t.rot p.upd
          z := put 3 (put 0 p.z (fun i => .fin (pose3.org i))) (fun i => .fin (quatToRPY (quatOf pose3.rot) i))
          R := putBlock 6 0 p.R (rot6d (quatOf t.rot).mat * poseCov src msg * (rot6d (quatOf t.rot).mat)ᵀ) }) := by
  cases src <;> simp [poseWith, finish, hd]

/-- C92 on a message: a pose that arrives in a frame other than the world frame is measured, from a world frame turned
about the vertical axis, at the turned position, with the larger heading, with the same roll and pitch.  The noise turns
with it as far as it does not concern roll and pitch (for those see `C92_tilt_noise`). -/
theorem C92_message_partial (c c' : PrepCtx) (hd : c.twoD = false) (hd' : c'.twoD = false) (θ : ℝ)
    (mem : PoseMem) (hmem : ∀ s i, mem.init s = some i → IsRot i.rot) (last : Int) (msg : PoseMsg)
    (topic target source : String) (ht : target ≠ "") (relative : Bool) (p : Payload) (hR : p.R = 0)
    (t : Tf) (hr : IsRot t.rot)
    (hl : lookupTransformSafe c.buf target msg.frame (poseLookupTime msg.stamp) = some t)
    (hl' : lookupTransformSafe c'.buf target msg.frame (poseLookupTime msg.stamp) = some ((turnTf θ).mul t))
    (hs : sourceTf c' source (poseLookupTime msg.stamp) = sourceTf c source (poseLookupTime msg.stamp))
    (hsr : ∀ s, sourceTf c source (poseLookupTime msg.stamp) = some s → IsRot s.rot)
    (q : Payload) (hq : (preparePose c mem last msg topic target source false relative false p).2 = some q)
    (hv : ∀ a, q.z 4 = .fin a → |a| < π / 2) :
    ∃ q', (preparePose c' mem last msg topic target source false relative false p).2 = some q' ∧
      (preparePose c' mem last msg topic target source false relative false p).1 =
        (preparePose c mem last msg topic target source false relative false p).1 ∧
      q.TurnedPose θ q' ∧
      (p.upd 0 = p.upd 1 → p.upd 1 = p.upd 2 → p.upd 3 = p.upd 4 → p.upd 4 = p.upd 5 → q'.upd = q.upd) := by
  have f1 : poseFrames c msg.frame target false false = (target, msg.frame) := by simp [poseFrames, ht]
  have f2 : poseFrames c' msg.frame target false false = (target, msg.frame) := by simp [poseFrames, ht]
  have hT : IsRot ((turnTf θ).mul t).rot := by
    refine Tf.isRot_mul ?_ hr
    rw [turnTf_rot]
    exact isRot_setRPY _ _ _
  unfold preparePose at hq ⊢
  simp only [f1, f2, hl, hl', hs] at hq ⊢
  generalize hsrc : sourceTf c source (poseLookupTime msg.stamp) = src at hq hsr ⊢
  rw [poseWith_spatial _ hd] at hq
  rw [poseWith_spatial _ hd', poseWith_spatial _ hd]
  simp only [Option.some.injEq] at hq ⊢
  generalize hp1 : src.elim (msgPose msg) (msgPose msg).mul = pose1 at hq ⊢
  have r1 : IsRot pose1.rot := by
    rw [← hp1]
    cases src with
    | none => exact msgPose_isRot msg
    | some s => exact Tf.isRot_mul (msgPose_isRot msg) (hsr s rfl)
  generalize hp2 : (if relative = true then ((mem.init topic).getD pose1).inverseTimes pose1 else pose1) = pose2 at hq ⊢
  have r2 : IsRot pose2.rot := by
    rw [← hp2]
    have hf : IsRot ((mem.init topic).getD pose1).rot := by
      cases hi : mem.init topic with
      | none => exact r1
      | some i => exact hmem _ _ hi
    split_ifs
    · exact hf.transpose.mul r1
    · exact r1
  have r3 : IsRot (t.mul pose2).rot := Tf.isRot_mul hr r2
  have eT : ((turnTf θ).mul t).mul pose2 = (turnTf θ).mul (t.mul pose2) := Tf.mul_assoc _ _ _
  rw [eT]
  have r3' : IsRot ((turnTf θ).mul (t.mul pose2)).rot := eT ▸ Tf.isRot_mul hT r2
  have e3 : ((turnTf θ).mul (t.mul pose2)).rot = setRPY 0 0 θ * (t.mul pose2).rot := by
    rw [← turnTf_rot]
    rfl
  refine ⟨_, rfl, trivial, ?_, ?_⟩
  · subst hq
    have hv' : |(t.mul pose2).rot 2 0| < 1 := by
      refine notVertical_of_pitch (hv _ ?_)
      simp [put, quatToRPY_quatOf r3]
    obtain ⟨a0, a1, k, a2⟩ := getRPY_turned r3 hv' θ
    rw [← e3] at a0 a1 a2
    have o : ∀ i, ((turnTf θ).mul (t.mul pose2)).org i = (setRPY 0 0 θ).mulVec (t.mul pose2).org i := by
      intro i
      rw [← turnTf_rot]
      simp [Tf.mul, turnTf]
    refine ⟨⟨(t.mul pose2).org 0, (t.mul pose2).org 1, by simp [put], by simp [put], ?_, ?_⟩,
      ⟨getRPY (t.mul pose2).rot 2, k, ?_, ?_⟩, fun i h0 h1 h5 => ?_, fun i j hi3 hi4 hj3 hj4 => ?_, rfl⟩
    · simp [put, o, mulVec3, setRPY]
      ring
    · simp [put, o, mulVec3, setRPY]
    · simp [put, quatToRPY_quatOf r3]
    · simp [put, quatToRPY_quatOf r3', a2]
    · by_cases h2 : i = 2
      · subst h2
        simp [put, o, mulVec3, setRPY]
      by_cases h3 : i = 3
      · subst h3
        simp [put, quatToRPY_quatOf r3, quatToRPY_quatOf r3', a0]
      by_cases h4 : i = 4
      · subst h4
        simp [put, quatToRPY_quatOf r3, quatToRPY_quatOf r3', a1]
      have h6 : 6 ≤ i.val := by omega
      simp [put, show ¬ i.val < 3 by omega, show ¬ i.val < 6 by omega]
    · have eR : rot6d (quatOf ((turnTf θ).mul t).rot).mat = rot6d (setRPY 0 0 θ) * rot6d (quatOf t.rot).mat := by
        rw [(C43_matrix_to_quaternion hT).2, (C43_matrix_to_quaternion hr).2, rot6d_mul, ← turnTf_rot]
        rfl
      simp only [eR, Matrix.transpose_mul, hR]
      generalize rot6d (quatOf t.rot).mat = r6
      have eC : rot6d (setRPY 0 0 θ) * r6 * poseCov src msg * (r6ᵀ * (rot6d (setRPY 0 0 θ))ᵀ) =
          rot6d (setRPY 0 0 θ) * (r6 * poseCov src msg * r6ᵀ) * (rot6d (setRPY 0 0 θ))ᵀ := by
        simp only [Matrix.mul_assoc]
      rw [eC]
      generalize r6 * poseCov src msg * r6ᵀ = C
      exact turnCov_pose θ C i j hi3 hi4 hj3 hj4
  · intro u0 u1 u3 u4
    subst hq
    simp only [poseUpd]
    rw [maskAxes_same hT hr (by exact u0) (by exact u1), maskAxes_same hT hr (by exact u3) (by exact u4)]

/-- The noise of roll in the turned frame: that of a vector on the ground, not that of an angle of the robot. -/
theorem rot6d_turn_roll (θ : ℝ) (C : M6) : (rot6d (setRPY 0 0 θ) * C * (rot6d (setRPY 0 0 θ))ᵀ) 3 3 =
    cos θ ^ 2 * C 3 3 - cos θ * sin θ * (C 3 4 + C 4 3) + sin θ ^ 2 * C 4 4 := by
  rw [Matrix.mul_apply, Fin.sum_univ_six]
  simp only [Matrix.mul_apply, Fin.sum_univ_six, Matrix.transpose_apply]
  simp [rot6d, setRPY]
  ring

/-- C92 on a message, roll and pitch: the same pose is measured with the same roll and the same pitch from every heading of
the world frame (`C92_message_partial`), but the noise of the roll is not: it is mixed with that of the pitch as if the
two were coordinates in the world frame.  A quarter turn of the world frame exchanges them. -/
theorem C92_tilt_noise (c c' : PrepCtx) (hd : c.twoD = false) (hd' : c'.twoD = false) (θ : ℝ)
    (mem : PoseMem) (last : Int) (msg : PoseMsg) (topic target source : String) (ht : target ≠ "") (relative : Bool)
    (p : Payload) (t : Tf) (hr : IsRot t.rot)
    (hl : lookupTransformSafe c.buf target msg.frame (poseLookupTime msg.stamp) = some t)
    (hl' : lookupTransformSafe c'.buf target msg.frame (poseLookupTime msg.stamp) = some ((turnTf θ).mul t))
    (hs : sourceTf c' source (poseLookupTime msg.stamp) = sourceTf c source (poseLookupTime msg.stamp))
    (q q' : Payload) (hq : (preparePose c mem last msg topic target source false relative false p).2 = some q)
    (hq' : (preparePose c' mem last msg topic target source false relative false p).2 = some q') :
    q'.R 3 3 = cos θ ^ 2 * q.R 3 3 - cos θ * sin θ * (q.R 3 4 + q.R 4 3) + sin θ ^ 2 * q.R 4 4 := by
  have f1 : poseFrames c msg.frame target false false = (target, msg.frame) := by simp [poseFrames, ht]
  have f2 : poseFrames c' msg.frame target false false = (target, msg.frame) := by simp [poseFrames, ht]
  have hT : IsRot ((turnTf θ).mul t).rot := by
    refine Tf.isRot_mul ?_ hr
    rw [turnTf_rot]
    exact isRot_setRPY _ _ _
  unfold preparePose at hq hq'
  simp only [f1, f2, hl, hl', hs] at hq hq'
  rw [poseWith_spatial _ hd] at hq
  rw [poseWith_spatial _ hd'] at hq'
  simp only [Option.some.injEq] at hq hq'
  subst hq hq'
  have eR : rot6d (quatOf ((turnTf θ).mul t).rot).mat = rot6d (setRPY 0 0 θ) * rot6d (quatOf t.rot).mat := by
    rw [(C43_matrix_to_quaternion hT).2, (C43_matrix_to_quaternion hr).2, rot6d_mul, ← turnTf_rot]
    rfl
  simp only [eR, Matrix.transpose_mul]
  generalize rot6d (quatOf t.rot).mat = r6
  generalize poseCov (sourceTf c source (poseLookupTime msg.stamp)) msg = C
  have eC : rot6d (setRPY 0 0 θ) * r6 * C * (r6ᵀ * (rot6d (setRPY 0 0 θ))ᵀ) =
      rot6d (setRPY 0 0 θ) * (r6 * C * r6ᵀ) * (rot6d (setRPY 0 0 θ))ᵀ := by
    simp only [Matrix.mul_assoc]
  rw [eC]
  generalize r6 * C * r6ᵀ = C
  have := rot6d_turn_roll θ C
  simpa [putBlock] using this

/-- A mast whose frame is the world frame, or the world frame turned by a quarter. -/
noncomputable def mastBuf (θ : ℝ) : TfBuffer := fun target source _ =>
  if target = "odom" ∧ source = "mast" then some ((turnTf θ).mul Tf.id) else none

noncomputable def mastCtx (θ : ℝ) : PrepCtx :=
  { buf := mastBuf θ, world := "odom", base := "base_link", twoD := false, state := 0, angAcc := 0, gravity := 9.80665 }

/-- A level robot one metre ahead of the mast; the roll is known with variance 1, the pitch with variance 4. -/
noncomputable def mastMsg : PoseMsg :=
  { frame := "mast", stamp := 0, pos := ![1, 0, 0], ori := ⟨0, 0, 0, 1⟩, cov := fun k => if k.val = 21 then 1 else if k.val = 28 then 4 else 0 }

def allPose : Payload := { upd := fun i => decide (i.val < 6), z := fun _ => .fin 0, R := 0, thresh := .unlimited }

theorem mast_lookup (θ : ℝ) : lookupTransformSafe (mastCtx θ).buf "odom" mastMsg.frame (poseLookupTime mastMsg.stamp) =
    some ((turnTf θ).mul Tf.id) := by
  simp [lookupTransformSafe, mastCtx, mastBuf, mastMsg]

theorem turnTf_zero : (turnTf 0).mul Tf.id = Tf.id := by
  rw [Tf.mul_id]
  refine Tf.ext ?_ rfl
  rw [turnTf_rot]
  ext i j
  fin_cases i <;> fin_cases j <;> simp [setRPY, Tf.id]

theorem mast_source (θ : ℝ) : sourceTf (mastCtx θ) "base_link" (poseLookupTime mastMsg.stamp) = none := by
  simp [sourceTf, mastCtx]

theorem mast_first : ∃ q, (preparePose (mastCtx 0) ⟨fun _ => none, fun _ => none⟩ 0 mastMsg "t" "odom" "base_link" false false false
    allPose).2 = some q ∧ q.z 4 = .fin 0 ∧ q.upd 3 = true ∧ q.R 3 3 = 1 ∧ q.R 3 4 + q.R 4 3 = 0 ∧ q.R 4 4 = 4 := by
  have l0 : lookupTransformSafe (mastCtx 0).buf "odom" mastMsg.frame (poseLookupTime mastMsg.stamp) = some Tf.id := by
    rw [mast_lookup, turnTf_zero]
  have rid : IsRot Tf.id.rot := ⟨by simp [Tf.id], by simp [Tf.id]⟩
  have hmat : (⟨0, 0, 0, 1⟩ : Quat).mat = 1 := by
    ext i j
    fin_cases i <;> fin_cases j <;> simp [Quat.mat, Quat.len2]
  have hpose : msgPose mastMsg = { rot := 1, org := ![1, 0, 0] } := by
    rw [msgPose_unit (by simp [mastMsg, Quat.len2])]
    simp only [mastMsg, hmat]
  have hrpy : quatToRPY (quatOf (1 : M3)) = ![0, 0, 0] := by
    rw [quatToRPY_quatOf ⟨by simp, by simp⟩]
    have e : (1 : M3) = setRPY 0 0 0 := by
      ext i j
      fin_cases i <;> fin_cases j <;> simp [setRPY]
    rw [e, getRPY_setRPY _ _ _ (by linarith [pi_pos]) (by linarith [pi_pos]), normalizeAngle_of_mem (by linarith [pi_pos]) pi_pos.le]
  have hm1 : (quatOf (1 : M3)).mat = 1 := (C43_matrix_to_quaternion ⟨by simp, by simp⟩).2
  unfold preparePose
  simp only [show poseFrames (mastCtx 0) mastMsg.frame "odom" false false = ("odom", mastMsg.frame) by simp [poseFrames], l0,
    mast_source]
  rw [poseWith_spatial _ rfl]
  refine ⟨_, rfl, ?_, ?_, ?_, ?_, ?_⟩
  · simp [put, hpose, Tf.id_mul, hrpy]
  · have e : (fun i : Fin 3 => allPose.upd (axis 3 (by omega) i)) = fun _ => true := by
      funext i
      fin_cases i <;> rfl
    have hu := maskAxes_all rid 0
    rw [← e] at hu
    simpa [poseUpd, put] using hu
  · simp [putBlock, Tf.id, hm1, rot6d_one, poseCov, copyCov6, mastMsg]
  · simp [putBlock, Tf.id, hm1, rot6d_one, poseCov, copyCov6, mastMsg]
  · simp [putBlock, Tf.id, hm1, rot6d_one, poseCov, copyCov6, mastMsg]

/-- C92 is not true of the messages: the same pose from the same mast, seen from two world frames a quarter turn apart, is
taken with noise 1 in the roll from the one and 4 from the other. -/
theorem C92_tilt : ∃ (c c' : PrepCtx) (θ : ℝ) (t : Tf) (msg : PoseMsg) (p q q' : Payload),
    lookupTransformSafe c.buf "odom" msg.frame (poseLookupTime msg.stamp) = some t ∧
    lookupTransformSafe c'.buf "odom" msg.frame (poseLookupTime msg.stamp) = some ((turnTf θ).mul t) ∧
    (preparePose c ⟨fun _ => none, fun _ => none⟩ 0 msg "t" "odom" "base_link" false false false p).2 = some q ∧
    (preparePose c' ⟨fun _ => none, fun _ => none⟩ 0 msg "t" "odom" "base_link" false false false p).2 = some q' ∧
    p.R = 0 ∧ q.upd = q'.upd ∧ q.upd 3 = true ∧ q.TurnedPose θ q' ∧ turnCov θ q.R 3 3 = 1 ∧ q'.R 3 3 = 4 := by
  have l0 : lookupTransformSafe (mastCtx 0).buf "odom" mastMsg.frame (poseLookupTime mastMsg.stamp) = some Tf.id := by
    rw [mast_lookup, turnTf_zero]
  have l1 := mast_lookup (π / 2)
  have rid : IsRot Tf.id.rot := ⟨by simp [Tf.id], by simp [Tf.id]⟩
  have hs : sourceTf (mastCtx (π / 2)) "base_link" (poseLookupTime mastMsg.stamp) =
      sourceTf (mastCtx 0) "base_link" (poseLookupTime mastMsg.stamp) :=
    (mast_source (π / 2)).trans (mast_source 0).symm
  obtain ⟨q, hq, hz, hu, r33, r34, r44⟩ := mast_first
  obtain ⟨q', h1, -, h2, h3⟩ := C92_message_partial (mastCtx 0) (mastCtx (π / 2)) rfl rfl (π / 2) ⟨fun _ => none, fun _ => none⟩
    (by simp) 0 mastMsg "t" "odom" "base_link" (by decide) false allPose rfl Tf.id rid l0 l1 hs
    (fun s h => by rw [mast_source 0] at h; cases h) q hq (by
      intro a ha
      rw [hz] at ha
      cases ha
      simpa using pi_pos)
  have hn := C92_tilt_noise (mastCtx 0) (mastCtx (π / 2)) rfl rfl (π / 2) ⟨fun _ => none, fun _ => none⟩ 0 mastMsg "t" "odom"
    "base_link" (by decide) false allPose Tf.id rid l0 l1 hs q q' hq h1
  refine ⟨mastCtx 0, mastCtx (π / 2), π / 2, Tf.id, mastMsg, allPose, q, q', l0, l1, hq, h1, rfl,
    (h3 rfl rfl rfl rfl).symm, hu, h2, ?_, ?_⟩
  · unfold turnCov
    rw [mul_turnT, if_neg (by decide), if_neg (by decide), turn_mul, if_neg (by decide), if_neg (by decide), r33]
  · rw [hn, r33, r34, r44]
    simp

end RL
