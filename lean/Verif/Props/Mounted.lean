import Verif.Props.PoseFrames
/-! # C94: the orientation of a mounted IMU is that of the robot -/

namespace RL
open Matrix Real

/-- Turns by whole circles do not matter. -/
theorem setRPY_congr {r r' p y y' : ℝ} (h : ∃ k : ℤ, r' = r + k * (2 * π)) (h' : ∃ k : ℤ, y' = y + k * (2 * π)) :
    setRPY r' p y' = setRPY r p y := by
  obtain ⟨k, rfl⟩ := h
  obtain ⟨l, rfl⟩ := h'
  unfold setRPY
  simp only [cos_add_int_mul_two_pi, sin_add_int_mul_two_pi]

theorem normalizeAngle_mod (a : ℝ) : ∃ k : ℤ, normalizeAngle a = a + k * (2 * π) := by
  obtain ⟨k, hk⟩ := (normalizeAngle_spec a).2.2
  exact ⟨-k, by rw [hk]; push_cast; ring⟩

theorem normalizeAngle_congr {a b : ℝ} (h : ∃ k : ℤ, a = b + k * (2 * π)) : normalizeAngle a = normalizeAngle b := by
  obtain ⟨k, rfl⟩ := h
  exact normalizeAngle_add_two_pi b k

theorem yaw_mul_setRPY (α r p y : ℝ) : setRPY 0 0 α * setRPY r p y = setRPY r p (y + α) := by
  ext i j
  rw [mul3]
  fin_cases i <;> fin_cases j <;> simp [setRPY, cos_add, sin_add] <;> ring

theorem setRPY_mul_roll (φ r p y : ℝ) : setRPY r p y * setRPY φ 0 0 = setRPY (r + φ) p y := by
  ext i j
  rw [mul3]
  fin_cases i <;> fin_cases j <;> simp [setRPY, cos_add, sin_add] <;> ring

theorem setRPY_mul_back (r p y : ℝ) : setRPY r p y * setRPY 0 0 π = setRPY (-r) (-p) (y + π) := by
  ext i j
  rw [mul3]
  fin_cases i <;> fin_cases j <;> simp [setRPY, cos_add, sin_add] <;> ring

theorem quatToRPY_quatOf {m : M3} (h : IsRot m) : quatToRPY (quatOf m) = getRPY m := by
  unfold quatToRPY
  rw [(C43_matrix_to_quaternion h).2]

/-- What `preparePose` makes of the orientation of an IMU. -/
theorem preparePose_imu (c : PrepCtx) (hd : c.twoD = false) (mem : PoseMem) (last : Int) (msg : PoseMsg) (topic target : String)
    (ht : target ≠ "") (p : Payload) (t : Tf) (A : M3) (hA : IsRot A)
    (hl : lookupTransformSafe c.buf target msg.frame (poseLookupTime msg.stamp) = some t)
    (hi : imuRot t (msgPose msg) = A) :
    ∃ q, (preparePose c mem last msg topic target c.base false false true p).2 = some q ∧
      ∀ i : Fin 3, q.z (axis 3 (by omega) i) = .fin (getRPY A i) := by
  unfold preparePose
  have e1 : poseFrames c msg.frame target false true = (target, msg.frame) := by simp [poseFrames, ht]
  have e2 : sourceTf c c.base (poseLookupTime msg.stamp) = none := by simp [sourceTf]
  simp only [e1, e2, hl]
  refine ⟨_, rfl, fun i => ?_⟩
  simp only [finish, hd, Bool.false_eq_true, if_false, if_true, hi]
  rw [Tf.id_mul, quatToRPY_quatOf hA]
  fin_cases i <;> simp [put, axis]

/-- C94 for a robot that stands level: an IMU mounted in any way (not pointing straight up or down) is fused as the
heading of the robot. -/
theorem C94_level_partial (c : PrepCtx) (hd : c.twoD = false) (mem : PoseMem) (last : Int) (msg : PoseMsg) (topic target : String)
    (ht : target ≠ "") (p : Payload) (t : Tf) (hr : IsRot t.rot) (hv : |t.rot 2 0| < 1)
    (hl : lookupTransformSafe c.buf target msg.frame (poseLookupTime msg.stamp) = some t) (α : ℝ)
    (hm : (msgPose msg).rot = Body.rot ![0, 0, α] * t.rot) :
    ∃ q, (preparePose c mem last msg topic target c.base false false true p).2 = some q ∧
      ∀ i : Fin 3, q.z (axis 3 (by omega) i) = .fin (![0, 0, normalizeAngle α] i) := by
  rw [← setRPY_eq] at hm
  have hp : -(π / 2) < getRPY t.rot 1 ∧ getRPY t.rot 1 < π / 2 := by
    have e : getRPY t.rot 1 = -arcsin (t.rot 2 0) := by
      unfold getRPY
      rw [if_neg (by linarith)]
      simp
    obtain ⟨h1, h2⟩ := abs_lt.1 hv
    rw [e]
    constructor
    · have := arcsin_lt_pi_div_two.2 h2
      linarith
    · have := neg_pi_div_two_lt_arcsin.2 h1
      linarith
  have hoff := C43_same_rotation_partial hr hv
  have hi : imuRot t (msgPose msg) = setRPY 0 0 α := by
    revert hoff hp
    generalize getRPY t.rot 0 = φ
    generalize getRPY t.rot 1 = θ
    generalize getRPY t.rot 2 = ψ
    intro hp hoff
    unfold imuRot
    rw [hm, ← hoff, yaw_mul_setRPY, quatToRPY_quatOf (isRot_setRPY _ _ _), quatToRPY_quatOf (isRot_setRPY _ _ _),
      getRPY_setRPY _ _ _ hp.1 hp.2, getRPY_setRPY _ _ _ hp.1 hp.2]
    have h0 : normalizeAngle (normalizeAngle φ - normalizeAngle φ) = 0 := by
      rw [sub_self]
      exact normalizeAngle_of_mem (by linarith [pi_pos]) pi_pos.le
    have h1 : normalizeAngle (θ - θ) = 0 := by
      rw [sub_self]
      exact normalizeAngle_of_mem (by linarith [pi_pos]) pi_pos.le
    have h2 : normalizeAngle (normalizeAngle (ψ + α) - normalizeAngle ψ) = normalizeAngle α := by
      obtain ⟨k, hk⟩ := normalizeAngle_mod (ψ + α)
      obtain ⟨l, hl⟩ := normalizeAngle_mod ψ
      exact normalizeAngle_congr ⟨k - l, by rw [hk, hl]; push_cast; ring⟩
    simp only [cons_val_zero, cons_val_one, cons_val, h0, h1, h2]
    have e : (setRPY 0 0 (normalizeAngle ψ)).mulVec ![0, 0, normalizeAngle α] = ![0, 0, normalizeAngle α] := by
      funext i
      rw [mulVec3]
      fin_cases i <;> simp [setRPY]
    rw [e]
    exact setRPY_congr ⟨0, by simp⟩ (normalizeAngle_mod α)
  obtain ⟨q, h1, h2⟩ := preparePose_imu c hd mem last msg topic target ht p t _ (isRot_setRPY 0 0 α) hl hi
  refine ⟨q, h1, fun i => ?_⟩
  rw [h2, getRPY_setRPY _ _ _ (by linarith [pi_pos]) (by linarith [pi_pos]),
    normalizeAngle_of_mem (a := 0) (by linarith [pi_pos]) pi_pos.le]

/-- C94 for an IMU that is only rolled about its forward axis (upside down, for instance): it is fused as the orientation
of the robot, whatever that is (not pointing straight up or down). -/
theorem C94_rolled_partial (c : PrepCtx) (hd : c.twoD = false) (mem : PoseMem) (last : Int) (msg : PoseMsg) (topic target : String)
    (ht : target ≠ "") (u : Payload) (t : Tf) (φ : ℝ) (hr : t.rot = Body.rot ![φ, 0, 0])
    (hl : lookupTransformSafe c.buf target msg.frame (poseLookupTime msg.stamp) = some t) (r p y : ℝ)
    (h1 : -(π / 2) < p) (h2 : p < π / 2) (hm : (msgPose msg).rot = Body.rot ![r, p, y] * t.rot) :
    ∃ q, (preparePose c mem last msg topic target c.base false false true u).2 = some q ∧
      ∀ i : Fin 3, q.z (axis 3 (by omega) i) = .fin (![normalizeAngle r, p, normalizeAngle y] i) := by
  rw [← setRPY_eq] at hm hr
  have h0 : normalizeAngle 0 = 0 := normalizeAngle_of_mem (by linarith [pi_pos]) pi_pos.le
  have hi : imuRot t (msgPose msg) = setRPY r p y := by
    unfold imuRot
    rw [hm, hr, setRPY_mul_roll, quatToRPY_quatOf (isRot_setRPY _ _ _), quatToRPY_quatOf (isRot_setRPY _ _ _),
      getRPY_setRPY _ _ _ h1 h2, getRPY_setRPY _ _ _ (by linarith [pi_pos]) (by linarith [pi_pos])]
    have e0 : normalizeAngle (normalizeAngle (r + φ) - normalizeAngle φ) = normalizeAngle r := by
      obtain ⟨k, hk⟩ := normalizeAngle_mod (r + φ)
      obtain ⟨l, hl⟩ := normalizeAngle_mod φ
      exact normalizeAngle_congr ⟨k - l, by rw [hk, hl]; push_cast; ring⟩
    have e1 : normalizeAngle p = p := normalizeAngle_of_mem (by linarith [pi_pos]) (by linarith [pi_pos])
    have e2 : normalizeAngle (normalizeAngle y) = normalizeAngle y := normalizeAngle_congr (normalizeAngle_mod y)
    simp only [cons_val_zero, cons_val_one, cons_val, h0, sub_zero, e0, e1, e2]
    have e : ∀ v : V3, (setRPY 0 0 0).mulVec v = v := by
      intro v
      funext i
      rw [mulVec3]
      fin_cases i <;> simp [setRPY]
    rw [e]
    exact setRPY_congr (normalizeAngle_mod r) (normalizeAngle_mod y)
  obtain ⟨q, a1, a2⟩ := preparePose_imu c hd mem last msg topic target ht u t _ (isRot_setRPY r p y) hl hi
  refine ⟨q, a1, fun i => ?_⟩
  rw [a2, getRPY_setRPY _ _ _ h1 h2]

/-- C94 for an IMU that looks backwards. -/
theorem C94_backwards_partial (c : PrepCtx) (hd : c.twoD = false) (mem : PoseMem) (last : Int) (msg : PoseMsg)
    (topic target : String) (ht : target ≠ "") (u : Payload) (t : Tf) (hr : t.rot = Body.rot ![0, 0, π])
    (hl : lookupTransformSafe c.buf target msg.frame (poseLookupTime msg.stamp) = some t) (r p y : ℝ)
    (h1 : -(π / 2) < p) (h2 : p < π / 2) (hm : (msgPose msg).rot = Body.rot ![r, p, y] * t.rot) :
    ∃ q, (preparePose c mem last msg topic target c.base false false true u).2 = some q ∧
      ∀ i : Fin 3, q.z (axis 3 (by omega) i) = .fin (![normalizeAngle r, p, normalizeAngle y] i) := by
  rw [← setRPY_eq] at hm hr
  have h0 : normalizeAngle 0 = 0 := normalizeAngle_of_mem (by linarith [pi_pos]) pi_pos.le
  have hπ : normalizeAngle π = π := normalizeAngle_of_mem (by linarith [pi_pos]) le_rfl
  have hi : imuRot t (msgPose msg) = setRPY r p y := by
    unfold imuRot
    rw [hm, hr, setRPY_mul_back, quatToRPY_quatOf (isRot_setRPY _ _ _), quatToRPY_quatOf (isRot_setRPY _ _ _),
      getRPY_setRPY _ _ _ (by linarith) (by linarith), getRPY_setRPY _ _ _ (by linarith [pi_pos]) (by linarith [pi_pos])]
    have e0 : normalizeAngle (normalizeAngle (-r)) = normalizeAngle (-r) := normalizeAngle_congr (normalizeAngle_mod _)
    have e1 : normalizeAngle (-p) = -p := normalizeAngle_of_mem (by linarith [pi_pos]) (by linarith [pi_pos])
    have e2 : normalizeAngle (normalizeAngle (y + π) - π) = normalizeAngle y := by
      obtain ⟨k, hk⟩ := normalizeAngle_mod (y + π)
      exact normalizeAngle_congr ⟨k, by rw [hk]; ring⟩
    simp only [cons_val_zero, cons_val_one, cons_val, h0, hπ, sub_zero, e0, e1, e2]
    have e : ∀ a b d : ℝ, (setRPY 0 0 π).mulVec ![a, b, d] = ![-a, -b, d] := by
      intro a b d
      funext i
      rw [mulVec3]
      fin_cases i <;> simp [setRPY]
    rw [e]
    simp only [cons_val_zero, cons_val_one, cons_val, neg_neg]
    refine setRPY_congr ?_ (normalizeAngle_mod y)
    obtain ⟨k, hk⟩ := normalizeAngle_mod (-r)
    exact ⟨-k, by rw [hk]; push_cast; ring⟩
  obtain ⟨q, a1, a2⟩ := preparePose_imu c hd mem last msg topic target ht u t _ (isRot_setRPY r p y) hl hi
  refine ⟨q, a1, fun i => ?_⟩
  rw [a2, getRPY_setRPY _ _ _ h1 h2]

/-- C94 fails for an IMU that is mounted pitched when the robot lies on its side: the robot is not pitched, yet the pitch
that is fused is minus the angle of the mount (and the heading that angle). -/
theorem C94_pitched (c : PrepCtx) (hd : c.twoD = false) (mem : PoseMem) (last : Int) (msg : PoseMsg) (topic target : String)
    (ht : target ≠ "") (u : Payload) (t : Tf) (θ : ℝ) (h1 : 0 < θ) (h2 : θ < π / 2) (hr : t.rot = Body.rot ![0, θ, 0])
    (hl : lookupTransformSafe c.buf target msg.frame (poseLookupTime msg.stamp) = some t)
    (hm : (msgPose msg).rot = Body.rot ![π / 2, 0, 0] * t.rot) :
    getRPY (Body.rot ![π / 2, 0, 0]) = ![π / 2, 0, 0] ∧
    ∃ q, (preparePose c mem last msg topic target c.base false false true u).2 = some q ∧
      ∀ i : Fin 3, q.z (axis 3 (by omega) i) = .fin (![π / 2, -θ, θ] i) := by
  have h0 : normalizeAngle 0 = 0 := normalizeAngle_of_mem (by linarith [pi_pos]) pi_pos.le
  have hq : normalizeAngle (π / 2) = π / 2 := normalizeAngle_of_mem (by linarith [pi_pos]) (by linarith [pi_pos])
  have hθ : normalizeAngle θ = θ := normalizeAngle_of_mem (by linarith [pi_pos]) (by linarith [pi_pos])
  have hθ' : normalizeAngle (-θ) = -θ := normalizeAngle_of_mem (by linarith [pi_pos]) (by linarith [pi_pos])
  rw [← setRPY_eq] at hm hr
  rw [← setRPY_eq]
  refine ⟨by rw [getRPY_setRPY _ _ _ (by linarith [pi_pos]) (by linarith [pi_pos]), h0, hq], ?_⟩
  have hprod : setRPY (π / 2) 0 0 * setRPY 0 θ 0 = setRPY (π / 2) 0 θ := by
    ext i j
    rw [mul3]
    fin_cases i <;> fin_cases j <;> simp [setRPY]
  have hi : imuRot t (msgPose msg) = setRPY (π / 2) (-θ) θ := by
    unfold imuRot
    rw [hm, hr, hprod, quatToRPY_quatOf (isRot_setRPY _ _ _), quatToRPY_quatOf (isRot_setRPY _ _ _),
      getRPY_setRPY _ _ _ (by linarith) (by linarith), getRPY_setRPY _ _ _ (by linarith [pi_pos]) (by linarith [pi_pos])]
    simp only [cons_val_zero, cons_val_one, cons_val, h0, hq, hθ, sub_zero, zero_sub, hθ']
    have e : ∀ v : V3, (setRPY 0 0 0).mulVec v = v := by
      intro v
      funext i
      rw [mulVec3]
      fin_cases i <;> simp [setRPY]
    rw [e]
    simp
  obtain ⟨q, a1, a2⟩ := preparePose_imu c hd mem last msg topic target ht u t _ (isRot_setRPY _ _ _) hl hi
  refine ⟨q, a1, fun i => ?_⟩
  rw [a2, getRPY_setRPY _ _ _ (by linarith) (by linarith), hq, hθ]

/-- Attitudes and mounts the statements speak about: a mount pitched by 45 degrees. -/
example : IsRot (Body.rot ![0, π / 4, 0]) ∧ |(Body.rot ![0, π / 4, 0]) 2 0| < 1 := by
  rw [← setRPY_eq]
  refine ⟨isRot_setRPY _ _ _, ?_⟩
  simp only [setRPY, of_apply, cons_val', cons_val_zero, cons_val, sin_pi_div_four, abs_neg]
  rw [abs_of_nonneg (by positivity), div_lt_one (by norm_num), sqrt_lt' (by norm_num)]
  norm_num

/-- A message with such an orientation. -/
example (r p y φ : ℝ) : ∃ m : PoseMsg, (msgPose m).rot = Body.rot ![r, p, y] * Body.rot ![φ, 0, 0] := by
  refine ⟨{ frame := "imu", stamp := 1, pos := 0, ori := Quat.ofRPY (r + φ) p y, cov := 0 }, ?_⟩
  rw [← setRPY_eq, ← setRPY_eq, setRPY_mul_roll, ← mat_ofRPY]
  unfold msgPose
  have hl := len2_ofRPY (r + φ) p y
  dsimp only
  rw [if_neg, if_neg]
  · rw [hl]; norm_num
  · rintro ⟨a, b, d, e⟩
    simp [Quat.len2, a, b, d, e] at hl

end RL
