import Verif.Proofs.MirrorMsg
/-! # C144: left and right are treated alike in the messages

A robot and its sensors are looked at in a mirror that exchanges left and right: mountings, poses, velocities and
covariances are replaced by what is seen in the mirror.  What the node makes of the messages is then what is seen in the
mirror of what it makes of the original ones. -/

namespace RL
open Matrix Real

/-- The covariance array of a pose or a twist in the mirror. -/
def mirror36 (a : Fin 36 → ℝ) : Fin 36 → ℝ := fun k => flip6 ⟨k.val / 6, by omega⟩ * a k * flip6 ⟨k.val % 6, by omega⟩

/-- The covariance array of an IMU field in the mirror. -/
def mirror9 (a : Fin 9 → ℝ) : Fin 9 → ℝ := fun k => flip3 ⟨k.val / 3, by omega⟩ * a k * flip3 ⟨k.val % 3, by omega⟩

/-- A pose message in the mirror. -/
def PoseMsg.mirror (m : PoseMsg) : PoseMsg :=
  { m with pos := m.pos.mirror, ori := m.ori.mirror, cov := mirror36 m.cov }

/-- A twist message in the mirror. -/
noncomputable def TwistMsg.mirror (m : TwistMsg) : TwistMsg :=
  { m with lin := fun i => (m.lin i).smul (flip3 i), ang := fun i => (m.ang i).smul (-flip3 i), cov := mirror36 m.cov }

/-- An IMU message in the mirror. -/
noncomputable def ImuMsg.mirror (m : ImuMsg) : ImuMsg :=
  { m with ori := m.ori.mirror, oriCov := mirror9 m.oriCov, vel := fun i => (m.vel i).smul (-flip3 i)
           velCov := mirror9 m.velCov, acc := m.acc.mirror, accCov := mirror9 m.accCov }

/-- What is remembered of earlier poses, in the mirror. -/
def PoseMem.mirror (m : PoseMem) : PoseMem :=
  { init := fun s => (m.init s).map Tf.mirror, prev := fun s => (m.prev s).map fun a => (a.1.mirror, M6.mirror a.2) }

/-- The second node knows what the first one knows, in the mirror. -/
structure PrepCtx.Mirrors (c c' : PrepCtx) : Prop where
  buf : c'.buf = fun a b t => (c.buf a b t).map Tf.mirror
  world : c'.world = c.world
  base : c'.base = c.base
  twoD : c'.twoD = c.twoD
  gravity : c'.gravity = c.gravity
  state : SameScaled 1 (-1) c.state c'.state
  angAcc : c'.angAcc = c.angAcc.mirrorTurn

/-- What a node knows, in the mirror. -/
def PrepCtx.mirror (c : PrepCtx) : PrepCtx :=
  { c with buf := fun a b t => (c.buf a b t).map Tf.mirror, state := fun i => unitOf 1 (-1) i * c.state i
           angAcc := c.angAcc.mirrorTurn }

theorem PrepCtx.mirrors_mirror (c : PrepCtx) : c.Mirrors c.mirror :=
  ⟨rfl, rfl, rfl, rfl, rfl, ⟨0, fun _ _ => rfl, fun _ => rfl, by funext i; simp [PrepCtx.mirror]⟩, rfl⟩

/-- The second measurement is the first one in the mirror; roll and yaw count up to full turns. -/
structure Payload.Mirrors (m m' : Payload) : Prop where
  upd : m'.upd = m.upd
  thresh : m'.thresh = m.thresh
  R : m'.R = rescaleCov 1 (-1) m.R
  z : ∀ i, m'.z i = (m.z i).smul (unitOf 1 (-1) i) ∨
    (i = iRoll ∨ i = iYaw) ∧ ∃ (a : ℝ) (k : ℤ), m.z i = .fin a ∧ m'.z i = .fin (-a + k * (2 * π))

theorem Payload.mirrors_rescaled (m : Payload) : m.Mirrors (m.rescaled 1 (-1)) :=
  ⟨rfl, rfl, rfl, fun _ => Or.inl rfl⟩

section helpers

theorem copyCov6_mirror (a : Fin 36 → ℝ) : copyCov6 (mirror36 a) = M6.mirror (copyCov6 a) := by
  ext i j
  have h1 : (⟨(6 * i.val + j.val) / 6, by omega⟩ : Fin 6) = i := Fin.ext (by simp only; omega)
  have h2 : (⟨(6 * i.val + j.val) % 6, by omega⟩ : Fin 6) = j := Fin.ext (by simp only; omega)
  simp only [copyCov6, mirror36, M6.mirror, of_apply, h1, h2]

theorem copyCov3_mirror (a : Fin 9 → ℝ) : copyCov3 (mirror9 a) = M3.mirror (copyCov3 a) := by
  ext i j
  have h1 : (⟨(3 * i.val + j.val) / 3, by omega⟩ : Fin 3) = i := Fin.ext (by simp only; omega)
  have h2 : (⟨(3 * i.val + j.val) % 3, by omega⟩ : Fin 3) = j := Fin.ext (by simp only; omega)
  simp only [copyCov3, mirror9, M3.mirror, of_apply, h1, h2]

theorem copyOut6_mirror (m : M6) : copyOut6 m.mirror = mirror36 (copyOut6 m) := rfl

theorem mirror9_zero (a : Fin 9 → ℝ) : mirror9 a 0 = a 0 := by
  simp [mirror9, flip3]

theorem neg_flip3_cases (i : Fin 3) : -flip3 i = 1 ∨ -flip3 i = -1 := by
  rcases flip3_cases i with h | h <;> simp [h]

theorem unit_vel (i : Fin 3) : unitOf 1 (-1) ⟨6 + i.val, by omega⟩ = flip3 i := by
  fin_cases i <;> simp [unitOf, flip3]

theorem unit_rate (i : Fin 3) : unitOf 1 (-1) ⟨9 + i.val, by omega⟩ = -flip3 i := by
  fin_cases i <;> simp [unitOf, flip3]

theorem unit_pos (i : Fin 3) : unitOf 1 (-1) ⟨0 + i.val, by omega⟩ = flip3 i := by
  fin_cases i <;> simp [unitOf, flip3]

variable {c c' : PrepCtx}

theorem PrepCtx.Mirrors.omega (h : c.Mirrors c') : c'.omega = c.omega.mirrorTurn := by
  obtain ⟨k, hk, -, he⟩ := h.state
  have e9 : c'.state 9 = -c.state 9 := by
    rw [he]; simp [unitOf, hk 9 (by decide)]
  have e10 : c'.state 10 = c.state 10 := by
    rw [he]; simp [unitOf, hk 10 (by decide)]
  have e11 : c'.state 11 = -c.state 11 := by
    rw [he]; simp [unitOf, hk 11 (by decide)]
  funext i
  fin_cases i <;> simp [PrepCtx.omega, V3.mirrorTurn, flip3, e9, e10, e11]

theorem PrepCtx.Mirrors.orientation (h : c.Mirrors c') :
    setRPY (c'.state 3) (c'.state 4) (c'.state 5) = M3.mirror (setRPY (c.state 3) (c.state 4) (c.state 5)) := by
  obtain ⟨k, -, -, he⟩ := h.state
  rw [← setRPY_mirror]
  have e3 : c'.state 3 = -c.state 3 + k 3 * (2 * π) := by
    rw [he]; simp [unitOf]
  have e4 : c'.state 4 = c.state 4 + k 4 * (2 * π) := by
    rw [he]; simp [unitOf]
  have e5 : c'.state 5 = -c.state 5 + k 5 * (2 * π) := by
    rw [he]; simp [unitOf]
  rw [e3, e4, e5]
  unfold setRPY
  simp only [cos_add_int_mul_two_pi, sin_add_int_mul_two_pi]

theorem PrepCtx.Mirrors.lookup (h : c.Mirrors c') (target source : String) (t : Int) :
    lookupTransformSafe c'.buf target source t = (lookupTransformSafe c.buf target source t).map Tf.mirror := by
  unfold lookupTransformSafe
  rw [h.buf]
  dsimp only
  cases c.buf target source t with
  | some a => rfl
  | none =>
    cases c.buf target source 0 with
    | some a => rfl
    | none =>
      by_cases e : target = source
      · simp only [Option.map_none, if_pos e, Option.map_some, Tf.mirror_id]
      · simp only [Option.map_none, if_neg e]

theorem finish_mirror (h : c.Mirrors c') (p : Payload) : finish c' (p.rescaled 1 (-1)) = (finish c p).rescaled 1 (-1) := by
  unfold finish
  rw [h.twoD]
  split_ifs
  · exact forceTwoD_mirror p
  · rfl

theorem finish_mirrors (h : c.Mirrors c') {p p' : Payload} (hp : p.Mirrors p') : (finish c p).Mirrors (finish c' p') := by
  unfold finish
  rw [h.twoD]
  split_ifs
  · have hf := forceTwoD_mirror p
    refine ⟨?_, hp.thresh, ?_, fun i => ?_⟩
    · show (fun i => if offPlane i then true else p'.upd i) = fun i => if offPlane i then true else p.upd i
      rw [hp.upd]
    · have e : (forceTwoD (p.rescaled 1 (-1))).R = rescaleCov 1 (-1) (forceTwoD p).R := by rw [hf]; rfl
      rw [← e]
      show Matrix.of _ = Matrix.of _
      rw [hp.R]
      rfl
    · show (if offPlane i then Dbl.fin 0 else p'.z i) = Dbl.smul _ (if offPlane i then Dbl.fin 0 else p.z i) ∨ _
      by_cases ho : offPlane i
      · rw [if_pos ho, if_pos ho]
        left
        simp [Dbl.smul]
      · rw [if_neg ho, if_neg ho]
        refine (hp.z i).imp id ?_
        rintro ⟨hi, a, k, ha, hk⟩
        exact ⟨hi, a, k, (if_neg ho).trans ha, (if_neg ho).trans hk⟩
  · exact hp

end helpers

variable {c c' : PrepCtx}

theorem twistPayload_mirror (h : c.Mirrors c') (t : Tf) (msg : TwistMsg) (p : Payload) :
    twistPayload c' t.mirror msg.mirror (p.rescaled 1 (-1)) = (twistPayload c t msg p).rescaled 1 (-1) := by
  have e1 : mulDbl t.mirror.rot msg.mirror.ang = fun i => (mulDbl t.rot msg.ang i).smul (-flip3 i) :=
    mulDbl_signs neg_flip3_cases t.rot msg.ang fun i j => by simp [M3.mirror]
  have e2 : mulDbl t.mirror.rot msg.mirror.lin = fun i => (mulDbl t.rot msg.lin i).smul (flip3 i) :=
    mulDbl_signs flip3_cases t.rot msg.lin fun i j => rfl
  have e3 : cross t.mirror.org c'.omega = V3.mirror (cross t.org c.omega) := by
    rw [h.omega]
    exact cross_mirror _ _
  have e4 : rot6d (quatOf t.mirror.rot).mat = M6.mirror (rot6d (quatOf t.rot).mat) := by
    rw [← rot6d_mirror, ← mat_quatOf_mirror]
    rfl
  have e5 : copyCov6 msg.mirror.cov = M6.mirror (copyCov6 msg.cov) := copyCov6_mirror _
  have e6 : (fun i => ((mulDbl t.mirror.rot msg.mirror.lin i).add (.fin (cross t.mirror.org c'.omega i)))) =
      fun i => ((mulDbl t.rot msg.lin i).add (.fin (cross t.org c.omega i))).smul (flip3 i) := by
    funext i
    rw [e2, e3, ← smul_add_signs (flip3_cases i)]
    rfl
  unfold twistPayload
  dsimp only
  rw [← finish_mirror h]
  congr 1
  rw [e6, e1, e4, e5]
  simp only [Payload.rescaled, Payload.mk.injEq, and_true]
  refine ⟨?_, ?_, ?_⟩
  · simp only [Tf.mirror, maskAxes_mirror]
  · rw [put_mirror (off := 6) (by omega) unit_vel, put_mirror (off := 9) (by omega) unit_rate]
  · rw [M6.mirror_transpose, M6.mirror_mul, M6.mirror_mul, putBlock6_mirror (by omega) fun i => (unit_block i).2]

/-- C144 for velocities: everything told as it is seen in the mirror, `prepareTwist` gives the measurement seen in the
mirror, for every mounting of the sensor, covariance, state of the robot and mode. -/
theorem C144_twist (h : c.Mirrors c') (msg : TwistMsg) (target : String) (p : Payload) :
    prepareTwist c' msg.mirror target (p.rescaled 1 (-1)) = (prepareTwist c msg target p).map (Payload.rescaled 1 (-1)) := by
  unfold prepareTwist
  have e : (if msg.mirror.frame = "" then target else msg.mirror.frame) = if msg.frame = "" then target else msg.frame := rfl
  rw [e, h.lookup]
  show (Option.map _ (lookupTransformSafe _ _ _ msg.stamp)).map _ = _
  cases lookupTransformSafe c.buf target (if msg.frame = "" then target else msg.frame) msg.stamp with
  | none => rfl
  | some t => exact congrArg some (twistPayload_mirror h t msg p)

theorem gravityPart_mirror (h : c.Mirrors c') (t : Tf) (msg : ImuMsg) (relative : Bool) :
    gravityPart c' t.mirror msg.mirror relative = V3.mirror (gravityPart c t msg relative) := by
  have e0 : msg.mirror.oriCov 0 = msg.oriCov 0 := mirror9_zero _
  have e1 : msg.mirror.ori = msg.ori.mirror := rfl
  have e2 : t.mirror.rot = t.rot.mirror := rfl
  have eq : (if |√msg.ori.len2 - 1| > 0.01 then msg.ori.mirror.normalize else msg.ori.mirror) =
      (if |√msg.ori.len2 - 1| > 0.01 then msg.ori.normalize else msg.ori).mirror := by
    split_ifs
    · exact Quat.normalize_mirror _
    · rfl
  unfold gravityPart
  simp only [e0, e1, e2, Quat.len2_mirror, h.gravity, h.orientation, eq, Quat.mat_mirror, M3.mirror_mul, M3.mirror_inv]
  have hg : ∀ m : M3, m.mirror.mulVec ![0, 0, c.gravity] = V3.mirror (m.mulVec ![0, 0, c.gravity]) := fun m => by
    rw [← mirror_mulVec3, mirror_up]
  simp only [hg]
  split_ifs <;> rfl

theorem accelPayload_mirror (h : c.Mirrors c') (t : Tf) (grav : Bool) (msg : ImuMsg) (relative : Bool) (p : Payload) :
    accelPayload c' t.mirror grav msg.mirror relative (p.rescaled 1 (-1)) =
      (accelPayload c t grav msg relative p).rescaled 1 (-1) := by
  have e1 : t.mirror.rot.mulVec msg.mirror.acc + cross t.mirror.org c'.angAcc - cross (cross t.mirror.org c'.omega) c'.omega =
      V3.mirror (t.rot.mulVec msg.acc + cross t.org c.angAcc - cross (cross t.org c.omega) c.omega) := by
    rw [h.omega, h.angAcc]
    show t.rot.mirror.mulVec msg.acc.mirror + cross t.org.mirror _ - cross (cross t.org.mirror _) _ = _
    rw [mirror_mulVec3, cross_mirror, cross_mirror, cross_mirror, V3.mirror_add, V3.mirror_sub]
  have e2 : (quatOf t.mirror.rot).mat = M3.mirror (quatOf t.rot).mat := mat_quatOf_mirror _
  have e3 : copyCov3 msg.mirror.accCov = M3.mirror (copyCov3 msg.accCov) := copyCov3_mirror _
  unfold accelPayload
  dsimp only
  rw [← finish_mirror h]
  congr 1
  rw [e1, e2, e3, gravityPart_mirror h, V3.mirror_sub]
  simp only [Payload.rescaled, Payload.mk.injEq, and_true]
  refine ⟨?_, ?_, ?_⟩
  · simp only [Tf.mirror, maskAxes_mirror]
  · rw [← put_mirror (off := 12) (by omega) unit_acc]
    congr 1
    funext i
    split_ifs <;> rfl
  · rw [M3.mirror_transpose, M3.mirror_mul, M3.mirror_mul, putBlock3_mirror]

/-- C144 for accelerations, with and without gravity. -/
theorem C144_acceleration (h : c.Mirrors c') (grav : Bool) (msg : ImuMsg) (target : String) (relative : Bool) (p : Payload) :
    prepareAcceleration c' grav msg.mirror target relative (p.rescaled 1 (-1)) =
      (prepareAcceleration c grav msg target relative p).map (Payload.rescaled 1 (-1)) := by
  unfold prepareAcceleration
  have e : (if msg.mirror.frame = "" then c'.base else msg.mirror.frame) = if msg.frame = "" then c.base else msg.frame := by
    rw [h.base]
    rfl
  rw [e, h.lookup]
  show (Option.map _ (lookupTransformSafe _ _ _ msg.stamp)).map _ = _
  cases lookupTransformSafe c.buf target (if msg.frame = "" then c.base else msg.frame) msg.stamp with
  | none => rfl
  | some t => exact congrArg some (accelPayload_mirror h t grav msg relative p)

section helpers

theorem msgPose_mirror (msg : PoseMsg) : msgPose msg.mirror = (msgPose msg).mirror := by
  have hz : ∀ q : Quat, (q.mirror.x = 0 ∧ q.mirror.y = 0 ∧ q.mirror.z = 0 ∧ q.mirror.w = 0) =
      (q.x = 0 ∧ q.y = 0 ∧ q.z = 0 ∧ q.w = 0) := fun q => by simp [Quat.mirror]
  have e1 : msg.mirror.ori = msg.ori.mirror := rfl
  have key : (if msg.ori.x = 0 ∧ msg.ori.y = 0 ∧ msg.ori.z = 0 ∧ msg.ori.w = 0 then (⟨0, 0, 0, 1⟩ : Quat)
      else if |√msg.ori.len2 - 1| > 0.01 then msg.ori.mirror.normalize else msg.ori.mirror) =
      (if msg.ori.x = 0 ∧ msg.ori.y = 0 ∧ msg.ori.z = 0 ∧ msg.ori.w = 0 then (⟨0, 0, 0, 1⟩ : Quat)
      else if |√msg.ori.len2 - 1| > 0.01 then msg.ori.normalize else msg.ori).mirror := by
    split_ifs
    · simp [Quat.mirror]
    · exact Quat.normalize_mirror _
    · rfl
  unfold msgPose
  simp only [e1, hz, Quat.len2_mirror, key, Quat.mat_mirror]
  rfl

theorem poseCov_mirror (src : Option Tf) (msg : PoseMsg) :
    poseCov (src.map Tf.mirror) msg.mirror = M6.mirror (poseCov src msg) := by
  have e : copyCov6 msg.mirror.cov = M6.mirror (copyCov6 msg.cov) := copyCov6_mirror _
  cases src with
  | none => exact e
  | some s =>
    have e4 : rot6d (quatOf s.mirror.rot).mat = M6.mirror (rot6d (quatOf s.rot).mat) := by
      rw [← rot6d_mirror, ← mat_quatOf_mirror]
      rfl
    show (rot6d (quatOf s.mirror.rot).mat)ᵀ * copyCov6 msg.mirror.cov * rot6d (quatOf s.mirror.rot).mat = _
    rw [e4, e, M6.mirror_transpose, M6.mirror_mul, M6.mirror_mul]
    rfl

theorem yaw_mirror (m : M3) : setRPY 0 0 (getRPY m.mirror 2) = M3.mirror (setRPY 0 0 (getRPY m 2)) := by
  obtain ⟨k, hk⟩ := turn_mirror (getRPY m 2)
  rw [(getRPY_mirror m).2.2, hk, ← setRPY_mirror, neg_zero]
  exact setRPY_congr ⟨0, by push_cast; ring⟩ ⟨k, rfl⟩

theorem imuRot_mirror {t pose : Tf}
    (h : ∀ i : Fin 3, i ≠ 1 → normalizeAngle (quatToRPY (quatOf pose.rot) i - quatToRPY (quatOf t.rot) i) ≠ π) :
    imuRot t.mirror pose.mirror = M3.mirror (imuRot t pose) := by
  obtain ⟨⟨k0, ht0⟩, ht1, ⟨k2, ht2⟩⟩ := rpy_mirror_mod t.rot
  obtain ⟨⟨l0, hp0⟩, hp1, ⟨l2, hp2⟩⟩ := rpy_mirror_mod pose.rot
  have hn : ∀ a b : ℝ, normalizeAngle (a - b) ≠ π → ∀ k l : ℤ,
      normalizeAngle (-a + l * (2 * π) - (-b + k * (2 * π))) = -normalizeAngle (a - b) := by
    intro a b hab k l
    have e : -a + l * (2 * π) - (-b + k * (2 * π)) = -(a - b) + ((l - k : ℤ) : ℝ) * (2 * π) := by
      push_cast
      ring
    rw [e, normalizeAngle_add_two_pi, normalizeAngle_neg hab]
  have d0 := hn _ _ (h 0 (by decide)) k0 l0
  have d2 := hn _ _ (h 2 (by decide)) k2 l2
  have ey : setRPY 0 0 (-quatToRPY (quatOf t.rot) 2 + k2 * (2 * π)) = M3.mirror (setRPY 0 0 (quatToRPY (quatOf t.rot) 2)) := by
    rw [← setRPY_mirror, neg_zero]
    exact setRPY_congr ⟨0, by push_cast; ring⟩ ⟨k2, rfl⟩
  unfold imuRot
  simp only [Tf.mirror, ht0, ht1, ht2, hp0, hp1, hp2, d0, d2, ey]
  set A := setRPY 0 0 (quatToRPY (quatOf t.rot) 2)
  set a0 := normalizeAngle (quatToRPY (quatOf pose.rot) 0 - quatToRPY (quatOf t.rot) 0)
  set a1 := normalizeAngle (quatToRPY (quatOf pose.rot) 1 - quatToRPY (quatOf t.rot) 1)
  set a2 := normalizeAngle (quatToRPY (quatOf pose.rot) 2 - quatToRPY (quatOf t.rot) 2)
  have hv : (![-a0, a1, -a2] : V3) = -V3.mirror ![a0, a1, a2] := by
    funext i
    fin_cases i <;> simp [V3.mirror, flip3]
  have hA : A.mirror.mulVec ![-a0, a1, -a2] = -V3.mirror (A.mulVec ![a0, a1, a2]) := by
    rw [hv, mulVec_neg, mirror_mulVec3]
  rw [hA, ← setRPY_mirror]
  simp [V3.mirror, flip3]

theorem diffTwist_mirror {t : Tf} {r6 covR : M6} {prevPose : Tf} {prevCov : M6} {pose : Tf} {last stamp : Int} {source : String}
    (h : ∀ i : Fin 3, i ≠ 1 →
      quatToRPY (quatOf (Tf.mul { t with org := 0 } (prevPose.inverseTimes pose)).rot) i ≠ π) :
    diffTwist t.mirror r6.mirror covR.mirror prevPose.mirror prevCov.mirror pose.mirror last stamp source =
      (diffTwist t r6 covR prevPose prevCov pose last stamp source).mirror := by
  have e0 : ({ t.mirror with org := 0 } : Tf) = Tf.mirror { t with org := 0 } := by
    simp only [Tf.mirror, V3.mirror_zero]
  have e1 : Tf.mul { t.mirror with org := 0 } (prevPose.mirror.inverseTimes pose.mirror) =
      Tf.mirror (Tf.mul { t with org := 0 } (prevPose.inverseTimes pose)) := by
    rw [e0, Tf.mirror_inverseTimes, Tf.mirror_mul]
  unfold diffTwist
  dsimp only
  rw [e1]
  set d := Tf.mul { t with org := 0 } (prevPose.inverseTimes pose)
  have e2 : quatToRPY (quatOf d.mirror.rot) = V3.mirrorTurn (quatToRPY (quatOf d.rot)) :=
    rpy_mirror (h 0 (by decide)) (h 2 (by decide))
  rw [e2]
  simp only [TwistMsg.mirror, TwistMsg.mk.injEq, true_and]
  refine ⟨?_, ?_, ?_⟩
  · funext i
    exact div_signs (flip3_cases i) _ _
  · funext i
    exact div_signs (neg_flip3_cases i) _ _
  · rw [M6.mirror_transpose, M6.mirror_mul, M6.mirror_mul, M6.mirror_add, M6.mirror_smul, copyOut6_mirror]

theorem put_mod_mirror {z z' : Fin 15 → Dbl} (hz : ∀ i, z' i = (z i).smul (unitOf 1 (-1) i)) {v v' : V3}
    (h0 : ∃ k : ℤ, v' 0 = -v 0 + k * (2 * π)) (h1 : v' 1 = v 1) (h2 : ∃ k : ℤ, v' 2 = -v 2 + k * (2 * π)) (i : Fin 15) :
    put 3 z' (fun j => .fin (v' j)) i = (put 3 z (fun j => .fin (v j)) i).smul (unitOf 1 (-1) i) ∨
      (i = iRoll ∨ i = iYaw) ∧ ∃ (a : ℝ) (k : ℤ), put 3 z (fun j => .fin (v j)) i = .fin a ∧
        put 3 z' (fun j => .fin (v' j)) i = .fin (-a + k * (2 * π)) := by
  obtain ⟨k, hk⟩ := h0
  obtain ⟨l, hl⟩ := h2
  by_cases h : 3 ≤ i.val ∧ i.val < 3 + 3
  · obtain rfl | rfl | rfl : i = 3 ∨ i = 4 ∨ i = 5 := by
      have : i.val = 3 ∨ i.val = 4 ∨ i.val = 5 := by omega
      rcases this with e | e | e
      · exact Or.inl (Fin.ext e)
      · exact Or.inr (Or.inl (Fin.ext e))
      · exact Or.inr (Or.inr (Fin.ext e))
    · exact Or.inr ⟨Or.inl rfl, v 0, k, rfl, congrArg Dbl.fin hk⟩
    · left
      show Dbl.fin (v' 1) = Dbl.fin (1 * v 1)
      rw [h1, one_mul]
    · exact Or.inr ⟨Or.inr rfl, v 2, l, rfl, congrArg Dbl.fin hl⟩
  · left
    simp only [put, dif_neg h, hz]

end helpers

/-- The pose a message is taken for: that of an IMU has its mounting taken off. -/
noncomputable def takenPose (imu : Bool) (t : Tf) (msg : PoseMsg) : Tf :=
  if imu then { msgPose msg with rot := imuRot t (msgPose msg) } else msgPose msg

/-- The rotation from the previous pose of the topic to this one, in the target frame. -/
noncomputable def turnSince (imu : Bool) (t : Tf) (msg : PoseMsg) (old : Tf) : M3 :=
  (if imu then 1 else t.rot) * (old.rotᵀ * (takenPose imu t msg).rot)

/-- No roll or yaw is exactly half a turn: neither the difference of the angles of an IMU and of its mounting, nor, in
differential mode, the turn since the previous message. -/
structure NoHalfTurn (t : Tf) (msg : PoseMsg) (prev : Option (Tf × M6)) (differential imu : Bool) : Prop where
  mount : imu = true → ∀ i : Fin 3, i ≠ 1 →
    normalizeAngle (quatToRPY (quatOf (msgPose msg).rot) i - quatToRPY (quatOf t.rot) i) ≠ π
  turn : differential = true → ∀ old, prev = some old → ∀ i : Fin 3, i ≠ 1 →
    quatToRPY (quatOf (turnSince imu t msg old.1)) i ≠ π

theorem poseWith_mirror (h : c.Mirrors c') (mem : PoseMem) (last : Int) (t : Tf) (src : Option Tf) (msg : PoseMsg)
    (topic source : String) (differential relative imu : Bool) (p : Payload)
    (hh : NoHalfTurn t msg (mem.prev topic) differential imu) :
    (poseWith c' mem.mirror last t.mirror (src.map Tf.mirror) msg.mirror topic source differential relative imu
        (p.rescaled 1 (-1))).1 =
      (poseWith c mem last t src msg topic source differential relative imu p).1.mirror ∧
    Option.Rel Payload.Mirrors (poseWith c mem last t src msg topic source differential relative imu p).2
      (poseWith c' mem.mirror last t.mirror (src.map Tf.mirror) msg.mirror topic source differential relative imu
        (p.rescaled 1 (-1))).2 := by
  have e0 : (if imu then { msgPose msg.mirror with rot := imuRot t.mirror (msgPose msg.mirror) } else msgPose msg.mirror) =
      (takenPose imu t msg).mirror := by
    unfold takenPose
    rw [msgPose_mirror]
    cases imu
    · rfl
    · simp only [if_true]
      rw [imuRot_mirror (hh.mount rfl)]
      rfl
  have e1 : (if imu then setRPY 0 0 (getRPY t.mirror.rot 2) else t.mirror.rot) =
      M3.mirror (if imu then setRPY 0 0 (getRPY t.rot 2) else t.rot) := by
    cases imu
    · rfl
    · exact yaw_mirror t.rot
  have e2 : rot6d (if imu then setRPY 0 0 (getRPY t.mirror.rot 2) else (quatOf t.mirror.rot).mat) =
      M6.mirror (rot6d (if imu then setRPY 0 0 (getRPY t.rot 2) else (quatOf t.rot).mat)) := by
    rw [← rot6d_mirror]
    cases imu
    · exact congrArg rot6d (mat_quatOf_mirror t.rot)
    · exact congrArg rot6d (yaw_mirror t.rot)
  have e3 : (if imu then Tf.id else t.mirror) = Tf.mirror (if imu then Tf.id else t) := by
    cases imu
    · rfl
    · exact Tf.mirror_id.symm
  have ep : (if imu then { msgPose msg with rot := imuRot t (msgPose msg) } else msgPose msg) = takenPose imu t msg := rfl
  unfold poseWith
  simp only [e0, e1, e2, e3, ep, poseCov_mirror, M6.mirror_transpose, M6.mirror_mul]
  have eu : (p.rescaled 1 (-1)).upd = p.upd := rfl
  rw [eu, poseUpd_mirror]
  set r6 := rot6d (if imu then setRPY 0 0 (getRPY t.rot 2) else (quatOf t.rot).mat)
  set upd := poseUpd (if imu then setRPY 0 0 (getRPY t.rot 2) else t.rot) p.upd
  set cov := poseCov src msg
  set pose := takenPose imu t msg with hpose
  cases differential with
  | true =>
    simp only [if_true]
    refine ⟨?_, ?_⟩
    · unfold PoseMem.mirror
      simp only [PoseMem.mk.injEq, true_and]
      funext s
      by_cases hs : s = topic
      · simp only [if_pos hs, Option.map_some]
      · simp only [if_neg hs]
    · have ee : mem.mirror.prev topic = (mem.prev topic).map fun a => (a.1.mirror, M6.mirror a.2) := rfl
      rw [ee, h.base]
      cases ho : mem.prev topic with
      | none => exact .none
      | some old =>
        simp only [Option.map_some, Option.bind_some]
        have hd := hh.turn rfl old ho
        have ht : turnSince imu t msg old.1 =
            (Tf.mul { (if imu then Tf.id else t) with org := 0 } (old.1.inverseTimes pose)).rot := by
          unfold turnSince
          cases imu <;> rfl
        rw [ht] at hd
        have hm : msg.mirror.stamp = msg.stamp := rfl
        rw [hm, diffTwist_mirror hd]
        have hq : ({ (p.rescaled 1 (-1)) with upd := diffUpd upd } : Payload) =
            Payload.rescaled 1 (-1) { p with upd := diffUpd upd } := rfl
        rw [hq, C144_twist h]
        generalize prepareTwist c _ c.base _ = r
        cases r with
        | none => exact .none
        | some r => exact .some r.mirrors_rescaled
  | false =>
    simp only [Bool.false_eq_true, if_false]
    clear_value cov
    rcases src with _ | s
    case' none =>
      simp only [Option.map_none]
      generalize pose = pose1
    case' some =>
      simp only [Option.map_some, Tf.mirror_mul]
      generalize pose.mul s = pose1
    all_goals
      have e5 : (mem.mirror.init topic).getD pose1.mirror = Tf.mirror ((mem.init topic).getD pose1) := by
        show (Option.map Tf.mirror (mem.init topic)).getD pose1.mirror = _
        cases mem.init topic <;> rfl
      rw [e5]
      set first := (mem.init topic).getD pose1
      have e6 : (if relative then first.mirror.inverseTimes pose1.mirror else pose1.mirror) =
          Tf.mirror (if relative then first.inverseTimes pose1 else pose1) := by
        cases relative
        · rfl
        · exact Tf.mirror_inverseTimes _ _
      rw [e6, Tf.mirror_mul]
      set pose3 := Tf.mul (if imu then Tf.id else t) (if relative then first.inverseTimes pose1 else pose1)
      refine ⟨?_, ?_⟩
      · cases relative
        · rfl
        · simp only [if_true]
          unfold PoseMem.mirror
          simp only [PoseMem.mk.injEq, and_true]
          funext s
          by_cases hs : s = topic
          · simp only [if_pos hs, Option.map_some]
          · simp only [if_neg hs]
      · refine .some (finish_mirrors h ⟨rfl, rfl, ?_, ?_⟩)
        · exact putBlock6_mirror (off := 0) (by omega) (fun i => by
            have := (unit_block i).1
            simpa using this) _ _
        · obtain ⟨h0, h1, h2⟩ := rpy_mirror_mod pose3.rot
          refine put_mod_mirror (fun i => ?_) h0 h1 h2
          exact congrFun (put_mirror (off := 0) (by omega) unit_pos p.z fun i => .fin (pose3.org i)) i

/-- C144 for poses, in all modes: everything told as it is seen in the mirror, `preparePose` remembers what is seen in the
mirror and gives the measurement seen in the mirror. -/
theorem C144_pose (h : c.Mirrors c') (mem : PoseMem) (last : Int) (msg : PoseMsg) (topic target source : String)
    (differential relative imu : Bool) (p : Payload)
    (hh : ∀ t, lookupTransformSafe c.buf (poseFrames c msg.frame target differential imu).1
      (poseFrames c msg.frame target differential imu).2 (poseLookupTime msg.stamp) = some t →
      NoHalfTurn t msg (mem.prev topic) differential imu) :
    (preparePose c' mem.mirror last msg.mirror topic target source differential relative imu (p.rescaled 1 (-1))).1 =
      (preparePose c mem last msg topic target source differential relative imu p).1.mirror ∧
    Option.Rel Payload.Mirrors (preparePose c mem last msg topic target source differential relative imu p).2
      (preparePose c' mem.mirror last msg.mirror topic target source differential relative imu (p.rescaled 1 (-1))).2 := by
  have ef : poseFrames c' msg.mirror.frame target differential imu = poseFrames c msg.frame target differential imu := by
    unfold poseFrames
    rw [h.world]
    rfl
  have es : sourceTf c' source (poseLookupTime msg.stamp) = (sourceTf c source (poseLookupTime msg.stamp)).map Tf.mirror := by
    unfold sourceTf
    rw [h.base, h.lookup]
    split_ifs <;> rfl
  unfold preparePose
  have em : msg.mirror.stamp = msg.stamp := rfl
  simp only [ef, em, h.lookup, es]
  cases hl : lookupTransformSafe c.buf (poseFrames c msg.frame target differential imu).1
      (poseFrames c msg.frame target differential imu).2 (poseLookupTime msg.stamp) with
  | none => exact ⟨rfl, .none⟩
  | some t => exact poseWith_mirror h mem last t _ msg topic source differential relative imu p (hh t hl)

/-- C144 for poses that are neither those of an IMU nor differenced: no exception. -/
theorem C144_absolute (h : c.Mirrors c') (mem : PoseMem) (last : Int) (msg : PoseMsg) (topic target source : String)
    (relative : Bool) (p : Payload) :
    (preparePose c' mem.mirror last msg.mirror topic target source false relative false (p.rescaled 1 (-1))).1 =
      (preparePose c mem last msg topic target source false relative false p).1.mirror ∧
    Option.Rel Payload.Mirrors (preparePose c mem last msg topic target source false relative false p).2
      (preparePose c' mem.mirror last msg.mirror topic target source false relative false (p.rescaled 1 (-1))).2 :=
  C144_pose h mem last msg topic target source false relative false p fun _ _ => ⟨fun e => (nomatch e), fun e => (nomatch e)⟩

/-! ## What the filter makes of them -/

section helpers

theorem Payload.Mirrors.fin {m m' : Payload} (h : m.Mirrors m') (i : Fin 15) :
    (m'.z i).isFin = (m.z i).isFin ∧ (m'.z i).isNan = (m.z i).isNan ∧ (m'.z i).isInf = (m.z i).isInf ∧
    ∃ k : ℤ, (¬ (i = iRoll ∨ i = iYaw) → k = 0) ∧ (m'.z i).val = ((m.rescaled 1 (-1)).z i).val + k * (2 * π) := by
  rcases h.z i with e | ⟨hi, a, k, ha, hk⟩
  · obtain ⟨h1, h2, h3, -⟩ := rescaledZ (unitOf_ne_zero one_pos (Or.inr rfl)) m i
    have e' : m'.z i = (m.rescaled 1 (-1)).z i := e
    rw [e']
    exact ⟨h1, h2, h3, 0, fun _ => rfl, by push_cast; ring⟩
  · have hu : unitOf 1 (-1) i = -1 := by rcases hi with rfl | rfl <;> rfl
    rw [ha, hk]
    refine ⟨rfl, rfl, rfl, k, fun hn => absurd hi hn, ?_⟩
    show _ = ((m.z i).smul (unitOf 1 (-1) i)).val + _
    rw [ha, hu]
    simp [Dbl.smul]

theorem Payload.Mirrors.indices {m m' : Payload} (h : m.Mirrors m') : m'.indices = m.indices := by
  unfold Payload.indices
  refine List.filter_congr fun i _ => ?_
  obtain ⟨-, a, b, -⟩ := h.fin i
  rw [a, b, h.upd]

theorem correct_mirrors {m m' : Payload} (h : m.Mirrors m') (x : State) (P : Mat15) :
    Ekf.correct m' x P = Ekf.correct (m.rescaled 1 (-1)) x P := by
  have hi : m'.indices = (m.rescaled 1 (-1)).indices :=
    h.indices.trans (indices_rescaled (unitOf_ne_zero one_pos (Or.inr rfl)) m).symm
  have hinn : ∀ {n : ℕ} (e : Fin n → Fin 15), innovation e (fun i => (m'.z i).val) x =
      innovation e (fun i => ((m.rescaled 1 (-1)).z i).val) x := by
    intro n e
    funext a
    obtain ⟨-, -, -, k, hk0, hk⟩ := h.fin (e a)
    unfold innovation
    dsimp only
    by_cases hang : e a = iRoll ∨ e a = iPitch ∨ e a = iYaw
    · rw [if_pos hang, if_pos hang, hk, add_sub_right_comm, normalizeAngle_add_two_pi]
    · have h0 : k = 0 := hk0 fun hr => hang (hr.elim Or.inl fun h => Or.inr (Or.inr h))
      rw [if_neg hang, if_neg hang, hk, h0]
      simp
  unfold Ekf.correct
  rw [hi]
  unfold correctAt
  rw [hinn, show m'.R = (m.rescaled 1 (-1)).R from h.R, show m'.thresh = (m.rescaled 1 (-1)).thresh from h.thresh]

end helpers

/-- C144 and C108 together, for the Kalman filter: a message told as seen in the mirror corrects an estimate told as seen
in the mirror to what is seen in the mirror, unless a roll or a yaw is measured exactly half a turn away. -/
theorem C144_fused {m m' : Payload} (h : m.Mirrors m') {x x' : State} (hx : SameScaled 1 (-1) x x') (P : Mat15)
    (hh : ∀ i ∈ m.indices, i = iRoll ∨ i = iYaw → normalizeAngle ((m.z i).val - x i) ≠ π) :
    Option.Rel (fun r r' => SameScaled 1 (-1) r.1 r'.1 ∧ r'.2 = rescaleCov 1 (-1) r.2)
      (Ekf.correct m x P) (Ekf.correct m' x' (rescaleCov 1 (-1) P)) := by
  rw [correct_mirrors h]
  exact C108_orientation_partial m hx P hh

/-- The same for the first message, which starts the filter: no exception. -/
theorem C144_started {m m' : Payload} (h : m.Mirrors m') {x x' : State} (hx : SameScaled 1 (-1) x x') (P : Mat15) :
    Option.Rel (SameScaled 1 (-1)) (initState m x) (initState m' x') ∧
    initCov m' (rescaleCov 1 (-1) P) = rescaleCov 1 (-1) (initCov m P) := by
  refine ⟨?_, ?_⟩
  · have h1 := initState_rescaled (unitOf_ne_zero one_pos (Or.inr rfl)) m hx
    have hf : (∀ i, m'.upd i = true → (m'.z i).isFin = true) ↔
        ∀ i, (m.rescaled 1 (-1)).upd i = true → ((m.rescaled 1 (-1)).z i).isFin = true := by
      refine forall_congr' fun i => ?_
      rw [(h.fin i).1, (rescaledZ (unitOf_ne_zero one_pos (Or.inr rfl)) m i).1, h.upd]
      rfl
    unfold initState at h1 ⊢
    rw [h.upd] at hf
    by_cases hA : ∀ i, m.upd i = true → (m.z i).isFin = true
    · have hB : ∀ i, (m.rescaled 1 (-1)).upd i = true → ((m.rescaled 1 (-1)).z i).isFin = true := fun i hi => by
        rw [(rescaledZ (unitOf_ne_zero one_pos (Or.inr rfl)) m i).1]
        exact hA i hi
      rw [if_pos hA, if_pos hB] at h1
      rw [h.upd, if_pos hA, if_pos (hf.2 hB)]
      refine .some ?_
      cases h1 with
      | some h1 =>
        obtain ⟨k, hk, -, he⟩ := h1
        choose f hf1 using fun i => (h.fin i).2.2.2
        refine ⟨fun i => if m.upd i then k i + f i else k i, fun i hi => ?_, fun e => by norm_num at e, ?_⟩
        · have h2 : f i = 0 := (hf1 i).1 fun e => hi (e.elim Or.inl fun h => Or.inr (Or.inr h))
          simp [hk i hi, h2]
        · funext i
          have h3 := congrFun he i
          have h4 := (hf1 i).2
          dsimp only at h3 ⊢
          have eu : (m.rescaled 1 (-1)).upd i = m.upd i := rfl
          rw [eu] at h3
          by_cases hu : m.upd i = true
          · rw [if_pos hu, if_pos hu, if_pos hu]
            rw [if_pos hu, if_pos hu] at h3
            rw [h4, h3]
            push_cast
            ring
          · rw [if_neg hu, if_neg hu, if_neg hu]
            rw [if_neg hu, if_neg hu] at h3
            exact h3
    · have hB : ¬ ∀ i, (m.rescaled 1 (-1)).upd i = true → ((m.rescaled 1 (-1)).z i).isFin = true := fun hB => hA fun i hi => by
        rw [← (rescaledZ (unitOf_ne_zero one_pos (Or.inr rfl)) m i).1]
        exact hB i hi
      rw [h.upd, if_neg hA, if_neg fun e => hB (hf.1 e)]
      exact .none
  · have e := initCov_rescaled (l := 1) (s := -1) m P
    rw [← e]
    unfold initCov
    rw [h.upd, h.R]
    rfl

/-- A robot that turns left and has a sensor on its left side. -/
def leftCtx : PrepCtx :=
  { buf := fun _ _ _ => some { rot := 1, org := ![0, 1, 0] }, world := "odom", base := "base_link", twoD := false
    state := fun i => if i = 11 then 1 else 0, angAcc := 0, gravity := 9.80665 }

/-- Non-vacuity: its lever and its turn give a speed forwards of 1; in the mirror the sensor is on the right and the robot
turns right, and the speed is the same. -/
example (q : Payload)
    (h : prepareTwist leftCtx ⟨"wheel", 0, fun _ => .fin 0, ![.fin 0, .fin 0, .fin 1], 0⟩ "base_link"
      ⟨fun _ => true, fun _ => .fin 0, 0, .unlimited⟩ = some q) :
    q.z 6 = .fin 1 ∧ q.z 11 = .fin 1 ∧ ∃ q', prepareTwist leftCtx.mirror
        (TwistMsg.mirror ⟨"wheel", 0, fun _ => .fin 0, ![.fin 0, .fin 0, .fin 1], 0⟩) "base_link"
        (Payload.rescaled 1 (-1) ⟨fun _ => true, fun _ => .fin 0, 0, .unlimited⟩) = some q' ∧ q'.z 6 = .fin 1 ∧ q'.z 11 = .fin (-1) := by
  have e := C144_twist leftCtx.mirrors_mirror ⟨"wheel", 0, fun _ => .fin 0, ![.fin 0, .fin 0, .fin 1], 0⟩ "base_link"
    ⟨fun _ => true, fun _ => .fin 0, 0, .unlimited⟩
  have hq : q.z 6 = .fin 1 ∧ q.z 11 = .fin 1 := by
    simp only [prepareTwist, lookupTransformSafe, leftCtx, Option.map_some, Option.some.injEq] at h
    subst h
    refine ⟨?_, ?_⟩
    · simp [twistPayload, finish, put, mulDbl, Dbl.smul, Dbl.add, cross, PrepCtx.omega]
    · show (((Dbl.fin 0).smul ((1 : M3) 2 0)).add ((Dbl.fin 0).smul ((1 : M3) 2 1))).add ((Dbl.fin 1).smul ((1 : M3) 2 2)) = _
      simp [Dbl.smul, Dbl.add]
  refine ⟨hq.1, hq.2, q.rescaled 1 (-1), by rw [e, h]; rfl, ?_, ?_⟩
  · show (q.z 6).smul _ = _
    rw [hq.1]
    simp [Dbl.smul, unitOf]
  · show (q.z 11).smul _ = _
    rw [hq.2]
    simp [Dbl.smul, unitOf]

/-- Non-vacuity: a pose turned by one radian is no exception, neither since the start nor against its mounting. -/
example {msg : PoseMsg} (h : (msgPose msg).rot = setRPY 0 0 1) :
    NoHalfTurn Tf.id msg (some (Tf.id, 0)) true false ∧ NoHalfTurn Tf.id msg none false true := by
  have h1 : quatToRPY (quatOf (setRPY 0 0 1)) = ![0, 0, 1] := by
    rw [quatToRPY_quatOf (isRot_setRPY _ _ _), getRPY_setRPY 0 0 1 (by linarith [pi_pos]) (by linarith [pi_pos]),
      normalizeAngle_of_mem (by linarith [pi_pos]) pi_pos.le,
      normalizeAngle_of_mem (by linarith [pi_pos]) (by linarith [pi_gt_three])]
  have h0 : quatToRPY (quatOf (Tf.id.rot)) = ![0, 0, 0] := by
    have e : Tf.id.rot = setRPY 0 0 0 := by
      ext i j
      fin_cases i <;> fin_cases j <;> simp [Tf.id, setRPY]
    rw [e, quatToRPY_quatOf (isRot_setRPY _ _ _), getRPY_setRPY 0 0 0 (by linarith [pi_pos]) (by linarith [pi_pos]),
      normalizeAngle_of_mem (by linarith [pi_pos]) pi_pos.le]
  have hp := pi_gt_three
  refine ⟨⟨fun e => (nomatch e), ?_⟩, ⟨?_, fun e => (nomatch e)⟩⟩
  · rintro - old ho i hi
    obtain rfl : (Tf.id, 0) = old := Option.some.inj ho
    have e : turnSince false Tf.id msg Tf.id = setRPY 0 0 1 := by
      simp [turnSince, takenPose, Tf.id, h]
    rw [e, h1]
    fin_cases i
    · exact pi_pos.ne
    · exact absurd rfl hi
    · exact (show (1 : ℝ) < π by linarith).ne
  · rintro - i hi
    rw [h, h1, h0]
    fin_cases i
    · show normalizeAngle (0 - 0) ≠ π
      rw [sub_zero, normalizeAngle_of_mem (by linarith) pi_pos.le]
      exact pi_pos.ne
    · exact absurd rfl hi
    · show normalizeAngle (1 - 0) ≠ π
      rw [sub_zero, normalizeAngle_of_mem (by linarith) (by linarith)]
      exact (show (1 : ℝ) < π by linarith).ne

/-- A node without mountings. -/
def plainCtx : PrepCtx :=
  { buf := fun _ _ _ => some Tf.id, world := "odom", base := "base_link", twoD := false, state := 0, angAcc := 0
    gravity := 9.80665 }

/-- A pose turned by half a circle, one second after the start. -/
def turnedMsg : PoseMsg :=
  { frame := "odom", stamp := 1000000000, pos := 0, ori := ⟨0, 0, 1, 0⟩, cov := 0 }

/-- The pose before it: none. -/
def startMem : PoseMem := { init := fun _ => none, prev := fun _ => some (Tf.id, 0) }

theorem turnedMsg_rot : (msgPose turnedMsg).rot = setRPY 0 0 π ∧ (msgPose turnedMsg.mirror).rot = setRPY 0 0 π := by
  have h : (msgPose turnedMsg).rot = setRPY 0 0 π := by
    ext i j
    fin_cases i <;> fin_cases j <;> simp [msgPose, turnedMsg, setRPY, Quat.mat, Quat.len2] <;> norm_num
  refine ⟨h, ?_⟩
  rw [msgPose_mirror]
  show M3.mirror (msgPose turnedMsg).rot = _
  rw [h, ← setRPY_mirror]
  exact setRPY_congr ⟨0, by push_cast; ring⟩ ⟨-1, by push_cast; ring⟩

/-- The exception: a turn of exactly half a circle between two poses counts as a turn to the left, and so it does in the
mirror. -/
theorem C144_half_turn (p : Payload) :
    (∃ q, (preparePose plainCtx startMem 0 turnedMsg "pose" "odom" "base_link" true false false p).2 = some q ∧
      q.z 11 = .fin π) ∧
    ∃ q, (preparePose plainCtx.mirror startMem.mirror 0 turnedMsg.mirror "pose" "odom" "base_link" true false false
      (p.rescaled 1 (-1))).2 = some q ∧ q.z 11 = .fin π := by
  have key : ∀ (c : PrepCtx) (mem : PoseMem) (msg : PoseMsg) (p : Payload), c.buf = (fun _ _ _ => some Tf.id) →
      c.twoD = false → c.base = "base_link" → mem.prev "pose" = some (Tf.id, 0) → msg.frame = "odom" → msg.stamp = 1000000000 →
      (msgPose msg).rot = setRPY 0 0 π →
      ∃ q, (preparePose c mem 0 msg "pose" "odom" "base_link" true false false p).2 = some q ∧ q.z 11 = .fin π := by
    intro c mem msg p hb h2 hbase hm hf hs hr
    have hl : ∀ a b t, lookupTransformSafe c.buf a b t = some Tf.id := fun a b t => by
      simp only [lookupTransformSafe, hb]
    unfold preparePose
    simp only [hl, poseWith, if_true, Bool.false_eq_true, if_false, hm, Option.bind_some, prepareTwist, Option.map_some]
    refine ⟨_, rfl, ?_⟩
    have ha : quatToRPY (quatOf (Tf.mul { Tf.id with org := 0 } (Tf.id.inverseTimes (msgPose msg))).rot) 2 = π := by
      have e : (Tf.mul { Tf.id with org := 0 } (Tf.id.inverseTimes (msgPose msg))).rot = setRPY 0 0 π := by
        simp [Tf.mul, Tf.id, Tf.inverseTimes, hr]
      rw [e, quatToRPY_quatOf (isRot_setRPY _ _ _)]
      rw [getRPY_setRPY 0 0 π (by linarith [pi_pos]) (by linarith [pi_pos])]
      exact normalizeAngle_of_mem (by linarith [pi_pos]) le_rfl
    simp only [twistPayload, finish, h2, Bool.false_eq_true, if_false]
    have hdt : toSec msg.stamp - toSec 0 = 1 := by
      rw [hs]
      norm_num [toSec]
    have hd : ∀ a : ℝ, Dbl.div a 1 = .fin a := fun a => by simp [Dbl.div]
    show (((Dbl.div _ _).smul ((1 : M3) 2 0)).add ((Dbl.div _ _).smul ((1 : M3) 2 1))).add ((Dbl.div _ _).smul ((1 : M3) 2 2)) = _
    rw [hdt, ha]
    simp [Dbl.smul, Dbl.add, hd]
  refine ⟨key _ _ _ _ rfl rfl rfl rfl rfl rfl turnedMsg_rot.1, key _ _ _ _ ?_ rfl rfl ?_ rfl rfl turnedMsg_rot.2⟩
  · show (fun _ _ _ => some Tf.id.mirror) = _
    rw [Tf.mirror_id]
  · show some (Tf.id.mirror, M6.mirror 0) = _
    rw [Tf.mirror_id]
    congr 2
    ext i j
    simp [M6.mirror]

end RL
