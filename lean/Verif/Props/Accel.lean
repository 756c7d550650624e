import Verif.Props.PoseFrames
/-!
# C38: accelerations measured by a sensor mounted anywhere on the robot, and gravity
-/

namespace RL
open Matrix Real

/-- What an accelerometer reads (specific force) that is mounted on a rigid body at `mount`, when the body has attitude
`att` (body to world), its origin accelerates with `a` and it turns with rate `w` and angular acceleration `al` (all in
the body frame), under gravity `g`. -/
def Body.specificForce (att : Body.Mat3) (mount : Tf) (a w al : Body.Vec3) (g : ℝ) : Body.Vec3 :=
  mount.rotᵀ.mulVec (a + (Body.skew al).mulVec mount.org + (Body.skew w).mulVec ((Body.skew w).mulVec mount.org) +
    attᵀ.mulVec ![0, 0, g])

/-- A rotation about the vertical. -/
def Body.Heading (y : Body.Mat3) : Prop := IsRot y ∧ ∀ g : ℝ, y.mulVec ![0, 0, g] = ![0, 0, g]

/-- The attitude of the message. -/
noncomputable def msgAtt (msg : ImuMsg) : M3 :=
  (open Classical in if |Real.sqrt msg.ori.len2 - 1| > 0.01 then msg.ori.normalize else msg.ori).mat

/-- What the node knows about the attitude is right: its estimate if the message has none; the attitude of the sensor in
the world; or, for a sensor whose attitude is taken relative to its first, the attitude of the robot up to its heading. -/
inductive AttitudeKnown (c : PrepCtx) (t : Tf) (msg : ImuMsg) (att : M3) : Bool → Prop
  | estimate (rel : Bool) : |msg.oriCov 0 + 1| < 1e-9 → setRPY (c.state 3) (c.state 4) (c.state 5) = att →
      AttitudeKnown c t msg att rel
  | absolute : ¬ |msg.oriCov 0 + 1| < 1e-9 → msgAtt msg = att * t.rot → AttitudeKnown c t msg att false
  | relative (y : M3) : ¬ |msg.oriCov 0 + 1| < 1e-9 → Body.Heading y → msgAtt msg = y * att →
      AttitudeKnown c t msg att true

theorem gravityPart_eq (c : PrepCtx) (t : Tf) (ht : IsRot t.rot) (msg : ImuMsg) (att : M3) (ha : IsRot att) (rel : Bool)
    (h : AttitudeKnown c t msg att rel) :
    gravityPart c t msg rel = t.rotᵀ.mulVec (attᵀ.mulVec ![0, 0, c.gravity]) := by
  unfold gravityPart
  cases h with
  | estimate _ h1 h2 =>
    simp only [h1, if_true, h2, (ha.mul ht).inv, Matrix.transpose_mul, Matrix.mulVec_mulVec]
  | absolute h1 h2 =>
    unfold msgAtt at h2
    simp only [h1, if_false, Bool.false_eq_true, h2, (ha.mul ht).inv, Matrix.transpose_mul, Matrix.mulVec_mulVec]
  | relative y h1 hy h2 =>
    unfold msgAtt at h2
    have e : yᵀ.mulVec ![0, 0, c.gravity] = ![0, 0, c.gravity] := by
      conv_lhs => rw [← hy.2 c.gravity]
      rw [Matrix.mulVec_mulVec, hy.1.transpose_mul, Matrix.one_mulVec]
    simp only [h1, if_false, if_true, h2, (hy.1.mul ha).inv, ht.inv, Matrix.transpose_mul]
    rw [← Matrix.mulVec_mulVec, ← Matrix.mulVec_mulVec, e]

/-- The values `prepareAcceleration` writes. -/
theorem prepareAcceleration_val (c : PrepCtx) (hd : c.twoD = false) (rg : Bool) (msg : ImuMsg) (target : String) (rel : Bool)
    (p : Payload) (t : Tf)
    (hl : lookupTransformSafe c.buf target (if msg.frame = "" then c.base else msg.frame) msg.stamp = some t) :
    ∃ q, prepareAcceleration c rg msg target rel p = some q ∧
      ∀ i : Fin 3, q.z (axis 12 (by omega) i) = .fin ((t.rot.mulVec msg.acc + cross t.org c.angAcc -
        cross (cross t.org c.omega) c.omega - if rg then gravityPart c t msg rel else 0) i) := by
  refine ⟨accelPayload c t rg msg rel p, by unfold prepareAcceleration; rw [hl]; rfl, ?_⟩
  intro i
  cases rg <;> fin_cases i <;> simp [accelPayload, finish, hd, put, axis]

theorem lever_cancels (o w al : V3) :
    (Body.skew al).mulVec o + (Body.skew w).mulVec ((Body.skew w).mulVec o) + cross o al - cross (cross o w) w = 0 := by
  have e : ∀ a b : V3, (Body.skew a).mulVec b = cross a b := by
    intro a b
    funext i
    fin_cases i <;> simp [cross, Body.skew, Matrix.mulVec, dotProduct, Fin.sum_univ_three] <;> ring
  simp only [e]
  funext i
  fin_cases i <;> simp [cross] <;> ring

/-- C38, with what is missing in view: an accelerometer on a robot whose origin accelerates with `a` measures `a`, up to
gravity minus gravity turned back by the mounting. -/
theorem C38_residual (c : PrepCtx) (hd : c.twoD = false) (msg : ImuMsg) (target : String) (rel : Bool) (p : Payload) (t : Tf)
    (ht : IsRot t.rot) (att : M3) (ha : IsRot att) (a : V3)
    (hl : lookupTransformSafe c.buf target (if msg.frame = "" then c.base else msg.frame) msg.stamp = some t)
    (hk : AttitudeKnown c t msg att rel) (hm : msg.acc = Body.specificForce att t a c.omega c.angAcc c.gravity) :
    ∃ q, prepareAcceleration c true msg target rel p = some q ∧
      ∀ i : Fin 3, q.z (axis 12 (by omega) i) = .fin ((a + attᵀ.mulVec ![0, 0, c.gravity] -
        t.rotᵀ.mulVec (attᵀ.mulVec ![0, 0, c.gravity])) i) := by
  obtain ⟨q, h1, h2⟩ := prepareAcceleration_val c hd true msg target rel p t hl
  refine ⟨q, h1, fun i => ?_⟩
  rw [h2 i, hm, Body.specificForce, Matrix.mulVec_mulVec, ht.1, Matrix.one_mulVec, if_pos rfl,
    gravityPart_eq c t ht msg att ha rel hk]
  congr 1
  have := congrFun (lever_cancels t.org c.omega c.angAcc) i
  simp only [Pi.add_apply, Pi.sub_apply, Pi.zero_apply] at this ⊢
  linarith

/-- C38: exactly the mountings that leave the direction of gravity on the robot alone measure the acceleration of the
robot.  (Every one, whatever its orientation, if it is not turned against the robot.) -/
theorem C38_kinematic_partial (c : PrepCtx) (hd : c.twoD = false) (msg : ImuMsg) (target : String) (rel : Bool) (p : Payload)
    (t : Tf) (ht : IsRot t.rot) (att : M3) (ha : IsRot att) (a : V3)
    (hl : lookupTransformSafe c.buf target (if msg.frame = "" then c.base else msg.frame) msg.stamp = some t)
    (hk : AttitudeKnown c t msg att rel) (hm : msg.acc = Body.specificForce att t a c.omega c.angAcc c.gravity) :
    ∃ q, prepareAcceleration c true msg target rel p = some q ∧
      ((∀ i : Fin 3, q.z (axis 12 (by omega) i) = .fin (a i)) ↔
        t.rot.mulVec (attᵀ.mulVec ![0, 0, c.gravity]) = attᵀ.mulVec ![0, 0, c.gravity]) := by
  obtain ⟨q, h1, h2⟩ := C38_residual c hd msg target rel p t ht att ha a hl hk hm
  refine ⟨q, h1, ?_⟩
  simp only [h2]
  set g := attᵀ.mulVec ![0, 0, c.gravity]
  have e : (t.rot.mulVec g = g) ↔ (t.rotᵀ.mulVec g = g) := by
    constructor <;> intro h
    · conv_lhs => rw [← h]
      rw [Matrix.mulVec_mulVec, ht.transpose_mul, Matrix.one_mulVec]
    · conv_lhs => rw [← h]
      rw [Matrix.mulVec_mulVec, ht.1, Matrix.one_mulVec]
  rw [e]
  constructor
  · intro h
    funext i
    have := h i
    simp only [Dbl.fin.injEq, Pi.add_apply, Pi.sub_apply] at this
    linarith
  · intro h i
    rw [h]
    simp

/-- C38: a sensor not turned against the robot measures its acceleration. -/
theorem C38_aligned_partial (c : PrepCtx) (hd : c.twoD = false) (msg : ImuMsg) (target : String) (rel : Bool) (p : Payload)
    (t : Tf) (ht : t.rot = 1) (att : M3) (ha : IsRot att) (a : V3)
    (hl : lookupTransformSafe c.buf target (if msg.frame = "" then c.base else msg.frame) msg.stamp = some t)
    (hk : AttitudeKnown c t msg att rel) (hm : msg.acc = Body.specificForce att t a c.omega c.angAcc c.gravity) :
    ∃ q, prepareAcceleration c true msg target rel p = some q ∧ ∀ i : Fin 3, q.z (axis 12 (by omega) i) = .fin (a i) := by
  obtain ⟨q, h1, h2⟩ := C38_kinematic_partial c hd msg target rel p t (by rw [ht]; exact IsRot.one) att ha a hl hk hm
  exact ⟨q, h1, h2.mpr (by rw [ht, Matrix.one_mulVec])⟩

/-- C38: without gravity removal the measurement is the specific force on the robot, gravity included. -/
theorem C38_not_removed (c : PrepCtx) (hd : c.twoD = false) (msg : ImuMsg) (target : String) (rel : Bool) (p : Payload) (t : Tf)
    (ht : IsRot t.rot) (att : M3) (a : V3)
    (hl : lookupTransformSafe c.buf target (if msg.frame = "" then c.base else msg.frame) msg.stamp = some t)
    (hm : msg.acc = Body.specificForce att t a c.omega c.angAcc c.gravity) :
    ∃ q, prepareAcceleration c false msg target rel p = some q ∧
      ∀ i : Fin 3, q.z (axis 12 (by omega) i) = .fin ((a + attᵀ.mulVec ![0, 0, c.gravity]) i) := by
  obtain ⟨q, h1, h2⟩ := prepareAcceleration_val c hd false msg target rel p t hl
  refine ⟨q, h1, fun i => ?_⟩
  rw [h2 i, hm, Body.specificForce, Matrix.mulVec_mulVec, ht.1, Matrix.one_mulVec]
  congr 1
  have := congrFun (lever_cancels t.org c.omega c.angAcc) i
  simp only [Pi.add_apply, Pi.sub_apply, Pi.zero_apply, Bool.false_eq_true, if_false] at this ⊢
  linarith

/-- A robot at rest and level, with an IMU mounted upside down. -/
noncomputable def upsideDown : PrepCtx :=
  { demoCtx 0 with buf := fun _ s _ => if s = "imu" then some { rot := setRPY π 0 0, org := 0 } else none, gravity := 10 }

/-- What that IMU says: gravity along its downward axis; no orientation. -/
noncomputable def upsideDownMsg : ImuMsg where
  frame := "imu"
  stamp := 5
  ori := ⟨0, 0, 0, 1⟩
  oriCov := fun i => if i = 0 then -1 else 0
  vel := fun _ => .fin 0
  velCov := 0
  acc := ![0, 0, -10]
  accCov := 0

/-- C38 fails for an IMU mounted upside down: a robot standing still, under gravity 10, is taken to accelerate upwards
with 20. -/
theorem C38_upside_down :
    upsideDownMsg.acc = Body.specificForce 1 { rot := setRPY π 0 0, org := 0 } 0 upsideDown.omega upsideDown.angAcc upsideDown.gravity ∧
    ∃ q, prepareAcceleration upsideDown true upsideDownMsg "base_link" false (blank (fun _ => true) .unlimited) = some q ∧
      q.z iAz = .fin 20 := by
  have hm : upsideDownMsg.acc = Body.specificForce 1 { rot := setRPY π 0 0, org := 0 } 0 upsideDown.omega upsideDown.angAcc
      upsideDown.gravity := by
    funext i
    fin_cases i <;>
      simp [upsideDownMsg, upsideDown, Body.specificForce, Matrix.mulVec, dotProduct, Fin.sum_univ_three, setRPY, demoCtx]
  refine ⟨hm, ?_⟩
  obtain ⟨q, h1, h2⟩ := C38_residual upsideDown rfl upsideDownMsg "base_link" false (blank (fun _ => true) .unlimited)
    { rot := setRPY π 0 0, org := 0 } (isRot_setRPY _ _ _) 1 IsRot.one 0 rfl
    (.estimate _ (by simp [upsideDownMsg]; norm_num) (by
      ext i j
      fin_cases i <;> fin_cases j <;> simp [upsideDown, demoCtx, setRPY])) hm
  refine ⟨q, h1, ?_⟩
  have := h2 2
  have e : axis 12 (by omega) 2 = iAz := rfl
  rw [e] at this
  rw [this]
  simp [Matrix.mulVec, dotProduct, Fin.sum_univ_three, setRPY, upsideDown]
  norm_num

/-- A level robot at rest with an aligned IMU that reports its attitude. -/
example : ∃ (c : PrepCtx) (msg : ImuMsg) (t : Tf), c.twoD = false ∧ t.rot = 1 ∧ t.org ≠ 0 ∧
    lookupTransformSafe c.buf "base_link" (if msg.frame = "" then c.base else msg.frame) msg.stamp = some t ∧
    AttitudeKnown c t msg 1 false ∧ msg.acc = Body.specificForce 1 t ![1, 0, 0] c.omega c.angAcc c.gravity := by
  refine ⟨{ demoCtx 0 with buf := fun _ _ _ => some { rot := 1, org := ![1, 0, 0] } },
    { upsideDownMsg with oriCov := 0, acc := Body.specificForce 1 { rot := 1, org := ![1, 0, 0] } ![1, 0, 0] (demoCtx 0).omega (demoCtx 0).angAcc 9.81 },
    { rot := 1, org := ![1, 0, 0] }, rfl, rfl, fun h => by simpa using congrFun h 0, rfl, .absolute ?_ ?_, rfl⟩
  · simp; norm_num
  · have h : ¬ ((1e-2 : ℝ) < 0) := by norm_num
    ext i j
    fin_cases i <;> fin_cases j <;> simp [msgAtt, upsideDownMsg, Quat.mat, Quat.len2, h]

end RL
