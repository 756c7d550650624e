import Verif.Proofs.Prepare
import Verif.Spec.RigidBody
/-!
# C33: velocities measured by a sensor mounted anywhere on the robot
-/

namespace RL
open Matrix Real

/-- What a velocity sensor reads that is mounted on a rigid body at `m.org` with orientation `m.rot` (both in the body
frame) while the body's origin moves with `v` and the body turns with `w`. -/
def Body.sensed (mount : Tf) (v w : Body.Vec3) : Body.Vec3 × Body.Vec3 :=
  (mount.rotᵀ.mulVec (v + (Body.skew w).mulVec mount.org), mount.rotᵀ.mulVec w)

/-- The message in which a sensor reports such a reading. -/
def twistOf (frame : String) (stamp : Int) (r : Body.Vec3 × Body.Vec3) (cov : Fin 36 → ℝ) : TwistMsg :=
  { frame := frame, stamp := stamp, lin := fun i => .fin (r.1 i), ang := fun i => .fin (r.2 i), cov := cov }

theorem cross_skew (a w : V3) : cross a w = -(Body.skew w).mulVec a := by
  funext i
  fin_cases i <;> simp [cross, Body.skew, Matrix.mulVec, dotProduct, Fin.sum_univ_three] <;> ring

theorem skew_mulVec_add (a b o : V3) : (Body.skew (a + b)).mulVec o = (Body.skew a).mulVec o + (Body.skew b).mulVec o := by
  funext i
  fin_cases i <;> simp [Body.skew, Matrix.mulVec, dotProduct, Fin.sum_univ_three] <;> ring

/-- The values `prepareTwist` writes. -/
theorem prepareTwist_val (c : PrepCtx) (hd : c.twoD = false) (msg : TwistMsg) (target : String) (p : Payload) (t : Tf)
    (hl : lookupTransformSafe c.buf target (if msg.frame = "" then target else msg.frame) msg.stamp = some t) :
    ∃ q, prepareTwist c msg target p = some q ∧
      (∀ i : Fin 3, q.z (axis 6 (by omega) i) = (mulDbl t.rot msg.lin i).add (.fin (cross t.org c.omega i))) ∧
      (∀ i : Fin 3, q.z (axis 9 (by omega) i) = mulDbl t.rot msg.ang i) ∧
      q.R = putBlock 6 6 p.R (rot6d (quatOf t.rot).mat * copyCov6 msg.cov * (rot6d (quatOf t.rot).mat)ᵀ) ∧
      (∀ i : Fin 3, q.upd (axis 6 (by omega) i) = maskAxes t.rot (fun k => p.upd (axis 6 (by omega) k)) i) ∧
      (∀ i : Fin 3, q.upd (axis 9 (by omega) i) = maskAxes t.rot (fun k => p.upd (axis 9 (by omega) k)) i) ∧
      (∀ i : Fin 15, ¬ (6 ≤ i.val ∧ i.val < 12) → q.upd i = p.upd i ∧ q.z i = p.z i) ∧ q.thresh = p.thresh := by
  refine ⟨twistPayload c t msg p, by unfold prepareTwist; rw [hl]; rfl, ?_, ?_, ?_, ?_, ?_, ?_, ?_⟩
  · intro i
    fin_cases i <;> simp [twistPayload, finish, hd, put, axis]
  · intro i
    fin_cases i <;> simp [twistPayload, finish, hd, put, axis]
  · simp [twistPayload, finish, hd]
  · intro i
    fin_cases i <;> simp [twistPayload, finish, hd, put, axis]
  · intro i
    fin_cases i <;> simp [twistPayload, finish, hd, put, axis]
  · intro i hi
    have h9 : ¬ (9 ≤ i.val ∧ i.val < 9 + 3) := by omega
    have h6 : ¬ (6 ≤ i.val ∧ i.val < 6 + 3) := by omega
    constructor <;> rw [show twistPayload c t msg p = _ from if_neg (by rw [hd]; decide)] <;> simp only [put, h9, h6, dite_false]
  · simp [twistPayload, finish, hd]

/-- C33, with what is missing in view: when the robot moves with velocity `v` and turns with `w`, the measured velocity of
the robot is `v` and its rate `w` — up to the lever arm times the error of the *estimated* rate, which the code uses
instead of the measured one. -/
theorem C33_lever_error (c : PrepCtx) (hd : c.twoD = false) (frame : String) (hf : frame ≠ "") (stamp : Int)
    (target : String) (p : Payload) (t : Tf) (hl : lookupTransformSafe c.buf target frame stamp = some t)
    (hr : IsRot t.rot) (v w : V3) (cov : Fin 36 → ℝ) :
    ∃ q, prepareTwist c (twistOf frame stamp (Body.sensed t v w) cov) target p = some q ∧
      (∀ i : Fin 3, q.z (axis 6 (by omega) i) = .fin (v i + (Body.skew (w - c.omega)).mulVec t.org i)) ∧
      (∀ i : Fin 3, q.z (axis 9 (by omega) i) = .fin (w i)) := by
  obtain ⟨q, h1, h2, h3, -⟩ := prepareTwist_val c hd (twistOf frame stamp (Body.sensed t v w) cov) target p t
    (by simp only [twistOf, hf, if_false]; exact hl)
  refine ⟨q, h1, fun i => ?_, fun i => ?_⟩
  · rw [h2 i, cross_skew]
    simp only [twistOf, Body.sensed]
    rw [mulDbl_fin, Matrix.mulVec_mulVec, hr.1, Matrix.one_mulVec]
    simp only [Dbl.add, Pi.add_apply, Pi.neg_apply]
    congr 1
    have := congrFun (skew_mulVec_add (w - c.omega) c.omega t.org) i
    rw [sub_add_cancel, Pi.add_apply] at this
    linarith
  · rw [h3 i]
    simp only [twistOf, Body.sensed]
    rw [mulDbl_fin, Matrix.mulVec_mulVec, hr.1, Matrix.one_mulVec]

/-- C33: with the estimated rate equal to the true one, the measurement is the velocity of the robot. -/
theorem C33_rigid_body_partial (c : PrepCtx) (hd : c.twoD = false) (frame : String) (hf : frame ≠ "") (stamp : Int)
    (target : String) (p : Payload) (t : Tf) (hl : lookupTransformSafe c.buf target frame stamp = some t)
    (hr : IsRot t.rot) (v : V3) (cov : Fin 36 → ℝ) :
    ∃ q, prepareTwist c (twistOf frame stamp (Body.sensed t v c.omega) cov) target p = some q ∧
      (∀ i : Fin 3, q.z (axis 6 (by omega) i) = .fin (v i)) ∧
      (∀ i : Fin 3, q.z (axis 9 (by omega) i) = .fin (c.omega i)) := by
  obtain ⟨q, h1, h2, h3⟩ := C33_lever_error c hd frame hf stamp target p t hl hr v c.omega cov
  refine ⟨q, h1, fun i => ?_, h3⟩
  rw [h2 i, sub_self]
  simp [Body.skew, Matrix.mulVec, dotProduct, Fin.sum_univ_three]
  fin_cases i <;> simp

/-- C33: a sensor at the origin of the robot, not turned: the measurement is the message. -/
theorem C33_identity (c : PrepCtx) (hd : c.twoD = false) (msg : TwistMsg) (target : String) (p : Payload)
    (hl : lookupTransformSafe c.buf target (if msg.frame = "" then target else msg.frame) msg.stamp = some Tf.id)
    (hfl : ∀ i, (msg.lin i).isFin = true) (hfa : ∀ i, (msg.ang i).isFin = true) :
    ∃ q, prepareTwist c msg target p = some q ∧ (∀ i : Fin 3, q.z (axis 6 (by omega) i) = msg.lin i) ∧
      (∀ i : Fin 3, q.z (axis 9 (by omega) i) = msg.ang i) ∧ q.upd = p.upd := by
  obtain ⟨q, h1, h2, h3, h4, h5, h6, h7, h8⟩ := prepareTwist_val c hd msg target p Tf.id hl
  have e : ∀ d : Dbl, d.isFin = true → d = .fin d.val := by
    intro d hd; cases d <;> simp_all [Dbl.isFin]
  have el : msg.lin = fun i => .fin (msg.lin i).val := funext fun i => e _ (hfl i)
  have ea : msg.ang = fun i => .fin (msg.ang i).val := funext fun i => e _ (hfa i)
  have um : ∀ (u : Fin 3 → Bool) (i : Fin 3), maskAxes Tf.id.rot u i = u i := by
    intro u i
    have key := maskAxes_eq (1 : M3) u i
    change maskAxes (1 : M3) u i = u i
    have : (∑ j, if u j then (1 : M3) i j ^ 2 else 0) = if u i then 1 else 0 := by
      rw [Finset.sum_eq_single i]
      · simp
      · intro j _ hj
        simp [Matrix.one_apply_ne (Ne.symm hj)]
      · simp
    rw [this] at key
    cases hu : u i
    · rw [hu] at key
      simp only [Bool.false_eq_true, if_false, Real.sqrt_zero] at key
      rw [Bool.eq_false_iff]
      intro hm
      exact absurd (key.mp hm) (by norm_num)
    · rw [hu] at key
      simp only [if_true, Real.sqrt_one] at key
      exact key.mpr (by norm_num)
  refine ⟨q, h1, fun i => ?_, fun i => ?_, ?_⟩
  · rw [h2 i, el, mulDbl_fin]
    simp [Tf.id, Dbl.add, cross]
    fin_cases i <;> simp
  · rw [h3 i, ea, mulDbl_fin]
    simp [Tf.id]
  · funext i
    by_cases hi : 6 ≤ i.val ∧ i.val < 12
    · by_cases h9 : i.val < 9
      · have := h5 ⟨i.val - 6, by omega⟩
        rw [um] at this
        have ei : axis 6 (by omega) ⟨i.val - 6, by omega⟩ = i := Fin.ext (by simp [axis]; omega)
        rw [ei] at this
        exact this
      · have := h6 ⟨i.val - 9, by omega⟩
        rw [um] at this
        have ei : axis 9 (by omega) ⟨i.val - 9, by omega⟩ = i := Fin.ext (by simp [axis]; omega)
        rw [ei] at this
        exact this
    · exact (h7 i hi).1

/-- A node with one sensor, mounted one metre ahead of the base and turned by a quarter turn. -/
noncomputable def demoCtx (w : ℝ) : PrepCtx where
  buf := fun _ s _ => if s = "imu" then some { rot := setRPY 0 0 (π / 2), org := ![1, 0, 0] } else none
  world := "odom"
  base := "base_link"
  twoD := false
  state := fun i => if i = 11 then w else 0
  angAcc := 0
  gravity := 9.81

example (w : ℝ) : (demoCtx w).twoD = false ∧ ("imu" : String) ≠ "" ∧
    ∃ t, lookupTransformSafe (demoCtx w).buf "base_link" "imu" 5 = some t ∧ IsRot t.rot ∧ t.org ≠ 0 :=
  ⟨rfl, by decide, _, rfl, isRot_setRPY _ _ _, fun h => by simpa using congrFun h 0⟩

example : ∃ (c : PrepCtx) (msg : TwistMsg), c.twoD = false ∧
    lookupTransformSafe c.buf "base_link" (if msg.frame = "" then "base_link" else msg.frame) msg.stamp = some Tf.id ∧
    (∀ i, (msg.lin i).isFin = true) ∧ ∀ i, (msg.ang i).isFin = true :=
  ⟨demoCtx 0, twistOf "base_link" 5 (fun _ => 1, fun _ => 2) 0, rfl, rfl, fun _ => rfl, fun _ => rfl⟩

/-- C33 fails in general: the rate in the message itself does not matter for the velocity.  Here the robot stands on the
spot turning at 1 rad/s while the estimate still says it does not turn; the sensor reports its velocity and that rate, and
the robot is taken to move sideways at 1 m/s. -/
theorem C33_measured_rate_ignored :
    ∃ q, prepareTwist (demoCtx 0) (twistOf "imu" 5
        (Body.sensed { rot := setRPY 0 0 (π / 2), org := ![1, 0, 0] } 0 ![0, 0, 1]) 0) "base_link"
        { upd := fun _ => true, z := fun _ => .fin 0, R := 0, thresh := .unlimited } = some q ∧
      q.z iVy = .fin 1 ∧ q.z iVyaw = .fin 1 := by
  obtain ⟨q, h1, h2, h3⟩ := C33_lever_error (demoCtx 0) rfl "imu" (by decide) 5 "base_link"
    { upd := fun _ => true, z := fun _ => .fin 0, R := 0, thresh := .unlimited }
    { rot := setRPY 0 0 (π / 2), org := ![1, 0, 0] } rfl (isRot_setRPY _ _ _) 0 ![0, 0, 1] 0
  refine ⟨q, h1, ?_, ?_⟩
  · have := h2 1
    simpa [axis, demoCtx, PrepCtx.omega, Body.skew, Matrix.mulVec, dotProduct, Fin.sum_univ_three] using this
  · have := h3 2
    simpa [axis] using this

end RL
