import Verif.Props.PrepareCov
/-!
# C34: uncertainties are turned together with what they belong to
-/

namespace RL
open Matrix Real

/-- The covariance, as a message stores it, between group `g` (linear or angular) and group `h`. -/
def covBlock (a : Fin 36 → ℝ) (g h : Fin 2) : M3 := .of fun i j => a ⟨6 * (3 * g.val + i.val) + (3 * h.val + j.val), by omega⟩

def six (g : Fin 2) (i : Fin 3) : Fin 6 := ⟨3 * g.val + i.val, by omega⟩

/-- Turning both groups by the same rotation. -/
theorem rot6d_blocks (r : M3) (c : M6) (g h : Fin 2) (i j : Fin 3) :
    (rot6d r * c * (rot6d r)ᵀ) (six g i) (six h j) = (r * (.of fun a b => c (six g a) (six h b)) * rᵀ) i j := by
  have key : ∀ (g : Fin 2) (i : Fin 3) (f : Fin 6 → ℝ), ∑ a, rot6d r (six g i) a * f a = ∑ a, r i a * f (six g a) := by
    intro g i f
    rw [Fin.sum_univ_six, Fin.sum_univ_three]
    fin_cases g <;> fin_cases i <;> simp [rot6d, six] <;> rfl
  rw [Matrix.mul_apply, Matrix.mul_apply]
  have e1 : ∀ b, (rot6d r * c) (six g i) b = ∑ a, r i a * c (six g a) b := fun b => by
    rw [Matrix.mul_apply, key g i (fun a => c a b)]
  simp only [transpose_apply, e1]
  have e2 : ∑ b, (∑ a, r i a * c (six g a) b) * rot6d r (six h j) b =
      ∑ b, r j b * (∑ a, r i a * c (six g a) (six h b)) := by
    rw [← key h j (fun b => ∑ a, r i a * c (six g a) b)]
    exact Finset.sum_congr rfl fun b _ => mul_comm _ _
  rw [e2]
  refine Finset.sum_congr rfl fun b _ => ?_
  rw [mul_comm, Matrix.mul_apply]
  rfl

theorem covBlock_eq (a : Fin 36 → ℝ) (g h : Fin 2) : (.of fun i j => copyCov6 a (six g i) (six h j)) = covBlock a g h := by
  ext i j
  rfl

/-- The place of axis `i` of group `g` in a state whose groups start at `off`. -/
def placeBlock (off : ℕ) (ho : off + 5 < 15) (g : Fin 2) (i : Fin 3) : Fin 15 := ⟨off + (3 * g.val + i.val), by omega⟩

theorem putBlock_inside (off : ℕ) (ho : off + 5 < 15) (R : Mat15) (c : M6) (g h : Fin 2) (i j : Fin 3) :
    putBlock 6 off R c (placeBlock off ho g i) (placeBlock off ho h j) = c (six g i) (six h j) := by
  unfold putBlock placeBlock
  rw [of_apply, dif_pos (by dsimp only; omega)]
  congr 1 <;> (apply Fin.ext; simp [six])

theorem putBlock_outside (n off : ℕ) (c : Matrix (Fin n) (Fin n) ℝ) (i j : Fin 15)
    (h : ¬ (off ≤ i.val ∧ i.val < off + n) ∨ ¬ (off ≤ j.val ∧ j.val < off + n)) : putBlock n off 0 c i j = 0 := by
  unfold putBlock
  rw [of_apply, dif_neg (by tauto)]
  rfl

/-- C34 for velocities: linear and angular part and their correlation are each turned by the mounting, and nothing else is
filled in. -/
theorem C34_twist_turned (c : PrepCtx) (hd : c.twoD = false) (msg : TwistMsg) (target : String) (u : Fin 15 → Bool)
    (thr : Thresh) (t : Tf) (ht : IsRot t.rot)
    (hl : lookupTransformSafe c.buf target (if msg.frame = "" then target else msg.frame) msg.stamp = some t) :
    ∃ q, prepareTwist c msg target (blank u thr) = some q ∧
      (∀ g h i j, q.R (placeBlock 6 (by omega) g i) (placeBlock 6 (by omega) h j) = (t.rot * covBlock msg.cov g h * t.rotᵀ) i j) ∧
      ∀ i j : Fin 15, ¬ (6 ≤ i.val ∧ i.val < 12) ∨ ¬ (6 ≤ j.val ∧ j.val < 12) → q.R i j = 0 := by
  obtain ⟨q, h1, -, -, h4, -⟩ := prepareTwist_val c hd msg target (blank u thr) t hl
  rw [(C43_matrix_to_quaternion ht).2] at h4
  refine ⟨q, h1, fun g h i j => ?_, fun i j h => ?_⟩
  · rw [h4, putBlock_inside, rot6d_blocks, covBlock_eq]
  · rw [h4]
    exact putBlock_outside 6 6 _ i j h

/-- C34 for accelerations. -/
theorem C34_acceleration_turned (c : PrepCtx) (hd : c.twoD = false) (rg : Bool) (msg : ImuMsg) (target : String) (rel : Bool)
    (u : Fin 15 → Bool) (thr : Thresh) (t : Tf) (ht : IsRot t.rot)
    (hl : lookupTransformSafe c.buf target (if msg.frame = "" then c.base else msg.frame) msg.stamp = some t) :
    ∃ q, prepareAcceleration c rg msg target rel (blank u thr) = some q ∧
      (∀ i j, q.R (axis 12 (by omega) i) (axis 12 (by omega) j) =
        (t.rot * (.of fun a b : Fin 3 => msg.accCov ⟨3 * a.val + b.val, by omega⟩) * t.rotᵀ) i j) ∧
      ∀ i j : Fin 15, ¬ 12 ≤ i.val ∨ ¬ 12 ≤ j.val → q.R i j = 0 := by
  have e : (accelPayload c t rg msg rel (blank u thr)).R = putBlock 3 12 0 (t.rot * copyCov3 msg.accCov * t.rotᵀ) := by
    simp [accelPayload, finish, hd, blank, (C43_matrix_to_quaternion ht).2]
  refine ⟨accelPayload c t rg msg rel (blank u thr), by unfold prepareAcceleration; rw [hl]; rfl, fun i j => ?_, fun i j h => ?_⟩
  · rw [e]
    unfold putBlock
    rw [of_apply, dif_pos (by unfold axis; dsimp only; omega)]
    have : ∀ i : Fin 3, (⟨(axis 12 (by omega) i).val - 12, by unfold axis; dsimp only; omega⟩ : Fin 3) = i := by
      intro i; apply Fin.ext; unfold axis; dsimp only; omega
    rw [this i, this j]
    rfl
  · rw [e]
    exact putBlock_outside 3 12 _ i j (by omega)

/-- The turn from the frame a pose is of to the base. -/
def turnToBase : Option Tf → M3
  | some s => s.rotᵀ
  | none => 1

/-- C34 for poses: position and orientation part and their correlation are each turned by the transform to the target
frame (for an IMU by its yaw), after having been turned from the frame the pose is of to the base. -/
theorem C34_pose_turned (c : PrepCtx) (hd : c.twoD = false) (mem : PoseMem) (last : Int) (msg : PoseMsg)
    (topic target source : String) (relative imu : Bool) (u : Fin 15 → Bool) (thr : Thresh) (t : Tf) (ht : IsRot t.rot)
    (hl : lookupTransformSafe c.buf (poseFrames c msg.frame target false imu).1 (poseFrames c msg.frame target false imu).2
      (poseLookupTime msg.stamp) = some t)
    (hs : ∀ s, sourceTf c source (poseLookupTime msg.stamp) = some s → IsRot s.rot) :
    let A := (if imu then setRPY 0 0 (getRPY t.rot 2) else t.rot) *
      turnToBase (sourceTf c source (poseLookupTime msg.stamp))
    ∃ mem' q, preparePose c mem last msg topic target source false relative imu (blank u thr) = (mem', some q) ∧
      (∀ g h i j, q.R (placeBlock 0 (by omega) g i) (placeBlock 0 (by omega) h j) = (A * covBlock msg.cov g h * Aᵀ) i j) ∧
      ∀ i j : Fin 15, ¬ i.val < 6 ∨ ¬ j.val < 6 → q.R i j = 0 := by
  intro A
  set src := sourceTf c source (poseLookupTime msg.stamp) with hsrc
  set r : M3 := if imu then setRPY 0 0 (getRPY t.rot 2) else t.rot with hr
  have hr' : (if imu then setRPY 0 0 (getRPY t.rot 2) else (quatOf t.rot).mat) = r := by
    rw [hr, (C43_matrix_to_quaternion ht).2]
  have hpre : ∃ mem' q, preparePose c mem last msg topic target source false relative imu (blank u thr) = (mem', some q) ∧
      q.R = putBlock 6 0 0 (rot6d r * poseCov src msg * (rot6d r)ᵀ) := by
    unfold preparePose
    simp only
    rw [hl]
    simp only [poseWith, Bool.false_eq_true, if_false]
    refine ⟨_, _, rfl, ?_⟩
    rw [hr']
    simp [finish, hd, blank, ← hsrc]
  obtain ⟨mem', q, h1, h2⟩ := hpre
  refine ⟨mem', q, h1, fun g h i j => ?_, fun i j h => ?_⟩
  · rw [h2, putBlock_inside, rot6d_blocks]
    cases hsc : src with
    | none =>
      have hA : A = r := by
        show r * turnToBase src = r
        rw [hsc]; exact Matrix.mul_one r
      rw [hA]
      have : poseCov none msg = copyCov6 msg.cov := rfl
      rw [this, covBlock_eq]
    | some s =>
      have hrot := hs s hsc
      have hA : A = r * s.rotᵀ := by
        show r * turnToBase src = r * s.rotᵀ
        rw [hsc]; rfl
      have hc : poseCov (some s) msg = rot6d s.rotᵀ * copyCov6 msg.cov * (rot6d s.rotᵀ)ᵀ := by
        simp only [poseCov, (C43_matrix_to_quaternion hrot).2]
        rw [rot6d_transpose, rot6d_transpose, transpose_transpose]
      have hb : (.of fun a b => poseCov (some s) msg (six g a) (six h b)) = s.rotᵀ * covBlock msg.cov g h * s.rotᵀᵀ := by
        ext a b
        rw [of_apply, hc, rot6d_blocks, covBlock_eq]
      rw [hb, hA, transpose_mul]
      congr 2
      simp only [Matrix.mul_assoc]
  · rw [h2]
    exact putBlock_outside 6 0 _ i j (by omega)

/-- A sensor that is turned by a quarter of a circle: its forward variance becomes the robot's sideways variance. -/
example : ∃ (c : PrepCtx) (t : Tf), c.twoD = false ∧ IsRot t.rot ∧ t.rot 1 0 = 1 ∧
    lookupTransformSafe c.buf "base_link" "imu" 5 = some t :=
  ⟨{ demoCtx 0 with buf := fun _ _ _ => some { rot := setRPY 0 0 (π / 2), org := 0 } }, _, rfl, isRot_setRPY _ _ _,
    by simp [setRPY], rfl⟩

end RL
