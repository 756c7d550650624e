import Verif.Proofs.Motion
import Verif.Spec.RigidBody
import Mathlib.LinearAlgebra.Matrix.Determinant.Basic
import Mathlib.Data.Matrix.Mul
import Mathlib.Analysis.Real.Pi.Bounds
/-!
# C02, C03: the prediction is rigid body motion, and its covariance is propagated by the true derivative
-/

namespace RL
open Matrix Real Body

theorem rot_eq (e : Vec3) : rot e =
    !![cos (e 2) * cos (e 1), cos (e 2) * sin (e 1) * sin (e 0) - sin (e 2) * cos (e 0),
        cos (e 2) * sin (e 1) * cos (e 0) + sin (e 2) * sin (e 0);
      sin (e 2) * cos (e 1), sin (e 2) * sin (e 1) * sin (e 0) + cos (e 2) * cos (e 0),
        sin (e 2) * sin (e 1) * cos (e 0) - cos (e 2) * sin (e 0);
      -sin (e 1), cos (e 1) * sin (e 0), cos (e 1) * cos (e 0)] := by
  ext i j
  fin_cases i <;> fin_cases j <;> simp [rot, rotX, rotY, rotZ, Matrix.mul_apply, Fin.sum_univ_three] <;> ring

theorem mv3 (M : Mat3) (v : Vec3) (i : Fin 3) : M.mulVec v i = M i 0 * v 0 + M i 1 * v 1 + M i 2 * v 2 := by
  simp [Matrix.mulVec, dotProduct, Fin.sum_univ_three]

/-- C03: the state a prediction computes (before wrapping the angles, without control) is the rigid body motion of the
state. -/
theorem C03_rigid_body (x : State) (dt : ℝ) : (transferF x dt).mulVec x = (move (kin x) dt).vec := by
  funext i
  fin_cases i
  · refine (transferF_mulVec0 x dt x).trans ?_
    show _ = x 0 + (rot (kin x).eul).mulVec _ 0
    rw [mv3, rot_eq]
    simp [kin, trig]
    ring
  · refine (transferF_mulVec1 x dt x).trans ?_
    show _ = x 1 + (rot (kin x).eul).mulVec _ 1
    rw [mv3, rot_eq]
    simp [kin, trig]
    ring
  · refine (transferF_mulVec2 x dt x).trans ?_
    show _ = x 2 + (rot (kin x).eul).mulVec _ 2
    rw [mv3, rot_eq]
    simp [kin, trig]
    ring
  · refine (transferF_mulVec3 x dt x).trans ?_
    simp [move, kin, Kin.vec, trig, eulerRates, tan_eq_sin_div_cos]; ring
  · refine (transferF_mulVec4 x dt x).trans ?_
    simp [move, kin, Kin.vec, trig, eulerRates]; ring
  · refine (transferF_mulVec5 x dt x).trans ?_
    simp [move, kin, Kin.vec, trig, eulerRates]; ring
  · refine (transferF_mulVec6 x dt x).trans ?_
    simp [move, kin, Kin.vec]
  · refine (transferF_mulVec7 x dt x).trans ?_
    simp [move, kin, Kin.vec]
  · refine (transferF_mulVec8 x dt x).trans ?_
    simp [move, kin, Kin.vec]
  · exact (transferF_mulVec9 x dt x)
  · exact (transferF_mulVec10 x dt x)
  · exact (transferF_mulVec11 x dt x)
  · exact (transferF_mulVec12 x dt x)
  · exact (transferF_mulVec13 x dt x)
  · exact (transferF_mulVec14 x dt x)

/-- C03: the matrix the velocities go through is a rotation. -/
theorem C03_rotation (e : Vec3) : rot e * (rot e)ᵀ = 1 ∧ (rot e).det = 1 := by
  constructor
  · have h : ∀ a, rotX a * (rotX a)ᵀ = 1 ∧ rotY a * (rotY a)ᵀ = 1 ∧ rotZ a * (rotZ a)ᵀ = 1 := by
      intro a
      have := sin_sq_add_cos_sq a
      refine ⟨?_, ?_, ?_⟩ <;> ext i j <;> fin_cases i <;> fin_cases j <;>
        simp [rotX, rotY, rotZ, Matrix.mul_apply, Fin.sum_univ_three] <;> nlinarith
    have e1 : rot e * (rot e)ᵀ =
        rotZ (e 2) * (rotY (e 1) * (rotX (e 0) * (rotX (e 0))ᵀ) * (rotY (e 1))ᵀ) * (rotZ (e 2))ᵀ := by
      rw [rot, transpose_mul, transpose_mul]
      simp only [Matrix.mul_assoc]
    rw [e1, (h _).1, Matrix.mul_one, (h _).2.1, Matrix.mul_one, (h _).2.2]
  · have h : ∀ a, (rotX a).det = 1 ∧ (rotY a).det = 1 ∧ (rotZ a).det = 1 := by
      intro a
      have := sin_sq_add_cos_sq a
      refine ⟨?_, ?_, ?_⟩ <;> simp [rotX, rotY, rotZ, Matrix.det_fin_three] <;> nlinarith
    rw [rot, det_mul, det_mul, (h _).1, (h _).2.1, (h _).2.2]
    norm_num

/-- C03: the Euler angle rates are those at which the orientation turns with the body rates: along any curve of angles
with these rates, the rotation matrix changes by `R ω×`. -/
theorem C03_angle_rates (e w : Vec3) (hp : cos (e 1) ≠ 0) (θ : ℝ → Vec3) (h0 : θ 0 = e)
    (hd : ∀ k, HasDerivAt (fun t => θ t k) (eulerRates e w k) 0) (i j : Fin 3) :
    HasDerivAt (fun t => rot (θ t) i j) ((rot e * skew w) i j) 0 := by
  have d0 := hd 0
  have d1 := hd 1
  have d2 := hd 2
  have s0 := d0.sin; have c0 := d0.cos
  have s1 := d1.sin; have c1 := d1.cos
  have s2 := d2.sin; have c2 := d2.cos
  have q0 := sin_sq_add_cos_sq (e 0)
  have q1 := sin_sq_add_cos_sq (e 1)
  have hm : ∀ k l : Fin 3, (rot e * skew w) k l = rot e k 0 * skew w 0 l + rot e k 1 * skew w 1 l + rot e k 2 * skew w 2 l := by
    intro k l
    simp [Matrix.mul_apply, Fin.sum_univ_three]
  rw [hm]
  simp only [h0] at s0 c0 s1 c1 s2 c2
  fin_cases i <;> fin_cases j <;> simp only [rot_eq]
  · refine ((c2.mul c1).congr_deriv ?_)
    simp [skew, eulerRates, h0, tan_eq_sin_div_cos]
    field_simp
    ring
  · refine (((c2.mul s1).mul s0).sub (s2.mul c0)).congr_deriv ?_
    simp [skew, eulerRates, h0, tan_eq_sin_div_cos]
    field_simp
    linear_combination (sin (e 0) * cos (e 0) * w 1 * cos (e 2) + w 2 * cos (e 2) * cos (e 0) ^ 2) * q1 -
      cos (e 1) ^ 2 * w 2 * cos (e 2) * q0
  · refine (((c2.mul s1).mul c0).add (s2.mul s0)).congr_deriv ?_
    simp [skew, eulerRates, h0, tan_eq_sin_div_cos]
    field_simp
    linear_combination -(cos (e 0) * sin (e 0) * w 2 * cos (e 2) + w 1 * cos (e 2) * sin (e 0) ^ 2) * q1 +
      w 1 * cos (e 2) * cos (e 1) ^ 2 * q0
  · refine ((s2.mul c1).congr_deriv ?_)
    simp [skew, eulerRates, h0, tan_eq_sin_div_cos]
    field_simp
    ring
  · refine (((s2.mul s1).mul s0).add (c2.mul c0)).congr_deriv ?_
    simp [skew, eulerRates, h0, tan_eq_sin_div_cos]
    field_simp
    linear_combination (sin (e 0) * cos (e 0) * w 1 * sin (e 2) + w 2 * sin (e 2) * cos (e 0) ^ 2) * q1 -
      cos (e 1) ^ 2 * w 2 * sin (e 2) * q0
  · refine (((s2.mul s1).mul c0).sub (c2.mul s0)).congr_deriv ?_
    simp [skew, eulerRates, h0, tan_eq_sin_div_cos]
    field_simp
    linear_combination -(cos (e 0) * sin (e 0) * w 2 * sin (e 2) + w 1 * sin (e 2) * sin (e 0) ^ 2) * q1 +
      w 1 * sin (e 2) * cos (e 1) ^ 2 * q0
  · refine (s1.neg.congr_deriv ?_)
    simp [skew, eulerRates, h0, tan_eq_sin_div_cos]
    field_simp
    ring
  · refine ((c1.mul s0).congr_deriv ?_)
    simp [skew, eulerRates, h0, tan_eq_sin_div_cos]
    field_simp
    linear_combination sin (e 1) * w 2 * q0
  · refine ((c1.mul c0).congr_deriv ?_)
    simp [skew, eulerRates, h0, tan_eq_sin_div_cos]
    field_simp
    linear_combination -(sin (e 1) * w 1) * q0


/-- A matrix as a continuous linear map. -/
noncomputable def asMap (M : Mat15) : State →L[ℝ] State := LinearMap.toContinuousLinearMap (Matrix.mulVecLin M)

theorem asMap_apply (M : Mat15) (v : State) : asMap M v = M.mulVec v := rfl

/-- Coordinate. -/
noncomputable abbrev pr (i : Fin 15) : State →L[ℝ] ℝ := ContinuousLinearMap.proj (R := ℝ) (φ := fun _ : Fin 15 => ℝ) i

theorem hasDerivAt_sec {a : ℝ} (h : cos a ≠ 0) : HasDerivAt (fun a => 1 / cos a) (sin a * (1 / cos a) * (1 / cos a)) a := by
  have := (hasDerivAt_const a (1 : ℝ)).div (hasDerivAt_cos a) h
  refine this.congr_deriv ?_
  field_simp
  ring

theorem hasDerivAt_tan' {a : ℝ} (h : cos a ≠ 0) :
    HasDerivAt (fun a => sin a * (1 / cos a)) ((1 / cos a) * (1 / cos a)) a := by
  have := (hasDerivAt_sin a).mul (hasDerivAt_sec h)
  refine this.congr_deriv ?_
  have q := sin_sq_add_cos_sq a
  field_simp
  linear_combination q

theorem jacobian_row0 (x : State) (dt : ℝ) (hp : cos (x 4) ≠ 0) :
    HasFDerivAt (fun y => (transferF y dt).mulVec y 0) ((pr 0).comp (asMap (transferJ x dt))) x := by
  have c : ∀ i, HasFDerivAt (fun y : State => y i) (pr i) x := fun i => hasFDerivAt_apply i x
  have s3 := (c 3).sin; have c3 := (c 3).cos
  have s4 := (c 4).sin; have c4 := (c 4).cos
  have s5 := (c 5).sin; have c5 := (c 5).cos
  have sec := (hasDerivAt_sec hp).comp_hasFDerivAt x (c 4)
  have tn := (hasDerivAt_tan' hp).comp_hasFDerivAt x (c 4)
  have d : ∀ i k : Fin 15, HasFDerivAt (fun y : State => dt * y i + dt ^ 2 / 2 * y k)
      (dt • pr i + (dt ^ 2 / 2) • pr k) x := fun i k =>
    ((c i).const_mul dt).add ((c k).const_mul _)
  refine HasFDerivAt.congr_fderiv (((((c 0).add ((c5.mul c4).mul (d 6 12))).add
      ((((c5.mul s4).mul s3).sub (s5.mul c3)).mul (d 7 13))).add
      ((((c5.mul s4).mul c3).add (s5.mul s3)).mul (d 8 14))).congr_of_eventuallyEq
      (.of_forall fun y => ?_)) ?_
  · refine (transferF_mulVec0 y dt y).trans ?_
    simp [trig]; ring
  · ext v
    refine Eq.trans ?_ (transferJ_mulVec0 x dt v).symm
    simp [trig]; ring

theorem jacobian_row1 (x : State) (dt : ℝ) (hp : cos (x 4) ≠ 0) :
    HasFDerivAt (fun y => (transferF y dt).mulVec y 1) ((pr 1).comp (asMap (transferJ x dt))) x := by
  have c : ∀ i, HasFDerivAt (fun y : State => y i) (pr i) x := fun i => hasFDerivAt_apply i x
  have s3 := (c 3).sin; have c3 := (c 3).cos
  have s4 := (c 4).sin; have c4 := (c 4).cos
  have s5 := (c 5).sin; have c5 := (c 5).cos
  have sec := (hasDerivAt_sec hp).comp_hasFDerivAt x (c 4)
  have tn := (hasDerivAt_tan' hp).comp_hasFDerivAt x (c 4)
  have d : ∀ i k : Fin 15, HasFDerivAt (fun y : State => dt * y i + dt ^ 2 / 2 * y k)
      (dt • pr i + (dt ^ 2 / 2) • pr k) x := fun i k =>
    ((c i).const_mul dt).add ((c k).const_mul _)
  refine HasFDerivAt.congr_fderiv (((((c 1).add ((s5.mul c4).mul (d 6 12))).add
      ((((s5.mul s4).mul s3).add (c5.mul c3)).mul (d 7 13))).add
      ((((s5.mul s4).mul c3).sub (c5.mul s3)).mul (d 8 14))).congr_of_eventuallyEq
      (.of_forall fun y => ?_)) ?_
  · refine (transferF_mulVec1 y dt y).trans ?_
    simp [trig]; ring
  · ext v
    refine Eq.trans ?_ (transferJ_mulVec1 x dt v).symm
    simp [trig]; ring

theorem jacobian_row2 (x : State) (dt : ℝ) (hp : cos (x 4) ≠ 0) :
    HasFDerivAt (fun y => (transferF y dt).mulVec y 2) ((pr 2).comp (asMap (transferJ x dt))) x := by
  have c : ∀ i, HasFDerivAt (fun y : State => y i) (pr i) x := fun i => hasFDerivAt_apply i x
  have s3 := (c 3).sin; have c3 := (c 3).cos
  have s4 := (c 4).sin; have c4 := (c 4).cos
  have s5 := (c 5).sin; have c5 := (c 5).cos
  have sec := (hasDerivAt_sec hp).comp_hasFDerivAt x (c 4)
  have tn := (hasDerivAt_tan' hp).comp_hasFDerivAt x (c 4)
  have d : ∀ i k : Fin 15, HasFDerivAt (fun y : State => dt * y i + dt ^ 2 / 2 * y k)
      (dt • pr i + (dt ^ 2 / 2) • pr k) x := fun i k =>
    ((c i).const_mul dt).add ((c k).const_mul _)
  refine HasFDerivAt.congr_fderiv (((((c 2).add (s4.neg.mul (d 6 12))).add
      ((c4.mul s3).mul (d 7 13))).add ((c4.mul c3).mul (d 8 14))).congr_of_eventuallyEq
      (.of_forall fun y => ?_)) ?_
  · refine (transferF_mulVec2 y dt y).trans ?_
    simp [trig]; ring
  · ext v
    refine Eq.trans ?_ (transferJ_mulVec2 x dt v).symm
    simp [trig]; ring

theorem jacobian_row3 (x : State) (dt : ℝ) (hp : cos (x 4) ≠ 0) :
    HasFDerivAt (fun y => (transferF y dt).mulVec y 3) ((pr 3).comp (asMap (transferJ x dt))) x := by
  have c : ∀ i, HasFDerivAt (fun y : State => y i) (pr i) x := fun i => hasFDerivAt_apply i x
  have s3 := (c 3).sin; have c3 := (c 3).cos
  have s4 := (c 4).sin; have c4 := (c 4).cos
  have s5 := (c 5).sin; have c5 := (c 5).cos
  have sec := (hasDerivAt_sec hp).comp_hasFDerivAt x (c 4)
  have tn := (hasDerivAt_tan' hp).comp_hasFDerivAt x (c 4)
  have d : ∀ i k : Fin 15, HasFDerivAt (fun y : State => dt * y i + dt ^ 2 / 2 * y k)
      (dt • pr i + (dt ^ 2 / 2) • pr k) x := fun i k =>
    ((c i).const_mul dt).add ((c k).const_mul _)
  refine HasFDerivAt.congr_fderiv (((c 3).add
      ((((c 9).add ((s3.mul tn).mul (c 10))).add ((c3.mul tn).mul (c 11))).mul_const dt)).congr_of_eventuallyEq
      (.of_forall fun y => ?_)) ?_
  · refine (transferF_mulVec3 y dt y).trans ?_
    simp [trig]; ring
  · ext v
    refine Eq.trans ?_ (transferJ_mulVec3 x dt v).symm
    rw [show (1.0 : ℝ) = 1 by norm_num]
    simp [trig]; ring

theorem jacobian_row4 (x : State) (dt : ℝ) (hp : cos (x 4) ≠ 0) :
    HasFDerivAt (fun y => (transferF y dt).mulVec y 4) ((pr 4).comp (asMap (transferJ x dt))) x := by
  have c : ∀ i, HasFDerivAt (fun y : State => y i) (pr i) x := fun i => hasFDerivAt_apply i x
  have s3 := (c 3).sin; have c3 := (c 3).cos
  have s4 := (c 4).sin; have c4 := (c 4).cos
  have s5 := (c 5).sin; have c5 := (c 5).cos
  have sec := (hasDerivAt_sec hp).comp_hasFDerivAt x (c 4)
  have tn := (hasDerivAt_tan' hp).comp_hasFDerivAt x (c 4)
  have d : ∀ i k : Fin 15, HasFDerivAt (fun y : State => dt * y i + dt ^ 2 / 2 * y k)
      (dt • pr i + (dt ^ 2 / 2) • pr k) x := fun i k =>
    ((c i).const_mul dt).add ((c k).const_mul _)
  refine HasFDerivAt.congr_fderiv (((c 4).add
      (((c3.mul (c 10)).sub (s3.mul (c 11))).mul_const dt)).congr_of_eventuallyEq
      (.of_forall fun y => ?_)) ?_
  · refine (transferF_mulVec4 y dt y).trans ?_
    simp [trig]; ring
  · ext v
    refine Eq.trans ?_ (transferJ_mulVec4 x dt v).symm
    simp [trig]; ring

theorem jacobian_row5 (x : State) (dt : ℝ) (hp : cos (x 4) ≠ 0) :
    HasFDerivAt (fun y => (transferF y dt).mulVec y 5) ((pr 5).comp (asMap (transferJ x dt))) x := by
  have c : ∀ i, HasFDerivAt (fun y : State => y i) (pr i) x := fun i => hasFDerivAt_apply i x
  have s3 := (c 3).sin; have c3 := (c 3).cos
  have s4 := (c 4).sin; have c4 := (c 4).cos
  have s5 := (c 5).sin; have c5 := (c 5).cos
  have sec := (hasDerivAt_sec hp).comp_hasFDerivAt x (c 4)
  have tn := (hasDerivAt_tan' hp).comp_hasFDerivAt x (c 4)
  have d : ∀ i k : Fin 15, HasFDerivAt (fun y : State => dt * y i + dt ^ 2 / 2 * y k)
      (dt • pr i + (dt ^ 2 / 2) • pr k) x := fun i k =>
    ((c i).const_mul dt).add ((c k).const_mul _)
  refine HasFDerivAt.congr_fderiv (((c 5).add
      ((((s3.mul sec).mul (c 10)).add ((c3.mul sec).mul (c 11))).mul_const dt)).congr_of_eventuallyEq
      (.of_forall fun y => ?_)) ?_
  · refine (transferF_mulVec5 y dt y).trans ?_
    simp [trig]; ring
  · ext v
    refine Eq.trans ?_ (transferJ_mulVec5 x dt v).symm
    simp [trig]; ring

theorem jacobian_row6 (x : State) (dt : ℝ) :
    HasFDerivAt (fun y => (transferF y dt).mulVec y 6) ((pr 6).comp (asMap (transferJ x dt))) x := by
  have c : ∀ i, HasFDerivAt (fun y : State => y i) (pr i) x := fun i => hasFDerivAt_apply i x
  refine HasFDerivAt.congr_fderiv (((c 6).add ((c 12).mul_const dt)).congr_of_eventuallyEq
      (.of_forall fun y => ?_)) ?_
  · refine (transferF_mulVec6 y dt y).trans ?_
    simp; ring
  · ext v
    refine Eq.trans ?_ (transferJ_mulVec6 x dt v).symm
    simp

theorem jacobian_row7 (x : State) (dt : ℝ) :
    HasFDerivAt (fun y => (transferF y dt).mulVec y 7) ((pr 7).comp (asMap (transferJ x dt))) x := by
  have c : ∀ i, HasFDerivAt (fun y : State => y i) (pr i) x := fun i => hasFDerivAt_apply i x
  refine HasFDerivAt.congr_fderiv (((c 7).add ((c 13).mul_const dt)).congr_of_eventuallyEq
      (.of_forall fun y => ?_)) ?_
  · refine (transferF_mulVec7 y dt y).trans ?_
    simp; ring
  · ext v
    refine Eq.trans ?_ (transferJ_mulVec7 x dt v).symm
    simp

theorem jacobian_row8 (x : State) (dt : ℝ) :
    HasFDerivAt (fun y => (transferF y dt).mulVec y 8) ((pr 8).comp (asMap (transferJ x dt))) x := by
  have c : ∀ i, HasFDerivAt (fun y : State => y i) (pr i) x := fun i => hasFDerivAt_apply i x
  refine HasFDerivAt.congr_fderiv (((c 8).add ((c 14).mul_const dt)).congr_of_eventuallyEq
      (.of_forall fun y => ?_)) ?_
  · refine (transferF_mulVec8 y dt y).trans ?_
    simp; ring
  · ext v
    refine Eq.trans ?_ (transferJ_mulVec8 x dt v).symm
    simp

theorem jacobian_row9 (x : State) (dt : ℝ) :
    HasFDerivAt (fun y => (transferF y dt).mulVec y 9) ((pr 9).comp (asMap (transferJ x dt))) x := by
  have c : ∀ i, HasFDerivAt (fun y : State => y i) (pr i) x := fun i => hasFDerivAt_apply i x
  refine HasFDerivAt.congr_fderiv ((c 9).congr_of_eventuallyEq
      (.of_forall fun y => ?_)) ?_
  · refine (transferF_mulVec9 y dt y).trans ?_
    rfl
  · ext v
    refine Eq.trans ?_ (transferJ_mulVec9 x dt v).symm
    rfl

theorem jacobian_row10 (x : State) (dt : ℝ) :
    HasFDerivAt (fun y => (transferF y dt).mulVec y 10) ((pr 10).comp (asMap (transferJ x dt))) x := by
  have c : ∀ i, HasFDerivAt (fun y : State => y i) (pr i) x := fun i => hasFDerivAt_apply i x
  refine HasFDerivAt.congr_fderiv ((c 10).congr_of_eventuallyEq
      (.of_forall fun y => ?_)) ?_
  · refine (transferF_mulVec10 y dt y).trans ?_
    rfl
  · ext v
    refine Eq.trans ?_ (transferJ_mulVec10 x dt v).symm
    rfl

theorem jacobian_row11 (x : State) (dt : ℝ) :
    HasFDerivAt (fun y => (transferF y dt).mulVec y 11) ((pr 11).comp (asMap (transferJ x dt))) x := by
  have c : ∀ i, HasFDerivAt (fun y : State => y i) (pr i) x := fun i => hasFDerivAt_apply i x
  refine HasFDerivAt.congr_fderiv ((c 11).congr_of_eventuallyEq
      (.of_forall fun y => ?_)) ?_
  · refine (transferF_mulVec11 y dt y).trans ?_
    rfl
  · ext v
    refine Eq.trans ?_ (transferJ_mulVec11 x dt v).symm
    rfl

theorem jacobian_row12 (x : State) (dt : ℝ) :
    HasFDerivAt (fun y => (transferF y dt).mulVec y 12) ((pr 12).comp (asMap (transferJ x dt))) x := by
  have c : ∀ i, HasFDerivAt (fun y : State => y i) (pr i) x := fun i => hasFDerivAt_apply i x
  refine HasFDerivAt.congr_fderiv ((c 12).congr_of_eventuallyEq
      (.of_forall fun y => ?_)) ?_
  · refine (transferF_mulVec12 y dt y).trans ?_
    rfl
  · ext v
    refine Eq.trans ?_ (transferJ_mulVec12 x dt v).symm
    rfl

theorem jacobian_row13 (x : State) (dt : ℝ) :
    HasFDerivAt (fun y => (transferF y dt).mulVec y 13) ((pr 13).comp (asMap (transferJ x dt))) x := by
  have c : ∀ i, HasFDerivAt (fun y : State => y i) (pr i) x := fun i => hasFDerivAt_apply i x
  refine HasFDerivAt.congr_fderiv ((c 13).congr_of_eventuallyEq
      (.of_forall fun y => ?_)) ?_
  · refine (transferF_mulVec13 y dt y).trans ?_
    rfl
  · ext v
    refine Eq.trans ?_ (transferJ_mulVec13 x dt v).symm
    rfl

theorem jacobian_row14 (x : State) (dt : ℝ) :
    HasFDerivAt (fun y => (transferF y dt).mulVec y 14) ((pr 14).comp (asMap (transferJ x dt))) x := by
  have c : ∀ i, HasFDerivAt (fun y : State => y i) (pr i) x := fun i => hasFDerivAt_apply i x
  refine HasFDerivAt.congr_fderiv ((c 14).congr_of_eventuallyEq
      (.of_forall fun y => ?_)) ?_
  · refine (transferF_mulVec14 y dt y).trans ?_
    rfl
  · ext v
    refine Eq.trans ?_ (transferJ_mulVec14 x dt v).symm
    rfl

/-- C02: the matrix with which `predict` propagates the covariance is the derivative of the motion with respect to the
whole state, at every state with `cos pitch ≠ 0`. -/
theorem C02_jacobian (x : State) (dt : ℝ) (hp : cos (x 4) ≠ 0) :
    HasFDerivAt (fun y => (move (kin y) dt).vec) (asMap (transferJ x dt)) x := by
  have hf : (fun y => (move (kin y) dt).vec) = fun y => (transferF y dt).mulVec y :=
    funext fun y => (C03_rigid_body y dt).symm
  rw [hf]
  refine hasFDerivAt_pi'.2 fun i => ?_
  fin_cases i
  · exact jacobian_row0 x dt hp
  · exact jacobian_row1 x dt hp
  · exact jacobian_row2 x dt hp
  · exact jacobian_row3 x dt hp
  · exact jacobian_row4 x dt hp
  · exact jacobian_row5 x dt hp
  · exact jacobian_row6 x dt
  · exact jacobian_row7 x dt
  · exact jacobian_row8 x dt
  · exact jacobian_row9 x dt
  · exact jacobian_row10 x dt
  · exact jacobian_row11 x dt
  · exact jacobian_row12 x dt
  · exact jacobian_row13 x dt
  · exact jacobian_row14 x dt


theorem applyControl_none (p : FilterPar) (hc : ∀ c, p.ctlUpd c = false) (ctl : Fin 6 → ℝ) (ct ref : Int) (dt : ℝ)
    (x : State) : applyControl p (prepareControl p ctl ct ref x) dt x = x := by
  have h0 : prepareControl p ctl ct ref x = 0 := by
    funext c
    simp [prepareControl, hc]
  rw [h0]
  funext i
  fin_cases i <;> simp [applyControl, hc]

/-- C02 and C03 for a whole prediction, for axes that are not under control: the new mean is the (wrapped) rigid body
motion of the mean, and the covariance is `J P Jᵀ` plus noise with `J` the derivative of that motion. -/
theorem C02_predict_partial (p : FilterPar) (hc : ∀ c, p.ctlUpd c = false) (Q : Mat15) (ctl : Fin 6 → ℝ)
    (ct ref : Int) (dt : ℝ) (x : State) (P : Mat15) (hp : cos (x 4) ≠ 0) :
    ∃ J : Mat15, HasFDerivAt (fun y => (move (kin y) dt).vec) (asMap J) x ∧
      Ekf.predict p Q ctl ct ref dt x P =
        some (wrapStateAngles (move (kin x) dt).vec, J * P * Jᵀ + dt • noiseQ p Q x) := by
  refine ⟨transferJ x dt, C02_jacobian x dt hp, ?_⟩
  simp only [Ekf.predict]
  rw [if_neg hp, applyControl_none p hc, C03_rigid_body]

/-- What is missing in `C02_predict_partial`: with the forward axis under control, the acceleration in the predicted
state is the control acceleration, whatever the acceleration in the state was; the covariance is propagated as if it were
carried over (`J` has a one there). -/
theorem C02_control_not_in_jacobian (p : FilterPar) (hc : p.ctlUpd 0 = true) (Q : Mat15) (ctl : Fin 6 → ℝ)
    (ct ref : Int) (dt : ℝ) (x : State) (P : Mat15) (a : ℝ) (hp : cos (x 4) ≠ 0) :
    ((Ekf.predict p Q ctl ct ref dt (Function.update x 12 a) P).map Prod.fst =
      (Ekf.predict p Q ctl ct ref dt x P).map Prod.fst ∧ (Ekf.predict p Q ctl ct ref dt x P).isSome = true) ∧
    transferJ x dt 12 12 = 1 := by
  refine ⟨⟨?_, by simp only [Ekf.predict]; rw [if_neg hp]; rfl⟩, rfl⟩
  simp only [Ekf.predict]
  have hx : ∀ i : Fin 15, i ≠ 12 → Function.update x 12 a i = x i := fun i hi => Function.update_of_ne hi _ _
  have ht : trig (Function.update x 12 a) = trig x := by
    simp only [trig, hx _ (show iPitch ≠ 12 by decide), hx _ (show iRoll ≠ 12 by decide),
      hx _ (show iYaw ≠ 12 by decide)]
  have hca : prepareControl p ctl ct ref (Function.update x 12 a) = prepareControl p ctl ct ref x := by
    funext c
    simp only [prepareControl, hx (velIdx c) (by fin_cases c <;> decide)]
  have hx1 : ∀ ca, applyControl p ca dt (Function.update x 12 a) = applyControl p ca dt x := by
    intro ca
    funext i
    fin_cases i <;> simp [applyControl, hc, iVroll, iVpitch, iVyaw, iAx, iAy, iAz]
  have hF : transferF (Function.update x 12 a) dt = transferF x dt := by
    unfold transferF writeF
    rw [ht]
  rw [if_neg (by rw [hx _ (by decide)]; exact hp), if_neg hp, hca, hx1, hF]
  rfl

/-- A turning, climbing robot. -/
example : cos ((fun i => if i = 4 then 1 / 2 else 1 : State) 4) ≠ 0 ∧
    (move (kin (fun i => if i = 4 then 1 / 2 else 1)) 1).vel = ![2, 2, 2] := by
  constructor
  · have h : cos (1 / 2 : ℝ) ≠ 0 := (cos_pos_of_mem_Ioo ⟨by linarith [pi_gt_three], by linarith [pi_gt_three]⟩).ne'
    simpa using h
  · funext i
    fin_cases i <;> simp [move, kin] <;> norm_num

/-- Angles that follow the rates exist: straight lines, for instance. -/
example (e w : Vec3) (hp : cos (e 1) ≠ 0) (i j : Fin 3) :
    HasDerivAt (fun t : ℝ => rot (e + t • eulerRates e w) i j) ((rot e * skew w) i j) 0 := by
  refine C03_angle_rates e w hp (fun t => e + t • eulerRates e w) (by simp) (fun k => ?_) i j
  have := ((hasDerivAt_id (0 : ℝ)).mul_const (eulerRates e w k)).const_add (e k)
  simpa using this

end RL
