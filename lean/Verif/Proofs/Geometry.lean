import Verif.Model.Geometry
import Verif.Proofs.Angle
import Verif.Spec.RigidBody
import Mathlib.LinearAlgebra.Matrix.Determinant.Basic
import Mathlib.LinearAlgebra.Matrix.Adjugate
/-! # Rotations: matrices, quaternions, roll, pitch and yaw -/

namespace RL
open Matrix Real

theorem mulVec3 (m : M3) (v : V3) (i : Fin 3) : m.mulVec v i = m i 0 * v 0 + m i 1 * v 1 + m i 2 * v 2 := by
  simp [Matrix.mulVec, dotProduct, Fin.sum_univ_three]

theorem mul3 (a b : M3) (i j : Fin 3) : (a * b) i j = a i 0 * b 0 j + a i 1 * b 1 j + a i 2 * b 2 j := by
  simp [Matrix.mul_apply, Fin.sum_univ_three]

namespace IsRot
variable {m : M3}

theorem one : IsRot 1 := ⟨by simp, by simp⟩

theorem transpose_mul (h : IsRot m) : mᵀ * m = 1 := mul_eq_one_comm.mp h.1

theorem transpose (h : IsRot m) : IsRot mᵀ := ⟨by rw [transpose_transpose]; exact h.transpose_mul, by rw [det_transpose, h.2]⟩

theorem mul {a b : M3} (ha : IsRot a) (hb : IsRot b) : IsRot (a * b) := by
  refine ⟨?_, by rw [det_mul, ha.2, hb.2, mul_one]⟩
  rw [Matrix.transpose_mul, Matrix.mul_assoc, ← Matrix.mul_assoc b, hb.1, Matrix.one_mul, ha.1]

theorem inv (h : IsRot m) : m⁻¹ = mᵀ := Matrix.inv_eq_right_inv h.1

theorem row (h : IsRot m) (i j : Fin 3) :
    m i 0 * m j 0 + m i 1 * m j 1 + m i 2 * m j 2 = if i = j then 1 else 0 := by
  have := congrFun (congrFun h.1 i) j
  rw [mul3, one_apply] at this
  simpa using this

theorem col (h : IsRot m) (i j : Fin 3) :
    m 0 i * m 0 j + m 1 i * m 1 j + m 2 i * m 2 j = if i = j then 1 else 0 := h.transpose.row i j

theorem adj (h : IsRot m) : m.adjugate = mᵀ := by
  have := h.inv
  rw [Matrix.inv_def, h.2] at this
  simpa using this

/-- Every entry of a rotation is its own cofactor. -/
theorem cof (h : IsRot m) :
    m 0 0 = m 1 1 * m 2 2 - m 1 2 * m 2 1 ∧ m 0 1 = m 1 2 * m 2 0 - m 1 0 * m 2 2 ∧
    m 0 2 = m 1 0 * m 2 1 - m 1 1 * m 2 0 ∧ m 1 0 = m 0 2 * m 2 1 - m 0 1 * m 2 2 ∧
    m 1 1 = m 0 0 * m 2 2 - m 0 2 * m 2 0 ∧ m 1 2 = m 0 1 * m 2 0 - m 0 0 * m 2 1 ∧
    m 2 0 = m 0 1 * m 1 2 - m 0 2 * m 1 1 ∧ m 2 1 = m 0 2 * m 1 0 - m 0 0 * m 1 2 ∧
    m 2 2 = m 0 0 * m 1 1 - m 0 1 * m 1 0 := by
  have e : ∀ i j, m.adjugate j i = m i j := fun i j => by rw [h.adj]; rfl
  have a := Matrix.adjugate_fin_three m
  rw [a] at e
  have e00 := e 0 0
  have e01 := e 0 1
  have e02 := e 0 2
  have e10 := e 1 0
  have e11 := e 1 1
  have e12 := e 1 2
  have e20 := e 2 0
  have e21 := e 2 1
  have e22 := e 2 2
  simp at e00 e01 e02 e10 e11 e12 e20 e21 e22
  refine ⟨?_, ?_, ?_, ?_, ?_, ?_, ?_, ?_, ?_⟩ <;> linarith

end IsRot

theorem setRPY_eq (r p y : ℝ) : setRPY r p y = Body.rot ![r, p, y] := by
  ext i j
  fin_cases i <;> fin_cases j <;>
    simp [setRPY, Body.rot, Body.rotX, Body.rotY, Body.rotZ, Matrix.mul_apply, Fin.sum_univ_three] <;> ring

theorem isRot_setRPY (r p y : ℝ) : IsRot (setRPY r p y) := by
  have h1 := sin_sq_add_cos_sq r
  have h2 := sin_sq_add_cos_sq p
  have h3 := sin_sq_add_cos_sq y
  have e : setRPY r p y = setRPY 0 0 y * (setRPY 0 p 0 * setRPY r 0 0) := by
    ext i j
    fin_cases i <;> fin_cases j <;> simp [setRPY, Matrix.mul_apply, Fin.sum_univ_three] <;> ring
  have hz : IsRot (setRPY 0 0 y) := by
    constructor
    · ext i j
      fin_cases i <;> fin_cases j <;> simp [setRPY, Matrix.mul_apply, Fin.sum_univ_three] <;> nlinarith
    · rw [det_fin_three]; simp [setRPY]; nlinarith
  have hy : IsRot (setRPY 0 p 0) := by
    constructor
    · ext i j
      fin_cases i <;> fin_cases j <;> simp [setRPY, Matrix.mul_apply, Fin.sum_univ_three] <;> nlinarith
    · rw [det_fin_three]; simp [setRPY]; nlinarith
  have hx : IsRot (setRPY r 0 0) := by
    constructor
    · ext i j
      fin_cases i <;> fin_cases j <;> simp [setRPY, Matrix.mul_apply, Fin.sum_univ_three] <;> nlinarith
    · rw [det_fin_three]; simp [setRPY]; nlinarith
  rw [e]
  exact hz.mul (hy.mul hx)

theorem isRot_quat (q : Quat) (h : q.len2 ≠ 0) : IsRot q.mat := by
  have hs : (2 / q.len2) * (q.x * q.x + q.y * q.y + q.z * q.z + q.w * q.w) = 2 := div_mul_cancel₀ 2 h
  unfold Quat.mat
  generalize 2 / q.len2 = s at hs
  constructor
  · ext i j
    fin_cases i <;> fin_cases j <;> simp [Matrix.mul_apply, Fin.sum_univ_three]
    · linear_combination (s * (q.y ^ 2 + q.z ^ 2)) * hs
    · linear_combination (s * (-(q.x * q.y))) * hs
    · linear_combination (s * (-(q.x * q.z))) * hs
    · linear_combination (s * (-(q.x * q.y))) * hs
    · linear_combination (s * (q.x ^ 2 + q.z ^ 2)) * hs
    · linear_combination (s * (-(q.y * q.z))) * hs
    · linear_combination (s * (-(q.x * q.z))) * hs
    · linear_combination (s * (-(q.y * q.z))) * hs
    · linear_combination (s * (q.x ^ 2 + q.y ^ 2)) * hs
  · rw [det_fin_three]
    simp
    linear_combination (s * (q.x ^ 2 + q.y ^ 2 + q.z ^ 2)) * hs

theorem len2_ofRPY (r p y : ℝ) : (Quat.ofRPY r p y).len2 = 1 := by
  have h1 := sin_sq_add_cos_sq (r * 0.5)
  have h2 := sin_sq_add_cos_sq (p * 0.5)
  have h3 := sin_sq_add_cos_sq (y * 0.5)
  have : (Quat.ofRPY r p y).len2 = (sin (r * 0.5) ^ 2 + cos (r * 0.5) ^ 2) * (sin (p * 0.5) ^ 2 + cos (p * 0.5) ^ 2) *
      (sin (y * 0.5) ^ 2 + cos (y * 0.5) ^ 2) := by
    simp only [Quat.ofRPY, Quat.len2]; ring
  rw [this, h1, h2, h3]; norm_num

theorem mat_ofRPY (r p y : ℝ) : (Quat.ofRPY r p y).mat = setRPY r p y := by
  have h1 := sin_sq_add_cos_sq (r * 0.5)
  have h2 := sin_sq_add_cos_sq (p * 0.5)
  have h3 := sin_sq_add_cos_sq (y * 0.5)
  have hl := len2_ofRPY r p y
  have s1 : sin r = 2 * sin (r * 0.5) * cos (r * 0.5) := by rw [← sin_two_mul]; ring_nf
  have s2 : sin p = 2 * sin (p * 0.5) * cos (p * 0.5) := by rw [← sin_two_mul]; ring_nf
  have s3 : sin y = 2 * sin (y * 0.5) * cos (y * 0.5) := by rw [← sin_two_mul]; ring_nf
  have c1 : cos r = cos (r * 0.5) ^ 2 - sin (r * 0.5) ^ 2 := by rw [← cos_two_mul']; ring_nf
  have c2 : cos p = cos (p * 0.5) ^ 2 - sin (p * 0.5) ^ 2 := by rw [← cos_two_mul']; ring_nf
  have c3 : cos y = cos (y * 0.5) ^ 2 - sin (y * 0.5) ^ 2 := by rw [← cos_two_mul']; ring_nf
  have e : ∀ q : Quat, q.len2 = 1 → q.mat =
      !![1 - 2 * (q.y * q.y + q.z * q.z), 2 * (q.x * q.y - q.w * q.z), 2 * (q.x * q.z + q.w * q.y);
         2 * (q.x * q.y + q.w * q.z), 1 - 2 * (q.x * q.x + q.z * q.z), 2 * (q.y * q.z - q.w * q.x);
         2 * (q.x * q.z - q.w * q.y), 2 * (q.y * q.z + q.w * q.x), 1 - 2 * (q.x * q.x + q.y * q.y)] := by
    intro q hq
    ext i j
    fin_cases i <;> fin_cases j <;> simp [Quat.mat, hq] <;> ring
  rw [e _ hl]
  unfold setRPY
  rw [s1, s2, s3, c1, c2, c3]
  simp only [Quat.ofRPY]
  generalize sin (r * 0.5) = a at *
  generalize cos (r * 0.5) = a' at *
  generalize sin (p * 0.5) = b at *
  generalize cos (p * 0.5) = b' at *
  generalize sin (y * 0.5) = c at *
  generalize cos (y * 0.5) = c' at *
  have k1 : a' ^ 2 = 1 - a ^ 2 := by linarith
  have k2 : b' ^ 2 = 1 - b ^ 2 := by linarith
  have k3 : c' ^ 2 = 1 - c ^ 2 := by linarith
  have k1' : a' ^ 3 = a' * (1 - a ^ 2) := by rw [← k1]; ring
  have k2' : b' ^ 3 = b' * (1 - b ^ 2) := by rw [← k2]; ring
  have k3' : c' ^ 3 = c' * (1 - c ^ 2) := by rw [← k3]; ring
  ext i j
  fin_cases i <;> fin_cases j <;> simp <;> ring_nf <;> simp only [k1, k2, k3, k1', k2', k3'] <;> ring

namespace Tf

@[ext] theorem ext {a b : Tf} (h1 : a.rot = b.rot) (h2 : a.org = b.org) : a = b := by
  cases a; cases b; simp_all

theorem mul_assoc (a b c : Tf) : (a.mul b).mul c = a.mul (b.mul c) := by
  apply ext
  · exact Matrix.mul_assoc _ _ _
  · simp only [mul, ← Matrix.mulVec_mulVec, Matrix.mulVec_add, add_assoc]

@[simp] theorem id_mul (a : Tf) : id.mul a = a := by apply ext <;> simp [mul, id]
@[simp] theorem mul_id (a : Tf) : a.mul id = a := by apply ext <;> simp [mul, id]

theorem inverseTimes_eq (a b : Tf) : a.inverseTimes b = a.inv.mul b := by
  apply ext
  · rfl
  · simp only [inverseTimes, inv, mul, sub_eq_add_neg, Matrix.mulVec_add]

theorem mul_inv {a : Tf} (h : IsRot a.rot) : a.mul a.inv = id := by
  apply ext
  · exact h.1
  · simp [mul, inv, id, h.1]

theorem inv_mul {a : Tf} (h : IsRot a.rot) : a.inv.mul a = id := by
  apply ext
  · exact h.transpose_mul
  · simp [mul, inv, id, Matrix.mulVec_neg]

theorem inv_mul_cancel_left {a : Tf} (h : IsRot a.rot) (b : Tf) : a.inv.mul (a.mul b) = b := by
  rw [← mul_assoc, inv_mul h, id_mul]

theorem mul_inv_cancel_left {a : Tf} (h : IsRot a.rot) (b : Tf) : a.mul (a.inv.mul b) = b := by
  rw [← mul_assoc, mul_inv h, id_mul]

theorem inv_inv (a : Tf) (h : IsRot a.rot) : a.inv.inv = a := by
  apply ext
  · simp [inv]
  · simp [inv, h.1, Matrix.mulVec_neg]

theorem isRot_mul {a b : Tf} (ha : IsRot a.rot) (hb : IsRot b.rot) : IsRot (a.mul b).rot := ha.mul hb
theorem isRot_inv {a : Tf} (ha : IsRot a.rot) : IsRot a.inv.rot := ha.transpose

end Tf

end RL
