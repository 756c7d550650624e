import Verif.Model.Listener
import Verif.Props.Rpy
import Mathlib.Data.List.Nodup
import Mathlib.Logic.Relation
/-! # Helper lemmas about the listener -/

namespace RL.Listen
open Matrix Real

theorem isRot_rotX (a : ℝ) : IsRot (Body.rotX a) := by
  have h := sin_sq_add_cos_sq a
  refine ⟨?_, ?_⟩
  · ext i j
    fin_cases i <;> fin_cases j <;> simp [Body.rotX, Matrix.mul_apply, Fin.sum_univ_three] <;> nlinarith
  · simp [Body.rotX, Matrix.det_fin_three]; nlinarith

theorem isRot_rotY (a : ℝ) : IsRot (Body.rotY a) := by
  have h := sin_sq_add_cos_sq a
  refine ⟨?_, ?_⟩
  · ext i j
    fin_cases i <;> fin_cases j <;> simp [Body.rotY, Matrix.mul_apply, Fin.sum_univ_three] <;> nlinarith
  · simp [Body.rotY, Matrix.det_fin_three]; nlinarith

theorem isRot_rotZ (a : ℝ) : IsRot (Body.rotZ a) := by
  have h := sin_sq_add_cos_sq a
  refine ⟨?_, ?_⟩
  · ext i j
    fin_cases i <;> fin_cases j <;> simp [Body.rotZ, Matrix.mul_apply, Fin.sum_univ_three] <;> nlinarith
  · simp [Body.rotZ, Matrix.det_fin_three]; nlinarith

theorem isRot_bodyRot (e : Body.Vec3) : IsRot (Body.rot e) := ((isRot_rotZ _).mul (isRot_rotY _)).mul (isRot_rotX _)

theorem norm_mul_atan2 (x y : ℝ) : √(x * x + y * y) * cos (atan2 y x) = x ∧ √(x * x + y * y) * sin (atan2 y x) = y := by
  have hn : ‖(⟨x, y⟩ : ℂ)‖ = √(x * x + y * y) := by rw [Complex.norm_def, Complex.normSq_mk]
  unfold atan2
  rw [← hn]
  exact ⟨Complex.norm_mul_cos_arg _, Complex.norm_mul_sin_arg _⟩

/-- Three angles with these sines and cosines are angles of the rotation. -/
theorem rot_of_parts {m : M3} (h : IsRot m) {y p r : ℝ} (h00 : cos p * cos y = m 0 0) (h10 : cos p * sin y = m 1 0)
    (h20 : sin p = -m 2 0) (hc : cos r = cos y * m 1 1 - sin y * m 0 1) (hs : sin r = sin y * m 0 2 - cos y * m 1 2) :
    Body.rot ![r, p, y] = m := by
  have hK : IsRot ((Body.rotY p)ᵀ * ((Body.rotZ y)ᵀ * m)) := (isRot_rotY p).transpose.mul ((isRot_rotZ y).transpose.mul h)
  have e : (Body.rotY p)ᵀ * ((Body.rotZ y)ᵀ * m) = Body.rotX r := by
    have hy := sin_sq_add_cos_sq y
    have hp := sin_sq_add_cos_sq p
    obtain ⟨K, hKd⟩ : ∃ K, K = (Body.rotY p)ᵀ * ((Body.rotZ y)ᵀ * m) := ⟨_, rfl⟩
    rw [← hKd] at hK ⊢
    have k00 : K 0 0 = 1 := by
      rw [hKd, mul3, mul3, mul3, mul3]
      simp [Body.rotY, Body.rotZ]
      rw [← h00, ← h10]
      have : m 2 0 = -sin p := by linarith
      rw [this]
      linear_combination hp + cos p ^ 2 * hy
    have k10 : K 1 0 = 0 := by
      rw [hKd, mul3, mul3, mul3, mul3]
      simp [Body.rotY, Body.rotZ]
      rw [← h00, ← h10]
      ring
    have k11 : K 1 1 = cos r := by
      rw [hKd, mul3, mul3, mul3, mul3]
      simp [Body.rotY, Body.rotZ]
      rw [hc]
      ring
    have k12 : K 1 2 = -sin r := by
      rw [hKd, mul3, mul3, mul3, mul3]
      simp [Body.rotY, Body.rotZ]
      rw [hs]
      ring
    have c0 := hK.col 0 0
    have r0 := hK.row 0 0
    simp [k00, k10] at c0 r0
    have k01 : K 0 1 = 0 := by nlinarith [mul_self_nonneg (K 0 1), mul_self_nonneg (K 0 2)]
    have k02 : K 0 2 = 0 := by nlinarith [mul_self_nonneg (K 0 1), mul_self_nonneg (K 0 2)]
    obtain ⟨-, -, -, -, -, -, -, f21, f22⟩ := hK.cof
    rw [k00, k10, k12, k02] at f21
    rw [k00, k11, k01, k10] at f22
    ext i j
    fin_cases i <;> fin_cases j <;> simp [Body.rotX, k00, k01, k02, k10, k11, k12, c0]
    · rw [f21]; ring
    · rw [f22]; ring
  have : Body.rotZ y * (Body.rotY p * ((Body.rotY p)ᵀ * ((Body.rotZ y)ᵀ * m))) = m := by
    rw [← Matrix.mul_assoc (Body.rotY p), (isRot_rotY p).1, Matrix.one_mul, ← Matrix.mul_assoc, (isRot_rotZ y).1,
      Matrix.one_mul]
  rw [e] at this
  unfold Body.rot
  rw [Matrix.mul_assoc]
  exact this

/-- The angles Eigen gives are angles of the rotation, whichever it is. -/
theorem rot_eulerAngles {m : M3} (h : IsRot m) :
    Body.rot ![eulerAngles210 m 2, eulerAngles210 m 1, eulerAngles210 m 0] = m := by
  have k00 := h.col 0 0
  have r22 := h.row 2 2
  simp at k00 r22
  have hsum : m 0 0 * m 0 0 + m 1 0 * m 1 0 = m 2 2 * m 2 2 + m 2 1 * m 2 1 := by linarith
  obtain ⟨hx, hy⟩ := norm_mul_atan2 (m 0 0) (m 1 0)
  rw [hsum] at hx hy
  obtain ⟨c2, hc2⟩ : ∃ c2, c2 = √(m 2 2 * m 2 2 + m 2 1 * m 2 1) := ⟨_, rfl⟩
  have hc2s : c2 * c2 = m 2 2 * m 2 2 + m 2 1 * m 2 1 := by
    rw [hc2]
    exact mul_self_sqrt (by nlinarith [mul_self_nonneg (m 2 2), mul_self_nonneg (m 2 1)])
  rw [← hc2] at hx hy
  obtain ⟨y, hyd⟩ : ∃ y, y = eulerAngles210 m 0 := ⟨_, rfl⟩
  obtain ⟨p, hpd⟩ : ∃ p, p = eulerAngles210 m 1 := ⟨_, rfl⟩
  have hr : eulerAngles210 m 2 = atan2 (sin y * m 0 2 - cos y * m 1 2) (cos y * m 1 1 - sin y * m 0 1) := by
    rw [hyd]; rfl
  have hyp : cos p * cos y = m 0 0 ∧ cos p * sin y = m 1 0 ∧ sin p = -m 2 0 := by
    have hy' : y = if atan2 (m 1 0) (m 0 0) < 0 then atan2 (m 1 0) (m 0 0) + π else atan2 (m 1 0) (m 0 0) := hyd
    have hp' : p = if atan2 (m 1 0) (m 0 0) < 0 then atan2 (-m 2 0) (-c2) else atan2 (-m 2 0) c2 := by
      rw [hpd, hc2]; rfl
    by_cases hneg : atan2 (m 1 0) (m 0 0) < 0
    · rw [if_pos hneg] at hy' hp'
      obtain ⟨e1, e2⟩ := cos_sin_atan2 (y := -m 2 0) (x := -c2) (by nlinarith)
      rw [← hp'] at e1 e2
      rw [e1, e2, hy', cos_add_pi, sin_add_pi]
      exact ⟨by linarith, by linarith, rfl⟩
    · rw [if_neg hneg] at hy' hp'
      obtain ⟨e1, e2⟩ := cos_sin_atan2 (y := -m 2 0) (x := c2) (by nlinarith)
      rw [← hp'] at e1 e2
      rw [e1, e2, hy']
      exact ⟨by linarith, by linarith, rfl⟩
  obtain ⟨h1, h2, h3⟩ := hyp
  have hn : IsRot ((Body.rotZ y)ᵀ * m) := (isRot_rotZ y).transpose.mul h
  have row1 := hn.row 1 1
  rw [mul3, mul3, mul3] at row1
  simp [Body.rotZ] at row1
  have z0 : -(sin y * m 0 0) + cos y * m 1 0 = 0 := by rw [← h1, ← h2]; ring
  rw [z0] at row1
  obtain ⟨q1, q2⟩ := cos_sin_atan2 (y := sin y * m 0 2 - cos y * m 1 2) (x := cos y * m 1 1 - sin y * m 0 1)
    (by nlinarith)
  rw [← hyd, ← hpd, hr]
  exact rot_of_parts h h1 h2 h3 q1 q2

end RL.Listen
