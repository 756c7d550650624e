import Verif.Proofs.Kalman
import Mathlib.Analysis.Matrix.Order
/-! # Two Kalman updates in either order, for any matrices -/

namespace RL
open Matrix

variable {n m k : Type} [Fintype n] [DecidableEq n] [Fintype m] [DecidableEq m] [Fintype k] [DecidableEq k]

/-- With an invertible measurement covariance, `1 - K H` is the inverse of `1 + P Hᵀ R⁻¹ H`, and the gain is
`(1 - K H) P Hᵀ R⁻¹`. -/
theorem gain_information {P : Matrix n n ℝ} {R : Matrix m m ℝ} (H : Matrix m n ℝ) (hR : IsUnit R.det)
    (hS : IsUnit (H * (P * Hᵀ) + R).det) :
    let K := P * Hᵀ * (H * (P * Hᵀ) + R)⁻¹
    (1 - K * H) * (1 + P * (Hᵀ * R⁻¹ * H)) = 1 ∧ K = (1 - K * H) * P * (Hᵀ * R⁻¹) := by
  intro K
  have e1 : K * (H * (P * Hᵀ) + R) = P * Hᵀ := by
    show P * Hᵀ * _⁻¹ * _ = _
    rw [Matrix.mul_assoc, nonsing_inv_mul _ hS, Matrix.mul_one]
  have e2 : K = (1 - K * H) * P * (Hᵀ * R⁻¹) := by
    have : (1 - K * H) * P * (Hᵀ * R⁻¹) = (P * Hᵀ - K * (H * (P * Hᵀ))) * R⁻¹ := by
      simp only [Matrix.sub_mul, Matrix.one_mul, Matrix.mul_assoc]
    have e3 : P * Hᵀ - K * (H * (P * Hᵀ)) = K * R := by
      rw [sub_eq_iff_eq_add, ← Matrix.mul_add, add_comm R]
      exact e1.symm
    rw [this, e3, Matrix.mul_assoc, mul_nonsing_inv _ hR, Matrix.mul_one]
  refine ⟨?_, e2⟩
  have : (1 - K * H) * (1 + P * (Hᵀ * R⁻¹ * H)) = 1 - K * H + (1 - K * H) * P * (Hᵀ * R⁻¹) * H := by
    rw [Matrix.mul_add, Matrix.mul_one]
    simp only [Matrix.mul_assoc]
  rw [this, ← e2, sub_add_cancel]

/-- Two left inverses of the same square matrix are equal. -/
theorem left_inverse_unique {A B N : Matrix n n ℝ} (ha : A * N = 1) (hb : B * N = 1) : A = B := by
  have h : N * B = 1 := mul_eq_one_comm.1 hb
  calc A = A * (N * B) := by rw [h, Matrix.mul_one]
    _ = B := by rw [← Matrix.mul_assoc, ha, Matrix.one_mul]

/-- Two linear updates, one after the other: the product of the two factors `1 - K H` is the inverse of one matrix that
treats the two alike. -/
theorem two_updates {P A1 A2 Wa Wb : Matrix n n ℝ} (h1 : A1 * (1 + P * Wa) = 1) (h2 : A2 * (1 + A1 * P * Wb) = 1) :
    A2 * A1 * (1 + P * (Wa + Wb)) = 1 := by
  have : A1 * (1 + P * (Wa + Wb)) = 1 + A1 * P * Wb := by
    have e : A1 * (1 + P * (Wa + Wb)) = A1 * (1 + P * Wa) + A1 * P * Wb := by
      simp only [Matrix.mul_add, Matrix.mul_one, Matrix.mul_assoc]
      abel
    rw [e, h1]
  rw [Matrix.mul_assoc, this, h2]

/-- One update written with the factor `1 - K H` alone. -/
theorem update_state {P : Matrix n n ℝ} {R : Matrix m m ℝ} (H : Matrix m n ℝ) (hR : IsUnit R.det)
    (hS : IsUnit (H * (P * Hᵀ) + R).det) (x : n → ℝ) (z : m → ℝ) :
    let K := P * Hᵀ * (H * (P * Hᵀ) + R)⁻¹
    x + K.mulVec (z - H.mulVec x) = (1 - K * H).mulVec (x + P.mulVec ((Hᵀ * R⁻¹).mulVec z)) := by
  intro K
  have e := (gain_information H hR hS).2
  have e' : K = (1 - K * H) * P * (Hᵀ * R⁻¹) := e
  have hz : K.mulVec z = (1 - K * H).mulVec (P.mulVec ((Hᵀ * R⁻¹).mulVec z)) := by
    conv_lhs => rw [e']
    simp only [Matrix.mulVec_mulVec, Matrix.mul_assoc]
  rw [Matrix.mulVec_sub, hz, Matrix.mulVec_add, Matrix.sub_mulVec 1 (K * H) x, Matrix.one_mulVec]
  rw [Matrix.mulVec_mulVec x]
  abel

end RL
