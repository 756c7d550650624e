import Mathlib.LinearAlgebra.Matrix.PosDef
import Mathlib.Data.Real.StarOrdered
/-! # The algebra of the Kalman update, for any matrices -/

namespace RL
open Matrix

variable {n m : Type} [Fintype n] [DecidableEq n] [Fintype m] [DecidableEq m]

theorem psd_congr {P : Matrix n n ℝ} (hP : P.PosSemidef) (A : Matrix m n ℝ) : (A * P * Aᵀ).PosSemidef := by
  have := hP.mul_mul_conjTranspose_same A
  rwa [conjTranspose_eq_transpose_of_trivial] at this

/-- The Joseph form is a covariance for every gain. -/
theorem joseph_psd {P : Matrix n n ℝ} {R : Matrix m m ℝ} (hP : P.PosSemidef) (hR : R.PosSemidef)
    (H : Matrix m n ℝ) (K : Matrix n m ℝ) :
    ((1 - K * H) * P * (1 - K * H)ᵀ + K * R * Kᵀ).PosSemidef :=
  (psd_congr hP _).add (psd_congr hR _)

/-- Completion of squares: how the Joseph form depends on the gain. -/
theorem joseph_square {P : Matrix n n ℝ} {R : Matrix m m ℝ} (hP : Pᵀ = P) (hR : Rᵀ = R) (H : Matrix m n ℝ)
    (hS : IsUnit (H * (P * Hᵀ) + R).det) (L : Matrix n m ℝ) :
    let S := H * (P * Hᵀ) + R
    let K := P * Hᵀ * S⁻¹
    (1 - L * H) * P * (1 - L * H)ᵀ + L * R * Lᵀ =
      ((1 - K * H) * P * (1 - K * H)ᵀ + K * R * Kᵀ) + (L - K) * S * (L - K)ᵀ := by
  intro S K
  have hSt : Sᵀ = S := by
    simp only [S, transpose_add, transpose_mul, transpose_transpose, hP, hR, Matrix.mul_assoc]
  have e1 : K * S = P * Hᵀ := by
    show P * Hᵀ * S⁻¹ * S = _
    rw [Matrix.mul_assoc, nonsing_inv_mul _ hS, Matrix.mul_one]
  have expand : ∀ A : Matrix n m ℝ, (1 - A * H) * P * (1 - A * H)ᵀ + A * R * Aᵀ =
      P - A * (K * S)ᵀ - (K * S) * Aᵀ + A * S * Aᵀ := by
    intro A
    rw [e1]
    simp only [S, transpose_sub, transpose_mul, transpose_one, transpose_transpose, hP]
    simp only [Matrix.sub_mul, Matrix.mul_sub, Matrix.add_mul, Matrix.mul_add, Matrix.one_mul, Matrix.mul_one,
      Matrix.mul_assoc]
    abel
  rw [expand L, expand K]
  simp only [transpose_sub, transpose_mul, hSt]
  simp only [Matrix.sub_mul, Matrix.mul_sub, Matrix.mul_assoc]
  abel

/-- The Joseph form with the Kalman gain is the textbook posterior. -/
theorem joseph_eq {P : Matrix n n ℝ} {R : Matrix m m ℝ} (hP : Pᵀ = P) (hR : Rᵀ = R) (H : Matrix m n ℝ)
    (hS : IsUnit (H * (P * Hᵀ) + R).det) :
    let S := H * (P * Hᵀ) + R
    let K := P * Hᵀ * S⁻¹
    (1 - K * H) * P * (1 - K * H)ᵀ + K * R * Kᵀ = P - K * S * Kᵀ ∧
      (1 - K * H) * P * (1 - K * H)ᵀ + K * R * Kᵀ = (1 - K * H) * P := by
  intro S K
  have h := joseph_square hP hR H hS 0
  simp only [Matrix.zero_mul, sub_zero, transpose_zero, Matrix.mul_zero, add_zero, Matrix.one_mul, transpose_one,
    Matrix.mul_one, zero_sub, transpose_neg, Matrix.neg_mul, Matrix.mul_neg, neg_neg] at h
  have h1 : (1 - K * H) * P * (1 - K * H)ᵀ + K * R * Kᵀ = P - K * S * Kᵀ := by
    rw [eq_sub_iff_add_eq]; exact h.symm
  refine ⟨h1, ?_⟩
  rw [h1]
  have hSt : Sᵀ = S := by
    simp only [S, transpose_add, transpose_mul, transpose_transpose, hP, hR, Matrix.mul_assoc]
  have : S * Kᵀ = H * P := by
    have e1 : K * S = P * Hᵀ := by
      show P * Hᵀ * S⁻¹ * S = _
      rw [Matrix.mul_assoc, nonsing_inv_mul _ hS, Matrix.mul_one]
    have := congrArg transpose e1
    rw [transpose_mul, transpose_mul P, transpose_transpose, hP, hSt] at this
    exact this
  rw [Matrix.sub_mul, Matrix.one_mul, Matrix.mul_assoc K S, this, Matrix.mul_assoc K H]

omit [Fintype n] [DecidableEq n] in
theorem PosSemidef.symm' {P : Matrix n n ℝ} (h : P.PosSemidef) : Pᵀ = P := by
  have := h.isHermitian
  rwa [IsHermitian, conjTranspose_eq_transpose_of_trivial] at this

/-- Adding a non-negative diagonal keeps a covariance a covariance. -/
theorem psd_add_diagonal {P : Matrix n n ℝ} (hP : P.PosSemidef) (d : n → ℝ) (hd : ∀ i, 0 ≤ d i) :
    (P + diagonal d).PosSemidef :=
  hP.add (PosSemidef.diagonal hd)

/-- The innovation covariance is positive definite when the measurement covariance is. -/
theorem innov_posDef {P : Matrix n n ℝ} {R : Matrix m m ℝ} (hP : P.PosSemidef) (hR : R.PosDef) (H : Matrix m n ℝ) :
    (H * (P * Hᵀ) + R).PosDef := by
  rw [← Matrix.mul_assoc]
  exact PosDef.posSemidef_add (psd_congr hP H) hR

end RL
