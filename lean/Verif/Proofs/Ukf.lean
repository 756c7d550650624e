import Verif.Model.Ukf
import Verif.Proofs.Angle
import Verif.Proofs.Kalman
import Verif.Proofs.EkfCov
import Mathlib.Analysis.Matrix.LDL
import Mathlib.LinearAlgebra.Matrix.Block
import Mathlib.Analysis.Complex.Trigonometric
/-! # Lemmas on the sigma points -/

namespace RL
open Matrix Real

/-! ## Cholesky factors exist and are unique -/

theorem lower_inv {A : Mat15} (h : IsUnit A.det) (hl : ∀ i j, i < j → A i j = 0) : ∀ i j, i < j → A⁻¹ i j = 0 := by
  have hb : BlockTriangular A (OrderDual.toDual : Fin 15 → (Fin 15)ᵒᵈ) := fun i j hij => hl i j hij
  letI := A.invertibleOfIsUnitDet h
  intro i j hij
  exact blockTriangular_inv_of_blockTriangular hb (i := i) (j := j) hij

theorem lower_mul {A B : Mat15} (ha : ∀ i j, i < j → A i j = 0) (hb : ∀ i j, i < j → B i j = 0) :
    ∀ i j, i < j → (A * B) i j = 0 := by
  intro i j hij
  rw [Matrix.mul_apply]
  refine Finset.sum_eq_zero fun k _ => ?_
  rcases lt_or_ge i k with h | h
  · rw [ha i k h, zero_mul]
  · rw [hb k j (lt_of_le_of_lt h hij), mul_zero]

theorem lower_mul_diag {A B : Mat15} (ha : ∀ i j, i < j → A i j = 0) (hb : ∀ i j, i < j → B i j = 0) (i : Fin 15) :
    (A * B) i i = A i i * B i i := by
  rw [Matrix.mul_apply, Finset.sum_eq_single i]
  · intro k _ hk
    rcases lt_or_gt_of_ne hk with h | h
    · rw [hb k i h, mul_zero]
    · rw [ha i k h, zero_mul]
  · intro h; exact absurd (Finset.mem_univ _) h

theorem lower_det_isUnit {A : Mat15} (hl : ∀ i j, i < j → A i j = 0) (hd : ∀ i, 0 < A i i) : IsUnit A.det := by
  rw [det_of_lowerTriangular A (fun i j hij => hl i j hij)]
  exact isUnit_iff_ne_zero.2 (Finset.prod_ne_zero_iff.2 fun i _ => (hd i).ne')

/-- The Cholesky factor is unique. -/
theorem cholesky_unique {A B : Mat15} (ha : ∀ i j, i < j → A i j = 0) (hb : ∀ i j, i < j → B i j = 0)
    (hda : ∀ i, 0 < A i i) (hdb : ∀ i, 0 < B i i) (h : A * Aᵀ = B * Bᵀ) : A = B := by
  have ua := lower_det_isUnit ha hda
  have ub := lower_det_isUnit hb hdb
  have uat : IsUnit Aᵀ.det := by rwa [det_transpose]
  -- `D = B⁻¹ A` is lower triangular, and equals `Bᵀ A⁻ᵀ`, which is upper triangular
  set D := B⁻¹ * A with hD
  have hDl : ∀ i j, i < j → D i j = 0 := lower_mul (lower_inv ub hb) ha
  have hDe : D * Dᵀ = 1 := by
    rw [hD, transpose_mul, Matrix.mul_assoc, ← Matrix.mul_assoc A, h, Matrix.mul_assoc, ← Matrix.mul_assoc B⁻¹,
      nonsing_inv_mul _ ub, Matrix.one_mul, ← transpose_mul, nonsing_inv_mul _ ub, transpose_one]
  have uD : IsUnit D.det := by
    rw [hD, det_mul]
    exact (isUnit_nonsing_inv_det B ub).mul ua
  have hDt : Dᵀ = D⁻¹ := by
    rw [← Matrix.one_mul Dᵀ, ← nonsing_inv_mul _ uD, Matrix.mul_assoc, hDe, Matrix.mul_one]
  have hDd : ∀ i j, i ≠ j → D i j = 0 := by
    intro i j hij
    rcases lt_or_gt_of_ne hij with h1 | h1
    · exact hDl i j h1
    · have := lower_inv uD hDl j i h1
      rw [← hDt] at this
      exact this
  have hDpos : ∀ i, 0 < D i i := by
    intro i
    have e : B * D = A := by rw [hD, ← Matrix.mul_assoc, mul_nonsing_inv _ ub, Matrix.one_mul]
    have := lower_mul_diag hb hDl i
    rw [e] at this
    have h1 := hda i
    rw [this] at h1
    exact (mul_pos_iff_of_pos_left (hdb i)).1 h1
  have hD1 : D = 1 := by
    ext i j
    by_cases hij : i = j
    · subst hij
      have := congrFun (congrFun hDe i) i
      rw [Matrix.mul_apply, Finset.sum_eq_single i (fun k _ hk => by rw [hDd i k (Ne.symm hk), zero_mul])
        (fun h => absurd (Finset.mem_univ _) h), transpose_apply, one_apply_eq] at this
      rw [one_apply_eq]
      nlinarith [hDpos i]
    · rw [hDd i j hij, one_apply_ne hij]
  rw [← Matrix.one_mul A, ← mul_nonsing_inv _ ub, Matrix.mul_assoc, ← hD, hD1, Matrix.mul_one]

theorem cholesky_exists (A : Mat15) (hA : A.PosDef) :
    ∃ L : Mat15, L * Lᵀ = A ∧ (∀ i j, i < j → L i j = 0) ∧ ∀ i, 0 < L i i := by
  have hinv : IsUnit (LDL.lowerInv hA).det := by
    have := LDL.invertibleLowerInv hA
    exact isUnit_det_of_invertible _
  set M := LDL.lower hA with hM
  have hMl : ∀ i j, i < j → M i j = 0 := lower_inv hinv (fun i j hij => LDL.lowerInv_triangular hA hij)
  have hMu : IsUnit M.det := isUnit_nonsing_inv_det _ hinv
  have hMd : ∀ i, M i i ≠ 0 := by
    rw [det_of_lowerTriangular M (fun i j hij => hMl i j hij)] at hMu
    intro i
    exact Finset.prod_ne_zero_iff.1 (isUnit_iff_ne_zero.1 hMu) i (Finset.mem_univ _)
  have hDpd : (LDL.diag hA).PosDef := by
    rw [LDL.diag_eq_lowerInv_conj]
    refine hA.mul_mul_conjTranspose_same ?_
    exact Matrix.vecMul_injective_of_isUnit ((Matrix.isUnit_iff_isUnit_det _).2 hinv)
  have hDpos : ∀ i, 0 < LDL.diagEntries hA i := by
    intro i
    have := hDpd.diag_pos (i := i)
    simpa [LDL.diag] using this
  have hfac := LDL.lower_conj_diag hA
  rw [conjTranspose_eq_transpose_of_trivial] at hfac
  let s : Fin 15 → ℝ := fun i => Real.sqrt (LDL.diagEntries hA i) * SignType.sign (M i i)
  have hs2 : ∀ i, s i * s i = LDL.diagEntries hA i := by
    intro i
    have h1 := Real.mul_self_sqrt (hDpos i).le
    have h2 : ((SignType.sign (M i i) : ℝ)) * SignType.sign (M i i) = 1 := by
      rcases lt_or_gt_of_ne (hMd i) with h | h
      · simp [sign_neg h]
      · simp [sign_pos h]
    show _ * _ * (_ * _) = _
    calc _ = (Real.sqrt (LDL.diagEntries hA i) * Real.sqrt (LDL.diagEntries hA i)) *
        ((SignType.sign (M i i) : ℝ) * SignType.sign (M i i)) := by ring
      _ = _ := by rw [h1, h2, mul_one]
  refine ⟨M * diagonal s, ?_, ?_, ?_⟩
  · rw [transpose_mul, diagonal_transpose, Matrix.mul_assoc, ← Matrix.mul_assoc (diagonal s), diagonal_mul_diagonal,
      ← Matrix.mul_assoc]
    have : diagonal (fun i => s i * s i) = LDL.diag hA := by
      unfold LDL.diag
      congr 1
      funext i
      exact hs2 i
    rw [this]
    exact hfac
  · intro i j hij
    rw [mul_diagonal, hMl i j hij, zero_mul]
  · intro i
    rw [mul_diagonal]
    have : 0 < Real.sqrt (LDL.diagEntries hA i) := Real.sqrt_pos.2 (hDpos i)
    rcases lt_or_gt_of_ne (hMd i) with h | h
    · simp only [s, sign_neg h]
      simp
      exact mul_neg_of_neg_of_pos h this
    · simp only [s, sign_pos h]
      simp
      exact mul_pos h this

/-- The parameter `Llt` of the UKF model exists. -/
noncomputable def Llt.some : Llt where
  L := fun A => open Classical in if h : A.PosDef then (cholesky_exists A h).choose else 0
  mul_transpose := fun A h => by
    rw [dif_pos h]; exact (cholesky_exists A h).choose_spec.1
  lower := fun A h => by
    rw [dif_pos h]; exact (cholesky_exists A h).choose_spec.2.1
  diag := fun A h => by
    rw [dif_pos h]; exact (cholesky_exists A h).choose_spec.2.2

theorem Llt.eq_of (llt : Llt) {B : Mat15} (hb : ∀ i j, i < j → B i j = 0) (hdb : ∀ i, 0 < B i i) : llt.L (B * Bᵀ) = B := by
  have hpd : (B * Bᵀ).PosDef := by
    have := PosDef.one (n := Fin 15) (R := ℝ)
    have h := this.mul_mul_conjTranspose_same (B := B)
      (Matrix.vecMul_injective_of_isUnit ((Matrix.isUnit_iff_isUnit_det _).2 (lower_det_isUnit hb hdb)))
    rwa [conjTranspose_eq_transpose_of_trivial, Matrix.mul_one] at h
  exact cholesky_unique (llt.lower _ hpd) hb (llt.diag _ hpd) hdb (llt.mul_transpose _ hpd)

end RL
