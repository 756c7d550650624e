import Verif.Proofs.Upright
import Verif.Props.Definite
/-! # Measurements of a sensor that stands upright are proper, in 2D mode -/

namespace RL
open Matrix Body

theorem quad_add_diag (A : Mat15) (k v : Fin 15 → ℝ) : v ⬝ᵥ ((A + diagonal k) *ᵥ v) = v ⬝ᵥ (A *ᵥ v) + ∑ i, k i * v i ^ 2 := by
  rw [add_mulVec, dotProduct_add]
  congr 1
  simp only [dotProduct, mulVec_diagonal]
  exact Finset.sum_congr rfl fun i _ => by ring

/-- The covariance with its floor. -/
theorem subR_floored {n : ℕ} {e : Fin n → Fin 15} (he : Function.Injective e) (R : Mat15) :
    subR e R = (R + diagonal fun i => sanitize (R i i) - R i i).submatrix e e := by
  ext i j
  unfold subR
  rw [of_apply, submatrix_apply, Matrix.add_apply]
  by_cases hij : i = j
  · subst hij
    rw [if_pos rfl, diagonal_apply_eq]
    ring
  · rw [if_neg hij, diagonal_apply_ne _ (fun h => hij (he h)), add_zero]

theorem indices_inj (m : Payload) : Function.Injective m.indices.get := by
  apply List.nodup_iff_injective_get.1
  exact (List.nodup_finRange 15).filter _

/-- A measurement of one block. -/
theorem proper_block {p : Payload} {n off : ℕ} (ho : off + n ≤ 15) {C : Matrix (Fin n) (Fin n) ℝ} (hC : C.PosDef)
    (hR : p.R = putBlock n off 0 C) (hl : LevelR p.R) : (forceTwoD p).Proper := by
  have hpsd : (forceTwoD p).R.PosSemidef := forceTwoD_psd hl (by rw [hR]; exact putBlock_psd ho hC.posSemidef)
  refine ⟨hpsd.submatrix _, ?_⟩
  rw [subR_floored (indices_inj _)]
  set F := (forceTwoD p).R with hF
  have hk : ∀ i, 0 ≤ sanitize (F i i) - F i i := fun i => sub_nonneg.2 (sanitize_ge _)
  have hM : (F + diagonal fun i => sanitize (F i i) - F i i).PosDef := by
    have hs : (F + diagonal fun i => sanitize (F i i) - F i i).PosSemidef := hpsd.add (PosSemidef.diagonal hk)
    refine PosDef.of_dotProduct_mulVec_pos hs.isHermitian fun v hv => ?_
    refine lt_of_le_of_ne (hs.dotProduct_mulVec_nonneg v) fun h0 => hv ?_
    rw [star_trivial, quad_add_diag] at h0
    have hFv := hpsd.dotProduct_mulVec_nonneg v
    rw [star_trivial] at hFv
    have hsum : 0 ≤ ∑ i, (sanitize (F i i) - F i i) * v i ^ 2 := Finset.sum_nonneg fun i _ => mul_nonneg (hk i) (sq_nonneg _)
    have e1 : v ⬝ᵥ (F *ᵥ v) = 0 := by linarith
    have e2 : ∑ i, (sanitize (F i i) - F i i) * v i ^ 2 = 0 := by linarith
    have e2' := (Finset.sum_eq_zero_iff_of_nonneg fun i _ => mul_nonneg (hk i) (sq_nonneg _)).1 e2
    set D : Mat15 := diagonal (fun i => if offPlane i then (0 : ℝ) else 1) with hD
    have eF : F = D * p.R * Dᵀ + diagonal fun i => if offPlane i then (1e-6 : ℝ) else 0 := forceTwoD_split hl
    rw [eF, quad_add_diag] at e1
    have h1 : 0 ≤ v ⬝ᵥ ((D * p.R * Dᵀ) *ᵥ v) := by
      have := (psd_conj (show p.R.PosSemidef by rw [hR]; exact putBlock_psd ho hC.posSemidef) D).dotProduct_mulVec_nonneg v
      rwa [star_trivial] at this
    have hko : ∀ i : Fin 15, 0 ≤ (if offPlane i then (1e-6 : ℝ) else 0) := by
      intro i
      split <;> norm_num
    have h2 : 0 ≤ ∑ i, (if offPlane i then (1e-6 : ℝ) else 0) * v i ^ 2 :=
      Finset.sum_nonneg fun i _ => mul_nonneg (hko i) (sq_nonneg _)
    have e3 : v ⬝ᵥ ((D * p.R * Dᵀ) *ᵥ v) = 0 := by linarith
    have e4 : ∑ i, (if offPlane i then (1e-6 : ℝ) else 0) * v i ^ 2 = 0 := by linarith
    have e4' := (Finset.sum_eq_zero_iff_of_nonneg fun i _ => mul_nonneg (hko i) (sq_nonneg _)).1 e4
    have voff : ∀ i, offPlane i = true → v i = 0 := by
      intro i hi
      have := e4' i (Finset.mem_univ _)
      rw [if_pos hi] at this
      rcases mul_eq_zero.1 this with h | h
      · norm_num at h
      · exact pow_eq_zero_iff (two_ne_zero) |>.1 h
    have hw : (emb n off)ᵀ *ᵥ (Dᵀ *ᵥ v) = 0 := by
      by_contra hne
      have hpos := hC.dotProduct_mulVec_pos hne
      rw [star_trivial] at hpos
      rw [hR, putBlock_eq ho] at e3
      have : v ⬝ᵥ ((D * (emb n off * C * (emb n off)ᵀ) * Dᵀ) *ᵥ v) =
          ((emb n off)ᵀ *ᵥ (Dᵀ *ᵥ v)) ⬝ᵥ (C *ᵥ ((emb n off)ᵀ *ᵥ (Dᵀ *ᵥ v))) := by
        rw [show D * (emb n off * C * (emb n off)ᵀ) * Dᵀ = (D * emb n off) * (C * ((emb n off)ᵀ * Dᵀ)) by
          simp only [Matrix.mul_assoc], ← mulVec_mulVec, dotProduct_mulVec, ← mulVec_mulVec, ← mulVec_mulVec]
        congr 1
        rw [← mulVec_transpose, transpose_mul, ← mulVec_mulVec]
      rw [this] at e3
      exact hpos.ne' e3
    have hDv : Dᵀ *ᵥ v = v := by
      funext i
      rw [hD, diagonal_transpose, mulVec_diagonal]
      cases hi : offPlane i with
      | true => rw [voff i hi]; simp
      | false => simp
    rw [hDv] at hw
    funext i
    by_cases hb : off ≤ i.val ∧ i.val < off + n
    · have := congrFun hw ⟨i.val - off, by omega⟩
      simp only [mulVec, dotProduct, transpose_apply, emb, of_apply] at this
      rw [Finset.sum_eq_single i] at this
      · rw [if_pos (by omega), one_mul] at this
        exact this
      · intro j _ hj
        rw [if_neg (fun h => hj (Fin.ext (by have : j.val = off + (i.val - off) := h; omega))), zero_mul]
      · intro h
        exact absurd (Finset.mem_univ i) h
    · cases hi : offPlane i with
      | true => exact voff i hi
      | false =>
        have hz : F i i = 0 := by
          show (if i = i ∧ offPlane i = true then (1e-6 : ℝ) else p.R i i) = 0
          rw [if_neg (by simp [hi]), hR]
          simp only [putBlock, of_apply]
          rw [dif_neg (fun h => hb h.1)]
          rfl
        have := e2' i (Finset.mem_univ _)
        rw [hz] at this
        rcases mul_eq_zero.1 this with h | h
        · norm_num [sanitize] at h
        · exact pow_eq_zero_iff (two_ne_zero) |>.1 h
  exact (posDef_submatrix_inj hM _ (indices_inj _)).det_pos.ne'

end RL
