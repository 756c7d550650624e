import Verif.Model.Prepare
import Verif.Props.Rpy
import Mathlib.LinearAlgebra.Matrix.PosDef
import Mathlib.Data.Real.StarOrdered
/-! # Lemmas about the preparation of measurements -/

namespace RL
open Matrix Real

theorem rot6d_transpose (r : M3) : (rot6d r)ᵀ = rot6d rᵀ := by
  ext i j
  fin_cases i <;> fin_cases j <;> simp [rot6d]

theorem rot6d_mul (r s : M3) : rot6d r * rot6d s = rot6d (r * s) := by
  ext i j
  rw [Matrix.mul_apply, Fin.sum_univ_six]
  fin_cases i <;> fin_cases j <;> simp [rot6d, mul3] <;> rfl

theorem rot6d_one : rot6d 1 = 1 := by
  ext i j
  fin_cases i <;> fin_cases j <;> simp [rot6d, Matrix.one_apply]

theorem rot6d_mul_transpose {r : M3} (h : IsRot r) : rot6d r * (rot6d r)ᵀ = 1 := by
  rw [rot6d_transpose, rot6d_mul, h.1, rot6d_one]

theorem rot6d_transpose_mul {r : M3} (h : IsRot r) : (rot6d r)ᵀ * rot6d r = 1 := by
  rw [rot6d_transpose, rot6d_mul, h.transpose_mul, rot6d_one]

theorem trace_conj {n : Type} [Fintype n] [DecidableEq n] {q : Matrix n n ℝ} (h : qᵀ * q = 1) (c : Matrix n n ℝ) :
    (q * c * qᵀ).trace = c.trace := by
  rw [Matrix.mul_assoc, Matrix.trace_mul_comm, Matrix.mul_assoc, h, Matrix.mul_one]

theorem psd_conj {n m : Type} [Fintype n] [Fintype m] {c : Matrix n n ℝ} (h : c.PosSemidef) (q : Matrix m n ℝ) :
    (q * c * qᵀ).PosSemidef := by
  simpa [Matrix.conjTranspose_eq_transpose_of_trivial] using h.mul_mul_conjTranspose_same q

/-- The embedding of a block into the state. -/
def emb (n off : ℕ) : Matrix (Fin 15) (Fin n) ℝ := .of fun i k => if i.val = off + k.val then 1 else 0

theorem emb_transpose_mul {n off : ℕ} (h : off + n ≤ 15) : (emb n off)ᵀ * emb n off = 1 := by
  ext a b
  rw [Matrix.mul_apply, Finset.sum_eq_single (⟨off + a.val, by omega⟩ : Fin 15)]
  · simp only [Matrix.transpose_apply, emb, Matrix.of_apply, if_true, one_mul, Matrix.one_apply]
    by_cases e : a = b
    · simp [e]
    · have : a.val ≠ b.val := fun h => e (Fin.ext h)
      simp [e, this]
  · intro i _ hi
    have : i.val ≠ off + a.val := fun h => hi (Fin.ext h)
    simp [emb, this]
  · simp

theorem putBlock_eq {n off : ℕ} (h : off + n ≤ 15) (c : Matrix (Fin n) (Fin n) ℝ) :
    putBlock n off 0 c = emb n off * c * (emb n off)ᵀ := by
  have row : ∀ {κ : Type} (i : Fin 15) (M : Matrix (Fin n) κ ℝ) (l : κ), (emb n off * M) i l =
      if h : off ≤ i.val ∧ i.val < off + n then M ⟨i.val - off, by omega⟩ l else 0 := by
    intro κ i M l
    rw [Matrix.mul_apply]
    split
    · rename_i hi
      rw [Finset.sum_eq_single (⟨i.val - off, by omega⟩ : Fin n)]
      · have : i.val = off + (i.val - off) := by omega
        rw [emb, Matrix.of_apply, if_pos this, one_mul]
      · intro k _ hk
        have : i.val ≠ off + k.val := fun h => hk (Fin.ext (by simp; omega))
        simp [emb, this]
      · simp
    · rename_i hi
      refine Finset.sum_eq_zero fun k _ => ?_
      have : i.val ≠ off + k.val := fun h => hi ⟨by omega, by omega⟩
      simp [emb, this]
  ext i j
  have e : (emb n off * c * (emb n off)ᵀ) i j = (emb n off * (emb n off * c)ᵀ) j i := by
    rw [Matrix.mul_apply, Matrix.mul_apply]
    refine Finset.sum_congr rfl fun k _ => ?_
    simp only [Matrix.transpose_apply]
    ring
  refine Eq.trans ?_ e.symm
  rw [row]
  simp only [Matrix.transpose_apply, row, putBlock, Matrix.of_apply, Matrix.zero_apply]
  by_cases hi : off ≤ i.val ∧ i.val < off + n <;> by_cases hj : off ≤ j.val ∧ j.val < off + n <;> simp [hi, hj]

theorem putBlock_psd {n off : ℕ} (h : off + n ≤ 15) {c : Matrix (Fin n) (Fin n) ℝ} (hc : c.PosSemidef) :
    (putBlock n off 0 c).PosSemidef := by
  rw [putBlock_eq h]
  exact psd_conj hc _

theorem putBlock_trace {n off : ℕ} (h : off + n ≤ 15) (c : Matrix (Fin n) (Fin n) ℝ) :
    (putBlock n off 0 c).trace = c.trace := by
  rw [putBlock_eq h, Matrix.mul_assoc, Matrix.trace_mul_comm, Matrix.mul_assoc, emb_transpose_mul h, Matrix.mul_one]

/-- The matrix in a message is stored row by row. -/
theorem copyCov6_copyOut6 (m : M6) : copyCov6 (copyOut6 m) = m := by
  ext i j
  simp only [copyCov6, copyOut6, Matrix.of_apply]
  have e1 : (⟨(6 * i.val + j.val) / 6, by omega⟩ : Fin 6) = i := Fin.ext (by simp; omega)
  have e2 : (⟨(6 * i.val + j.val) % 6, by omega⟩ : Fin 6) = j := Fin.ext (by simp)
  rw [e1, e2]

theorem mulDbl_fin (m : M3) (v : V3) (i : Fin 3) : mulDbl m (fun k => .fin (v k)) i = .fin (m.mulVec v i) := by
  simp [mulDbl, Dbl.smul, Dbl.add, mulVec3]

/-- The selection after a rotation that leaves every row of selected columns long enough. -/
theorem maskAxes_eq (r : M3) (u : Fin 3 → Bool) (i : Fin 3) :
    maskAxes r u i = true ↔ (1e-6 : ℝ) ≤ √(∑ j, if u j then r i j ^ 2 else 0) := by
  unfold maskAxes
  simp only [decide_eq_true_eq, Matrix.mul_diagonal, ge_iff_le]
  rw [Fin.sum_univ_three]
  have e : ∀ j, (r i j * if u j = true then 1 else 0) * (r i j * if u j = true then 1 else 0) =
      if u j = true then r i j ^ 2 else 0 := by
    intro j
    cases u j <;> simp; ring
  rw [e, e, e]

end RL
