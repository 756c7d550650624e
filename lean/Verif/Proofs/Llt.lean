import Verif.Model.Llt
import Verif.Proofs.Ukf
/-! # Eigen's algorithm factorises positive definite matrices -/

namespace RL
open Matrix

/-- Columns before `k` are those of the factor, the others untouched (lower triangle). -/
def LltInv (A B M : Mat15) (k : ℕ) : Prop := ∀ i j : Fin 15, j ≤ i → M i j = if j.val < k then B i j else A i j

theorem sum_lower {B : Mat15} (hl : ∀ i j, i < j → B i j = 0) (i k : Fin 15) (hk : k ≤ i) :
    (B * Bᵀ) i k = ∑ j ∈ Finset.univ.filter (· < k), B i j * B k j + B i k * B k k := by
  rw [Matrix.mul_apply]
  have h1 : ∑ j, B i j * Bᵀ j k = ∑ j ∈ Finset.univ.filter (· ≤ k), B i j * B k j := by
    symm
    refine Finset.sum_subset (Finset.filter_subset _ _) fun j _ hj => ?_
    have : k < j := by
      simpa using hj
    rw [hl k j this, mul_zero]
  rw [h1]
  have h2 : Finset.univ.filter (· ≤ k) = insert k (Finset.univ.filter (· < k)) := by
    ext j
    simp [le_iff_lt_or_eq, or_comm]
  rw [h2, Finset.sum_insert (by simp)]
  ring

theorem lltInv_pivot {A B M : Mat15} (hB : B * Bᵀ = A) (hl : ∀ i j, i < j → B i j = 0) (k : Fin 15) (h : LltInv A B M k.val) :
    lltPivot M k = B k k ^ 2 := by
  unfold lltPivot
  have h1 : M k k = A k k := by rw [h k k le_rfl, if_neg (lt_irrefl _)]
  have h2 : ∑ j ∈ Finset.univ.filter (· < k), M k j ^ 2 = ∑ j ∈ Finset.univ.filter (· < k), B k j * B k j := by
    refine Finset.sum_congr rfl fun j hj => ?_
    have hj : j < k := by simpa using hj
    rw [h k j hj.le, if_pos (show j.val < k.val from hj)]
    ring
  rw [h1, h2, ← hB, sum_lower hl k k le_rfl]
  ring

theorem lltInv_step {A B M : Mat15} (hB : B * Bᵀ = A) (hl : ∀ i j, i < j → B i j = 0) (hd : ∀ i, 0 < B i i) (k : Fin 15)
    (h : LltInv A B M k.val) : LltInv A B (lltColumn M k) (k.val + 1) := by
  intro i j hij
  have hp := lltInv_pivot hB hl k h
  have hs : Real.sqrt (lltPivot M k) = B k k := by rw [hp, Real.sqrt_sq (hd k).le]
  simp only [lltColumn, of_apply, hs]
  by_cases hjk : j = k
  · subst hjk
    rw [if_pos rfl, if_pos (Nat.lt_succ_self _)]
    by_cases hi : i = j
    · subst hi
      rw [if_pos rfl]
    · have hlt : j < i := lt_of_le_of_ne hij (Ne.symm hi)
      rw [if_neg hi, if_pos hlt]
      have h1 : M i j = A i j := by rw [h i j hij, if_neg (lt_irrefl _)]
      have h2 : ∑ l ∈ Finset.univ.filter (· < j), M i l * M j l = ∑ l ∈ Finset.univ.filter (· < j), B i l * B j l := by
        refine Finset.sum_congr rfl fun l hlj => ?_
        have hlj : l < j := by simpa using hlj
        rw [h i l (hlj.le.trans hij), h j l hlj.le, if_pos (show l.val < j.val from hlj), if_pos (show l.val < j.val from hlj)]
      rw [h1, h2, ← hB, sum_lower hl i j hij, add_sub_cancel_left]
      exact mul_div_cancel_right₀ _ (hd j).ne'
  · rw [if_neg hjk, h i j hij]
    have : j.val ≠ k.val := fun e => hjk (Fin.ext e)
    by_cases hj : j.val < k.val
    · rw [if_pos hj, if_pos (by omega)]
    · rw [if_neg hj, if_neg (by omega)]

theorem lltLoop_inv {A B : Mat15} (hB : B * Bᵀ = A) (hl : ∀ i j, i < j → B i j = 0) (hd : ∀ i, 0 < B i i) (n k : ℕ)
    (hn : n + k = 15) (M : Mat15) (h : LltInv A B M k) : LltInv A B (lltLoop k M) 15 := by
  induction n generalizing k M with
  | zero =>
    obtain rfl : k = 15 := by omega
    rw [lltLoop, dif_neg (by omega)]
    exact h
  | succ n ih =>
    have hk : k < 15 := by omega
    rw [lltLoop, dif_pos hk, if_neg ?_]
    · exact ih (k + 1) (by omega) _ (lltInv_step hB hl hd ⟨k, hk⟩ h)
    · rw [lltInv_pivot hB hl ⟨k, hk⟩ h, not_le]
      have := hd ⟨k, hk⟩
      positivity

theorem eigenL_of {A B : Mat15} (hB : B * Bᵀ = A) (hl : ∀ i j, i < j → B i j = 0) (hd : ∀ i, 0 < B i i) : eigenL A = B := by
  have h := lltLoop_inv hB hl hd 15 0 rfl A (fun i j _ => by simp)
  ext i j
  simp only [eigenL, of_apply]
  by_cases hij : j ≤ i
  · rw [if_pos hij, h i j hij, if_pos j.isLt]
  · rw [if_neg hij, hl i j (not_le.1 hij)]

/-- Eigen's factorisation is one that the model of the UKF admits. -/
noncomputable def eigenLlt : Llt where
  L := eigenL
  mul_transpose := fun A h => by
    obtain ⟨B, hB, hl, hd⟩ := cholesky_exists A h
    rw [eigenL_of hB hl hd, hB]
  lower := fun A h => by
    obtain ⟨B, hB, hl, hd⟩ := cholesky_exists A h
    rw [eigenL_of hB hl hd]
    exact hl
  diag := fun A h => by
    obtain ⟨B, hB, hl, hd⟩ := cholesky_exists A h
    rw [eigenL_of hB hl hd]
    exact hd

/-! ## Diagonal matrices -/

/-- What the loop has made of a diagonal matrix after `k` columns. -/
noncomputable def partRoot (d : Fin 15 → ℝ) (k : ℕ) : Mat15 := diagonal fun i => if i.val < k then Real.sqrt (d i) else d i

theorem partRoot_pivot (d : Fin 15 → ℝ) (k : Fin 15) : lltPivot (partRoot d k.val) k = d k := by
  unfold lltPivot
  rw [Finset.sum_eq_zero, sub_zero]
  · rw [partRoot, diagonal_apply_eq, if_neg (lt_irrefl _)]
  · intro j hj
    have hj : j < k := by simpa using hj
    rw [partRoot, diagonal_apply_ne _ hj.ne', zero_pow two_ne_zero]

theorem partRoot_step (d : Fin 15 → ℝ) (k : Fin 15) : lltColumn (partRoot d k.val) k = partRoot d (k.val + 1) := by
  ext i j
  simp only [lltColumn, of_apply, partRoot_pivot]
  by_cases hjk : j = k
  · subst hjk
    rw [if_pos rfl]
    by_cases hi : i = j
    · subst hi
      rw [if_pos rfl, partRoot, diagonal_apply_eq, if_pos (Nat.lt_succ_self _)]
    · rw [if_neg hi, partRoot, partRoot, diagonal_apply_ne _ hi, diagonal_apply_ne _ hi]
      split
      · rw [Finset.sum_eq_zero]
        · simp
        · intro l hl
          have hl : l < j := by simpa using hl
          rw [diagonal_apply_ne _ hl.ne', mul_zero]
      · rfl
  · rw [if_neg hjk]
    by_cases hi : i = j
    · subst hi
      have : i.val ≠ k.val := fun e => hjk (Fin.ext e)
      rw [partRoot, partRoot, diagonal_apply_eq, diagonal_apply_eq]
      by_cases h : i.val < k.val
      · rw [if_pos h, if_pos (by omega)]
      · rw [if_neg h, if_neg (by omega)]
    · rw [partRoot, partRoot, diagonal_apply_ne _ hi, diagonal_apply_ne _ hi]

theorem partRoot_loop (d : Fin 15 → ℝ) (z : Fin 15) (hz : d z ≤ 0) (hp : ∀ i < z, 0 < d i) (n k : ℕ) (hn : n + k = z.val) :
    lltLoop k (partRoot d k) = partRoot d z.val := by
  induction n generalizing k with
  | zero =>
    obtain rfl : k = z.val := by omega
    rw [lltLoop, dif_pos z.isLt, if_pos]
    rw [partRoot_pivot d z]
    exact hz
  | succ n ih =>
    have hk : k < 15 := by omega
    rw [lltLoop, dif_pos hk, if_neg, partRoot_step d ⟨k, hk⟩, ih (k + 1) (by omega)]
    rw [partRoot_pivot d ⟨k, hk⟩, not_le]
    exact hp ⟨k, hk⟩ (by show k < z.val; omega)

/-- A diagonal matrix with an entry that is not positive: the square roots are taken before it, and not from it on. -/
theorem eigenL_diagonal (d : Fin 15 → ℝ) (z : Fin 15) (hz : d z ≤ 0) (hp : ∀ i < z, 0 < d i) :
    eigenL (diagonal d) = diagonal fun i => if i < z then Real.sqrt (d i) else d i := by
  have h := partRoot_loop d z hz hp z.val 0 rfl
  have h0 : partRoot d 0 = diagonal d := by simp [partRoot]
  rw [h0] at h
  ext i j
  simp only [eigenL, of_apply, h]
  by_cases hi : i = j
  · subst hi
    rw [if_pos le_rfl, partRoot, diagonal_apply_eq, diagonal_apply_eq]
    rfl
  · rw [partRoot, diagonal_apply_ne _ hi, diagonal_apply_ne _ hi]
    split <;> rfl

end RL
