import Verif.Model.Ekf
import Verif.Proofs.Kalman
import Mathlib.LinearAlgebra.Matrix.Block
/-! # Helper lemmas about the covariances of the EKF -/

namespace RL
open Matrix

/-- The block of the measurement covariance over the selected variables is a covariance. -/
def Payload.GoodR (m : Payload) : Prop :=
  (m.R.submatrix (fun i : {i // m.upd i = true} => i.1) (fun i => i.1)).PosSemidef

theorem Payload.indices_upd (m : Payload) (i : Fin m.indices.length) : m.upd (m.indices.get i) = true := by
  have : m.indices.get i ∈ m.indices := List.get_mem _ _
  have h := (List.mem_filter.1 this).2
  simp only [Bool.and_eq_true] at h
  exact h.1.1

theorem Payload.GoodR.sub {m : Payload} (h : m.GoodR) : (m.R.submatrix m.indices.get m.indices.get).PosSemidef :=
  h.submatrix (fun i : Fin m.indices.length => (⟨m.indices.get i, m.indices_upd i⟩ : {i // m.upd i = true}))

theorem sanitize_ge (v : ℝ) : v ≤ sanitize v := by
  unfold sanitize
  dsimp only
  split_ifs with h1 h2 h2
  · exact h1.le.trans (by norm_num)
  · exact h1.le.trans (abs_nonneg v)
  · exact h2.le
  · exact le_rfl

theorem subR_eq {n : ℕ} (e : Fin n → Fin 15) (R : Mat15) :
    subR e R = R.submatrix e e + diagonal (fun i => sanitize (R (e i) (e i)) - R (e i) (e i)) := by
  ext i j
  by_cases h : i = j
  · subst h; simp [subR]
  · simp [subR, h]

/-- The sanitised block is a covariance when the block was one. -/
theorem subR_psd {n : ℕ} {e : Fin n → Fin 15} {R : Mat15} (h : (R.submatrix e e).PosSemidef) : (subR e R).PosSemidef := by
  rw [subR_eq]
  exact psd_add_diagonal h _ (fun i => by linarith [sanitize_ge (R (e i) (e i))])

/-- A covariance block extended by zeros is a covariance. -/
theorem psd_mask {ι : Type} [Fintype ι] [DecidableEq ι] (p : ι → Bool) (R : Matrix ι ι ℝ)
    (h : (R.submatrix (fun i : {i // p i = true} => i.1) (fun i => i.1)).PosSemidef) :
    (Matrix.of fun i j => if p i && p j then R i j else 0).PosSemidef := by
  let B : Matrix ι {i // p i = true} ℝ := Matrix.of fun i s => if i = s.1 then 1 else 0
  have e : (Matrix.of fun i j => if p i && p j then R i j else 0) =
      B * (R.submatrix (fun i : {i // p i = true} => i.1) (fun i => i.1)) * Bᵀ := by
    have hB : ∀ (i : ι) (f : {i // p i = true} → ℝ), ∑ s, B i s * f s = if h : p i = true then f ⟨i, h⟩ else 0 := by
      intro i f
      by_cases hp : p i = true
      · rw [dif_pos hp, Finset.sum_eq_single ⟨i, hp⟩]
        · simp [B]
        · intro s _ hs
          have : i ≠ s.1 := fun h => hs (Subtype.ext h.symm)
          simp [B, this]
        · intro h'; exact absurd (Finset.mem_univ _) h'
      · rw [dif_neg hp]
        refine Finset.sum_eq_zero (fun s _ => ?_)
        have : i ≠ s.1 := fun h => hp (h ▸ s.2)
        simp [B, this]
    ext i j
    rw [Matrix.mul_apply]
    simp only [Matrix.transpose_apply]
    have : ∀ s, (B * (R.submatrix (fun i : {i // p i = true} => i.1) (fun i => i.1))) i s * B j s =
        B j s * (if h : p i = true then R i s.1 else 0) := by
      intro s
      rw [Matrix.mul_apply, hB, mul_comm]
      rfl
    rw [Finset.sum_congr rfl (fun s _ => this s), hB]
    by_cases h1 : p i = true <;> by_cases h2 : p j = true <;> simp [h1, h2]
  rw [e]
  exact psd_congr h B

/-- Initialising on top of an uncorrelated covariance gives a covariance. -/
theorem initCov_psd {m : Payload} (h : m.GoodR) {P : Mat15} (hP : ∀ i, 0 ≤ P i i) (hd : ∀ i j, i ≠ j → P i j = 0) :
    (initCov m P).PosSemidef := by
  have e : initCov m P = (Matrix.of fun i j => if m.upd i && m.upd j then m.R i j else 0) +
      diagonal (fun i => if m.upd i then 0 else P i i) := by
    ext i j
    simp only [initCov, Matrix.of_apply, Matrix.add_apply, Matrix.diagonal_apply]
    by_cases hij : i = j
    · subst hij
      by_cases h1 : m.upd i = true <;> simp [h1]
    · by_cases h1 : m.upd i = true <;> by_cases h2 : m.upd j = true <;> simp [h1, h2, hij, hd i j hij]
  rw [e]
  refine psd_add_diagonal (psd_mask m.upd m.R h) _ (fun i => ?_)
  split
  · exact le_rfl
  · exact hP i

/-- Process noise without correlation between the pose block and the rest. -/
def NoCross (Q : Mat15) : Prop := ∀ i j : Fin 15, (i.val < 6 ∧ ¬ j.val < 6) ∨ (¬ i.val < 6 ∧ j.val < 6) → Q i j = 0

theorem writeDyn_eq (Q : Mat15) (x : State) (h : NoCross Q) :
    ∃ d : Fin 15 → ℝ, writeDyn Q Q x = diagonal d * Q * (diagonal d)ᵀ := by
  refine ⟨fun i => if i.val < 6 then Real.sqrt (∑ c : Fin 6, x (velIdx c) ^ 2) else 1, ?_⟩
  ext i j
  simp only [writeDyn, diagonal_transpose, Matrix.mul_diagonal, Matrix.diagonal_mul, Matrix.of_apply]
  by_cases h1 : i.val < 6 <;> by_cases h2 : j.val < 6 <;> simp only [h1, h2, and_self, and_true, and_false, if_true, if_false]
  · rw [h i j (Or.inl ⟨h1, h2⟩)]; simp
  · rw [h i j (Or.inr ⟨h1, h2⟩)]; simp
  · simp

/-- The noise used in a prediction is a covariance. -/
theorem noiseQ_psd {p : FilterPar} {Q : Mat15} (hQ : Q.PosSemidef) (hd : p.dynamic = true → NoCross Q) (x : State) :
    (noiseQ p Q x).PosSemidef := by
  unfold noiseQ
  split
  · rename_i h
    obtain ⟨d, e⟩ := writeDyn_eq Q x (hd h)
    rw [e]
    exact psd_congr hQ _
  · exact hQ

theorem predict_psd {p : FilterPar} {Q : Mat15} (hQ : Q.PosSemidef) (hd : p.dynamic = true → NoCross Q)
    {ctl : Fin 6 → ℝ} {ctlTime ref : Int} {dt : ℝ} (hdt : 0 ≤ dt) {x x' : State} {P P' : Mat15} (hP : P.PosSemidef)
    (h : Ekf.predict p Q ctl ctlTime ref dt x P = some (x', P')) : P'.PosSemidef := by
  unfold Ekf.predict at h
  dsimp only at h
  split at h
  · cases h
  · simp only [Option.some.injEq, Prod.mk.injEq] at h
    rw [← h.2]
    exact (psd_congr hP _).add ((noiseQ_psd hQ hd x).smul hdt)

theorem correctAt_psd {n : ℕ} {e : Fin n → Fin 15} {z : Fin 15 → ℝ} {R : Mat15} {thr : Thresh} {x x' : State}
    {P P' : Mat15} (hR : (R.submatrix e e).PosSemidef) (hP : P.PosSemidef)
    (h : correctAt e z R thr x P = some (x', P')) : P'.PosSemidef := by
  unfold correctAt at h
  split at h
  · cases h
  · split at h
    · simp only [Option.some.injEq, Prod.mk.injEq] at h
      rw [← h.2]
      exact joseph_psd hP (subR_psd hR) _ _
    · simp only [Option.some.injEq, Prod.mk.injEq] at h
      rw [← h.2]; exact hP

end RL
