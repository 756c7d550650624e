import Verif.Props.Rescale
import Verif.Proofs.Ukf
/-! # The unscented filter in other units of length (helper lemmas for C107) -/

namespace RL
open Matrix

variable {l : ℝ}

theorem unitOf_pos (hl : 0 < l) (i : Fin 15) : 0 < unitOf l 1 i := by
  fin_cases i <;> simp [unitOf, hl]

theorem unitOf_angular {i : Fin 15} (h : angularIdx i) : unitOf l 1 i = 1 := by
  rcases h with rfl | rfl | rfl <;> rfl

theorem rescaled_angular {i : Fin 15} (h : angularIdx i) (x : State) : x.rescaled l 1 i = x i := by
  show unitOf l 1 i * x i = x i
  rw [unitOf_angular h, one_mul]

theorem rescaled_sub (x y : State) : x.rescaled l 1 - y.rescaled l 1 = (x - y).rescaled l 1 := by
  funext i
  show unitOf l 1 i * x i - unitOf l 1 i * y i = unitOf l 1 i * (x i - y i)
  ring

theorem rescaled_add (x y : State) : x.rescaled l 1 + y.rescaled l 1 = (x + y).rescaled l 1 := by
  funext i
  show unitOf l 1 i * x i + unitOf l 1 i * y i = unitOf l 1 i * (x i + y i)
  ring

theorem rescaled_mulVec (x : State) : x.rescaled l 1 = (diagonal (unitOf l 1)).mulVec x := by
  funext i
  rw [mulVec_diagonal]
  rfl

theorem llt_scaled (llt : Llt) (hl : 0 < l) {A : Mat15} (hA : A.PosDef) :
    llt.L (rescaleCov l 1 A) = diagonal (unitOf l 1) * llt.L A := by
  have hD : IsUnit (diagonal (unitOf l 1) : Mat15) := by
    rw [Matrix.isUnit_iff_isUnit_det, det_diagonal]
    exact isUnit_iff_ne_zero.2 (Finset.prod_ne_zero_iff.2 fun i _ => (unitOf_pos hl i).ne')
  have hpd : (rescaleCov l 1 A).PosDef := by
    rw [rescaleCov_eq]
    have := hA.mul_mul_conjTranspose_same (B := diagonal (unitOf l 1)) (by
      exact Matrix.vecMul_injective_of_isUnit hD)
    rwa [Matrix.diagonal_conjTranspose] at this
  have e : ∀ i j, (diagonal (unitOf l 1) * llt.L A) i j = unitOf l 1 i * llt.L A i j := fun i j => diagonal_mul _ _ i j
  refine cholesky_unique (llt.lower _ hpd) (fun i j hij => ?_) (llt.diag _ hpd) (fun i => ?_) ?_
  · rw [e, llt.lower A hA i j hij, mul_zero]
  · rw [e]
    exact mul_pos (unitOf_pos hl i) (llt.diag A hA i)
  · rw [llt.mul_transpose _ hpd, transpose_mul, diagonal_transpose, rescaleCov_eq]
    conv_lhs => rw [← llt.mul_transpose A hA]
    simp only [Matrix.mul_assoc]

theorem sigma_scaled (llt : Llt) (k : UkfConst) (hl : 0 < l) (x : State) {P : Mat15} (hP : ((15 + k.lam) • P).PosDef) (s : Sig) :
    sigmaPoints llt k (x.rescaled l 1) (rescaleCov l 1 P) s = (sigmaPoints llt k x P s).rescaled l 1 := by
  have h := llt_scaled llt hl hP
  rw [rescaleCov_smul] at h
  have hc : ∀ i, (fun r => llt.L ((15 + k.lam) • rescaleCov l 1 P) r i) =
      State.rescaled l 1 (fun r => llt.L ((15 + k.lam) • P) r i) := by
    intro i
    funext r
    rw [h, diagonal_mul]
    rfl
  rcases s with s | s | s
  · rfl
  · show x.rescaled l 1 + _ = State.rescaled l 1 (x + _)
    rw [hc, rescaled_add]
  · show x.rescaled l 1 - _ = State.rescaled l 1 (x - _)
    rw [hc, rescaled_sub]

theorem rescaled_sameScaled (x : State) : SameScaled l 1 x (x.rescaled l 1) := x.rescaled_same

theorem project_scaled (dt : ℝ) (x : State) : projectPoint dt (x.rescaled l 1) = (projectPoint dt x).rescaled l 1 := by
  funext i
  show ∑ j, transferF (x.rescaled l 1) dt i j * (unitOf l 1 j * x j) = unitOf l 1 i * ∑ j, transferF x dt i j * x j
  rw [Finset.mul_sum]
  refine Finset.sum_congr rfl fun j _ => ?_
  rw [← mul_assoc, transferF_scaled (Or.inl rfl) x.rescaled_same, mul_assoc]

theorem wmean_scaled (w : Sig → ℝ) (pts : Sig → State) (i : Fin 15) :
    ∑ s, w s * (pts s).rescaled l 1 i = unitOf l 1 i * ∑ s, w s * pts s i := by
  rw [Finset.mul_sum]
  refine Finset.sum_congr rfl fun s _ => ?_
  show w s * (unitOf l 1 i * pts s i) = _
  ring

theorem ukfMean_scaled (k : UkfConst) (pts : Sig → State) :
    ukfMean k (fun s => (pts s).rescaled l 1) = (ukfMean k pts).rescaled l 1 := by
  funext i
  show ukfMean k (fun s => (pts s).rescaled l 1) i = unitOf l 1 i * ukfMean k pts i
  unfold ukfMean
  by_cases hi : angularIdx i
  · rw [if_pos hi, if_pos hi, unitOf_angular hi, one_mul]
    simp only [rescaled_angular hi]
  · rw [if_neg hi, if_neg hi, wmean_scaled]

theorem wrapDiff_scaled (d : State) : wrapDiff (d.rescaled l 1) = (wrapDiff d).rescaled l 1 := by
  funext i
  show wrapDiff (d.rescaled l 1) i = unitOf l 1 i * wrapDiff d i
  unfold wrapDiff
  by_cases hi : angularIdx i
  · rw [if_pos hi, if_pos hi, unitOf_angular hi, one_mul, rescaled_angular hi]
  · rw [if_neg hi, if_neg hi]
    rfl

theorem ukfCovar_scaled (k : UkfConst) (pts : Sig → State) (x : State) :
    ukfCovar k (fun s => (pts s).rescaled l 1) (x.rescaled l 1) = rescaleCov l 1 (ukfCovar k pts x) := by
  ext i j
  unfold ukfCovar
  simp only [rescaled_sub, wrapDiff_scaled]
  show _ = unitOf l 1 i * _ * unitOf l 1 j
  simp only [Matrix.sum_apply, Matrix.smul_apply, vecMulVec_apply, smul_eq_mul, Finset.mul_sum, Finset.sum_mul]
  refine Finset.sum_congr rfl fun s _ => ?_
  show _ * (unitOf l 1 i * _ * (unitOf l 1 j * _)) = _
  ring

theorem wrap_scaled (x : State) : wrapStateAngles (x.rescaled l 1) = (wrapStateAngles x).rescaled l 1 := by
  funext i
  show wrapStateAngles (x.rescaled l 1) i = unitOf l 1 i * wrapStateAngles x i
  unfold wrapStateAngles
  by_cases hi : i = iRoll ∨ i = iPitch ∨ i = iYaw
  · rw [if_pos hi, if_pos hi, unitOf_angular hi, one_mul, rescaled_angular hi]
  · rw [if_neg hi, if_neg hi]
    rfl

/-- The sigma points kept, in other units. -/
def UkfMem.rescaled (l : ℝ) (m : UkfMem) : UkfMem := { m with pts := fun s => (m.pts s).rescaled l 1 }

/-- One prediction of the unscented filter in other units. -/
theorem predictU_scaled {p : FilterPar} (hd : p.dynamic = false) (llt : Llt) (k : UkfConst) (hl : 0 < l) (Q : Mat15)
    (u u' : Fin 6 → ℝ) (ct ref : Int) (dt : ℝ) (x : State) {P : Mat15} (hP : ((15 + k.lam) • P).PosDef) :
    Ukf.predict p llt k (rescaleCov l 1 Q) u' ct ref dt (x.rescaled l 1) (rescaleCov l 1 P) =
      (Ukf.predict p llt k Q u ct ref dt x P).map fun r => (r.1.rescaled l 1, rescaleCov l 1 r.2.1, r.2.2.rescaled l) := by
  have hq : ∀ (Q : Mat15) (y : State), noiseQ p Q y = Q := by
    intro Q y
    unfold noiseQ
    rw [hd]
    rfl
  have h4 : ∀ y : State, y.rescaled l 1 iPitch = y iPitch := fun y => rescaled_angular (Or.inr (Or.inl rfl)) y
  unfold Ukf.predict
  simp only [sigma_scaled llt k hl x hP, project_scaled, ukfMean_scaled, ukfCovar_scaled, hq, h4, wrap_scaled]
  split
  · rfl
  · rw [Option.map_some, rescaleCov_add, rescaleCov_smul]
    rfl

section Correct
variable {n : ℕ} (e : Fin n → Fin 15)

theorem predictedMeas_scaled (k : UkfConst) (pts : Sig → State) (i : Fin n) :
    predictedMeas e k (fun s => (pts s).rescaled l 1) i = unitOf l 1 (e i) * predictedMeas e k pts i := by
  unfold predictedMeas
  by_cases hi : angularIdx (e i)
  · rw [if_pos hi, if_pos hi, unitOf_angular hi, one_mul]
    simp only [rescaled_angular hi]
  · rw [if_neg hi, if_neg hi, wmean_scaled]

theorem measDiff_scaled (zh : Fin n → ℝ) (pt : State) (i : Fin n) :
    measDiff e (fun i => unitOf l 1 (e i) * zh i) (pt.rescaled l 1) i = unitOf l 1 (e i) * measDiff e zh pt i := by
  unfold measDiff
  by_cases hi : angularIdx (e i)
  · simp only [if_pos hi, unitOf_angular hi, rescaled_angular hi, one_mul]
  · rw [if_neg hi, if_neg hi]
    show unitOf l 1 (e i) * _ - _ = _
    ring

/-- The differences that the code normalises because some measured variable is an angle are differences of angles or of
angular velocities. -/
def OwnPlace : Prop := ∀ (r : Fin 15) (h : r.val < n), angularIdx (e ⟨r.val, h⟩) → r.val ∈ [3, 4, 5, 9, 10, 11]

variable {e}

theorem stateDiff_scaled (he : OwnPlace e) (d : State) (i : Fin 15) :
    stateDiff e (d.rescaled l 1) i = unitOf l 1 i * stateDiff e d i := by
  unfold stateDiff
  by_cases h : i.val < n
  · rw [dif_pos h, dif_pos h]
    by_cases ha : angularIdx (e ⟨i.val, h⟩)
    · have hu : unitOf l 1 i = 1 := by
        have := he i h ha
        revert this
        clear ha h
        fin_cases i <;> intro h <;> first | rfl | (simp at h)
      rw [if_pos ha, if_pos ha, hu, one_mul]
      show normalizeAngle (unitOf l 1 i * d i) = _
      rw [hu, one_mul]
    · rw [if_neg ha, if_neg ha]
      rfl
  · rw [dif_neg h, dif_neg h]
    rfl

/-- One correction of the unscented filter in other units. -/
theorem correctU_scaled (he : OwnPlace e) (hl : 0 < l) (k : UkfConst) (pts : Sig → State) (z z' : Fin 15 → ℝ)
    (hz : ∀ i, z' (e i) = unitOf l 1 (e i) * z (e i)) (R : Mat15)
    (hR : ∀ a, sanitize (unitOf l 1 (e a) * R (e a) (e a) * unitOf l 1 (e a)) =
      unitOf l 1 (e a) * sanitize (R (e a) (e a)) * unitOf l 1 (e a))
    (thr : Thresh) (x : State) (P : Mat15) :
    ukfCorrectAt e k (fun s => (pts s).rescaled l 1) z' (rescaleCov l 1 R) thr (x.rescaled l 1) (rescaleCov l 1 P) =
      (ukfCorrectAt e k pts z R thr x P).map fun r => (r.1.rescaled l 1, rescaleCov l 1 r.2.1, r.2.2) := by
  have hne : ∀ i, unitOf l 1 i ≠ 0 := fun i => (unitOf_pos hl i).ne'
  obtain ⟨T, hT⟩ : ∃ T : Mat15, T = diagonal (unitOf l 1) := ⟨_, rfl⟩
  obtain ⟨U, hU⟩ : ∃ U : Matrix (Fin n) (Fin n) ℝ, U = diagonal (fun a => unitOf l 1 (e a)) := ⟨_, rfl⟩
  obtain ⟨Ui, hUi⟩ : ∃ U : Matrix (Fin n) (Fin n) ℝ, U = diagonal (fun a => (unitOf l 1 (e a))⁻¹) := ⟨_, rfl⟩
  have UU : U * Ui = 1 := by
    rw [hU, hUi, diagonal_mul_diagonal, ← diagonal_one]
    exact congrArg _ (funext fun i => mul_inv_cancel₀ (hne _))
  have UU' : Ui * U = 1 := mul_eq_one_comm.1 UU
  have Tt : T.transpose = T := by rw [hT, diagonal_transpose]
  have Uit : Ui.transpose = Ui := by rw [hUi, diagonal_transpose]
  have hRc : ∀ M : Mat15, rescaleCov l 1 M = T * M * T := fun M => by rw [hT]; exact rescaleCov_eq M
  have hsR : subR e (rescaleCov l 1 R) = U * subR e R * U := by
    ext a b
    rw [hU, mul_diagonal, diagonal_mul]
    unfold subR rescaleCov
    simp only [Matrix.of_apply]
    split
    · rename_i hab; subst hab; exact hR a
    · rfl
  have hpm : predictedMeas e k (fun s => (pts s).rescaled l 1) = fun i => unitOf l 1 (e i) * predictedMeas e k pts i :=
    funext fun i => predictedMeas_scaled e k pts i
  have hM : measCovar e k (fun s => (pts s).rescaled l 1) = U * measCovar e k pts * U := by
    ext a b
    rw [hU, mul_diagonal, diagonal_mul]
    unfold measCovar
    simp only [hpm, Matrix.sum_apply, Matrix.smul_apply, vecMulVec_apply, smul_eq_mul, Finset.mul_sum, Finset.sum_mul,
      measDiff_scaled]
    exact Finset.sum_congr rfl fun s _ => by ring
  have hC : crossCovar e k (fun s => (pts s).rescaled l 1) (x.rescaled l 1) = T * crossCovar e k pts x * U := by
    ext a b
    rw [hU, hT, mul_diagonal, diagonal_mul]
    unfold crossCovar
    simp only [hpm, Matrix.sum_apply, Matrix.smul_apply, vecMulVec_apply, smul_eq_mul, Finset.mul_sum, Finset.sum_mul,
      measDiff_scaled, rescaled_sub, stateDiff_scaled he]
    exact Finset.sum_congr rfl fun s _ => by ring
  have hy : ukfInnovation e z' (predictedMeas e k (fun s => (pts s).rescaled l 1)) =
      U.mulVec (ukfInnovation e z (predictedMeas e k pts)) := by
    rw [hpm, hU]
    funext i
    rw [mulVec_diagonal]
    unfold ukfInnovation
    rw [hz]
    by_cases hi : angularIdx (e i)
    · simp only [if_pos hi, unitOf_angular hi, one_mul]
    · rw [if_neg hi, if_neg hi]
      ring
  have hdU : U.det ≠ 0 := by
    have : U.det * Ui.det = 1 := by rw [← det_mul, UU, det_one]
    intro h0
    rw [h0, zero_mul] at this
    exact zero_ne_one this
  unfold ukfCorrectAt
  dsimp only
  rw [hM, hC, hy, hsR, hRc]
  generalize measCovar e k pts = M
  generalize crossCovar e k pts x = C
  generalize ukfInnovation e z (predictedMeas e k pts) = y
  generalize subR e R = N
  have hS : U * M * U + U * N * U = U * (M + N) * U := by rw [Matrix.mul_add, Matrix.add_mul]
  rw [hS]
  have hdet : (U * (M + N) * U).det = 0 ↔ (M + N).det = 0 := by
    rw [det_mul, det_mul]
    simp [hdU]
  by_cases hd : (M + N).det = 0
  · rw [if_pos hd, if_pos (hdet.2 hd)]
    rfl
  rw [if_neg hd, if_neg fun h => hd (hdet.1 h)]
  have hinv : (U * (M + N) * U)⁻¹ = Ui * (M + N)⁻¹ * Ui := by
    apply Matrix.inv_eq_right_inv
    calc U * (M + N) * U * (Ui * (M + N)⁻¹ * Ui)
        = U * (M + N) * (U * Ui) * (M + N)⁻¹ * Ui := by simp only [Matrix.mul_assoc]
      _ = 1 := by
        rw [UU, Matrix.mul_one, Matrix.mul_assoc U, Matrix.mul_nonsing_inv _ (isUnit_iff_ne_zero.2 hd), Matrix.mul_one, UU]
  rw [hinv]
  generalize (M + N)⁻¹ = I
  have hK : T * C * U * (Ui * I * Ui) = T * (C * I) * Ui := by
    calc T * C * U * (Ui * I * Ui) = T * C * (U * Ui) * I * Ui := by simp only [Matrix.mul_assoc]
      _ = _ := by rw [UU, Matrix.mul_one]; simp only [Matrix.mul_assoc]
  rw [hK]
  have hmah : checkMahalanobis (U.mulVec y) (Ui * I * Ui) thr ↔ checkMahalanobis y I thr := by
    cases thr with
    | unlimited => exact Iff.rfl
    | sigmas k =>
      unfold checkMahalanobis
      have : U.mulVec y ⬝ᵥ (Ui * I * Ui).mulVec (U.mulVec y) = y ⬝ᵥ I.mulVec y := by
        rw [Matrix.mulVec_mulVec, Matrix.mul_assoc, UU', Matrix.mul_one, ← Matrix.mulVec_mulVec,
          Matrix.dotProduct_mulVec, ← Matrix.mulVec_transpose, Matrix.mulVec_mulVec, Uit, UU', Matrix.one_mulVec]
      rw [this]
  generalize C * I = K
  by_cases hm : checkMahalanobis y I thr
  · rw [if_pos hm, if_pos (hmah.2 hm), Option.map_some]
    have h1 : (T * K * Ui).mulVec (U.mulVec y) = State.rescaled l 1 (K.mulVec y) := by
      rw [Matrix.mulVec_mulVec, Matrix.mul_assoc, UU', Matrix.mul_one, ← Matrix.mulVec_mulVec, rescaled_mulVec, hT]
    have h2 : T * P * T - T * K * Ui * (U * M * U) * (T * K * Ui).transpose = T * (P - K * M * K.transpose) * T := by
      rw [transpose_mul, transpose_mul, Tt, Uit, Matrix.mul_sub, Matrix.sub_mul]
      congr 1
      calc T * K * Ui * (U * M * U) * (Ui * (K.transpose * T))
          = T * K * (Ui * U) * M * (U * Ui) * K.transpose * T := by simp only [Matrix.mul_assoc]
        _ = _ := by rw [UU, UU', Matrix.mul_one, Matrix.mul_one]; simp only [Matrix.mul_assoc]
    rw [h1, h2, rescaled_add, wrap_scaled, hRc]
  · rw [if_neg hm, if_neg fun h' => hm (hmah.1 h'), Option.map_some, hRc]

end Correct
end RL
