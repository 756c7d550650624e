import Verif.Props.Ukf
/-!
# The unscented filter: correction (C17), angular differences (C20)
-/

namespace RL
open Matrix Real

/-! ## C20: which differences are normalised -/

/-- What C20 asks for: the measured angular components are normalised, all others are left alone. -/
noncomputable def properDiff {n : ℕ} (e : Fin n → Fin 15) (d : State) : State :=
  open Classical in fun r => if angular r ∧ ∃ i, e i = r then toIocMod (by positivity : 0 < 2 * π) (-π) (d r) else d r

/-- C20, partial: right when every measured angle sits at the position of its own state index in the list of measured
variables and no other measured variable does, for example when the whole pose is measured.  Missing because false:
`C20_normalises_position`. -/
theorem C20_normalised_partial {n : ℕ} (e : Fin n → Fin 15) (he : ∀ i, angular (e i) → (e i).val = i.val) (d : State) :
    stateDiff e d = properDiff e d := by
  classical
  funext r
  unfold stateDiff properDiff
  by_cases hr : r.val < n
  · rw [dif_pos hr]
    by_cases ha : angularIdx (e ⟨r.val, hr⟩)
    · have h1 := he ⟨r.val, hr⟩ ha
      have h2 : e ⟨r.val, hr⟩ = r := Fin.ext h1
      rw [if_pos ha, if_pos ⟨h2 ▸ ha, _, h2⟩, normalizeAngle_eq_toIocMod]
    · rw [if_neg ha, if_neg]
      rintro ⟨hra, i, hi⟩
      have h1 := he i (hi ▸ hra)
      rw [hi] at h1
      have : i = ⟨r.val, hr⟩ := Fin.ext h1.symm
      exact ha (this ▸ hi ▸ hra)
  · rw [dif_neg hr, if_neg]
    rintro ⟨hra, i, hi⟩
    have h1 := he i (hi ▸ hra)
    rw [hi] at h1
    exact hr (h1 ▸ i.isLt)

/-- C20: the other differences the filter takes (of sigma points and predicted measurement, of the measurement and its
prediction, and, in a prediction, of sigma points and predicted state) are normalised exactly in their angles. -/
theorem C20_other_differences :
    (∀ {n : ℕ} (e : Fin n → Fin 15) (zhat : Fin n → ℝ) (pt : State) (i : Fin n), measDiff e zhat pt i =
      open Classical in if angular (e i) then toIocMod (by positivity : 0 < 2 * π) (-π) (pt (e i) - zhat i) else pt (e i) - zhat i) ∧
    (∀ {n : ℕ} (e : Fin n → Fin 15) (z : State) (zhat : Fin n → ℝ) (i : Fin n), ukfInnovation e z zhat i =
      open Classical in if angular (e i) then toIocMod (by positivity : 0 < 2 * π) (-π) (z (e i) - zhat i) else z (e i) - zhat i) ∧
    (∀ (d : State) (i : Fin 15), wrapDiff d i =
      open Classical in if angular i then toIocMod (by positivity : 0 < 2 * π) (-π) (d i) else d i) := by
  classical
  refine ⟨fun e zhat pt i => ?_, fun e z zhat i => ?_, fun d i => ?_⟩
  · unfold measDiff
    by_cases h : angular (e i)
    · rw [if_pos h, if_pos (show angularIdx (e i) from h), normalizeAngle_eq_toIocMod]
    · rw [if_neg h, if_neg (show ¬ angularIdx (e i) from h)]
  · unfold ukfInnovation
    by_cases h : angular (e i)
    · rw [if_pos h, if_pos (show angularIdx (e i) from h), normalizeAngle_eq_toIocMod]
    · rw [if_neg h, if_neg (show ¬ angularIdx (e i) from h)]
  · unfold wrapDiff
    by_cases h : angular i
    · rw [if_pos h, if_pos (show angularIdx i from h), normalizeAngle_eq_toIocMod]
    · rw [if_neg h, if_neg (show ¬ angularIdx i from h)]

/-- The whole pose is such a list. -/
example : ∀ i : Fin 6, angular ((![0, 1, 2, 3, 4, 5] : Fin 6 → Fin 15) i) →
    ((![0, 1, 2, 3, 4, 5] : Fin 6 → Fin 15) i).val = i.val := by
  intro i _
  fin_cases i <;> rfl

/-- C20, refuted: when the heading is measured alone (an IMU with `[..., yaw, ...]` configured), the difference of the x
coordinate is normalised as if it were an angle, and the difference of the heading is not. -/
theorem C20_normalises_position (d : State) :
    stateDiff ![iYaw] d iX = normalizeAngle (d iX) ∧ stateDiff ![iYaw] d iYaw = d iYaw := by
  constructor
  · unfold stateDiff
    rw [dif_pos (by decide), if_pos]
    exact Or.inr (Or.inr rfl)
  · unfold stateDiff
    rw [dif_neg (by decide)]

/-- C20: the difference matters. -/
theorem C20_normalises_position_wrongly : ∃ d : State, stateDiff ![iYaw] d iX ≠ d iX ∧ ¬ stateDiff ![iYaw] d iYaw ≤ π := by
  refine ⟨fun _ => 4, ?_, ?_⟩
  · rw [(C20_normalises_position _).1]
    intro h
    have := (normalizeAngle_spec 4).2.1
    rw [h] at this
    linarith [pi_lt_d2]
  · rw [(C20_normalises_position _).2]
    have := pi_lt_d2
    intro h
    linarith

/-! ## C17: correction on freshly drawn sigma points -/

/-- When a fresh correction is not disturbed by angles: the state angles measured are normalised and known to better than
√2 rad, and the sigma points stay within half a turn of the state in the measured angles and in the state variables the
code confuses with them (C20). -/
structure Calm {n : ℕ} (e : Fin n → Fin 15) (k : UkfConst) (x : State) (P : Mat15) : Prop where
  normal : ∀ i, angular (e i) → -π < x (e i) ∧ x (e i) ≤ π
  known : ∀ i, angular (e i) → P (e i) (e i) < 2
  spread : ∀ i, angular (e i) → (15 + k.lam) * P (e i) (e i) < π ^ 2
  confused : ∀ (i : Fin n) (r : Fin 15), r.val = i.val → angular (e i) → (15 + k.lam) * P r r < π ^ 2

theorem llt_entry_bound (llt : Llt) {a : ℝ} (ha : 0 < a) {P : Mat15} (hP : P.PosDef) (r i : Fin 15) (h : a * P r r < π ^ 2) :
    -π < llt.L (a • P) r i ∧ llt.L (a • P) r i < π := by
  have h1 := llt_factor_apply llt ha hP r r
  have h2 := Finset.single_le_sum (f := fun i => llt.L (a • P) r i * llt.L (a • P) r i)
      (fun i _ => mul_self_nonneg _) (Finset.mem_univ i)
  rw [h1] at h2
  have : llt.L (a • P) r i ^ 2 < π ^ 2 := by
    have : llt.L (a • P) r i * llt.L (a • P) r i ≤ a * P r r := h2
    nlinarith
  exact abs_lt.1 (abs_lt_of_sq_lt_sq this pi_pos.le)

section fresh
variable (llt : Llt) {alpha kappa beta : ℝ} {k : UkfConst} (hk : setConstants alpha kappa beta = some k)
  (hpos : 0 < 15 + k.lam) (x : State) (P : Mat15) (hP : P.PosDef) {n : ℕ} (e : Fin n → Fin 15)

include hk hpos hP in
theorem predictedMeas_fresh (hc : Calm e k x P) : predictedMeas e k (sigmaPoints llt k x P) = fun i => x (e i) := by
  funext i
  unfold predictedMeas
  split
  · rename_i ha
    rw [C62_angle_mean_partial llt hk hpos x P hP _ (hc.known i ha)]
    exact normalizeAngle_of_mem (hc.normal i ha).1 (hc.normal i ha).2
  · have := congrFun (C16_mean llt hk x P) (e i)
    rw [Finset.sum_apply] at this
    simpa using this

include hpos hP in
theorem measDiff_fresh (hc : Calm e k x P) (s : Sig) :
    measDiff e (fun i => x (e i)) (sigmaPoints llt k x P s) = fun i => (sigmaPoints llt k x P s - x) (e i) := by
  funext i
  unfold measDiff
  split
  · rename_i ha
    have hb := fun j => llt_entry_bound llt hpos hP (e i) j (hc.spread i ha)
    apply normalizeAngle_of_mem
    · rcases s with u | j | j
      · show -π < x (e i) - x (e i); rw [sub_self]; linarith [pi_pos]
      · show -π < x (e i) + llt.L ((15 + k.lam) • P) (e i) j - x (e i); linarith [(hb j).1]
      · show -π < x (e i) - llt.L ((15 + k.lam) • P) (e i) j - x (e i); linarith [(hb j).2]
    · rcases s with u | j | j
      · show x (e i) - x (e i) ≤ π; rw [sub_self]; linarith [pi_pos]
      · show x (e i) + llt.L ((15 + k.lam) • P) (e i) j - x (e i) ≤ π; linarith [(hb j).2]
      · show x (e i) - llt.L ((15 + k.lam) • P) (e i) j - x (e i) ≤ π; linarith [(hb j).1]
  · rfl

include hpos hP in
theorem stateDiff_fresh (hc : Calm e k x P) (s : Sig) :
    stateDiff e (sigmaPoints llt k x P s - x) = sigmaPoints llt k x P s - x := by
  funext r
  unfold stateDiff
  split
  · rename_i hr
    split
    · rename_i ha
      have hb := fun j => llt_entry_bound llt hpos hP r j (hc.confused ⟨r.val, hr⟩ r rfl ha)
      apply normalizeAngle_of_mem
      · rcases s with u | j | j
        · show -π < x r - x r; rw [sub_self]; linarith [pi_pos]
        · show -π < x r + llt.L ((15 + k.lam) • P) r j - x r; linarith [(hb j).1]
        · show -π < x r - llt.L ((15 + k.lam) • P) r j - x r; linarith [(hb j).2]
      · rcases s with u | j | j
        · show x r - x r ≤ π; rw [sub_self]; linarith [pi_pos]
        · show x r + llt.L ((15 + k.lam) • P) r j - x r ≤ π; linarith [(hb j).2]
        · show x r - llt.L ((15 + k.lam) • P) r j - x r ≤ π; linarith [(hb j).1]
    · rfl
  · rfl

include hk hpos hP in
theorem measCovar_fresh (hc : Calm e k x P) : measCovar e k (sigmaPoints llt k x P) = P.submatrix e e := by
  unfold measCovar
  dsimp only
  rw [predictedMeas_fresh llt hk hpos x P hP e hc]
  simp only [measDiff_fresh llt hpos x P hP e hc]
  ext i j
  have := congrFun (congrFun (C16_covariance llt hk hpos x P hP) (e i)) (e j)
  rw [Matrix.sum_apply] at this ⊢
  exact this

include hk hpos hP in
theorem crossCovar_fresh (hc : Calm e k x P) : crossCovar e k (sigmaPoints llt k x P) x = P.submatrix id e := by
  unfold crossCovar
  dsimp only
  rw [predictedMeas_fresh llt hk hpos x P hP e hc]
  simp only [measDiff_fresh llt hpos x P hP e hc, stateDiff_fresh llt hpos x P hP e hc]
  ext i j
  have := congrFun (congrFun (C16_covariance llt hk hpos x P hP) i) (e j)
  rw [Matrix.sum_apply] at this ⊢
  exact this

/-- C17, partial: a correction on freshly drawn sigma points accepts, rejects and moves the state exactly as the EKF
does, and the covariance is the textbook one plus `K R Kᵀ`.  Missing: wild angles (C20, C62) and corrections on the sigma
points of a prediction (`C17_after_prediction_partial`). -/
theorem C17_fresh_partial (hk : setConstants alpha kappa beta = some k) (hpos : 0 < 15 + k.lam) (hP : P.PosDef)
    (hc : Calm e k x P) (z : Fin 15 → ℝ) (R : Mat15) (hR : (R.submatrix e e).PosSemidef) (thr : Thresh) :
    let K := P.submatrix id e * (P.submatrix e e + subR e R)⁻¹
    ukfCorrectAt e k (sigmaPoints llt k x P) z R thr x P =
      (correctAt e z R thr x P).map fun r =>
        open Classical in
        if checkMahalanobis (innovation e z x) (P.submatrix e e + subR e R)⁻¹ thr then
          (r.1, r.2 + K * subR e R * Kᵀ, true) else (r.1, r.2, false) := by
  intro K
  unfold ukfCorrectAt correctAt
  dsimp only
  rw [measCovar_fresh llt hk hpos x P hP e hc, crossCovar_fresh llt hk hpos x P hP e hc,
    predictedMeas_fresh llt hk hpos x P hP e hc, innovCov_eq]
  have hy : ukfInnovation e z (fun i => x (e i)) = innovation e z x := rfl
  rw [hy]
  by_cases hd : (P.submatrix e e + subR e R).det = 0
  · rw [if_pos hd, if_pos hd]; rfl
  · rw [if_neg hd, if_neg hd]
    by_cases hm : checkMahalanobis (innovation e z x) (P.submatrix e e + subR e R)⁻¹ thr
    · rw [if_pos hm, if_pos hm, Option.map_some, if_pos hm]
      have ht := (C08_textbook e R P hP.posSemidef hR hd).1
      have hK : gain e R P = K := by
        unfold gain
        rw [innovCov_eq, mul_subH_transpose]
      rw [ht, hK]
      show some (_, _, true) = some (_, _, true)
      have : P - K * P.submatrix e e * Kᵀ = P - K * (P.submatrix e e + subR e R) * Kᵀ + K * subR e R * Kᵀ := by
        rw [Matrix.mul_add, Matrix.add_mul]; abel
      rw [← this]
    · rw [if_neg hm, if_neg hm, Option.map_some, if_neg hm]

/-- C17, partial (as above): the posterior covariance is a covariance, between the Kalman posterior and the prior. -/
theorem C17_covariance_partial (hk : setConstants alpha kappa beta = some k) (hpos : 0 < 15 + k.lam) (hP : P.PosDef)
    (hc : Calm e k x P) (z : Fin 15 → ℝ) (R : Mat15) (hR : (R.submatrix e e).PosSemidef) (thr : Thresh)
    (x' : State) (P' : Mat15) (b : Bool) (h : ukfCorrectAt e k (sigmaPoints llt k x P) z R thr x P = some (x', P', b)) :
    P'.PosSemidef ∧ (P - P').PosSemidef ∧ ∃ Pk, correctAt e z R thr x P = some (x', Pk) ∧ (P' - Pk).PosSemidef := by
  have hRs := subR_psd hR
  have hSub : (P.submatrix e e).PosSemidef := hP.posSemidef.submatrix e
  have hraw := h
  rw [C17_fresh_partial llt x P e hk hpos hP hc z R hR thr] at h
  cases hcr : correctAt e z R thr x P with
  | none => rw [hcr] at h; cases h
  | some r =>
    obtain ⟨xk, Pk⟩ := r
    rw [hcr, Option.map_some] at h
    by_cases hm : checkMahalanobis (innovation e z x) (P.submatrix e e + subR e R)⁻¹ thr
    · rw [if_pos hm] at h
      simp only [Option.some.injEq, Prod.mk.injEq] at h
      obtain ⟨rfl, rfl, -⟩ := h
      set K := P.submatrix id e * (P.submatrix e e + subR e R)⁻¹
      have hd : ¬ (innovCov e R P).det = 0 := by
        intro h0
        unfold correctAt at hcr
        rw [if_pos h0] at hcr
        cases hcr
      have hPk : Pk = joseph e R (gain e R P) P := by
        unfold correctAt at hcr
        rw [if_neg hd, innovCov_eq, if_pos hm] at hcr
        simp only [Option.some.injEq, Prod.mk.injEq] at hcr
        exact hcr.2.symm
      have hKR := psd_congr hRs K
      have hJ : Pk.PosSemidef := by
        rw [hPk]; exact joseph_psd hP.posSemidef hRs _ _
      refine ⟨hJ.add hKR, ?_, Pk, rfl, ?_⟩
      · rw [innovCov_eq] at hd
        have ht := (C08_textbook e R P hP.posSemidef hR hd).1
        have : P - (Pk + K * subR e R * Kᵀ) = K * P.submatrix e e * Kᵀ := by
          rw [hPk, ht, Matrix.mul_add, Matrix.add_mul]; abel
        rw [this]
        exact psd_congr hSub K
      · rw [add_sub_cancel_left]; exact hKR
    · rw [if_neg hm] at h
      simp only [Option.some.injEq, Prod.mk.injEq] at h
      obtain ⟨rfl, rfl, -⟩ := h
      have hPk : Pk = P := by
        unfold correctAt at hcr
        split at hcr
        · cases hcr
        · rw [innovCov_eq, if_neg hm] at hcr
          simp only [Option.some.injEq, Prod.mk.injEq] at hcr
          exact hcr.2.symm
      subst hPk
      refine ⟨hP.posSemidef, ?_, _, rfl, ?_⟩
      · rw [sub_self]; exact PosSemidef.zero
      · rw [sub_self]; exact PosSemidef.zero

end fresh

/-- A heading measured alone, with the default parameters and small errors. -/
example : ∃ k, setConstants 0.001 0 2 = some k ∧ 0 < 15 + k.lam ∧ ((0.01 : ℝ) • (1 : Mat15)).PosDef ∧
    Calm ![iYaw] k 0 ((0.01 : ℝ) • (1 : Mat15)) := by
  have := (C16_constants_defined 0.001 0 2).2 ⟨by norm_num, by norm_num⟩
  obtain ⟨k, hk⟩ := Option.isSome_iff_exists.1 this
  have h3 := pi_gt_three
  refine ⟨k, hk, by rw [(setConstants_spec hk).2.1]; norm_num, PosDef.one.smul (by norm_num),
    fun i _ => ⟨by show -π < (0 : ℝ); linarith, by show (0 : ℝ) ≤ π; linarith⟩, fun i _ => ?_, fun i _ => ?_, fun i r _ _ => ?_⟩
  · simp; norm_num
  · rw [(setConstants_spec hk).2.1]; simp; nlinarith
  · rw [(setConstants_spec hk).2.1]; simp; nlinarith

/-! ## C17: correction on the sigma points of a prediction -/

section predicted
variable (llt : Llt) {k : UkfConst} {n : ℕ} (e : Fin n → Fin 15)

/-- After a prediction, the sigma points kept represent the predicted state, and the covariance *before* the process
noise is added. -/
theorem measCovar_predicted (pts : Sig → State) :
    predictedMeas e k pts = (fun i => ukfMean k pts (e i)) ∧
    measCovar e k pts = (ukfCovar k pts (ukfMean k pts)).submatrix e e := by
  have h1 : predictedMeas e k pts = (fun i => ukfMean k pts (e i)) := rfl
  refine ⟨h1, ?_⟩
  unfold measCovar ukfCovar
  dsimp only
  rw [h1]
  ext i j
  rw [Matrix.sum_apply, submatrix_apply, Matrix.sum_apply]
  rfl

theorem wrap_mean (pts : Sig → State) : wrapStateAngles (ukfMean k pts) = ukfMean k pts := by
  funext i
  unfold wrapStateAngles
  split
  · rename_i ha
    have : ukfMean k pts i = angleMean k.w (fun s => pts s i) := if_pos ha
    rw [this]
    exact normalizeAngle_of_mem (Complex.neg_pi_lt_arg _) (Complex.arg_le_pi _)
  · rfl

/-- C17, partial: the first correction after a prediction.  The gain is that of the propagated covariance `Pσ`, *without*
the process noise of the step; the posterior is still between the covariance before the correction and the process
noise.  Assumed: no wrapping confusion (C20), and that the propagated covariance is one (true for non-negative weights,
`C17_propagated_covariance`). -/
theorem C17_after_prediction_partial (p : FilterPar) (Q : Mat15) (ctl : Fin 6 → ℝ) (ct ref : Int) (dt : ℝ) (x : State)
    (P : Mat15) (x1 : State) (P1 : Mat15) (mem : UkfMem) (h : Ukf.predict p llt k Q ctl ct ref dt x P = some (x1, P1, mem))
    (hcalm : ∀ s, stateDiff e (mem.pts s - x1) = wrapDiff (mem.pts s - x1)) (hdt : 0 ≤ dt)
    (hQ : (noiseQ p Q x1).PosSemidef) (hσ : (P1 - dt • noiseQ p Q x1).PosSemidef)
    (z : Fin 15 → ℝ) (R : Mat15) (hR : (R.submatrix e e).PosSemidef) (thr : Thresh) (x2 : State) (P2 : Mat15)
    (h2 : ukfCorrectAt e k mem.pts z R thr x1 P1 = some (x2, P2, true)) :
    let Pσ := P1 - dt • noiseQ p Q x1
    let K := Pσ.submatrix id e * (Pσ.submatrix e e + subR e R)⁻¹
    x2 = wrapStateAngles (x1 + K.mulVec (innovation e z x1)) ∧ P2 = P1 - K * Pσ.submatrix e e * Kᵀ ∧
      (P1 - P2).PosSemidef ∧ (P2 - dt • noiseQ p Q x1).PosSemidef ∧ P2.PosSemidef := by
  classical
  unfold Ukf.predict at h
  dsimp only at h
  split at h
  · cases h
  · simp only [Option.some.injEq, Prod.mk.injEq] at h
    obtain ⟨rfl, rfl, rfl⟩ := h
    rw [wrap_mean] at *
    dsimp only at hcalm h2
    set pts := fun s => projectPoint dt (sigmaPoints llt k x P s)
    set Pσ := ukfCovar k pts (ukfMean k pts) with hPσ
    have hcalm' : ∀ s, stateDiff e (pts s - ukfMean k pts) = wrapDiff (pts s - ukfMean k pts) := hcalm
    rw [add_sub_cancel_right] at hσ ⊢
    intro Pσ' K
    obtain ⟨e1, e2⟩ := measCovar_predicted (k := k) e pts
    have e3 : crossCovar e k pts (ukfMean k pts) = Pσ.submatrix id e := by
      unfold crossCovar
      dsimp only
      rw [e1]
      simp only [hcalm']
      rw [hPσ]
      unfold ukfCovar
      ext i j
      rw [Matrix.sum_apply, submatrix_apply, Matrix.sum_apply]
      rfl
    unfold ukfCorrectAt at h2
    dsimp only at h2
    rw [e1, e2, e3, ← hPσ] at h2
    split at h2
    · cases h2
    · rename_i hd
      split at h2
      · simp only [Option.some.injEq, Prod.mk.injEq, and_true] at h2
        obtain ⟨rfl, rfl⟩ := h2
        have hRs := subR_psd hR
        have ht := (C08_textbook e R Pσ hσ hR hd).1
        have hpost : (Pσ - K * Pσ.submatrix e e * Kᵀ).PosSemidef := by
          have : Pσ - K * Pσ.submatrix e e * Kᵀ = joseph e R (gain e R Pσ) Pσ + K * subR e R * Kᵀ := by
            rw [ht, Matrix.mul_add, Matrix.add_mul]; abel
          rw [this]
          exact (joseph_psd hσ hRs _ _).add (psd_congr hRs K)
        refine ⟨rfl, rfl, ?_, ?_, ?_⟩
        · rw [sub_sub_cancel]
          exact psd_congr (hσ.submatrix e) K
        · have : Pσ + dt • noiseQ p Q (ukfMean k pts) - K * Pσ.submatrix e e * Kᵀ - dt • noiseQ p Q (ukfMean k pts) =
              Pσ - K * Pσ.submatrix e e * Kᵀ := by abel
          show (Pσ + dt • noiseQ p Q (ukfMean k pts) - K * Pσ.submatrix e e * Kᵀ - dt • noiseQ p Q (ukfMean k pts)).PosSemidef
          rw [this]
          exact hpost
        · have : Pσ + dt • noiseQ p Q (ukfMean k pts) - K * Pσ.submatrix e e * Kᵀ =
              (Pσ - K * Pσ.submatrix e e * Kᵀ) + dt • noiseQ p Q (ukfMean k pts) := by abel
          show (Pσ + dt • noiseQ p Q (ukfMean k pts) - K * Pσ.submatrix e e * Kᵀ).PosSemidef
          rw [this]
          exact hpost.add (hQ.smul hdt)
      · simp at h2

/-- C17: with a non-negative central covariance weight and positive spread the propagated covariance is a covariance. -/
theorem C17_propagated_covariance {alpha kappa beta : ℝ} (hk : setConstants alpha kappa beta = some k)
    (hpos : 0 < 15 + k.lam) (h0 : 0 ≤ k.c (.inl ())) (pts : Sig → State) (x : State) : (ukfCovar k pts x).PosSemidef := by
  obtain ⟨-, -, -, -, h2, -⟩ := setConstants_spec hk
  unfold ukfCovar
  refine posSemidef_sum _ fun s _ => ?_
  have hv := posSemidef_vecMulVec_self_star (wrapDiff (pts s - x))
  have hv' : (vecMulVec (wrapDiff (pts s - x)) (wrapDiff (pts s - x))).PosSemidef := by simpa using hv
  refine hv'.smul ?_
  rcases s with u | i
  · exact h0
  · rw [h2]; positivity

end predicted

/-- Parameters meeting the hypothesis on the weights; the default ones do not. -/
example : (∃ k, setConstants 1 0 2 = some k ∧ 0 < 15 + k.lam ∧ 0 ≤ k.c (.inl ())) ∧
    ∃ k, setConstants 0.001 0 2 = some k ∧ k.c (.inl ()) < 0 := by
  constructor
  · obtain ⟨k, hk⟩ := Option.isSome_iff_exists.1 ((C16_constants_defined 1 0 2).2 ⟨by norm_num, by norm_num⟩)
    obtain ⟨-, h1, -, -, -, h2⟩ := setConstants_spec hk
    have : k.lam = 0 := by linarith
    exact ⟨k, hk, by rw [this]; norm_num, by rw [h2, this]; norm_num⟩
  · obtain ⟨k, hk⟩ := Option.isSome_iff_exists.1 ((C16_constants_defined 0.001 0 2).2 ⟨by norm_num, by norm_num⟩)
    obtain ⟨-, h1, -, -, -, h2⟩ := setConstants_spec hk
    have : k.lam = 0.001 * 0.001 * (15 + 0) - 15 := by linarith
    exact ⟨k, hk, by rw [h2, this]; norm_num⟩

/-- C17, refuted for the first correction after a prediction: the gain it uses (`C17_after_prediction_partial`, with
`N = dt Q` the process noise of the step) is too small, for every measurement of one variable that has process noise. -/
theorem C17_gain_ignores_process_noise (e : Fin 1 → Fin 15) (R Pσ N : Mat15) (hσ : 0 ≤ Pσ (e 0) (e 0))
    (hN : 0 < N (e 0) (e 0)) :
    (Pσ.submatrix id e * (Pσ.submatrix e e + subR e R)⁻¹) (e 0) 0 < gain e R (Pσ + N) (e 0) 0 := by
  have hinv : ∀ A : Matrix (Fin 1) (Fin 1) ℝ, A⁻¹ 0 0 = (A 0 0)⁻¹ := by
    intro A
    rw [Matrix.inv_def, Matrix.adjugate_fin_one, det_fin_one]
    simp
  have hr : 0 < subR e R 0 0 := by
    have := (C14_sanitised e R 0 0).1
    rw [this]
    exact lt_max_of_lt_right (by norm_num)
  have e1 : gain e R (Pσ + N) = (Pσ + N).submatrix id e * ((Pσ + N).submatrix e e + subR e R)⁻¹ := by
    unfold gain
    rw [innovCov_eq, mul_subH_transpose]
  rw [e1, Matrix.mul_apply, Matrix.mul_apply, Fin.sum_univ_one, Fin.sum_univ_one, hinv, hinv]
  simp only [submatrix_apply, id_eq, Matrix.add_apply]
  generalize subR e R 0 0 = r at hr
  generalize Pσ (e 0) (e 0) = a at hσ
  generalize N (e 0) (e 0) = b at hN
  rw [← div_eq_mul_inv, ← div_eq_mul_inv, div_lt_div_iff₀ (by linarith) (by linarith)]
  nlinarith

/-! A prediction meeting the hypotheses of `C17_after_prediction_partial`: standstill, independent errors. -/

theorem project_roll (dt : ℝ) (x : State) :
    projectPoint dt x 3 = x 3 + dt * x 9 + sin (x 3) * (sin (x 4) * (1 / cos (x 4))) * dt * x 10 +
      cos (x 3) * (sin (x 4) * (1 / cos (x 4))) * dt * x 11 := by
  show ∑ j, transferF x dt 3 j * x j = _
  rw [transferF_row3, sum15]
  simp [trig]

theorem project_pitch (dt : ℝ) (x : State) :
    projectPoint dt x 4 = x 4 + cos (x 3) * dt * x 10 - sin (x 3) * dt * x 11 := by
  show ∑ j, transferF x dt 4 j * x j = _
  rw [transferF_row4, sum15]
  simp [trig]
  ring

example (p : FilterPar) (hp : p.dynamic = false) (llt : Llt) (ctl : Fin 6 → ℝ) (ct ref : Int) :
    ∃ k x1 P1 mem, setConstants 1 0 2 = some k ∧
      Ukf.predict p llt k 1 ctl ct ref 1 0 ((0.01 : ℝ) • (1 : Mat15)) = some (x1, P1, mem) ∧
      (∀ s, stateDiff ![iX] (mem.pts s - x1) = wrapDiff (mem.pts s - x1)) ∧ (noiseQ p 1 x1).PosSemidef ∧
      (P1 - (1 : ℝ) • noiseQ p 1 x1).PosSemidef := by
  obtain ⟨k, hk⟩ := Option.isSome_iff_exists.1 ((C16_constants_defined 1 0 2).2 ⟨by norm_num, by norm_num⟩)
  obtain ⟨h0, h15, h1, h2, -, h3⟩ := setConstants_spec hk
  have hl : k.lam = 0 := by linarith
  have hL : llt.L ((15 + k.lam) • (0.01 : ℝ) • (1 : Mat15)) = diagonal (fun _ => sqrt 0.15) := by
    have : (15 + k.lam) • (0.01 : ℝ) • (1 : Mat15) = diagonal (fun _ => 0.15) := by
      ext i j
      by_cases hij : i = j
      · subst hij; rw [hl]; simp; norm_num
      · simp [hij]
    rw [this, llt_diagonal _ _ (fun i => by norm_num)]
  have hs : sqrt 0.15 < 1 := by rw [sqrt_lt' one_pos]; norm_num
  have hs' := sqrt_nonneg 0.15
  have hpi := pi_gt_three
  set L := sqrt 0.15
  set P : Mat15 := (0.01 : ℝ) • (1 : Mat15)
  have hpt : ∀ s, ∃ (i : Fin 15) (v : ℝ), |v| ≤ L ∧ sigmaPoints llt k 0 P s = Pi.single i v := by
    intro s
    rcases s with u | i | i
    · exact ⟨0, 0, by simpa using hs', by simp [sigmaPoints]⟩
    · refine ⟨i, L, by rw [abs_of_nonneg hs'], ?_⟩
      funext r
      simp only [sigmaPoints, hL, Sum.elim_inr, Sum.elim_inl, zero_add]
      by_cases hr : r = i
      · subst hr; simp
      · simp [diagonal_apply_ne _ hr, Pi.single_eq_of_ne hr]
    · refine ⟨i, -L, by rw [abs_neg, abs_of_nonneg hs'], ?_⟩
      funext r
      simp only [sigmaPoints, hL, Sum.elim_inr, Pi.sub_apply, Pi.zero_apply, zero_sub]
      by_cases hr : r = i
      · subst hr; simp
      · simp [diagonal_apply_ne _ hr, Pi.single_eq_of_ne hr]
  have hneg : ∀ (i : Fin 15), sigmaPoints llt k 0 P (.inr (.inr i)) = -sigmaPoints llt k 0 P (.inr (.inl i)) := by
    intro i; funext r; simp [sigmaPoints]
  have hcos : ¬ ∃ s, cos (sigmaPoints llt k 0 P s iPitch) = 0 := by
    rintro ⟨s, h⟩
    obtain ⟨i, v, hv, e⟩ := hpt s
    rw [e] at h
    have hb : |(Pi.single i v : State) iPitch| ≤ L := by
      by_cases hi : iPitch = i
      · rw [← hi]; simpa using hv
      · rw [Pi.single_eq_of_ne hi]; simpa using hs'
    have := abs_le.1 hb
    exact (cos_pos_of_mem_Ioo ⟨by linarith, by linarith⟩).ne' h
  -- the angles of the projected points are small
  have hang : ∀ s a, angularIdx a → |projectPoint 1 (sigmaPoints llt k 0 P s) a| ≤ L := by
    intro s a ha
    obtain ⟨i, v, hv, e⟩ := hpt s
    rw [e]
    rcases ha with rfl | rfl | rfl
    · rw [project_roll]
      fin_cases i <;> simp [Pi.single_apply, hv, hs']
    · rw [project_pitch]
      fin_cases i <;> simp [Pi.single_apply, hv, hs']
    · rw [project_yaw]
      fin_cases i <;> simp [Pi.single_apply, hv, hs']
  refine ⟨k, _, _, _, hk, if_neg hcos, ?_, ?_, ?_⟩
  · rw [wrap_mean]
    have hmean : ∀ a, angularIdx a → ukfMean k (fun s => projectPoint 1 (sigmaPoints llt k 0 P s)) a = 0 := by
      intro a ha
      have e : ukfMean k (fun s => projectPoint 1 (sigmaPoints llt k 0 P s)) a =
          angleMean k.w (fun s => projectPoint 1 (sigmaPoints llt k 0 P s) a) := if_pos ha
      rw [e]
      have hodd : ∀ i, projectPoint 1 (sigmaPoints llt k 0 P (.inr (.inr i))) a =
          - projectPoint 1 (sigmaPoints llt k 0 P (.inr (.inl i))) a := by
        intro i
        rw [hneg]
        obtain ⟨j, v, -, e⟩ := hpt (.inr (.inl i))
        rw [e]
        rcases ha with rfl | rfl | rfl
        · rw [project_roll, project_roll]
          fin_cases j <;> simp [Pi.single_apply]
        · rw [project_pitch, project_pitch]
          fin_cases j <;> simp [Pi.single_apply]
        · rw [project_yaw, project_yaw]
          fin_cases j <;> simp [Pi.single_apply]
      rw [angleMean_symm k.w _ _ 0 (fun i => projectPoint 1 (sigmaPoints llt k 0 P (.inr (.inl i))) a) h1 h2 _ (by
        have : sigmaPoints llt k 0 P (.inl ()) = 0 := rfl
        rw [this]; simp [projectPoint]) (fun i => by simp) (fun i => by rw [hodd]; simp), atan2_pos]
      · exact normalizeAngle_zero
      · have hsum : ∑ i : Fin 15, (0 : ℝ) < ∑ i : Fin 15, 2 * (1 / (2 * (15 + k.lam))) *
            cos (projectPoint 1 (sigmaPoints llt k 0 P (.inr (.inl i))) a) := by
          refine Finset.sum_lt_sum_of_nonempty ⟨0, Finset.mem_univ _⟩ fun i _ => ?_
          have := abs_le.1 (hang (.inr (.inl i)) a ha)
          have := cos_pos_of_mem_Ioo (x := projectPoint 1 (sigmaPoints llt k 0 P (.inr (.inl i))) a) ⟨by linarith, by linarith⟩
          rw [hl]
          positivity
        rw [Finset.sum_const_zero] at hsum
        rw [hl] at hsum ⊢
        simpa using hsum
    intro s
    funext r
    have e1 : stateDiff ![iX] (projectPoint 1 (sigmaPoints llt k 0 P s) -
        ukfMean k fun s => projectPoint 1 (sigmaPoints llt k 0 P s)) r = (projectPoint 1 (sigmaPoints llt k 0 P s) -
        ukfMean k fun s => projectPoint 1 (sigmaPoints llt k 0 P s)) r := by
      unfold stateDiff
      split
      · rw [if_neg]
        have : ∀ j : Fin 1, ¬ angularIdx ((![iX] : Fin 1 → Fin 15) j) := by decide
        exact this _
      · rfl
    rw [e1]
    unfold wrapDiff
    split
    · rename_i ha
      rw [Pi.sub_apply, hmean r ha, sub_zero]
      have := abs_le.1 (hang s r ha)
      exact (normalizeAngle_of_mem (by linarith) (by linarith)).symm
    · rfl
  · unfold noiseQ
    rw [hp]
    exact PosSemidef.one
  · rw [wrap_mean, add_sub_cancel_right]
    exact C17_propagated_covariance hk (by rw [hl]; norm_num) (by rw [h3, hl]; norm_num) _ _

end RL
