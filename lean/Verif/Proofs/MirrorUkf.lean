import Verif.Proofs.RescaleUkf
/-! # The unscented filter in a mirror (helper lemmas for C108) -/

namespace RL
open Matrix

/-- The state as seen in the mirror. -/
noncomputable abbrev State.mirror (x : State) : State := x.rescaled 1 (-1)

/-- The covariance as seen in the mirror. -/
noncomputable abbrev mirrorCov (P : Mat15) : Mat15 := rescaleCov 1 (-1) P

/-- The sign a variable gets in the mirror. -/
noncomputable abbrev sgn (i : Fin 15) : ℝ := unitOf 1 (-1) i

theorem sgn_cases (i : Fin 15) : sgn i = 1 ∨ sgn i = -1 := by
  fin_cases i <;> simp [sgn, unitOf]

theorem sgn_sq (i : Fin 15) : sgn i * sgn i = 1 := unitOf_sq (Or.inr rfl) i

theorem sgn_ne (i : Fin 15) : sgn i ≠ 0 := unitOf_ne_zero one_pos (Or.inr rfl) i

/-- An angle is mirrored if it is a roll or a yaw. -/
theorem sgn_angular {i : Fin 15} (h : angularIdx i) : sgn i = 1 ∨ (i = iRoll ∨ i = iYaw) ∧ sgn i = -1 := by
  rcases h with rfl | rfl | rfl
  · exact Or.inr ⟨Or.inl rfl, by simp [sgn, unitOf]⟩
  · exact Or.inl (by simp [sgn, unitOf])
  · exact Or.inr ⟨Or.inr rfl, by simp [sgn, unitOf]⟩

open Classical in
/-- In the mirror the two sigma points of a variable whose sign changes are exchanged. -/
noncomputable def swapSig : Sig → Sig
  | .inl u => .inl u
  | .inr (.inl i) => if sgn i = 1 then .inr (.inl i) else .inr (.inr i)
  | .inr (.inr i) => if sgn i = 1 then .inr (.inr i) else .inr (.inl i)

theorem swapSig_swap : Function.Involutive swapSig := by
  rintro (u | i | i)
  · rfl
  · by_cases h : sgn i = 1 <;> simp [swapSig, h]
  · by_cases h : sgn i = 1 <;> simp [swapSig, h]

/-- The weights of the two sigma points of a variable are the same. -/
def UkfConst.Even (k : UkfConst) : Prop := ∀ s, k.w (swapSig s) = k.w s ∧ k.c (swapSig s) = k.c s

theorem setConstants_even {a b c : ℝ} {k : UkfConst} (h : setConstants a b c = some k) : k.Even := by
  unfold setConstants at h
  dsimp only at h
  split_ifs at h
  injection h with h
  subst h
  rintro (u | i | i)
  · exact ⟨rfl, rfl⟩
  · by_cases h : sgn i = 1 <;> simp [swapSig, h]
  · by_cases h : sgn i = 1 <;> simp [swapSig, h]

theorem sum_swap (f : Sig → ℝ) : ∑ s, f (swapSig s) = ∑ s, f s :=
  Equiv.sum_comp swapSig_swap.toPerm f

theorem mirror_sub (x y : State) : x.mirror - y.mirror = (x - y).mirror := by
  funext i
  show sgn i * x i - sgn i * y i = sgn i * (x i - y i)
  ring

theorem mirror_add (x y : State) : x.mirror + y.mirror = (x + y).mirror := by
  funext i
  show sgn i * x i + sgn i * y i = sgn i * (x i + y i)
  ring

theorem mirror_mulVec (x : State) : x.mirror = (diagonal sgn).mulVec x := by
  funext i
  rw [mulVec_diagonal]
  rfl

theorem llt_mirror (llt : Llt) {A : Mat15} (hA : A.PosDef) :
    llt.L (mirrorCov A) = diagonal sgn * llt.L A * diagonal sgn := by
  have hD : IsUnit (diagonal sgn : Mat15) := by
    rw [Matrix.isUnit_iff_isUnit_det, det_diagonal]
    exact isUnit_iff_ne_zero.2 (Finset.prod_ne_zero_iff.2 fun i _ => sgn_ne i)
  have hDD : (diagonal sgn : Mat15) * diagonal sgn = 1 := by
    rw [diagonal_mul_diagonal, ← diagonal_one]
    exact congrArg _ (funext fun i => sgn_sq i)
  have hpd : (mirrorCov A).PosDef := by
    rw [mirrorCov, rescaleCov_eq]
    have := hA.mul_mul_conjTranspose_same (B := diagonal sgn) (Matrix.vecMul_injective_of_isUnit hD)
    rwa [Matrix.diagonal_conjTranspose] at this
  have e : ∀ i j, (diagonal sgn * llt.L A * diagonal sgn) i j = sgn i * llt.L A i j * sgn j := fun i j => by
    rw [mul_diagonal, diagonal_mul]
  refine cholesky_unique (llt.lower _ hpd) (fun i j hij => ?_) (llt.diag _ hpd) (fun i => ?_) ?_
  · rw [e, llt.lower A hA i j hij, mul_zero, zero_mul]
  · rw [e, mul_right_comm, sgn_sq, one_mul]
    exact llt.diag A hA i
  · rw [llt.mul_transpose _ hpd, transpose_mul, transpose_mul, diagonal_transpose, mirrorCov, rescaleCov_eq]
    conv_lhs => rw [← llt.mul_transpose A hA]
    calc diagonal sgn * (llt.L A * (llt.L A).transpose) * diagonal sgn
        = diagonal sgn * llt.L A * 1 * (llt.L A).transpose * diagonal sgn := by
          rw [Matrix.mul_one]; simp only [Matrix.mul_assoc]
      _ = _ := by rw [← hDD]; simp only [Matrix.mul_assoc]

theorem sigma_mirror (llt : Llt) (k : UkfConst) (x : State) {P : Mat15} (hP : ((15 + k.lam) • P).PosDef) (s : Sig) :
    sigmaPoints llt k x.mirror (mirrorCov P) s = (sigmaPoints llt k x P (swapSig s)).mirror := by
  have h := llt_mirror llt hP
  rw [mirrorCov, rescaleCov_smul] at h
  have hc : ∀ r i, llt.L ((15 + k.lam) • mirrorCov P) r i = sgn r * llt.L ((15 + k.lam) • P) r i * sgn i := by
    intro r i
    rw [mirrorCov, h, mul_diagonal, diagonal_mul]
  rcases s with s | i | i
  · rfl
  · rcases sgn_cases i with hi | hi
    · rw [show swapSig (.inr (.inl i)) = .inr (.inl i) by simp [swapSig, hi]]
      funext r
      show sgn r * x r + llt.L ((15 + k.lam) • mirrorCov P) r i = sgn r * (x r + llt.L ((15 + k.lam) • P) r i)
      rw [hc, hi]
      ring
    · rw [show swapSig (.inr (.inl i)) = .inr (.inr i) by
        have : ¬ sgn i = 1 := by rw [hi]; norm_num
        simp [swapSig, this]]
      funext r
      show sgn r * x r + llt.L ((15 + k.lam) • mirrorCov P) r i = sgn r * (x r - llt.L ((15 + k.lam) • P) r i)
      rw [hc, hi]
      ring
  · rcases sgn_cases i with hi | hi
    · rw [show swapSig (.inr (.inr i)) = .inr (.inr i) by simp [swapSig, hi]]
      funext r
      show sgn r * x r - llt.L ((15 + k.lam) • mirrorCov P) r i = sgn r * (x r - llt.L ((15 + k.lam) • P) r i)
      rw [hc, hi]
      ring
    · rw [show swapSig (.inr (.inr i)) = .inr (.inl i) by
        have : ¬ sgn i = 1 := by rw [hi]; norm_num
        simp [swapSig, this]]
      funext r
      show sgn r * x r - llt.L ((15 + k.lam) • mirrorCov P) r i = sgn r * (x r + llt.L ((15 + k.lam) • P) r i)
      rw [hc, hi]
      ring

theorem project_mirror (dt : ℝ) (x : State) : projectPoint dt x.mirror = (projectPoint dt x).mirror := by
  funext i
  show ∑ j, transferF x.mirror dt i j * (sgn j * x j) = sgn i * ∑ j, transferF x dt i j * x j
  rw [Finset.mul_sum]
  refine Finset.sum_congr rfl fun j _ => ?_
  rw [← mul_assoc, transferF_scaled (Or.inr rfl) x.rescaled_same, mul_assoc]

/-- The sigma points as seen in the mirror. -/
noncomputable def mirrorPts (pts : Sig → State) : Sig → State := fun s => (pts (swapSig s)).mirror

theorem wmean_mirror {w : Sig → ℝ} (hw : ∀ s, w (swapSig s) = w s) (pts : Sig → State) (i : Fin 15) :
    ∑ s, w s * mirrorPts pts s i = sgn i * ∑ s, w s * pts s i := by
  rw [← sum_swap (fun s => w s * pts s i), Finset.mul_sum]
  refine Finset.sum_congr rfl fun s _ => ?_
  show w s * (sgn i * pts (swapSig s) i) = _
  rw [hw]
  ring

theorem angleMean_mirror {w : Sig → ℝ} (hw : ∀ s, w (swapSig s) = w s) (pts : Sig → State) {i : Fin 15} (hi : angularIdx i)
    (h : i = iRoll ∨ i = iYaw → angleMean w (fun s => pts s i) ≠ Real.pi) :
    angleMean w (fun s => mirrorPts pts s i) = sgn i * angleMean w (fun s => pts s i) := by
  have hsum : ∀ f : Sig → ℝ, ∑ s, w s * f (swapSig s) = ∑ s, w s * f s := by
    intro f
    rw [← sum_swap (fun s => w s * f s)]
    exact Finset.sum_congr rfl fun s _ => by rw [hw]
  unfold angleMean at h ⊢
  rcases sgn_angular hi with h1 | ⟨hi, h1⟩
  · have e : ∀ s, mirrorPts pts s i = pts (swapSig s) i := fun s => by
      show sgn i * _ = _
      rw [h1, one_mul]
    simp only [e]
    rw [hsum (fun s => Real.sin (pts s i)), hsum (fun s => Real.cos (pts s i)), h1, one_mul]
  · have e : ∀ s, mirrorPts pts s i = -pts (swapSig s) i := fun s => by
      show sgn i * _ = _
      rw [h1, neg_one_mul]
    simp only [e, Real.sin_neg, Real.cos_neg, mul_neg, Finset.sum_neg_distrib]
    rw [hsum (fun s => Real.sin (pts s i)), hsum (fun s => Real.cos (pts s i)), h1, neg_one_mul]
    have hh := h hi
    unfold atan2 at hh ⊢
    have := Complex.arg_conj ⟨∑ s, w s * Real.cos (pts s i), ∑ s, w s * Real.sin (pts s i)⟩
    rw [if_neg hh] at this
    exact this

theorem ukfMean_mirror {k : UkfConst} (hk : k.Even) (pts : Sig → State)
    (h : ∀ i, i = iRoll ∨ i = iYaw → ukfMean k pts i ≠ Real.pi) :
    ukfMean k (mirrorPts pts) = (ukfMean k pts).mirror := by
  funext i
  have hi' := h i
  show ukfMean k (mirrorPts pts) i = sgn i * ukfMean k pts i
  unfold ukfMean at hi' ⊢
  by_cases hi : angularIdx i
  · rw [if_pos hi] at hi' ⊢
    rw [if_pos hi]
    exact angleMean_mirror (fun s => (hk s).1) pts hi hi'
  · rw [if_neg hi, if_neg hi, wmean_mirror fun s => (hk s).1]

theorem normalize_mirror {i : Fin 15} {a : ℝ} (h : sgn i = -1 → normalizeAngle a ≠ Real.pi) :
    normalizeAngle (sgn i * a) = sgn i * normalizeAngle a := by
  rcases sgn_cases i with h1 | h1
  · rw [h1, one_mul, one_mul]
  · rw [h1, neg_one_mul, neg_one_mul, normalizeAngle_neg (h h1)]

theorem roll_or_yaw {i : Fin 15} (h : angularIdx i) (h1 : sgn i = -1) : i = iRoll ∨ i = iYaw := by
  rcases sgn_angular h with h2 | h2
  · rw [h2] at h1
    norm_num at h1
  · exact h2.1

theorem wrapDiff_mirror {d : State} (h : ∀ i, i = iRoll ∨ i = iYaw → normalizeAngle (d i) ≠ Real.pi) :
    wrapDiff d.mirror = (wrapDiff d).mirror := by
  funext i
  show wrapDiff d.mirror i = sgn i * wrapDiff d i
  unfold wrapDiff
  by_cases hi : angularIdx i
  · rw [if_pos hi, if_pos hi]
    exact normalize_mirror fun h1 => h i (roll_or_yaw hi h1)
  · rw [if_neg hi, if_neg hi]
    rfl

theorem wrap_mirror {x : State} (h : ∀ i, i = iRoll ∨ i = iYaw → normalizeAngle (x i) ≠ Real.pi) :
    wrapStateAngles x.mirror = (wrapStateAngles x).mirror := wrapDiff_mirror h

theorem ukfCovar_mirror {k : UkfConst} (hk : k.Even) (pts : Sig → State) (x : State)
    (h : ∀ i, i = iRoll ∨ i = iYaw → ∀ s, normalizeAngle (pts s i - x i) ≠ Real.pi) :
    ukfCovar k (mirrorPts pts) x.mirror = mirrorCov (ukfCovar k pts x) := by
  ext i j
  have hs : ∀ s, wrapDiff (mirrorPts pts s - x.mirror) = (wrapDiff (pts (swapSig s) - x)).mirror := by
    intro s
    rw [← wrapDiff_mirror (d := pts (swapSig s) - x) (fun i hi => h i hi _), ← mirror_sub]
    rfl
  unfold ukfCovar
  simp only [hs]
  show _ = sgn i * _ * sgn j
  simp only [Matrix.sum_apply, Matrix.smul_apply, vecMulVec_apply, smul_eq_mul]
  rw [← sum_swap (fun s => k.c s * (wrapDiff (pts s - x) i * wrapDiff (pts s - x) j)), Finset.mul_sum, Finset.sum_mul]
  refine Finset.sum_congr rfl fun s _ => ?_
  rw [(hk s).2]
  show _ * (sgn i * _ * (sgn j * _)) = _
  ring

/-- What a prediction averages or normalises does not come out as exactly half a turn, and the sigma points are drawn from a
positive definite matrix. -/
def Ukf.PredictClear (llt : Llt) (k : UkfConst) (dt : ℝ) (x : State) (P : Mat15) : Prop :=
  ((15 + k.lam) • P).PosDef ∧ ∀ i, i = iRoll ∨ i = iYaw →
    ukfMean k (fun s => projectPoint dt (sigmaPoints llt k x P s)) i ≠ Real.pi ∧
    ∀ s, normalizeAngle (projectPoint dt (sigmaPoints llt k x P s) i -
      ukfMean k (fun s => projectPoint dt (sigmaPoints llt k x P s)) i) ≠ Real.pi

/-- The sigma points kept, in the mirror. -/
noncomputable def UkfMem.mirror (m : UkfMem) : UkfMem := { m with pts := mirrorPts m.pts }

theorem angleMean_mem (w a : Sig → ℝ) : -Real.pi < angleMean w a ∧ angleMean w a ≤ Real.pi :=
  ⟨Complex.neg_pi_lt_arg _, Complex.arg_le_pi _⟩

/-- One prediction of the unscented filter in the mirror. -/
theorem predictU_mirror (p : FilterPar) (llt : Llt) {k : UkfConst} (hk : k.Even) (Q : Mat15)
    (u u' : Fin 6 → ℝ) (ct ct' ref : Int) (dt : ℝ) (x : State) {P : Mat15} (h : Ukf.PredictClear llt k dt x P) :
    Ukf.predict p llt k (mirrorCov Q) u' ct' ref dt x.mirror (mirrorCov P) =
      (Ukf.predict p llt k Q u ct ref dt x P).map fun r => (r.1.mirror, mirrorCov r.2.1, r.2.2.mirror) := by
  obtain ⟨hP, h⟩ := h
  have hpts : (fun s => projectPoint dt (sigmaPoints llt k x.mirror (mirrorCov P) s)) =
      mirrorPts (fun s => projectPoint dt (sigmaPoints llt k x P s)) := by
    funext s
    rw [sigma_mirror llt k x hP, project_mirror]
    rfl
  have hex : (∃ s, Real.cos (sigmaPoints llt k x.mirror (mirrorCov P) s iPitch) = 0) ↔
      ∃ s, Real.cos (sigmaPoints llt k x P s iPitch) = 0 := by
    have e : ∀ s, sigmaPoints llt k x.mirror (mirrorCov P) s iPitch = sigmaPoints llt k x P (swapSig s) iPitch := by
      intro s
      rw [sigma_mirror llt k x hP]
      show unitOf 1 (-1) iPitch * _ = _
      exact one_mul _
    constructor
    · rintro ⟨s, hs⟩
      exact ⟨swapSig s, by rw [← e]; exact hs⟩
    · rintro ⟨s, hs⟩
      exact ⟨swapSig s, by rw [e, swapSig_swap]; exact hs⟩
  have hn : ∀ y : State, noiseQ p (mirrorCov Q) y.mirror = mirrorCov (noiseQ p Q y) := by
    intro y
    exact noiseQ_scaled (p := { p with useControl := false }) (Or.inr rfl) ⟨Or.inl rfl, Or.inr (Or.inl rfl)⟩ y.rescaled_same Q
  have hw : ∀ i, i = iRoll ∨ i = iYaw →
      normalizeAngle (ukfMean k (fun s => projectPoint dt (sigmaPoints llt k x P s)) i) ≠ Real.pi := by
    intro i hi
    have ha : angularIdx i := by
      rcases hi with rfl | rfl
      · exact Or.inl rfl
      · exact Or.inr (Or.inr rfl)
    have e : ukfMean k (fun s => projectPoint dt (sigmaPoints llt k x P s)) i =
        angleMean k.w (fun s => projectPoint dt (sigmaPoints llt k x P s) i) := if_pos ha
    have hm := angleMean_mem k.w (fun s => projectPoint dt (sigmaPoints llt k x P s) i)
    have hne := (h i hi).1
    rw [e] at hne ⊢
    rwa [normalizeAngle_of_mem hm.1 hm.2]
  unfold Ukf.predict
  dsimp only
  rw [hpts, ukfMean_mirror hk _ fun i hi => (h i hi).1, ukfCovar_mirror hk _ _ fun i hi => (h i hi).2, hn, wrap_mirror hw]
  by_cases hc : ∃ s, Real.cos (sigmaPoints llt k x P s iPitch) = 0
  · rw [if_pos hc, if_pos (hex.2 hc)]
    rfl
  · rw [if_neg hc, if_neg fun h' => hc (hex.1 h'), Option.map_some]
    simp only [mirrorCov, rescaleCov_add, rescaleCov_smul]
    rfl

section Correct
variable {n : ℕ} (e : Fin n → Fin 15)

/-- What a correction averages or normalises before it adds does not come out as exactly half a turn. -/
structure Ukf.DiffsClear (k : UkfConst) (pts : Sig → State) (z : Fin 15 → ℝ) (x : State) : Prop where
  mean : ∀ a, e a = iRoll ∨ e a = iYaw → predictedMeas e k pts a ≠ Real.pi
  points : ∀ a, e a = iRoll ∨ e a = iYaw → ∀ s, normalizeAngle (pts s (e a) - predictedMeas e k pts a) ≠ Real.pi
  measured : ∀ a, e a = iRoll ∨ e a = iYaw → normalizeAngle (z (e a) - predictedMeas e k pts a) ≠ Real.pi
  state : ∀ (r : Fin 15) (h : r.val < n), angularIdx (e ⟨r.val, h⟩) → sgn r = -1 →
    ∀ s, normalizeAngle (pts s r - x r) ≠ Real.pi

variable {e}

theorem predictedMeas_mirror {k : UkfConst} (hk : k.Even) {pts : Sig → State} {z : Fin 15 → ℝ} {x : State}
    (h : Ukf.DiffsClear e k pts z x) (a : Fin n) :
    predictedMeas e k (mirrorPts pts) a = sgn (e a) * predictedMeas e k pts a := by
  have ha := h.mean a
  unfold predictedMeas at ha ⊢
  by_cases hi : angularIdx (e a)
  · rw [if_pos hi] at ha ⊢
    rw [if_pos hi]
    exact angleMean_mirror (fun s => (hk s).1) pts hi ha
  · rw [if_neg hi, if_neg hi, wmean_mirror fun s => (hk s).1]

theorem measDiff_mirror {k : UkfConst} {pts : Sig → State} {z : Fin 15 → ℝ} {x : State}
    (h : Ukf.DiffsClear e k pts z x) (s : Sig) (a : Fin n) :
    measDiff e (fun a => sgn (e a) * predictedMeas e k pts a) (mirrorPts pts s) a =
      sgn (e a) * measDiff e (predictedMeas e k pts) (pts (swapSig s)) a := by
  unfold measDiff
  have e1 : mirrorPts pts s (e a) - sgn (e a) * predictedMeas e k pts a =
      sgn (e a) * (pts (swapSig s) (e a) - predictedMeas e k pts a) := by
    show sgn (e a) * _ - _ = _
    ring
  rw [e1]
  by_cases hi : angularIdx (e a)
  · rw [if_pos hi, if_pos hi]
    exact normalize_mirror fun h1 => h.points a (roll_or_yaw hi h1) _
  · rw [if_neg hi, if_neg hi]

theorem stateDiff_mirror {k : UkfConst} {pts : Sig → State} {z : Fin 15 → ℝ} {x : State}
    (h : Ukf.DiffsClear e k pts z x) (s : Sig) (r : Fin 15) :
    stateDiff e (mirrorPts pts s - x.mirror) r = sgn r * stateDiff e (pts (swapSig s) - x) r := by
  have e1 : (mirrorPts pts s - x.mirror) r = sgn r * (pts (swapSig s) - x) r := by
    show sgn r * _ - sgn r * _ = sgn r * (_ - _)
    ring
  unfold stateDiff
  rw [e1]
  by_cases hr : r.val < n
  · rw [dif_pos hr, dif_pos hr]
    by_cases ha : angularIdx (e ⟨r.val, hr⟩)
    · rw [if_pos ha, if_pos ha]
      exact normalize_mirror fun h1 => h.state r hr ha h1 _
    · rw [if_neg ha, if_neg ha]
  · rw [dif_neg hr, dif_neg hr]

/-- One correction of the unscented filter in the mirror. -/
theorem correctU_mirror {k : UkfConst} (hk : k.Even) {pts : Sig → State} {z z' : Fin 15 → ℝ} {x : State}
    (h : Ukf.DiffsClear e k pts z x) (hz : ∀ a, z' (e a) = sgn (e a) * z (e a)) (R : Mat15) (thr : Thresh) (P : Mat15)
    (hr : ∀ r, ukfCorrectAt e k pts z R thr x P = some r → r.2.2 = true → r.1 iRoll ≠ Real.pi ∧ r.1 iYaw ≠ Real.pi) :
    ukfCorrectAt e k (mirrorPts pts) z' (mirrorCov R) thr x.mirror (mirrorCov P) =
      (ukfCorrectAt e k pts z R thr x P).map fun r => (r.1.mirror, mirrorCov r.2.1, r.2.2) := by
  obtain ⟨T, hT⟩ : ∃ T : Mat15, T = diagonal sgn := ⟨_, rfl⟩
  obtain ⟨U, hU⟩ : ∃ U : Matrix (Fin n) (Fin n) ℝ, U = diagonal (fun a => sgn (e a)) := ⟨_, rfl⟩
  have UU : U * U = 1 := by
    rw [hU, diagonal_mul_diagonal, ← diagonal_one]
    exact congrArg _ (funext fun i => sgn_sq _)
  have Tt : T.transpose = T := by rw [hT, diagonal_transpose]
  have Ut : U.transpose = U := by rw [hU, diagonal_transpose]
  have hRc : ∀ M : Mat15, mirrorCov M = T * M * T := fun M => by rw [hT]; exact rescaleCov_eq M
  have hsR : subR e (mirrorCov R) = U * subR e R * U := by
    ext a b
    rw [hU, mul_diagonal, diagonal_mul]
    unfold subR mirrorCov rescaleCov
    simp only [Matrix.of_apply]
    split
    · rename_i hab
      subst hab
      rw [mul_right_comm, sgn_sq, one_mul, mul_right_comm, sgn_sq, one_mul]
    · rfl
  have hpm : predictedMeas e k (mirrorPts pts) = fun a => sgn (e a) * predictedMeas e k pts a :=
    funext fun i => predictedMeas_mirror hk h i
  have hM : measCovar e k (mirrorPts pts) = U * measCovar e k pts * U := by
    ext a b
    rw [hU, mul_diagonal, diagonal_mul]
    unfold measCovar
    simp only [hpm, Matrix.sum_apply, Matrix.smul_apply, vecMulVec_apply, smul_eq_mul, measDiff_mirror h]
    rw [← sum_swap (fun s => k.c s * (measDiff e (predictedMeas e k pts) (pts s) a * measDiff e (predictedMeas e k pts) (pts s) b)),
      Finset.mul_sum, Finset.sum_mul]
    exact Finset.sum_congr rfl fun s _ => by rw [(hk s).2]; ring
  have hC : crossCovar e k (mirrorPts pts) x.mirror = T * crossCovar e k pts x * U := by
    ext a b
    rw [hU, hT, mul_diagonal, diagonal_mul]
    unfold crossCovar
    simp only [hpm, Matrix.sum_apply, Matrix.smul_apply, vecMulVec_apply, smul_eq_mul, measDiff_mirror h, stateDiff_mirror h]
    rw [← sum_swap (fun s => k.c s * (stateDiff e (pts s - x) a * measDiff e (predictedMeas e k pts) (pts s) b)),
      Finset.mul_sum, Finset.sum_mul]
    exact Finset.sum_congr rfl fun s _ => by rw [(hk s).2]; ring
  have hy : ukfInnovation e z' (predictedMeas e k (mirrorPts pts)) = U.mulVec (ukfInnovation e z (predictedMeas e k pts)) := by
    rw [hpm, hU]
    funext i
    rw [mulVec_diagonal]
    unfold ukfInnovation
    rw [hz, ← mul_sub]
    by_cases hi : angularIdx (e i)
    · rw [if_pos hi, if_pos hi]
      exact normalize_mirror fun h1 => h.measured i (roll_or_yaw hi h1)
    · rw [if_neg hi, if_neg hi]
  have hdU : U.det ≠ 0 := by
    have : U.det * U.det = 1 := by rw [← det_mul, UU, det_one]
    intro h0
    rw [h0, zero_mul] at this
    exact zero_ne_one this
  unfold ukfCorrectAt at hr ⊢
  dsimp only at hr ⊢
  rw [hM, hC, hy, hsR, hRc]
  generalize measCovar e k pts = M at hr ⊢
  generalize crossCovar e k pts x = C at hr ⊢
  generalize ukfInnovation e z (predictedMeas e k pts) = y at hr ⊢
  generalize subR e R = N at hr ⊢
  have hS : U * M * U + U * N * U = U * (M + N) * U := by rw [Matrix.mul_add, Matrix.add_mul]
  rw [hS]
  have hdet : (U * (M + N) * U).det = 0 ↔ (M + N).det = 0 := by
    rw [det_mul, det_mul]
    simp [hdU]
  by_cases hd : (M + N).det = 0
  · rw [if_pos hd, if_pos (hdet.2 hd)]
    rfl
  rw [if_neg hd] at hr ⊢
  rw [if_neg fun h => hd (hdet.1 h)]
  have hinv : (U * (M + N) * U)⁻¹ = U * (M + N)⁻¹ * U := by
    apply Matrix.inv_eq_right_inv
    calc U * (M + N) * U * (U * (M + N)⁻¹ * U)
        = U * (M + N) * (U * U) * (M + N)⁻¹ * U := by simp only [Matrix.mul_assoc]
      _ = 1 := by
        rw [UU, Matrix.mul_one, Matrix.mul_assoc U, Matrix.mul_nonsing_inv _ (isUnit_iff_ne_zero.2 hd), Matrix.mul_one, UU]
  rw [hinv]
  generalize (M + N)⁻¹ = I at hr ⊢
  have hK : T * C * U * (U * I * U) = T * (C * I) * U := by
    calc T * C * U * (U * I * U) = T * C * (U * U) * I * U := by simp only [Matrix.mul_assoc]
      _ = _ := by rw [UU, Matrix.mul_one]; simp only [Matrix.mul_assoc]
  rw [hK]
  have hmah : checkMahalanobis (U.mulVec y) (U * I * U) thr ↔ checkMahalanobis y I thr := by
    cases thr with
    | unlimited => exact Iff.rfl
    | sigmas k =>
      unfold checkMahalanobis
      have : U.mulVec y ⬝ᵥ (U * I * U).mulVec (U.mulVec y) = y ⬝ᵥ I.mulVec y := by
        rw [Matrix.mulVec_mulVec, Matrix.mul_assoc, UU, Matrix.mul_one, ← Matrix.mulVec_mulVec,
          Matrix.dotProduct_mulVec, ← Matrix.mulVec_transpose, Matrix.mulVec_mulVec, Ut, UU, Matrix.one_mulVec]
      rw [this]
  generalize C * I = K at hr ⊢
  by_cases hm : checkMahalanobis y I thr
  · rw [if_pos hm] at hr ⊢
    rw [if_pos (hmah.2 hm), Option.map_some]
    have h1 : (T * K * U).mulVec (U.mulVec y) = State.mirror (K.mulVec y) := by
      rw [Matrix.mulVec_mulVec, Matrix.mul_assoc, UU, Matrix.mul_one, ← Matrix.mulVec_mulVec, mirror_mulVec, hT]
    have h2 : T * P * T - T * K * U * (U * M * U) * (T * K * U).transpose = T * (P - K * M * K.transpose) * T := by
      rw [transpose_mul, transpose_mul, Tt, Ut, Matrix.mul_sub, Matrix.sub_mul]
      congr 1
      calc T * K * U * (U * M * U) * (U * (K.transpose * T))
          = T * K * (U * U) * M * (U * U) * K.transpose * T := by simp only [Matrix.mul_assoc]
        _ = _ := by rw [UU, Matrix.mul_one, Matrix.mul_one]; simp only [Matrix.mul_assoc]
    have hw := hr _ rfl rfl
    rw [h1, h2, mirror_add, wrap_mirror, hRc]
    rintro i (rfl | rfl)
    · exact hw.1
    · exact hw.2
  · rw [if_neg hm, if_neg fun h' => hm (hmah.1 h'), Option.map_some, hRc]

end Correct
end RL
