import Verif.Props.Query
import Verif.Props.RestUkf
/-!
# C113: the listener predicts what the filter would have predicted
-/

namespace RL
open Matrix Listen Est

/-- The groups whose covariances are published: pose, velocity, acceleration. -/
def SameGroup (i j : Fin 15) : Prop :=
  (i.val < 6 ∧ j.val < 6) ∨ ((6 ≤ i.val ∧ i.val < 12) ∧ 6 ≤ j.val ∧ j.val < 12) ∨ (12 ≤ i.val ∧ 12 ≤ j.val)

/-- Errors of different groups are not correlated. -/
def GroupsApart (P : Mat15) : Prop := ∀ i j, ¬ SameGroup i j → P i j = 0

/-- An estimate as the filter leaves it: angles within half a turn (C04), pitch short of vertical. -/
structure Upright (x : State) : Prop where
  roll : -Real.pi < x 3 ∧ x 3 ≤ Real.pi
  pitch : -(Real.pi / 2) < x 4 ∧ x 4 < Real.pi / 2
  yaw : -Real.pi < x 5 ∧ x 5 ≤ Real.pi

theorem fullOf_state {fr : RL.Frames} {x : State} {P : Mat15} {t : Int} {d : Differ} {o : OdomMsg} {a : AccelMsg}
    (ho : odomMessage fr true x P t = some o) (ha : accelMessage fr true x P t d = some a) (hx : Upright x) :
    (fullOf o a).x = x := by
  obtain ⟨-, h1, h2, h3, -⟩ := C47_contents fr x P t d o a ho ha hx.pitch
  funext i
  by_cases c3 : i.val = 3
  · obtain rfl : i = 3 := Fin.ext c3
    rw [h2, normalizeAngle_of_mem hx.roll.1 hx.roll.2]
  by_cases c5 : i.val = 5
  · obtain rfl : i = 5 := Fin.ext c5
    rw [h3, normalizeAngle_of_mem hx.yaw.1 hx.yaw.2]
  · exact h1 i (by tauto)

theorem fullOf_cov {fr : RL.Frames} {x : State} {P : Mat15} {t : Int} {d : Differ} {o : OdomMsg} {a : AccelMsg}
    (ho : odomMessage fr true x P t = some o) (ha : accelMessage fr true x P t d = some a) (hx : Upright x) :
    (fullOf o a).P = Matrix.of fun i j => if (i.val < 6 ∧ j.val < 6) ∨ ((6 ≤ i.val ∧ i.val < 12) ∧ 6 ≤ j.val ∧ j.val < 12) ∨
      (12 ≤ i.val ∧ 12 ≤ j.val) then P i j else 0 := by
  obtain ⟨-, -, -, -, h⟩ := C47_contents fr x P t d o a ho ha hx.pitch
  ext i j
  exact h i j

theorem fullOf_apart {fr : RL.Frames} {x : State} {P : Mat15} {t : Int} {d : Differ} {o : OdomMsg} {a : AccelMsg}
    (ho : odomMessage fr true x P t = some o) (ha : accelMessage fr true x P t d = some a) (hx : Upright x)
    (hP : GroupsApart P) : (fullOf o a).P = P := by
  rw [fullOf_cov ho ha hx]
  ext i j
  rw [Matrix.of_apply]
  split
  · rfl
  · rename_i h
    exact (hP i j h).symm

theorem fromSeconds_toSec (n : Int) (h : |n| ≤ 9000000000000000000) : fromSeconds (toSec n) = some n := by
  have e : toSec n * 1000000000 = (n : ℝ) := by unfold toSec; ring
  obtain ⟨h1, h2⟩ := abs_le.1 h
  unfold fromSeconds toInt64
  rw [e]
  simp only [Int.floor_intCast, Int.ceil_intCast, ite_self]
  rw [if_pos (by omega)]

theorem predict_estPar {p : FilterPar} (hc : ∀ c, p.ctlUpd c = false) (hd : p.dynamic = false) (Q : Mat15) (ctl : Fin 6 → ℝ)
    (ct ref : Int) (dt : ℝ) (x : State) (P : Mat15) :
    Ekf.predict estPar Q 0 0 0 dt x P = Ekf.predict p Q ctl ct ref dt x P := by
  unfold Ekf.predict
  rw [applyControl_none p hc, applyControl_none estPar (fun _ => rfl)]
  simp [noiseQ, hd, estPar]

variable {fr : RL.Frames} {x : State} {P : Mat15} {t : Int} {d : Differ} {o : OdomMsg} {a : AccelMsg}

/-- C113, partial, for the state and an extended Kalman filter: of a filter without control, the listener predicts, from
what was published, the state that the filter itself would have at the later (or earlier) time; it does not matter which
process noise the two have.  Missing: commands (`C113_command`). -/
theorem C113_state_partial (llt : Llt) (ho : odomMessage fr true x P t = some o) (ha : accelMessage fr true x P t d = some a)
    (hx : Upright x) {p : FilterPar} (hc : ∀ c, p.ctlUpd c = false) (Q Q' : Mat15) (ctl : Fin 6 → ℝ) (ct ref n : Int)
    (hn : |n| ≤ 9000000000000000000) :
    (predictedWith llt .ekf Q (fullOf o a) (toSec n)).map Full.x = (Ekf.predict p Q' ctl ct ref (toSec n) x P).map Prod.fst := by
  unfold predictedWith predicted
  rw [fromSeconds_toSec n hn, Option.bind_some, fullOf_state ho ha hx]
  unfold Ekf.predict
  rw [applyControl_none p hc, applyControl_none estPar (fun _ => rfl)]
  by_cases h : Real.cos (x iPitch) = 0
  · simp [h]
  · simp [h]

/-- C113, partial, for an extended Kalman filter: with the same process noise, no dynamic process noise and no
correlations between pose, velocities and accelerations the covariance is that of the filter, too.  Missing: correlations
(`C113_correlation`), dynamic noise (`C113_dynamic`), commands. -/
theorem C113_ekf_partial (llt : Llt) (ho : odomMessage fr true x P t = some o) (ha : accelMessage fr true x P t d = some a)
    (hx : Upright x) (hP : GroupsApart P) {p : FilterPar} (hc : ∀ c, p.ctlUpd c = false) (hd : p.dynamic = false) (Q : Mat15)
    (ctl : Fin 6 → ℝ) (ct ref n : Int) (hn : |n| ≤ 9000000000000000000) :
    predictedWith llt .ekf Q (fullOf o a) (toSec n) =
      (Ekf.predict p Q ctl ct ref (toSec n) x P).map fun r => { x := r.1, P := r.2 } := by
  unfold predictedWith predicted
  rw [fromSeconds_toSec n hn, Option.bind_some, fullOf_state ho ha hx, fullOf_apart ho ha hx hP,
    predict_estPar hc hd Q ctl ct ref]

/-- C113, partial, for an unscented filter whose constants are given to the listener: the same, whatever the commands (the
filter ignores them, C19). -/
theorem C113_ukf_partial (llt : Llt) (ho : odomMessage fr true x P t = some o) (ha : accelMessage fr true x P t d = some a)
    (hx : Upright x) (hP : GroupsApart P) {p : FilterPar} (hd : p.dynamic = false) (lam0 alpha kappa beta : ℝ) (rest : List ℝ)
    {k : UkfConst} (hk : setConstants alpha kappa beta = some k) (Q : Mat15)
    (ctl : Fin 6 → ℝ) (ct ref n : Int) (hn : |n| ≤ 9000000000000000000) :
    ∃ f, estFilter lam0 (filterTypeFromString "ukf") (alpha :: kappa :: beta :: rest) = some f ∧
    predictedWith llt f Q (fullOf o a) (toSec n) =
      (Ukf.predict p llt k Q ctl ct ref (toSec n) x P).map fun r => { x := r.1, P := r.2.1 } := by
  refine ⟨.ukf k, by simp [estFilter, filterTypeFromString, hk], ?_⟩
  unfold predictedWith
  simp only
  rw [fromSeconds_toSec n hn, Option.bind_some, fullOf_state ho ha hx, fullOf_apart ho ha hx hP]
  unfold Ukf.predict
  simp [noiseQ, hd, estPar]

/-! ## Where it fails -/

/-- C113, refuted: an unscented filter for which the listener is not given three constants predicts the origin, at rest, with
the process noise as its covariance, from whatever state it starts. -/
theorem C113_unset (llt : Llt) (lam0 : ℝ) (args : List ℝ) (ha : args.length < 3) :
    ∃ f, estFilter lam0 (filterTypeFromString "ukf") args = some f ∧
      ∀ (Q : Mat15) (e : Full) (n : Int) (r : Full), |n| ≤ 9000000000000000000 →
        predictedWith llt f Q e (toSec n) = some r → r.x = 0 ∧ r.P = toSec n • Q := by
  refine ⟨.ukf { lam := lam0, w := 0, c := 0 }, ?_, ?_⟩
  · have : filterTypeFromString "ukf" = .ukf := by decide
    rw [this]
    rcases args with _ | ⟨a, _ | ⟨b, _ | ⟨c, l⟩⟩⟩
    · rfl
    · rfl
    · rfl
    · simp at ha
      omega
  · intro Q e n r hn h
    unfold predictedWith at h
    simp only at h
    rw [fromSeconds_toSec n hn, Option.bind_some] at h
    unfold Ukf.predict at h
    dsimp only at h
    have hm : ∀ pts, ukfMean { lam := lam0, w := 0, c := 0 } pts = 0 := by
      intro pts
      funext i
      unfold ukfMean angleMean atan2
      simp only [Pi.zero_apply, zero_mul, Finset.sum_const_zero]
      split
      · exact Complex.arg_zero
      · rfl
    rw [hm] at h
    split at h
    · cases h
    · simp only [Option.map_some, Option.some.injEq] at h
      rw [← h]
      refine ⟨?_, ?_⟩
      · funext i
        simp [wrapStateAngles, normalizeAngle_zero]
      · simp [ukfCovar, noiseQ, estPar]

/-- Such a prediction exists: of a robot five metres from the origin, with unit variances. -/
theorem C113_unset_happens (llt : Llt) : ∃ f e r, estFilter (-14) (filterTypeFromString "ukf") [] = some f ∧ e.x 0 = 5 ∧
    e.P = 1 ∧ predictedWith llt f 1 e (toSec 1000000000) = some r ∧ r.x 0 = 0 := by
  obtain ⟨f, hf, h⟩ := C113_unset llt (-14) [] (by simp)
  have hf' : f = .ukf { lam := -14, w := 0, c := 0 } := by
    have : estFilter (-14) (filterTypeFromString "ukf") [] = some (.ukf { lam := -14, w := 0, c := 0 }) := by
      have : filterTypeFromString "ukf" = .ukf := by decide
      rw [this]; rfl
    rw [this] at hf
    exact (Option.some.inj hf).symm
  obtain ⟨e, he⟩ : ∃ e : Full, e = { x := Pi.single 0 5, P := 1 } := ⟨_, rfl⟩
  have hL : llt.L ((15 + (-14 : ℝ)) • (1 : Mat15)) = 1 := by
    have := llt.eq_of (B := 1) (fun i j h => Matrix.one_apply_ne h.ne) (fun i => by simp)
    rw [transpose_one, mul_one] at this
    rw [show (15 + (-14 : ℝ)) = 1 by norm_num, one_smul, this]
  obtain ⟨r, hr⟩ : ∃ r, predictedWith llt f 1 e (toSec 1000000000) = some r := by
    rw [hf', he]
    unfold predictedWith
    simp only
    rw [fromSeconds_toSec _ (by norm_num), Option.bind_some]
    unfold Ukf.predict
    dsimp only
    rw [if_neg]
    · exact ⟨_, rfl⟩
    · rintro ⟨s, hs⟩
      revert hs
      have hc : Real.cos 1 ≠ 0 := (Real.cos_pos_of_mem_Ioo ⟨by linarith [Real.pi_gt_three], by linarith [Real.pi_gt_three]⟩).ne'
      unfold sigmaPoints
      rw [hL]
      rcases s with s | s | s
      · simp [iPitch]
      · by_cases hs : s = iPitch
        · subst hs; simpa [iPitch] using hc
        · have : (1 : Mat15) iPitch s = 0 := Matrix.one_apply_ne (Ne.symm hs)
          simp [this, iPitch]
      · by_cases hs : s = iPitch
        · subst hs; simpa [iPitch] using hc
        · have : (1 : Mat15) iPitch s = 0 := Matrix.one_apply_ne (Ne.symm hs)
          simp [this, iPitch]
  refine ⟨f, e, r, hf, by rw [he]; simp, by rw [he], hr, ?_⟩
  rw [(h 1 e 1000000000 r (by norm_num) hr).1]
  rfl

/-- A published estimate. -/
theorem published (x : State) (P : Mat15) : ∃ o a, odomMessage ⟨"odom", "map", "odom", "base_link", "base_link"⟩ true x P 0 = some o ∧
    accelMessage ⟨"odom", "map", "odom", "base_link", "base_link"⟩ true x P 0 ⟨0, 0, 0, 0⟩ = some a := by
  refine ⟨_, _, by unfold odomMessage; rw [if_pos rfl], by unfold accelMessage; rw [if_pos rfl]⟩

theorem upright_cos {x : State} (hx : Upright x) : ¬ Real.cos (x iPitch) = 0 :=
  (Real.cos_pos_of_mem_Ioo ⟨hx.pitch.1, hx.pitch.2⟩).ne'

/-- What the listener predicts with an extended Kalman filter. -/
theorem listener_ekf (llt : Llt) (Q : Mat15) (ho : odomMessage fr true x P t = some o)
    (ha : accelMessage fr true x P t d = some a) (hx : Upright x) (n : Int) (hn : |n| ≤ 9000000000000000000) :
    predictedWith llt .ekf Q (fullOf o a) (toSec n) = some { x := wrapStateAngles ((transferF x (toSec n)).mulVec x)
                                                             P := transferJ x (toSec n) * (fullOf o a).P * (transferJ x (toSec n))ᵀ + toSec n • Q } := by
  unfold predictedWith predicted
  simp only
  rw [fromSeconds_toSec _ hn, Option.bind_some, fullOf_state ho ha hx]
  unfold Ekf.predict
  rw [if_neg (upright_cos hx), applyControl_none estPar (fun _ => rfl)]
  simp [noiseQ, estPar]

theorem upright_of {x : State} (h3 : x 3 = 0) (h4 : x 4 = 0) (h5 : x 5 = 0) : Upright x := by
  have := Real.pi_pos
  refine ⟨?_, ?_, ?_⟩
  · rw [h3]; constructor <;> linarith
  · rw [h4]; constructor <;> linarith
  · rw [h5]; constructor <;> linarith

/-- C113, refuted: a command in force moves the estimate of the filter, not that of the listener. -/
theorem C113_command : ∃ (p : FilterPar) (ctl : Fin 6 → ℝ), ∀ (llt : Llt) (Q : Mat15) (fr : RL.Frames) (d : Differ) (o : OdomMsg)
    (a : AccelMsg), odomMessage fr true 0 1 0 = some o → accelMessage fr true 0 1 0 d = some a →
    ∃ r r', predictedWith llt .ekf Q (fullOf o a) (toSec 1000000000) = some r ∧
      Ekf.predict p Q ctl 0 1 (toSec 1000000000) 0 1 = some r' ∧ r.x 12 = 0 ∧ r'.1 12 = 1 := by
  obtain ⟨p, hp⟩ : ∃ p : FilterPar, p = { useControl := true, ctlTimeout := 1000, ctlUpd := fun c => decide (c = 0), accLim := 1, accGain := 1
                                          decLim := 1, decGain := 1, dynamic := false } := ⟨_, rfl⟩
  refine ⟨p, fun _ => 1, ?_⟩
  intro llt Q fr d o a ho ha
  have hx : Upright 0 := upright_of rfl rfl rfl
  refine ⟨_, _, listener_ekf llt Q ho ha hx _ (by norm_num), if_neg (upright_cos hx), ?_, ?_⟩
  · simp [wrapStateAngles, iRoll, iPitch, iYaw]
  · simp only [wrapStateAngles]
    rw [if_neg (by decide)]
    simp only [mulVec, transferF_row12, dotProduct, sum15]
    simp [applyControl, prepareControl, hp, C11_formula, Braking]

/-- C113, refuted: correlations between the groups are not published, so the listener is surer, here about a position that
was correlated with the velocity, than the filter would be. -/
theorem C113_correlation : ∃ P : Mat15, P.PosSemidef ∧ ∀ (llt : Llt) (p : FilterPar) (ctl : Fin 6 → ℝ) (ct ref : Int) (Q : Mat15)
    (fr : RL.Frames) (d : Differ) (o : OdomMsg) (a : AccelMsg), p.dynamic = false →
    odomMessage fr true 0 P 0 = some o → accelMessage fr true 0 P 0 d = some a →
    ∃ r r', predictedWith llt .ekf Q (fullOf o a) (toSec 1000000000) = some r ∧
      Ekf.predict p Q ctl ct ref (toSec 1000000000) 0 P = some r' ∧ r'.2 0 0 = r.P 0 0 + 2 := by
  obtain ⟨u, hu⟩ : ∃ u : State, u = Pi.single 0 1 + Pi.single 6 1 := ⟨_, rfl⟩
  refine ⟨vecMulVec u u, ?_, ?_⟩
  · have := posSemidef_vecMulVec_self_star u
    simpa using this
  intro llt p ctl ct ref Q fr d o a hd ho ha
  have hx : Upright 0 := upright_of rfl rfl rfl
  refine ⟨_, _, listener_ekf llt Q ho ha hx _ (by norm_num), if_neg (upright_cos hx), ?_⟩
  have hF : toSec 1000000000 = 1 := by norm_num [toSec]
  have hJ : ∀ M : Mat15, (∀ i j, ¬ (i = 0 ∨ i = 6) ∨ ¬ (j = 0 ∨ j = 6) → M i j = 0) →
      (transferJ 0 1 * M * (transferJ 0 1)ᵀ) 0 0 = M 0 0 + M 0 6 + M 6 0 + M 6 6 := by
    intro M hM
    have e0 : transferJ 0 1 0 0 = 1 := by rfl
    have e6 : transferJ 0 1 0 6 = 1 := by
      simp [transferJ, writeJ, jEntry, transferF, writeF, fEntry, trig]
    rw [mul_apply, sum15]
    simp only [mul_apply, sum15, transpose_apply]
    have z : ∀ i j : Fin 15, ¬ ((i = 0 ∨ i = 6) ∧ (j = 0 ∨ j = 6)) → M i j = 0 := fun i j h => hM i j (by tauto)
    simp [z, e0, e6]
    ring
  simp only [hF, noiseQ, hd, Matrix.add_apply]
  rw [fullOf_cov ho ha hx, hJ, hJ]
  · simp [hu, vecMulVec_apply]
    ring
  · intro i j h
    simp only [Matrix.of_apply, vecMulVec_apply, hu, Pi.add_apply, Pi.single_apply]
    rcases h with h | h <;> simp [not_or] at h <;> simp [h]
  · intro i j h
    simp only [vecMulVec_apply, hu, Pi.add_apply, Pi.single_apply]
    rcases h with h | h <;> simp [not_or] at h <;> simp [h]

/-- C113, refuted: the listener knows nothing of dynamic process noise. -/
theorem C113_dynamic : ∃ x : State, ∀ (llt : Llt) (p : FilterPar) (ctl : Fin 6 → ℝ) (ct ref : Int)
    (fr : RL.Frames) (d : Differ) (o : OdomMsg) (a : AccelMsg), p.dynamic = true →
    odomMessage fr true x 0 0 = some o → accelMessage fr true x 0 0 d = some a →
    ∃ r r', predictedWith llt .ekf 1 (fullOf o a) (toSec 1000000000) = some r ∧
      Ekf.predict p 1 ctl ct ref (toSec 1000000000) x 0 = some r' ∧ r.P 0 0 = 1 ∧ r'.2 0 0 = 4 := by
  refine ⟨Pi.single 6 2, ?_⟩
  intro llt p ctl ct ref fr d o a hd ho ha
  have hx : Upright (Pi.single 6 2) := upright_of rfl rfl rfl
  have hF : toSec 1000000000 = 1 := by norm_num [toSec]
  have h0 : (fullOf o a).P = 0 := by
    rw [fullOf_cov ho ha hx]
    ext i j
    simp
  refine ⟨_, _, listener_ekf llt 1 ho ha hx _ (by norm_num), if_neg (upright_cos hx), ?_, ?_⟩
  · simp [h0, hF]
  · have : Real.sqrt (∑ c : Fin 6, (Pi.single 6 2 : State) (velIdx c) ^ 2) = 2 := by
      have e : ∑ c : Fin 6, (Pi.single 6 2 : State) (velIdx c) ^ 2 = 2 ^ 2 := by
        rw [Finset.sum_eq_single 0]
        · simp [velIdx]
        · intro c _ hc
          have : velIdx c ≠ 6 := by
            intro h
            apply hc
            fin_cases c <;> simp [velIdx] at h ⊢
          simp [Pi.single_apply, this]
        · simp
      rw [e, Real.sqrt_sq (by norm_num)]
    simp only [noiseQ, hd, if_true, writeDyn, this]
    norm_num [hF]

/-- The hypotheses of the positive theorems are met by a moving robot. -/
example : ∃ (x : State) (P : Mat15) (fr : RL.Frames) (d : Differ) (o : OdomMsg) (a : AccelMsg), Upright x ∧ GroupsApart P ∧
    x 6 = 2 ∧ odomMessage fr true x P 0 = some o ∧ accelMessage fr true x P 0 d = some a := by
  obtain ⟨o, a, h1, h2⟩ := published (Pi.single 6 2) 1
  refine ⟨Pi.single 6 2, 1, _, _, o, a, upright_of rfl rfl rfl, ?_, by simp, h1, h2⟩
  intro i j h
  refine Matrix.one_apply_ne fun e => h ?_
  subst e
  unfold SameGroup
  omega

end RL
