import Verif.Props.EkfCov
import Verif.Props.EkfPlanar
import Verif.Props.Services
import Verif.Spec.Kept
/-! # C27: covariances left at their default are lost on `reset` -/

namespace RL
open Matrix

/-- Everything but roll, pitch and yaw. -/
def notOrient (i : Fin 15) : Bool := !decide (i = iRoll ∨ i = iPitch ∨ i = iYaw)

/-- An estimate of the orientation alone: all else is zero, and certain. -/
def OrientOnly (x : State) (P : Mat15) : Prop :=
  (∀ i, notOrient i = true → x i = 0) ∧ ∀ i j, notOrient i = true ∨ notOrient j = true → P i j = 0

theorem transferF_orient (x : State) (dt : ℝ) (i j : Fin 15) (hi : notOrient i = true) (hj : notOrient j = false) :
    transferF x dt i j = 0 := by
  have hj' : j = 3 ∨ j = 4 ∨ j = 5 := by revert hj; revert j; decide
  fin_cases i <;> first
    | exact absurd hi (by decide)
    | (rcases hj' with rfl | rfl | rfl <;> rfl)

theorem transferJ_orient {x : State} (h : ∀ i, notOrient i = true → x i = 0) (dt : ℝ) (i j : Fin 15)
    (hi : notOrient i = true) (hj : notOrient j = false) : transferJ x dt i j = 0 := by
  have hj' : j = 3 ∨ j = 4 ∨ j = 5 := by revert hj; revert j; decide
  have h6 : x 6 = 0 := h 6 rfl
  have h7 : x 7 = 0 := h 7 rfl
  have h8 : x 8 = 0 := h 8 rfl
  have h12 : x 12 = 0 := h 12 rfl
  have h13 : x 13 = 0 := h 13 rfl
  have h14 : x 14 = 0 := h 14 rfl
  fin_cases i
  · rw [show (⟨0, by omega⟩ : Fin 15) = 0 from rfl, transferJ_row0]
    rcases hj' with rfl | rfl | rfl <;> simp [h6, h7, h8, h12, h13, h14]
  · rw [show (⟨1, by omega⟩ : Fin 15) = 1 from rfl, transferJ_row1]
    rcases hj' with rfl | rfl | rfl <;> simp [h6, h7, h8, h12, h13, h14]
  · rw [show (⟨2, by omega⟩ : Fin 15) = 2 from rfl, transferJ_row2]
    rcases hj' with rfl | rfl | rfl <;> simp [h6, h7, h8, h12, h13, h14]
  all_goals first
    | exact absurd hi (by decide)
    | (rcases hj' with rfl | rfl | rfl <;> rfl)

/-- Rows that are zero stay zero under multiplication from the right. -/
theorem rows_mul {n k : ℕ} {M : Matrix (Fin 15) (Fin n) ℝ} (N : Matrix (Fin n) (Fin k) ℝ) {i : Fin 15}
    (h : ∀ j, M i j = 0) (l : Fin k) : (M * N) i l = 0 := by
  rw [Matrix.mul_apply]
  exact Finset.sum_eq_zero fun j _ => by rw [h j, zero_mul]

theorem cols_mul {n k : ℕ} {M : Matrix (Fin n) (Fin 15) ℝ} (N : Matrix (Fin k) (Fin n) ℝ) {i : Fin 15}
    (h : ∀ j, M j i = 0) (l : Fin k) : (N * M) l i = 0 := by
  rw [Matrix.mul_apply]
  exact Finset.sum_eq_zero fun j _ => by rw [h j, mul_zero]

theorem predict_orient {p : FilterPar} (hu : p.useControl = false) {ctl : Fin 6 → ℝ} {ct ref : Int} {dt : ℝ} {x : State}
    {P : Mat15} (h : OrientOnly x P) {r : State × Mat15} (hr : Ekf.predict p 0 ctl ct ref dt x P = some r) :
    OrientOnly r.1 r.2 := by
  unfold Ekf.predict at hr
  dsimp only at hr
  split at hr
  · cases hr
  have hc : prepareControl p ctl ct ref x = 0 := by
    funext c
    simp [prepareControl, hu]
  have ha : ∀ i, notOrient i = true → applyControl p (0 : Fin 6 → ℝ) dt x i = 0 := by
    intro i hi
    have hxi := h.1 i hi
    have h12 : x 12 = 0 := h.1 12 rfl
    have h13 : x 13 = 0 := h.1 13 rfl
    have h14 : x 14 = 0 := h.1 14 rfl
    fin_cases i <;> first
      | exact hxi
      | (simp only [applyControl]; simp [h12, h13, h14]; done)
      | (simp only [applyControl, Pi.zero_apply, zero_mul, add_zero]; exact hxi)
  have hn : noiseQ p 0 x = 0 := by
    ext i j
    unfold noiseQ writeDyn
    split <;> simp
  simp only [Option.some.injEq] at hr
  rw [← hr, hc, hn]
  constructor
  · intro i hi
    have hi' : ¬ (i = iRoll ∨ i = iPitch ∨ i = iYaw) := by simpa [notOrient] using hi
    dsimp only
    unfold wrapStateAngles
    rw [if_neg hi']
    show ∑ j, transferF x dt i j * applyControl p 0 dt x j = 0
    refine Finset.sum_eq_zero fun j _ => ?_
    cases hj : notOrient j with
    | true => rw [ha j hj, mul_zero]
    | false => rw [transferF_orient x dt i j hi hj, zero_mul]
  · have hrow : ∀ i, notOrient i = true → ∀ j, (transferJ x dt * P) i j = 0 := by
      intro i hi j
      rw [Matrix.mul_apply]
      refine Finset.sum_eq_zero fun l _ => ?_
      cases hl : notOrient l with
      | true => rw [h.2 l j (Or.inl hl), mul_zero]
      | false => rw [transferJ_orient h.1 dt i l hi hl, zero_mul]
    have hcol : ∀ i, notOrient i = true → ∀ j, (P * (transferJ x dt)ᵀ) j i = 0 := by
      intro i hi j
      rw [Matrix.mul_apply]
      refine Finset.sum_eq_zero fun l _ => ?_
      cases hl : notOrient l with
      | true => rw [h.2 j l (Or.inr hl), zero_mul]
      | false => rw [Matrix.transpose_apply, transferJ_orient h.1 dt i l hi hl, mul_zero]
    intro i j hij
    dsimp only
    rw [smul_zero, add_zero]
    rcases hij with hi | hj
    · exact rows_mul _ (hrow i hi) j
    · rw [Matrix.mul_assoc]
      exact cols_mul _ (hcol j hj) i

theorem correctAt_orient {n : ℕ} {e : Fin n → Fin 15} {z : Fin 15 → ℝ} {R : Mat15} {thr : Thresh} {x : State} {P : Mat15}
    (h : OrientOnly x P) {r : State × Mat15} (hr : correctAt e z R thr x P = some r) : OrientOnly r.1 r.2 := by
  unfold correctAt at hr
  split at hr
  · cases hr
  split at hr
  · simp only [Option.some.injEq] at hr
    have hK : ∀ i, notOrient i = true → ∀ j, gain e R P i j = 0 := by
      intro i hi j
      unfold gain
      exact rows_mul _ (fun l => rows_mul _ (fun l => h.2 i l (Or.inl hi)) l) j
    rw [← hr]
    constructor
    · intro i hi
      have hi' : ¬ (i = iRoll ∨ i = iPitch ∨ i = iYaw) := by simpa [notOrient] using hi
      dsimp only
      unfold wrapStateAngles
      rw [if_neg hi', Pi.add_apply, h.1 i hi, zero_add]
      show ∑ j, gain e R P i j * innovation e z x j = 0
      refine Finset.sum_eq_zero fun j _ => ?_
      rw [hK i hi j, zero_mul]
    · intro i j hij
      show joseph e R (gain e R P) P i j = 0
      obtain ⟨K, hKe⟩ : ∃ K, K = gain e R P := ⟨_, rfl⟩
      rw [← hKe] at hK ⊢
      unfold joseph
      rw [Matrix.add_apply]
      rcases hij with hi | hj
      · have h1 : ∀ l, ((1 - K * subH e) * P : Mat15) i l = 0 := by
          intro l
          rw [Matrix.sub_mul, Matrix.one_mul, Matrix.sub_apply, h.2 i l (Or.inl hi), Matrix.mul_assoc,
            rows_mul _ (hK i hi), sub_zero]
        rw [rows_mul _ h1, rows_mul _ (fun l => rows_mul _ (hK i hi) l), add_zero]
      · have hKt : ∀ l, Kᵀ l j = 0 := fun l => hK j hj l
        have h1 : ∀ l, (P * (1 - K * subH e)ᵀ : Mat15) l j = 0 := by
          intro l
          rw [Matrix.transpose_sub, Matrix.transpose_one, Matrix.transpose_mul, Matrix.mul_sub, Matrix.mul_one,
            Matrix.sub_apply, h.2 l j (Or.inr hj), ← Matrix.mul_assoc, cols_mul _ hKt, sub_zero]
        rw [Matrix.mul_assoc, cols_mul _ h1, cols_mul _ hKt, add_zero]
  · simp only [Option.some.injEq] at hr
    rw [← hr]; exact h

/-- The filter is finite and knows the orientation only, or is not finite. -/
def OrientEst (x : Option State) (P : Mat15) : Prop := ∀ s, x = some s → OrientOnly s P

theorem ekfCore_predict_orient {p : FilterPar} (hu : p.useControl = false) (ctl : Fin 6 → ℝ) (ct ref delta : Int)
    (x : Option State) (P : Mat15) (u : Unit) (h : OrientEst x P) :
    OrientEst ((ekfCore p).predict (0 : Mat15) ctl ct ref delta (x, P, u)).1
      ((ekfCore p).predict (0 : Mat15) ctl ct ref delta (x, P, u)).2.1 := by
  intro s hs
  cases x with
  | none => exact absurd hs (by simp [ekfCore])
  | some x =>
    cases hr : Ekf.predict p 0 ctl ct ref (toSec delta) x P with
    | none => simp [ekfCore, hr] at hs
    | some r =>
      simp only [ekfCore, Option.bind_some, hr, Option.some.injEq] at hs ⊢
      rw [← hs]
      exact predict_orient hu (h x rfl) hr

theorem ekfCore_correct_orient {p : FilterPar} (m : Payload) (x : Option State) (P : Mat15) (u : Unit)
    (h : OrientEst x P) :
    OrientEst ((ekfCore p).correct m (x, P, u)).1 ((ekfCore p).correct m (x, P, u)).2.1 := by
  intro s hs
  cases x with
  | none => exact absurd hs (by simp [ekfCore])
  | some x =>
    cases hr : Ekf.correct m x P with
    | none => simp [ekfCore, hr] at hs
    | some r =>
      simp only [ekfCore, Option.bind_some, hr, Option.some.injEq] at hs ⊢
      rw [← hs]
      exact correctAt_orient (h x rfl) hr

theorem driven_orient {p : FilterPar} (hu : p.useControl = false) (ds : List (Drive p)) (f : Filt (ekfCore p))
    (hi : f.initialized = true) (hQ : f.par = (0 : Mat15)) (h : OrientEst f.x f.cov) :
    OrientEst (ds.foldl Drive.apply f).x (ds.foldl Drive.apply f).cov := by
  induction ds generalizing f with
  | nil => exact h
  | cons d ds ih =>
    have hp : ∀ (g : Filt (ekfCore p)) ref delta, g.par = (0 : Mat15) → OrientEst g.x g.cov →
        OrientEst (g.predict ref delta).x (g.predict ref delta).cov := by
      intro g ref delta hg h
      have := ekfCore_predict_orient hu g.ctl g.ctlTime ref delta g.x g.cov g.ext h
      unfold Filt.predict
      rw [hg]
      exact this
    have key : (d.apply f).initialized = true ∧ (d.apply f).par = f.par ∧ OrientEst (d.apply f).x (d.apply f).cov := by
      cases d with
      | predict ref delta => exact ⟨hi, rfl, hp f ref delta hQ h⟩
      | correct m => exact ⟨hi, rfl, ekfCore_correct_orient m _ _ _ h⟩
      | control c t => exact ⟨hi, rfl, h⟩
      | process m =>
        refine ⟨Filt.processMeasurement_initialized f m, ?_, ?_⟩
        · unfold Drive.apply Filt.processMeasurement
          simp only [hi, if_true]
          split <;> split <;> rfl
        · have hp' : OrientEst ((if m.time - f.lastTime > 0 then
              { f.predict m.time (m.time - f.lastTime) with predicted := (f.predict m.time (m.time - f.lastTime)).x }
              else f).correct m.z).x ((if m.time - f.lastTime > 0 then
              { f.predict m.time (m.time - f.lastTime) with predicted := (f.predict m.time (m.time - f.lastTime)).x }
              else f).correct m.z).cov := by
            apply ekfCore_correct_orient
            split
            · exact hp f _ _ hQ h
            · exact h
          unfold Drive.apply Filt.processMeasurement
          simp only [hi, if_true]
          split
          · exact hp'
          · exact hp'
    refine ih (d.apply f) key.1 ?_ key.2.2
    rw [key.2.1]; exact hQ

/-- C27, refuted for a node whose covariance parameters are not set: if the first message after a `reset` is of the
orientation (an IMU), then for ever after, whatever is measured and however long it is predicted, position, velocity and
acceleration stay zero.  (The same node freshly started moves: `C27_default_noise_lost`.) -/
theorem C27_deaf_after_reset {p : FilterPar} {P : MQueue (ekfCore p)} (hu : p.useControl = false) (cfg : Cfg (ekfCore p))
    (hN : cfg.keptNoise = (0 : Mat15)) (hC : cfg.keptCov = (0 : Mat15)) (n : Node (ekfCore p) P)
    (first : Meas (ekfCore p)) (hf : ∀ i, Payload.upd first.z i = true → i = iRoll ∨ i = iPitch ∨ i = iYaw)
    (ds : List (Drive p)) (x : State) (hx : (ds.foldl Drive.apply ((n.reset cfg).filt.processMeasurement first)).x = some x) :
    x iX = 0 ∧ x iY = 0 ∧ x iZ = 0 ∧ x iVx = 0 ∧ x iVy = 0 ∧ x iVz = 0 ∧ x iVroll = 0 ∧ x iVpitch = 0 ∧ x iVyaw = 0 ∧
      x iAx = 0 ∧ x iAy = 0 ∧ x iAz = 0 := by
  have h0 : (n.reset cfg).filt.initialized = false := rfl
  have key : OrientEst ((n.reset cfg).filt.processMeasurement first).x ((n.reset cfg).filt.processMeasurement first).cov := by
    have e1 : ((n.reset cfg).filt.processMeasurement first).x = initState first.z 0 := rfl
    have e2 : ((n.reset cfg).filt.processMeasurement first).cov = initCov first.z cfg.keptCov := rfl
    rw [e1, e2, hC]
    intro s hs
    unfold initState at hs
    split at hs
    · simp only [Option.some.injEq] at hs
      have hno : ∀ i, notOrient i = true → Payload.upd first.z i = false := by
        intro i hi
        have hi' : ¬ (i = iRoll ∨ i = iPitch ∨ i = iYaw) := by simpa [notOrient] using hi
        by_contra hc
        exact hi' (hf i (by simpa using hc))
      rw [← hs]
      refine ⟨fun i hi => ?_, fun i j hij => ?_⟩
      · dsimp only
        rw [hno i hi]; rfl
      · show (if _ && _ then _ else _) = _
        rcases hij with hi | hj
        · rw [hno i hi]; rfl
        · rw [hno j hj, Bool.and_false]; rfl
    · cases hs
  have := (driven_orient hu ds ((n.reset cfg).filt.processMeasurement first) (Filt.processMeasurement_initialized _ first) hN key) x hx
  exact ⟨this.1 _ rfl, this.1 _ rfl, this.1 _ rfl, this.1 _ rfl, this.1 _ rfl, this.1 _ rfl, this.1 _ rfl, this.1 _ rfl,
    this.1 _ rfl, this.1 _ rfl, this.1 _ rfl, this.1 _ rfl⟩

/-- A measurement of the yaw, and one of the position along x. -/
def imuZ : Payload := demoZ (fun i => decide (i = iYaw)) (fun _ => .fin 0)
def gpsZ : Payload := demoZ (fun i => decide (i = iX)) (fun _ => .fin 1)

/-- The configuration of a node without control whose covariance parameters are not set. -/
noncomputable def unsetCfg : Cfg (ekfCore plainPar) := { demoCfg plainPar with keptNoise := (0 : Mat15), keptCov := (0 : Mat15) }

/-- The estimate of a filter that has been told a yaw of 0, then a position of 1 along x. -/
noncomputable def twoTold (f : Filt (ekfCore plainPar)) : Option State :=
  ((f.processMeasurement { time := 1, topic := "imu", z := imuZ, ctl := (0 : Fin 6 → ℝ), ctlTime := 0 }).processMeasurement
    { time := 1, topic := "gps", z := gpsZ, ctl := (0 : Fin 6 → ℝ), ctlTime := 0 }).x

theorem init_imu : initState imuZ 0 = some 0 := by
  have h : ∀ i, imuZ.upd i = true → (imuZ.z i).isFin = true := fun _ _ => rfl
  unfold initState
  rw [if_pos h]
  congr 1
  funext i
  show (if _ then (0 : ℝ) else 0) = 0
  exact ite_self _

theorem correctAt_gps (e : Fin 1 → Fin 15) (he : e = fun _ => iX) (c : ℝ) (hc : 0 ≤ c) (P : Mat15) (hP : P iX iX = c) :
    ∃ x P', correctAt e (fun i => (gpsZ.z i).val) gpsZ.R gpsZ.thresh 0 P = some (x, P') ∧ x iX = c / (c + 1) := by
  have hR : sanitize (gpsZ.R iX iX) = 1 := by
    show sanitize ((1 : Mat15) iX iX) = 1
    rw [one_apply_eq]
    unfold sanitize
    norm_num
  have hS : innovCov e gpsZ.R P = (c + 1) • (1 : Matrix (Fin 1) (Fin 1) ℝ) := by
    ext a b
    obtain rfl : a = 0 := Subsingleton.elim _ _
    obtain rfl : b = 0 := Subsingleton.elim _ _
    have h1 : (subH e * (P * (subH e)ᵀ)) 0 0 = P iX iX := by
      rw [Matrix.mul_apply, Finset.sum_eq_single iX]
      · rw [Matrix.mul_apply, Finset.sum_eq_single iX]
        · simp [subH, he]
        · intro b _ hb; simp [subH, hb, he]
        · simp
      · intro b _ hb; simp [subH, hb, he]
      · simp
    have h2 : subR e gpsZ.R 0 0 = 1 := by
      simp only [subR, Matrix.of_apply, if_true, he]
      exact hR
    show (subH e * (P * (subH e)ᵀ)) 0 0 + subR e gpsZ.R 0 0 = _
    rw [h1, h2, hP]
    simp
  have hd : (innovCov e gpsZ.R P).det ≠ 0 := by
    rw [hS, Matrix.det_smul, Matrix.det_one]
    simp
    linarith
  unfold correctAt
  rw [if_neg hd, if_pos (by exact trivial)]
  refine ⟨_, _, rfl, ?_⟩
  have hK : gain e gpsZ.R P iX 0 = c / (c + 1) := by
    unfold gain
    rw [hS, Matrix.mul_apply, Finset.sum_eq_single (0 : Fin 1)]
    · have h1 : (P * (subH e)ᵀ) iX 0 = P iX iX := by
        rw [Matrix.mul_apply, Finset.sum_eq_single iX]
        · simp [subH, he]
        · intro b _ hb; simp [subH, hb, he]
        · simp
      have h2 : ((c + 1) • (1 : Matrix (Fin 1) (Fin 1) ℝ))⁻¹ 0 0 = (c + 1)⁻¹ := by
        rw [Matrix.inv_subsingleton]
        simp
      rw [h1, h2, hP]
      exact (div_eq_mul_inv _ _).symm
    · intro b _ hb; exact absurd (Subsingleton.elim _ _) hb
    · simp
  unfold wrapStateAngles
  rw [if_neg (by decide), Pi.add_apply]
  show 0 + ∑ j : Fin 1, gain e gpsZ.R P iX j * innovation e (fun i => (gpsZ.z i).val) 0 j = _
  rw [Fin.sum_univ_one, hK]
  have hn : innovation e (fun i => (gpsZ.z i).val) 0 0 = 1 := by
    unfold innovation
    rw [he, if_neg (by decide)]
    show (1 : ℝ) - 0 = 1
    norm_num
  rw [hn]
  ring

theorem correct_gps (c : ℝ) (hc : 0 ≤ c) (P : Mat15) (hP : P iX iX = c) : ∃ x P', Ekf.correct gpsZ 0 P = some (x, P') ∧
    x iX = c / (c + 1) := by
  have hi : gpsZ.indices = [iX] := by
    show (List.finRange 15).filter (fun i => decide (i = iX) && !false && !false) = [iX]
    decide
  obtain ⟨l, hl⟩ : ∃ l, l = gpsZ.indices := ⟨_, rfl⟩
  unfold Ekf.correct
  rw [← hl] at hi ⊢
  subst hi
  refine correctAt_gps ([iX].get) ?_ c hc P hP
  funext a
  obtain rfl : a = 0 := Subsingleton.elim (α := Fin 1) _ _
  rfl

theorem twoTold_eq (f : Filt (ekfCore plainPar)) (hi : f.initialized = false) (hx : f.x = some (0 : State)) (c : ℝ) (hc : 0 ≤ c)
    (hP : (f.cov : Mat15) iX iX = c) : ∃ x, twoTold f = some x ∧ x iX = c / (c + 1) := by
  obtain ⟨ini, fx, fc, fe, fp, par, ctl, ct, lt, st⟩ := f
  dsimp only at hi hx hP
  subst hi hx
  obtain ⟨x, P', hr, h⟩ := correct_gps c hc (initCov imuZ fc) (by
    simp only [initCov, imuZ, demoZ, Matrix.of_apply]
    exact hP)
  refine ⟨x, ?_, h⟩
  have e0 : ((ekfCore plainPar).correct gpsZ (initState imuZ 0, initCov imuZ fc, fe)).1 = some x := by
    rw [init_imu]
    simp [ekfCore, hr]
  exact e0

/-- C27, refuted: the configuration does not set the covariances; started, the filter is moved by the position it is
told; after a `reset` it is not. -/
theorem C27_default_noise_lost (P : MQueue (ekfCore plainPar)) : ∃ x x' : State,
    twoTold (Node.start unsetCfg P () (0 : Fin 6 → ℝ) 0).filt = some x ∧ 0 < x iX ∧
    twoTold ((Node.start unsetCfg P () (0 : Fin 6 → ℝ) 0).reset unsetCfg).filt = some x' ∧ x' iX = 0 := by
  obtain ⟨x, h1, h2⟩ := twoTold_eq (Node.start unsetCfg P () (0 : Fin 6 → ℝ) 0).filt rfl rfl 1e-9 (by norm_num) (by
    show ((1e-9 : ℝ) • (1 : Mat15)) iX iX = 1e-9
    rw [Matrix.smul_apply, one_apply_eq, smul_eq_mul, mul_one])
  obtain ⟨x', h1', h2'⟩ := twoTold_eq ((Node.start unsetCfg P () (0 : Fin 6 → ℝ) 0).reset unsetCfg).filt rfl rfl 0 (le_refl _) rfl
  refine ⟨x, x', h1, ?_, h1', ?_⟩
  · rw [h2]; norm_num
  · rw [h2']; norm_num

/-- The hypotheses of `C27_deaf_after_reset` can be met. -/
example : plainPar.useControl = false ∧ unsetCfg.keptNoise = (0 : Mat15) ∧ unsetCfg.keptCov = (0 : Mat15) ∧
    ∀ i, imuZ.upd i = true → i = iRoll ∨ i = iPitch ∨ i = iYaw :=
  ⟨rfl, rfl, rfl, fun _ h => Or.inr (Or.inr (of_decide_eq_true h))⟩

end RL
