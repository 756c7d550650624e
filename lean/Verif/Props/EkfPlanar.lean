import Verif.Proofs.Planar
import Verif.Proofs.NodeInv
import Verif.Spec.Kept
import Verif.Props.EkfCorrect
import Verif.Props.EkfControl
/-! # C13, C35: in 2D mode measurements are planar and the estimate stays planar -/

namespace RL
open Matrix

/-- The variables that have to vanish for planar motion. -/
def PlanarState (x : State) : Prop :=
  x iZ = 0 ∧ x iRoll = 0 ∧ x iPitch = 0 ∧ x iVz = 0 ∧ x iVroll = 0 ∧ x iVpitch = 0 ∧ x iAz = 0

theorem flat_iff (x : State) : Flat offPlane x ↔ PlanarState x := by
  constructor
  · intro h
    exact ⟨h 2 rfl, h 3 rfl, h 4 rfl, h 8 rfl, h 9 rfl, h 10 rfl, h 14 rfl⟩
  · rintro ⟨h2, h3, h4, h8, h9, h10, h14⟩ i hi
    fin_cases i <;> first | exact absurd hi (by decide) | assumption

/-- No correlation between planar variables and the others. -/
def NoOutOfPlane (M : Mat15) : Prop :=
  ∀ i ∈ ([iZ, iRoll, iPitch, iVz, iVroll, iVpitch, iAz] : List (Fin 15)),
    ∀ j ∈ ([iX, iY, iYaw, iVx, iVy, iVyaw, iAx, iAy] : List (Fin 15)), M i j = 0 ∧ M j i = 0

theorem blk_of_noOut {M : Mat15} (h : NoOutOfPlane M) : Blk offPlane offPlane M := by
  have h1 : ∀ i : Fin 15, offPlane i = true → i ∈ ([iZ, iRoll, iPitch, iVz, iVroll, iVpitch, iAz] : List (Fin 15)) := by
    decide
  have h2 : ∀ i : Fin 15, offPlane i = false → i ∈ ([iX, iY, iYaw, iVx, iVy, iVyaw, iAx, iAy] : List (Fin 15)) := by
    decide
  intro i j hij
  cases hi : offPlane i <;> cases hj : offPlane j
  · exact absurd (hi.trans hj.symm) hij
  · exact (h j (h1 j hj) i (h2 i hi)).2
  · exact (h i (h1 i hi) j (h2 j hj)).1
  · exact absurd (hi.trans hj.symm) hij

/-! ## C35 -/

/-- C35, partial: what `forceTwoD` makes of a measurement.  The out-of-plane variables are selected, zero and have
variance 1e-6, the planar ones are as before.  Missing: covariances between a planar and an out-of-plane variable are
not cleared (`C35_correlation_survives`). -/
theorem C35_forced_partial (m : Payload) :
    (∀ i ∈ ([iZ, iRoll, iPitch, iVz, iVroll, iVpitch, iAz] : List (Fin 15)),
      (forceTwoD m).z i = .fin 0 ∧ (forceTwoD m).upd i = true ∧ (forceTwoD m).R i i = 1e-6) ∧
    (∀ i ∈ ([iX, iY, iYaw, iVx, iVy, iVyaw, iAx, iAy] : List (Fin 15)),
      (forceTwoD m).z i = m.z i ∧ (forceTwoD m).upd i = m.upd i ∧ ∀ j, (forceTwoD m).R i j = m.R i j) ∧
    (forceTwoD m).thresh = m.thresh := by
  have h1 : ∀ i ∈ ([iZ, iRoll, iPitch, iVz, iVroll, iVpitch, iAz] : List (Fin 15)), offPlane i = true := by decide
  have h2 : ∀ i ∈ ([iX, iY, iYaw, iVx, iVy, iVyaw, iAx, iAy] : List (Fin 15)), offPlane i = false := by decide
  refine ⟨fun i hi => ?_, fun i hi => ?_, rfl⟩
  · simp [forceTwoD, h1 i hi]
  · simp [forceTwoD, h2 i hi]

/-- C35, the missing part is false: a correlation between x and z in the message is handed to the filter as it is. -/
theorem C35_correlation_survives (m : Payload) : (forceTwoD m).R iX iZ = m.R iX iZ :=
  show (if iX = iZ ∧ offPlane iX = true then (1e-6 : ℝ) else m.R iX iZ) = _ from if_neg (by decide)

/-! ## C13 -/

/-- A measurement prepared in 2D mode from one without out-of-plane correlations. -/
def PlanarMeas (z : Payload) : Prop := ∃ m : Payload, z = forceTwoD m ∧ NoOutOfPlane m.R

theorem forceTwoD_blk {m : Payload} (h : NoOutOfPlane m.R) : Blk offPlane offPlane (forceTwoD m).R := by
  intro i j hij
  have hne : i ≠ j := by rintro rfl; exact hij rfl
  show (if i = j ∧ offPlane i = true then (1e-6 : ℝ) else m.R i j) = 0
  rw [if_neg (fun h => hne h.1)]
  exact blk_of_noOut h i j hij

/-- Finite estimates are planar and without out-of-plane correlation. -/
def PlanarEst (x : Option State) (P : Mat15) : Prop := ∀ s, x = some s → Flat offPlane s ∧ Blk offPlane offPlane P

/-- Commands for axes that leave the plane are zero, or the axis is not under control. -/
def PlanarCtl (p : FilterPar) (ctl : Fin 6 → ℝ) : Prop :=
  ∀ c ∈ ([2, 3, 4] : List (Fin 6)), p.useControl = false ∨ p.ctlUpd c = false ∨ (ctl c = 0 ∧ 0 ≤ p.accLim c)

theorem zero_error (al ag dl dg : ℝ) (ha : 0 ≤ al) : computeControlAcceleration 0 0 al ag dl dg = 0 := by
  rw [C11_formula, if_neg (by unfold Braking; norm_num)]
  simp [ha]

theorem prepareControl_flat {p : FilterPar} {ctl : Fin 6 → ℝ} (h : PlanarCtl p ctl) (ct ref : Int) {x : State}
    (hx : Flat offPlane x) (c : Fin 6) (hc : c ∈ ([2, 3, 4] : List (Fin 6))) : prepareControl p ctl ct ref x c = 0 := by
  have hv : x (velIdx c) = 0 := by
    have : ∀ c ∈ ([2, 3, 4] : List (Fin 6)), offPlane (velIdx c) = true := by decide
    exact hx _ (this c hc)
  rcases h c hc with h | h | ⟨h, hl⟩
  · exact (C11_prepared p ctl ct ref x c).1 (Or.inl h)
  · exact (C11_prepared p ctl ct ref x c).1 (Or.inr h)
  · unfold prepareControl
    split
    · dsimp only
      split
      · rw [hv, h, ite_self]
        exact zero_error _ _ _ _ hl
      · rfl
    · rfl

theorem applyControl_flat (p : FilterPar) {ca : Fin 6 → ℝ} (h : ca 2 = 0 ∧ ca 3 = 0 ∧ ca 4 = 0) (dt : ℝ) {x : State}
    (hx : Flat offPlane x) : Flat offPlane (applyControl p ca dt x) := by
  rw [flat_iff] at *
  obtain ⟨h2, h3, h4, h8, h9, h10, h14⟩ := hx
  refine ⟨h2, h3, h4, h8, ?_, ?_, ?_⟩
  · show x iVroll + ca 3 * dt = 0
    rw [h9, h.2.1]; simp
  · show x iVpitch + ca 4 * dt = 0
    rw [h10, h.2.2]; simp
  · show (if p.ctlUpd 2 then ca 2 else x iAz) = 0
    rw [h14, h.1, ite_self]

theorem predict_planar {p : FilterPar} {Q : Mat15} (hQ : Blk offPlane offPlane Q) {ctl : Fin 6 → ℝ}
    (hc : PlanarCtl p ctl) {ct ref : Int} {dt : ℝ} {x x' : State} {P P' : Mat15} (hx : Flat offPlane x)
    (hP : Blk offPlane offPlane P) (h : Ekf.predict p Q ctl ct ref dt x P = some (x', P')) :
    Flat offPlane x' ∧ Blk offPlane offPlane P' := by
  unfold Ekf.predict at h
  dsimp only at h
  split at h
  · cases h
  · simp only [Option.some.injEq, Prod.mk.injEq] at h
    rw [← h.1, ← h.2]
    refine ⟨wrap_flat ((transferF_blk hx dt).mulVec (applyControl_flat p ⟨?_, ?_, ?_⟩ dt hx)),
      (((transferJ_blk hx dt).mul hP).mul (transferJ_blk hx dt).transpose).add ((noiseQ_blk hQ p x).smul dt)⟩
    all_goals exact prepareControl_flat hc ct ref hx _ (by decide)

theorem subH_blk {n : ℕ} (e : Fin n → Fin 15) : Blk (fun i => offPlane (e i)) offPlane (subH e) := by
  intro i j hij
  simp only [subH, Matrix.of_apply]
  rw [if_neg]
  rintro rfl
  exact hij rfl

theorem subR_blk {n : ℕ} (e : Fin n → Fin 15) {R : Mat15} (h : Blk offPlane offPlane R) :
    Blk (fun i => offPlane (e i)) (fun i => offPlane (e i)) (subR e R) := by
  intro i j hij
  simp only [subR, Matrix.of_apply]
  rw [if_neg (by rintro rfl; exact hij rfl)]
  exact h _ _ hij

theorem innovation_flat {n : ℕ} (e : Fin n → Fin 15) {z : Fin 15 → ℝ} (hz : ∀ i, offPlane i = true → z i = 0) {x : State}
    (hx : Flat offPlane x) : Flat (fun i => offPlane (e i)) (innovation e z x) := by
  intro i hi
  simp only [innovation, hz _ hi, hx _ hi, sub_zero, normalizeAngle_zero, ite_self]

theorem correctAt_planar {n : ℕ} {e : Fin n → Fin 15} {z : Fin 15 → ℝ} {R : Mat15} {thr : Thresh} {x x' : State}
    {P P' : Mat15} (hz : ∀ i, offPlane i = true → z i = 0) (hR : Blk offPlane offPlane R) (hx : Flat offPlane x)
    (hP : Blk offPlane offPlane P) (h : correctAt e z R thr x P = some (x', P')) :
    Flat offPlane x' ∧ Blk offPlane offPlane P' := by
  have hH := subH_blk e
  have hS : Blk (fun i => offPlane (e i)) (fun i => offPlane (e i)) (innovCov e R P) :=
    (hH.mul (hP.mul hH.transpose)).add (subR_blk e hR)
  have hK : Blk offPlane (fun i => offPlane (e i)) (gain e R P) := (hP.mul hH.transpose).mul hS.inv
  unfold correctAt at h
  split at h
  · cases h
  · split at h
    · simp only [Option.some.injEq, Prod.mk.injEq] at h
      rw [← h.1, ← h.2]
      have hI : Blk offPlane offPlane (1 - gain e R P * subH e) := (Blk.one _).sub (hK.mul hH)
      exact ⟨wrap_flat (hx.add (hK.mulVec (innovation_flat e hz hx))),
        ((hI.mul hP).mul hI.transpose).add ((hK.mul (subR_blk e hR)).mul hK.transpose)⟩
    · simp only [Option.some.injEq, Prod.mk.injEq] at h
      rw [← h.1, ← h.2]
      exact ⟨hx, hP⟩

theorem PlanarMeas.vals {z : Payload} (h : PlanarMeas z) : (∀ i, offPlane i = true → z.z i = .fin 0) ∧
    Blk offPlane offPlane z.R := by
  obtain ⟨m, rfl, hm⟩ := h
  refine ⟨fun i hi => ?_, forceTwoD_blk hm⟩
  show (if offPlane i then Dbl.fin 0 else m.z i) = _
  rw [if_pos hi]

theorem planar_estInv (p : FilterPar) (cfg : Cfg (ekfCore p)) (hQ : NoOutOfPlane cfg.processNoise)
    (h0 : NoOutOfPlane cfg.initialCov) (hx0 : ∀ s, cfg.initialState = some s → PlanarState s)
    (hkept : cfg.Kept) (hc0 : PlanarCtl p cfg.ctl0) : EstInv cfg PlanarEst PlanarEst PlanarMeas (PlanarCtl p) where
  predict := by
    intro par hpar ctl ct ref delta x cov ext _ hc h s hs
    have hQ' : NoOutOfPlane par := by
      rcases hkept.noise_cases hpar with rfl | rfl
      · exact hQ
      · exact fun _ _ _ _ => ⟨rfl, rfl⟩
    cases x with
    | none => exact absurd hs (by simp [ekfCore])
    | some x =>
      obtain ⟨hx, hP⟩ := h x rfl
      cases hr : Ekf.predict p par ctl ct ref (toSec delta) x cov with
      | none => simp [ekfCore, hr] at hs
      | some r =>
        simp only [ekfCore, Option.bind_some, hr, Option.some.injEq] at hs ⊢
        rw [← hs]
        exact predict_planar (blk_of_noOut hQ') hc hx hP (x' := r.1) hr
  correct := by
    intro z x cov ext hz h s hs
    cases x with
    | none => exact absurd hs (by simp [ekfCore])
    | some x =>
      obtain ⟨hx, hP⟩ := h x rfl
      cases hr : Ekf.correct z x cov with
      | none => simp [ekfCore, hr] at hs
      | some r =>
        simp only [ekfCore, Option.bind_some, hr, Option.some.injEq] at hs ⊢
        rw [← hs]
        exact correctAt_planar (fun i hi => by rw [hz.vals.1 i hi]; rfl) hz.vals.2 hx hP (x' := r.1) hr
  init := by
    intro z x cov hz h s hs
    cases x with
    | none => exact absurd hs (by simp [ekfCore])
    | some x =>
      obtain ⟨hx, hP⟩ := h x rfl
      have hs' : initState z x = some s := hs
      unfold initState at hs'
      split at hs'
      · simp only [Option.some.injEq] at hs'
        rw [← hs']
        refine ⟨fun i hi => ?_, fun i j hij => ?_⟩
        · dsimp only
          rw [hz.vals.1 i hi, hx i hi]
          exact ite_self _
        · show (if z.upd i && z.upd j then z.R i j else cov i j) = 0
          rw [hz.vals.2 i j hij, hP i j hij, ite_self]
      · cases hs'
  start := fun s hs => ⟨(flat_iff s).2 (hx0 s hs), blk_of_noOut h0⟩
  reset := by
    intro s hs
    have : s = 0 := by simpa [ekfCore] using hs.symm
    subst this
    refine ⟨fun _ _ => rfl, ?_⟩
    rcases hkept.cov with h | h
    · rw [h]; exact blk_of_noOut h0
    · rw [h]; exact fun _ _ _ => rfl
  ctl0 := hc0

/-- C13, partial: an EKF node whose measurements all come out of `forceTwoD` and have no covariance between planar and
out-of-plane variables, with such process noise and initial covariance, planar `set_pose` estimates and no commands out
of the plane, publishes planar estimates only, for ever.
Missing: out-of-plane correlations in messages (`C13_correlated_message`) and commands (`C13_vertical_command`), neither
of which 2D mode removes. -/
theorem C13_stays_planar_partial (p : FilterPar) {P : MQueue (ekfCore p)} (cfg : Cfg (ekfCore p))
    (hQ : NoOutOfPlane cfg.processNoise) (h0 : NoOutOfPlane cfg.initialCov)
    (hkept : cfg.Kept) (hx0 : ∀ s, cfg.initialState = some s → PlanarState s) (hc0 : PlanarCtl p cfg.ctl0)
    (fctl0 : Fin 6 → ℝ) (hf0 : PlanarCtl p fctl0) (k : Int) (hk : 0 ≤ k) (es : List (Node.Event (ekfCore p))) (hc : Clocked k es)
    (hes : Along cfg (Node.Ok PlanarEst PlanarEst PlanarMeas (PlanarCtl p)) (Node.start cfg P () fctl0 k) es) :
    ∀ t x cov, Out.odom t (some x) cov ∈ ((Node.start cfg P () fctl0 k).run cfg es).2 → PlanarState x := by
  have hE := planar_estInv p cfg hQ h0 hx0 hkept hc0
  intro t x cov ho
  have h := (NInv.run hE es (NInv.start hE P () hf0 k) (HInv.start cfg P () fctl0 k) hk hc hes).2 t (some x) cov ho
  exact (flat_iff x).1 (h x rfl).1

/-- A command to move up. -/
def upCmd : Fin 6 → ℝ := fun c => if c = 2 then 1 else 0

/-- C13, the condition on commands is needed: with the vertical axis under control, a command to move up makes the
vertical acceleration of a planar estimate non-zero. -/
theorem C13_vertical_command (Q P : Mat15) (t : Int) (dt : ℝ) :
    ∃ x' P', Ekf.predict demoPar Q upCmd t t dt 0 P = some (x', P') ∧ PlanarState 0 ∧ x' iAz = 1 := by
  have hp : ∃ P', Ekf.predict demoPar Q upCmd t t dt 0 P = some (wrapStateAngles ((transferF 0 dt).mulVec
      (applyControl demoPar (prepareControl demoPar upCmd t t 0) dt 0)), P') := by
    simp only [Ekf.predict]
    rw [if_neg (by simp)]
    exact ⟨_, rfl⟩
  obtain ⟨P', hp⟩ := hp
  refine ⟨_, P', hp, ⟨rfl, rfl, rfl, rfl, rfl, rfl, rfl⟩, ?_⟩
  · have hca : prepareControl demoPar upCmd t t 0 2 = 1 := by
      rw [(C11_prepared demoPar upCmd t t 0 2).2.2 rfl rfl (by simp [demoPar])]
      rw [C11_formula, if_neg (by unfold Braking; simp [upCmd]; norm_num)]
      simp [demoPar, upCmd]
    show wrapStateAngles _ 14 = 1
    unfold wrapStateAngles
    rw [if_neg (by decide)]
    refine (transferF_mulVec14 0 dt _).trans ?_
    exact hca

/-- A pose message whose errors in x and z are correlated. -/
noncomputable def tiltedMsg : Payload where
  upd := fun i => decide (i = iX)
  z := fun i => if i = iX then .fin 1 else .fin 0
  R := .of fun i j => if i = j then 1 else if (i = iX ∧ j = iZ) ∨ (i = iZ ∧ j = iX) then 1e-4 else 0
  thresh := .unlimited

theorem tiltedMsg_blk : (forceTwoD tiltedMsg).R =
    Matrix.vecMulVec (fun i => if i = iX then 0.5 else if i = iZ then 2e-4 else 0)
      (fun i => if i = iX then 0.5 else if i = iZ then 2e-4 else 0) +
    diagonal (fun i => if i = iX then 0.75 else if i = iZ then 96e-8 else if offPlane i then 1e-6 else 1) := by
  ext i j
  show (if i = j ∧ offPlane i = true then (1e-6 : ℝ) else if i = j then 1 else
    if (i = iX ∧ j = iZ) ∨ (i = iZ ∧ j = iX) then 1e-4 else 0) = _
  rw [Matrix.add_apply, Matrix.vecMulVec_apply]
  have hzx : iZ ≠ iX := by decide
  by_cases hij : i = j
  · subst hij
    rw [diagonal_apply_eq]
    by_cases h0 : i = iX
    · subst h0; rw [if_neg (by decide)]; simp [hzx]; norm_num
    · by_cases h2 : i = iZ
      · subst h2; rw [if_pos (by decide)]; simp [hzx]; norm_num
      · by_cases ho : offPlane i = true <;> simp [h0, h2, ho]
  · rw [diagonal_apply_ne _ hij]
    by_cases h0 : i = iX
    · subst h0
      by_cases h2 : j = iZ
      · subst h2; rw [if_neg (by decide), if_neg (by decide), if_pos (by decide)]; simp [hzx]; norm_num
      · simp [hij, h2, Ne.symm hij]
    · by_cases h2 : i = iZ
      · subst h2
        by_cases h0' : j = iX
        · subst h0'; rw [if_neg (by decide), if_neg (by decide), if_pos (by decide)]; simp [hzx]; norm_num
        · simp [hij, h0', Ne.symm hij]
      · simp [hij, h0, h2]

theorem tiltedMsg_psd : (forceTwoD tiltedMsg).R.PosSemidef := by
  rw [tiltedMsg_blk]
  refine psd_add_diagonal ?_ _ (fun i => ?_)
  · have := posSemidef_vecMulVec_self_star (fun i : Fin 15 => if i = iX then (0.5 : ℝ) else if i = iZ then 2e-4 else 0)
    simpa using this
  · split
    · norm_num
    · split
      · norm_num
      · split <;> norm_num

/-- C13, the condition on messages is needed: in 2D mode, a valid pose message with a small correlation between x and z
lifts a planar estimate off the plane. -/
theorem C13_correlated_message :
    ∃ x' P', Ekf.correct (forceTwoD tiltedMsg) 0 1 = some (x', P') ∧ (forceTwoD tiltedMsg).R.PosSemidef ∧
      x' iZ ≠ 0 := by
  set m := forceTwoD tiltedMsg with hm
  set e := m.indices.get with he
  have hS : (innovCov e m.R 1).PosDef := by
    rw [innovCov_eq]
    have h1 : ((1 : Mat15).submatrix e e).PosDef := by
      have hinj : Function.Injective e :=
        List.nodup_iff_injective_get.1 ((List.nodup_finRange 15).filter _)
      rw [submatrix_one _ hinj]
      exact PosDef.one
    exact PosDef.add_posSemidef h1 (subR_psd (tiltedMsg_psd.submatrix e))
  have hdet : (innovCov e m.R 1).det ≠ 0 := (hS.isUnit.map Matrix.detMonoidHom).ne_zero
  have hr : ∃ P', Ekf.correct m 0 1 = some (wrapStateAngles ((0 : State) +
      (gain e m.R 1).mulVec (innovation e (fun i => (m.z i).val) 0)), P') := by
    unfold Ekf.correct correctAt
    have ht : m.thresh = .unlimited := rfl
    rw [if_neg hdet, ht, if_pos (show checkMahalanobis _ _ Thresh.unlimited from trivial)]
    exact ⟨_, rfl⟩
  obtain ⟨P', hr⟩ := hr
  refine ⟨_, P', hr, tiltedMsg_psd, ?_⟩
  have hinj : Function.Injective e := List.nodup_iff_injective_get.1 ((List.nodup_finRange 15).filter _)
  -- the positions of x and z among the selected variables
  obtain ⟨a, ha⟩ : ∃ a, e a = iX := List.get_of_mem (show iX ∈ m.indices by
    simp [Payload.indices, hm, forceTwoD, tiltedMsg, offPlane, Dbl.isNan, Dbl.isInf])
  obtain ⟨b, hb⟩ : ∃ b, e b = iZ := List.get_of_mem (show iZ ∈ m.indices by
    simp [Payload.indices, hm, forceTwoD, tiltedMsg, offPlane, Dbl.isNan, Dbl.isInf])
  have hab : a ≠ b := by rintro rfl; exact absurd (ha.symm.trans hb) (by decide)
  set y := innovation e (fun i => (m.z i).val) 0 with hy
  set S := innovCov e m.R 1 with hSdef
  set w := S⁻¹.mulVec y with hw
  have hSw : S.mulVec w = y := by
    rw [hw, Matrix.mulVec_mulVec, Matrix.mul_nonsing_inv _ (isUnit_iff_ne_zero.2 hdet), Matrix.one_mulVec]
  -- the new z is the component of `w` for z
  have hz : wrapStateAngles ((0 : State) + (gain e m.R 1).mulVec y) iZ = w b := by
    unfold wrapStateAngles
    rw [if_neg (by decide), zero_add]
    unfold gain
    rw [Matrix.one_mul, ← Matrix.mulVec_mulVec]
    show ∑ k, (subH e)ᵀ iZ k * w k = w b
    rw [Fintype.sum_eq_single b]
    · show (if iZ = e b then (1 : ℝ) else 0) * w b = w b
      rw [if_pos hb.symm, one_mul]
    · intro k hk
      show (if iZ = e k then (1 : ℝ) else 0) * w k = 0
      rw [if_neg (fun h => hk (hinj (h.symm.trans hb.symm))), zero_mul]
  rw [hz]
  intro hwb
  have hSe : ∀ i k, S i k = (if i = k then 1 else 0) + (if i = k then sanitize (m.R (e i) (e k)) else m.R (e i) (e k)) := by
    intro i k
    rw [hSdef, innovCov_eq]
    show (1 : Mat15) (e i) (e k) + _ = _
    rw [Matrix.one_apply]
    by_cases h : i = k
    · subst h; simp [subR]
    · simp [h, hinj.eq_iff, subR]
  have hR : ∀ i k : Fin 15, i ≠ k → m.R i k = if (i = iX ∧ k = iZ) ∨ (i = iZ ∧ k = iX) then 1e-4 else 0 := by
    intro i k hik
    show (if i = k ∧ offPlane i = true then (1e-6 : ℝ) else if i = k then 1 else _) = _
    rw [if_neg (fun h => hik h.1), if_neg hik]
  have row : ∀ i, (i = a ∨ i = b) → ∑ k, S i k * w k = S i a * w a + S i b * w b := by
    intro i hi
    rw [Fintype.sum_eq_add a b hab]
    rintro k ⟨hka, hkb⟩
    have hik : i ≠ k := by rintro rfl; rcases hi with h | h; exact hka h; exact hkb h
    rw [hSe, if_neg hik, if_neg hik, hR _ _ (fun h => hik (hinj h)), if_neg, zero_add, zero_mul]
    rintro (⟨-, h⟩ | ⟨-, h⟩)
    · exact hkb (hinj (h.trans hb.symm))
    · exact hka (hinj (h.trans ha.symm))
  have r1 : ∑ k, S b k * w k = y b := congrFun hSw b
  have r2 : ∑ k, S a k * w k = y a := congrFun hSw a
  rw [row b (Or.inr rfl), hwb, mul_zero, add_zero] at r1
  rw [row a (Or.inl rfl), hwb, mul_zero, add_zero] at r2
  have hyb : y b = 0 := by
    simp only [hy, innovation, hb]
    rw [if_neg (by decide)]
    simp [hm, forceTwoD, offPlane, Dbl.val]
  have hya : y a = 1 := by
    simp only [hy, innovation, ha]
    rw [if_neg (by decide)]
    simp [hm, forceTwoD, offPlane, Dbl.val, tiltedMsg]
  have hba : S b a = 1e-4 := by
    rw [hSe, if_neg hab.symm, if_neg hab.symm, ha, hb, hR _ _ (by decide), if_pos (Or.inr ⟨rfl, rfl⟩), zero_add]
  rw [hyb, hba] at r1
  have hwa : w a = 0 := by
    rcases mul_eq_zero.1 r1 with h | h
    · norm_num at h
    · exact h
  rw [hwa, hya, mul_zero] at r2
  exact zero_ne_one r2

/-- An eventful run with control in the plane that meets the hypotheses of `C13_stays_planar_partial`. -/
example :
    let z : Payload := forceTwoD (demoZ (fun i => decide (i = 0)) (fun _ => .fin 3))
    let es : List (Node.Event (ekfCore demoPar)) :=
      [.control (fun c => if c = 0 then (1 : ℝ) else 0) 5, .sensor "a" 10 (some z), .tick 11 11 true,
       .sensor "b" 8 (some z), .tick 12 12 true, .setPose 13 13 none, .tick 500 500 true, .reset, .tick 501 501 true]
    Clocked 0 es ∧ NoOutOfPlane (demoCfg demoPar).processNoise ∧ NoOutOfPlane (demoCfg demoPar).initialCov ∧
    (demoCfg demoPar).Kept ∧ PlanarCtl demoPar (demoCfg demoPar).ctl0 ∧
    Along (demoCfg demoPar) (Node.Ok PlanarEst PlanarEst PlanarMeas (PlanarCtl demoPar)) (demoNode demoPar) es ∧
    ((demoNode demoPar).run (demoCfg demoPar) (es.take 3)).2.length = 3 := by
  have hd : ∀ d : Fin 15 → ℝ, NoOutOfPlane (diagonal d) := by
    intro d i hi j hj
    have : ∀ i ∈ ([iZ, iRoll, iPitch, iVz, iVroll, iVpitch, iAz] : List (Fin 15)),
      ∀ j ∈ ([iX, iY, iYaw, iVx, iVy, iVyaw, iAx, iAy] : List (Fin 15)), i ≠ j := by decide
    exact ⟨diagonal_apply_ne _ (this i hi j hj), diagonal_apply_ne _ (this i hi j hj).symm⟩
  have h1 : ∀ r : ℝ, NoOutOfPlane (r • (1 : Mat15)) := by
    intro r
    rw [smul_one_eq_diagonal]
    exact hd _
  have hz : PlanarMeas (forceTwoD (demoZ (fun i => decide (i = 0)) (fun _ => .fin 3))) :=
    ⟨_, rfl, by simpa [demoZ] using h1 1⟩
  have hsp : PlanarEst (some 0) ((1e-6 : ℝ) • (1 : Mat15)) := by
    intro s hs
    simp only [Option.some.injEq] at hs
    subst hs
    exact ⟨fun _ _ => rfl, blk_of_noOut (h1 _)⟩
  refine ⟨?_, hd _, h1 _, ⟨Or.inl rfl, Or.inl rfl⟩, ?_, ?_, ?_⟩
  · simp [Clocked]
  · intro c _
    exact Or.inr (Or.inr ⟨rfl, by simp [demoPar]⟩)
  · refine ⟨?_, hz, trivial, hz, trivial, ⟨hsp, fun _ => hsp⟩, trivial, trivial, trivial, trivial⟩
    intro c hc
    refine Or.inr (Or.inr ⟨if_neg ?_, by simp [demoPar]⟩)
    rintro rfl
    exact absurd hc (by decide)
  · rfl

end RL
