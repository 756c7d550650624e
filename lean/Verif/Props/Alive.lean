import Verif.Props.Informed
import Verif.Props.EkfPlanar
import Verif.Props.Output
/-! # C68: when a finite estimate stays finite -/

namespace RL
open Matrix

variable {p : FilterPar}

/-- A measurement whose covariance (with its variances made positive and raised to 1e-9) is not singular. -/
structure Payload.Proper (m : Payload) : Prop where
  good : m.GoodR
  proper : (subR m.indices.get m.R).det ≠ 0

/-- All values that are to be used are numbers. -/
def Payload.Numbers (m : Payload) : Prop := ∀ i, m.upd i = true → (m.z i).isFin = true

/-- A proper measurement leaves a finite estimate. -/
theorem proper_correct {m : Payload} (h : m.Proper) (x : State) {P : Mat15} (hP : P.PosSemidef) : ∃ r, Ekf.correct m x P = some r := by
  have hR := h.good.sub
  have hpd : (subR m.indices.get m.R).PosDef := (PosSemidef.posDef_iff_det_ne_zero (subR_psd hR)).2 h.proper
  have hS : (innovCov m.indices.get m.R P).det ≠ 0 := by
    rw [innovCov_eq]
    exact (PosDef.posSemidef_add (hP.submatrix _) hpd).det_pos.ne'
  unfold Ekf.correct correctAt
  rw [if_neg hS]
  split
  · exact ⟨_, rfl⟩
  · exact ⟨_, rfl⟩

/-- So does a prediction that does not start at a pitch of a quarter of a turn. -/
theorem level_enough {Q : Mat15} {ctl : Fin 6 → ℝ} {ct ref : Int} {dt : ℝ} {x : State} {P : Mat15} (h : Real.cos (x iPitch) ≠ 0) :
    ∃ r, Ekf.predict p Q ctl ct ref dt x P = some r := ⟨_, if_neg h⟩

theorem alive_correct {z : Payload} (hz : z.Proper) (x : Option State) (P : Mat15) (u : Unit) (h : CovOk x P) (hx : x ≠ none) :
    ((ekfCore p).correct z (x, P, u)).1 ≠ none := by
  cases x with
  | none => exact absurd rfl hx
  | some x =>
    obtain ⟨r, hr⟩ := proper_correct hz x (h (by simp))
    rw [core_correct, hr]
    exact Option.some_ne_none _

theorem alive_predict {Q : Mat15} {ctl : Fin 6 → ℝ} {ct ref delta : Int} {x : State} (P : Mat15) (u : Unit)
    (h : Real.cos (x iPitch) ≠ 0) : ((ekfCore p).predict Q ctl ct ref delta (some x, P, u)).1 ≠ none := by
  obtain ⟨r, hr⟩ := level_enough (p := p) (Q := Q) (ctl := ctl) (ct := ct) (ref := ref) (dt := toSec delta) (P := P) h
  simp [ekfCore, hr]

/-- C68, partial: the estimate of an EKF gets lost in a sequence of proper measurements only if, on the way, the pitch of
an estimate is exactly a quarter of a turn up or down. -/
theorem C68_lost_partial (ms : List (Meas (ekfCore p))) (hms : ∀ m ∈ ms, Payload.Proper m.z) (f : Filt (ekfCore p))
    (hi : f.initialized = true) (hP : CovOk f.x f.cov) (hx : f.x ≠ none)
    (hQ : Matrix.PosSemidef (n := Fin 15) (R := ℝ) f.par) (hd : p.dynamic = true → NoCross f.par)
    (h : (ms.foldl Filt.processMeasurement f).x = none) :
    ∃ pre, pre <+: ms ∧ ∃ x : State, (pre.foldl Filt.processMeasurement f).x = some x ∧ Real.cos (x iPitch) = 0 := by
  induction ms generalizing f with
  | nil => exact absurd h hx
  | cons m ms ih =>
    obtain ⟨x, hx'⟩ := Option.ne_none_iff_exists'.1 hx
    by_cases hc : Real.cos ((x : State) iPitch) = 0
    · exact ⟨[], List.nil_prefix, x, hx', hc⟩
    have hz : Payload.Proper m.z := hms m List.mem_cons_self
    have key : ∀ g : Filt (ekfCore p), g.initialized = true → g.par = f.par → CovOk g.x g.cov → g.x ≠ none →
        (g.correct m.z).initialized = true ∧ (g.correct m.z).par = f.par ∧ CovOk (g.correct m.z).x (g.correct m.z).cov ∧
          (g.correct m.z).x ≠ none := fun g h1 h2 h3 h4 =>
      ⟨h1, h2, ekfCore_correct_cov _ hz.good _ _ _ h3, alive_correct hz _ _ _ h3 h4⟩
    have step : (f.processMeasurement m).initialized = true ∧ (f.processMeasurement m).par = f.par ∧
        CovOk (f.processMeasurement m).x (f.processMeasurement m).cov ∧ (f.processMeasurement m).x ≠ none := by
      unfold Filt.processMeasurement
      rw [if_pos hi]
      dsimp only
      have h2 : ∀ b : Filt (ekfCore p), (b.initialized = true ∧ b.par = f.par ∧ CovOk b.x b.cov ∧ b.x ≠ none) →
          ∀ c : Prop, [Decidable c] → (if c then { b with lastTime := m.time } else b).initialized = true ∧
          (if c then { b with lastTime := m.time } else b).par = f.par ∧
          CovOk (if c then { b with lastTime := m.time } else b).x (if c then { b with lastTime := m.time } else b).cov ∧
          (if c then { b with lastTime := m.time } else b).x ≠ none := by
        intro b hb c _
        split <;> exact hb
      apply h2
      split
      · refine key _ hi rfl (ekfCore_predict_cov hQ hd _ _ _ _ _ _ _ (by omega) hP) ?_
        show ((ekfCore p).predict f.par f.ctl f.ctlTime m.time _ (f.x, f.cov, f.ext)).1 ≠ none
        rw [hx']
        exact alive_predict _ _ hc
      · exact key f hi rfl hP hx
    obtain ⟨a1, a2, a3, a4⟩ := step
    obtain ⟨pre, hpre, y, hy⟩ := ih (fun m' hm' => hms m' (List.mem_cons_of_mem _ hm')) _ a1 a3 a4 (by rw [a2]; exact hQ)
      (by rw [a2]; exact hd) h
    exact ⟨m :: pre, List.cons_prefix_cons.2 ⟨rfl, hpre⟩, y, hy⟩

/-- A finite planar estimate with a covariance. -/
def AlivePlanar (x : Option State) (P : Mat15) : Prop := x ≠ none ∧ PlanarEst x P ∧ P.PosSemidef

/-- The same before the first measurement. -/
def AliveStart (x : Option State) (P : Mat15) : Prop := x ≠ none ∧ PlanarEst x P ∧ Uncorrelated P

/-- What the filter does keeps a finite planar estimate. -/
theorem alive_estInv (cfg : Cfg (ekfCore p))
    (hQp : Matrix.PosSemidef (n := Fin 15) (R := ℝ) cfg.processNoise) (hd : p.dynamic = true → NoCross cfg.processNoise)
    (hQ : NoOutOfPlane cfg.processNoise) (h0 : Uncorrelated cfg.initialCov)
    (hkept : cfg.Kept) (s0 : State) (hx0 : cfg.initialState = some s0) (hs0 : PlanarState s0) (hc0 : PlanarCtl p cfg.ctl0) :
    EstInv cfg AlivePlanar AliveStart (fun z => PlanarMeas z ∧ z.Proper ∧ z.Numbers) (PlanarCtl p) := by
  have hno : NoOutOfPlane cfg.initialCov := by
    intro i hi j hj
    have hne : i ≠ j := by
      revert i j
      decide
    exact ⟨h0.2 i j hne, h0.2 j i hne.symm⟩
  have hE0 := planar_estInv p cfg hQ hno (fun s hs => by rw [hx0] at hs; obtain rfl := Option.some.inj hs; exact hs0) hkept hc0
  have hE1 := ekfCov_inv cfg hQp hd h0 hkept
  exact
    { predict := by
        intro par hpar ctl ct ref delta x cov ext h1 h2 h3
        obtain ⟨a1, a2, a3⟩ := h3
        have b1 : ((ekfCore p).predict par ctl ct ref delta (x, cov, ext)).1 ≠ none := by
          cases x with
          | none => exact absurd rfl a1
          | some x =>
            refine alive_predict (p := p) cov ext ?_
            have := (a2 x rfl).1 iPitch rfl
            rw [this, Real.cos_zero]
            exact one_ne_zero
        exact ⟨b1, hE0.predict par hpar ctl ct ref delta x cov ext h1 h2 a2,
          hE1.predict par hpar ctl ct ref delta x cov ext h1 trivial (fun _ => a3) b1⟩
      correct := by
        intro z x cov ext hz h3
        obtain ⟨a1, a2, a3⟩ := h3
        have b1 := alive_correct (p := p) hz.2.1 x cov ext (fun _ => a3) a1
        exact ⟨b1, hE0.correct z x cov ext hz.1 a2, hE1.correct z x cov ext hz.2.1.good (fun _ => a3) b1⟩
      init := by
        intro z x cov hz h3
        obtain ⟨a1, a2, a3⟩ := h3
        have b1 : (ekfCore p).initX z x ≠ none := by
          cases x with
          | none => exact absurd rfl a1
          | some x =>
            show initState z x ≠ none
            unfold initState
            rw [if_pos (show ∀ i, Payload.upd z i = true → (Payload.z z i).isFin = true from hz.2.2)]
            exact Option.some_ne_none _
        exact ⟨b1, hE0.init z x cov hz.1 a2, hE1.init z x cov hz.2.1.good a3 b1⟩
      start := ⟨by rw [hx0]; simp, hE0.start, h0⟩
      reset := ⟨by simp [ekfCore], hE0.reset, hE1.reset⟩
      ctl0 := hc0 }

/-- C68, partial: an EKF node in 2D mode never publishes anything but finite estimates, along any run, under the
conditions of `C13_stays_planar_partial`, when the values of the measurements are numbers and their covariances are
proper. -/
theorem C68_planar_partial {P : MQueue (ekfCore p)} (cfg : Cfg (ekfCore p))
    (hQp : Matrix.PosSemidef (n := Fin 15) (R := ℝ) cfg.processNoise) (hd : p.dynamic = true → NoCross cfg.processNoise)
    (hQ : NoOutOfPlane cfg.processNoise) (h0 : Uncorrelated cfg.initialCov)
    (hkept : cfg.Kept) (s0 : State) (hx0 : cfg.initialState = some s0) (hs0 : PlanarState s0) (hc0 : PlanarCtl p cfg.ctl0)
    (fctl0 : Fin 6 → ℝ) (hf0 : PlanarCtl p fctl0) (k : Int) (hk : 0 ≤ k) (es : List (Node.Event (ekfCore p))) (hc : Clocked k es)
    (hes : Along cfg (Node.Ok AlivePlanar AliveStart (fun z => PlanarMeas z ∧ z.Proper ∧ z.Numbers) (PlanarCtl p))
      (Node.start cfg P () fctl0 k) es) :
    ∀ t x cov, Out.odom t x cov ∈ ((Node.start cfg P () fctl0 k).run cfg es).2 → x ≠ none := by
  have hE := alive_estInv cfg hQp hd hQ h0 hkept s0 hx0 hs0 hc0
  intro t x cov ho
  exact ((NInv.run hE es (NInv.start hE P () hf0 k) (HInv.start cfg P () fctl0 k) hk hc hes).2 t x cov ho).1

/-- The hypotheses of both theorems are met in a run with late data, `set_pose` and `reset`. -/
example :
    let z : Payload := forceTwoD (demoZ (fun i => decide (i = 0)) (fun _ => .fin 3))
    let es : List (Node.Event (ekfCore demoPar)) :=
      [.control (fun c => if c = 0 then (1 : ℝ) else 0) 5, .sensor "a" 10 (some z), .tick 11 11 true,
       .sensor "b" 8 (some z), .tick 12 12 true, .setPose 13 13 none, .tick 500 500 true, .reset, .tick 501 501 true]
    Clocked 0 es ∧ NoOutOfPlane (demoCfg demoPar).processNoise ∧ Uncorrelated (demoCfg demoPar).initialCov ∧
    (demoCfg demoPar).Kept ∧ PlanarCtl demoPar (demoCfg demoPar).ctl0 ∧ defaultQ.PosSemidef ∧ z.Proper ∧
    Along (demoCfg demoPar) (Node.Ok AlivePlanar AliveStart (fun z => PlanarMeas z ∧ z.Proper ∧ z.Numbers) (PlanarCtl demoPar))
      (demoNode demoPar) es := by
  have hd : ∀ d : Fin 15 → ℝ, NoOutOfPlane (diagonal d) := by
    intro d i hi j hj
    have : ∀ i ∈ ([iZ, iRoll, iPitch, iVz, iVroll, iVpitch, iAz] : List (Fin 15)),
      ∀ j ∈ ([iX, iY, iYaw, iVx, iVy, iVyaw, iAx, iAy] : List (Fin 15)), i ≠ j := by decide
    exact ⟨diagonal_apply_ne _ (this i hi j hj), diagonal_apply_ne _ (this i hi j hj).symm⟩
  have h1 : ∀ r : ℝ, NoOutOfPlane (r • (1 : Mat15)) := by
    intro r
    rw [smul_one_eq_diagonal]
    exact hd _
  have hz : PlanarMeas (forceTwoD (demoZ (fun i => decide (i = 0)) (fun _ => .fin 3))) :=
    ⟨_, rfl, by simpa [demoZ] using h1 1⟩
  have hR : (forceTwoD (demoZ (fun i => decide (i = 0)) (fun _ => .fin 3))).R =
      diagonal fun i => if offPlane i = true then 1e-6 else 1 := by
    ext i j
    show (if i = j ∧ offPlane i = true then (1e-6 : ℝ) else (1 : Mat15) i j) = _
    by_cases hij : i = j
    · subst hij
      rw [diagonal_apply_eq, Matrix.one_apply_eq]
      simp
    · rw [diagonal_apply_ne _ hij, Matrix.one_apply_ne hij]
      simp [hij]
  have hp : (forceTwoD (demoZ (fun i => decide (i = 0)) (fun _ => .fin 3))).Proper := by
    have hpd : (forceTwoD (demoZ (fun i => decide (i = 0)) (fun _ => .fin 3))).R.PosDef := by
      rw [hR]
      exact PosDef.diagonal fun i => by split <;> norm_num
    have hinj : Function.Injective (forceTwoD (demoZ (fun i => decide (i = 0)) (fun _ => .fin 3))).indices.get :=
      List.nodup_iff_injective_get.1 ((List.nodup_finRange 15).filter _)
    refine ⟨hpd.posSemidef.submatrix _, ?_⟩
    rw [subR_eq]
    refine (PosDef.add_posSemidef (hpd.submatrix hinj) (PosSemidef.diagonal fun i => ?_)).det_pos.ne'
    exact sub_nonneg.2 (sanitize_ge _)
  have hnum : (forceTwoD (demoZ (fun i => decide (i = 0)) (fun _ => .fin 3))).Numbers := by
    intro i _
    fin_cases i <;> rfl
  have hsp : ∀ r : ℝ, PlanarEst (some 0) (r • (1 : Mat15)) := by
    intro r s hs
    simp only [Option.some.injEq] at hs
    subst hs
    exact ⟨fun _ _ => rfl, blk_of_noOut (h1 _)⟩
  refine ⟨?_, hd _, uncorrelated_smul (by norm_num), ⟨Or.inl rfl, Or.inl rfl⟩, ?_, defaultQ_psd, hp, ?_⟩
  · simp [Clocked]
  · intro c _
    exact Or.inr (Or.inr ⟨rfl, by simp [demoPar]⟩)
  · refine ⟨?_, ⟨hz, hp, hnum⟩, trivial, ⟨hz, hp, hnum⟩, trivial, ⟨⟨by simp [ekfCore], hsp _, PosSemidef.one.smul (by norm_num)⟩, fun _ => ⟨by simp [ekfCore], hsp _, uncorrelated_smul (by norm_num)⟩⟩, trivial, trivial, trivial, trivial⟩
    intro c hc
    have : c ≠ 0 := by rintro rfl; revert hc; decide
    exact Or.inr (Or.inr ⟨if_neg this, by simp [demoPar]⟩)

end RL
