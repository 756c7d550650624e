import Verif.Proofs.EkfCov
import Verif.Proofs.NodeInv
import Verif.Spec.EkfDemo
import Verif.Spec.Kept
/-! # C01: the EKF covariance is always a covariance -/

namespace RL
open Matrix

/-- The ways a filter object is driven. -/
inductive Drive (p : FilterPar) where
  | predict (ref delta : Int)
  | correct (m : Payload)
  | process (m : Meas (ekfCore p))
  | control (c : Fin 6 → ℝ) (t : Int)

noncomputable def Drive.apply {p : FilterPar} (f : Filt (ekfCore p)) : Drive p → Filt (ekfCore p)
  | .predict ref delta => f.predict ref delta
  | .correct m => f.correct m
  | .process m => f.processMeasurement m
  | .control c t => f.setControl c t

/-- Steps are not negative and used measurement covariances are covariances. -/
def Drive.Ok {p : FilterPar} : Drive p → Prop
  | .predict _ delta => 0 ≤ delta
  | .correct m => m.GoodR
  | .process m => Payload.GoodR m.z
  | .control _ _ => True

/-- A finite estimate has a covariance (symmetric, positive semi-definite).  Nothing is said once the state contains a
non-finite value. -/
def CovOk (x : Option State) (P : Mat15) : Prop := x ≠ none → P.PosSemidef

theorem toSec_nonneg {d : Int} (h : 0 ≤ d) : 0 ≤ toSec d := by
  unfold toSec
  have : (0 : ℝ) ≤ (d : ℝ) := by exact_mod_cast h
  positivity

/-- One prediction of the core. -/
theorem ekfCore_predict_cov {p : FilterPar} {Q : Mat15} (hQ : Q.PosSemidef) (hd : p.dynamic = true → NoCross Q)
    (ctl : Fin 6 → ℝ) (ctlTime ref delta : Int) (x : Option State) (P : Mat15) (u : Unit) (hdt : 0 ≤ delta)
    (h : CovOk x P) :
    CovOk ((ekfCore p).predict Q ctl ctlTime ref delta (x, P, u)).1
      ((ekfCore p).predict Q ctl ctlTime ref delta (x, P, u)).2.1 := by
  cases x with
  | none => intro h'; exact absurd rfl h'
  | some x =>
    have hP := h (by simp)
    show CovOk (match (Ekf.predict p Q ctl ctlTime ref (toSec delta) x P) with
      | some r => ((some r.1, r.2, ()) : Option State × Mat15 × Unit) | none => (none, P, ())).1 _
    cases hr : Ekf.predict p Q ctl ctlTime ref (toSec delta) x P with
    | none => intro h'; exact absurd rfl h'
    | some r =>
      intro _
      have e : ((ekfCore p).predict Q ctl ctlTime ref delta (some x, P, u)).2.1 = r.2 := by
        simp [ekfCore, hr]
      rw [e]
      exact predict_psd hQ hd (toSec_nonneg hdt) hP (by rw [hr])

/-- One correction of the core. -/
theorem ekfCore_correct_cov {p : FilterPar} (m : Payload) (hm : m.GoodR) (x : Option State) (P : Mat15) (u : Unit)
    (h : CovOk x P) :
    CovOk ((ekfCore p).correct m (x, P, u)).1 ((ekfCore p).correct m (x, P, u)).2.1 := by
  cases x with
  | none => intro h'; exact absurd rfl h'
  | some x =>
    have hP := h (by simp)
    cases hr : Ekf.correct m x P with
    | none =>
      have e : ((ekfCore p).correct m (some x, P, u)).1 = none := by simp [ekfCore, hr]
      intro h'; exact absurd e h'
    | some r =>
      intro _
      have e : ((ekfCore p).correct m (some x, P, u)).2.1 = r.2 := by simp [ekfCore, hr]
      rw [e]
      exact correctAt_psd hm.sub hP (x' := r.1) hr

/-- C01 for an initialised filter object, driven in any way by any number of calls. -/
theorem C01_driven_filter {p : FilterPar} (ds : List (Drive p)) (hok : ∀ d ∈ ds, d.Ok) (f : Filt (ekfCore p))
    (hi : f.initialized = true) (hQ : Matrix.PosSemidef (n := Fin 15) (R := ℝ) f.par)
    (hd : p.dynamic = true → NoCross f.par) (h : CovOk f.x f.cov) :
    CovOk (ds.foldl Drive.apply f).x (ds.foldl Drive.apply f).cov := by
  induction ds generalizing f with
  | nil => exact h
  | cons d ds ih =>
    have key : (d.apply f).initialized = true ∧ (d.apply f).par = f.par ∧ CovOk (d.apply f).x (d.apply f).cov := by
      have hdok := hok d List.mem_cons_self
      cases d with
      | predict ref delta => exact ⟨hi, rfl, ekfCore_predict_cov hQ hd _ _ _ _ _ _ _ hdok h⟩
      | correct m => exact ⟨hi, rfl, ekfCore_correct_cov m hdok _ _ _ h⟩
      | control c t => exact ⟨hi, rfl, h⟩
      | process m =>
        have step : ∀ g : Filt (ekfCore p), CovOk g.x g.cov → CovOk (g.correct m.z).x (g.correct m.z).cov :=
          fun g hg => ekfCore_correct_cov m.z hdok _ _ _ hg
        refine ⟨Filt.processMeasurement_initialized f m, ?_, ?_⟩
        · unfold Drive.apply Filt.processMeasurement
          simp only [hi, if_true]
          split <;> split <;> rfl
        · have hp : CovOk ((if m.time - f.lastTime > 0 then
              { f.predict m.time (m.time - f.lastTime) with predicted := (f.predict m.time (m.time - f.lastTime)).x }
              else f).correct m.z).x ((if m.time - f.lastTime > 0 then
              { f.predict m.time (m.time - f.lastTime) with predicted := (f.predict m.time (m.time - f.lastTime)).x }
              else f).correct m.z).cov := by
            apply step
            split
            · exact ekfCore_predict_cov hQ hd _ _ _ _ _ _ _ (by omega) h
            · exact h
          unfold Drive.apply Filt.processMeasurement
          simp only [hi, if_true]
          split
          · exact hp
          · exact hp
    refine ih (fun d' hd' => hok d' (List.mem_cons_of_mem _ hd')) (d.apply f) key.1 ?_ ?_ key.2.2
    · rw [key.2.1]; exact hQ
    · rw [key.2.1]; exact hd

/-- An uncorrelated covariance. -/
def Uncorrelated (P : Mat15) : Prop := (∀ i, 0 ≤ P i i) ∧ ∀ i j, i ≠ j → P i j = 0

theorem Uncorrelated.psd {P : Mat15} (h : Uncorrelated P) : P.PosSemidef := by
  have : P = diagonal (fun i => P i i) := by
    ext i j
    by_cases hij : i = j
    · subst hij; simp
    · rw [h.2 i j hij]; simp [hij]
  rw [this]
  exact PosSemidef.diagonal h.1

theorem uncorrelated_smul {c : ℝ} (hc : 0 ≤ c) : Uncorrelated (c • (1 : Mat15)) := by
  refine ⟨fun i => by simpa using hc, fun i j hij => by simp [hij]⟩

/-- C01, partial: a whole EKF node under a clock that does not go back publishes covariances only, whatever happens to
it, provided the configured covariances are covariances, the initial one uncorrelated, every message has a covariance
over its selected variables, and a `set_pose` received before the first measurement is uncorrelated.
Missing: initialising on top of correlated covariances, where it is false (`C01_initialising_on_correlated_prior`), and
negative steps (`C01_negative_step`). -/
theorem C01_published_partial (p : FilterPar) {P : MQueue (ekfCore p)} (cfg : Cfg (ekfCore p))
    (hQ : Matrix.PosSemidef (n := Fin 15) (R := ℝ) cfg.processNoise) (hd : p.dynamic = true → NoCross cfg.processNoise)
    (h0 : Uncorrelated cfg.initialCov) (hkept : cfg.Kept) (fctl0 : Fin 6 → ℝ) (k : Int) (hk : 0 ≤ k)
    (es : List (Node.Event (ekfCore p))) (hc : Clocked k es)
    (hes : Along cfg (Node.Ok CovOk (fun _ P => Uncorrelated P) Payload.GoodR (fun _ => True))
      (Node.start cfg P () fctl0 k) es) :
    ∀ s x cov, Out.odom s x cov ∈ ((Node.start cfg P () fctl0 k).run cfg es).2 → CovOk x cov := by
  have hE : EstInv cfg CovOk (fun _ P => Uncorrelated P) Payload.GoodR (fun _ => True) :=
    { predict := by
        intro par hpar ctl ct ref delta x cov ext h1 _ h2
        rcases hkept.noise_cases hpar with rfl | rfl
        · exact ekfCore_predict_cov hQ hd ctl ct ref delta x cov ext h1 h2
        · exact ekfCore_predict_cov PosSemidef.zero (fun _ _ _ _ => rfl) ctl ct ref delta x cov ext h1 h2
      correct := fun z x cov ext hz h => ekfCore_correct_cov z hz x cov ext h
      init := fun z x cov hz h _ => initCov_psd hz h.1 h.2
      start := h0
      reset := by
        rcases hkept.cov with h | h
        · rw [h]; exact h0
        · rw [h]; exact ⟨fun _ => le_refl _, fun _ _ _ => rfl⟩
      ctl0 := trivial }
  exact (NInv.run hE es (NInv.start hE P () trivial k) (HInv.start cfg P () fctl0 k) hk hc hes).2

/-- C01 needs non-negative steps: whatever the state, a negative step from a zero covariance with unit noise gives a
matrix that is not a covariance. -/
theorem C01_negative_step (p : FilterPar) (hp : p.dynamic = false) (ctl : Fin 6 → ℝ) (ct ref : Int) (dt : ℝ) (hdt : dt < 0)
    (x : State) (hx : Real.cos (x iPitch) ≠ 0) :
    ∃ x' P', Ekf.predict p 1 ctl ct ref dt x 0 = some (x', P') ∧ ¬ P'.PosSemidef := by
  refine ⟨_, _, by rw [Ekf.predict, if_neg hx], ?_⟩
  intro h
  have := h.diag_nonneg (i := 0)
  simp [noiseQ, hp] at this
  linarith

/-- C01 is false for initialisation on top of a correlated covariance, although the covariance before and the measured
one are both positive definite: the first measurement replaces the selected block only and keeps the correlations. -/
theorem C01_initialising_on_correlated_prior :
    ∃ (P : Mat15) (m : Payload), P.PosSemidef ∧ m.GoodR ∧ ¬ (initCov m P).PosSemidef := by
  -- prior: x and y fully correlated with variance one; measurement of x with variance 1/4
  let v : Fin 15 → ℝ := fun i => if i.val < 2 then 1 else 0
  let m : Payload := { upd := fun i => decide (i = 0), z := fun _ => .fin 0, R := (1 / 4 : ℝ) • 1, thresh := .unlimited }
  refine ⟨vecMulVec v v, m, ?_, ?_, ?_⟩
  · have := posSemidef_vecMulVec_self_star v
    simpa using this
  · exact (uncorrelated_smul (by norm_num : (0 : ℝ) ≤ 1 / 4)).psd.submatrix _
  · intro h
    -- the vector (1, -1): 1/4 - 2 + 1 < 0
    have h2 := h.submatrix (![0, 1] : Fin 2 → Fin 15)
    have h3 := h2.dotProduct_mulVec_nonneg ![1, -1]
    simp [initCov, m, v, vecMulVec, Matrix.mulVec, dotProduct, Fin.sum_univ_two] at h3
    norm_num at h3

theorem demoZ_good (upd : Fin 15 → Bool) (z : Fin 15 → Dbl) : (demoZ upd z).GoodR :=
  PosSemidef.one.submatrix _

theorem defaultQ_psd : defaultQ.PosSemidef := by
  refine PosSemidef.diagonal (fun i => ?_)
  fin_cases i <;> norm_num

/-- A run with a partial measurement, a late one, a pose command that cannot be transformed, a velocity command and a
reset meets the hypotheses, and something is published. -/
example :
    let es : List (Node.Event (ekfCore demoPar)) :=
      [.control (fun _ => (1 : ℝ)) 5, .sensor "a" 10 (some (demoZ (fun i => decide (i = 0)) (fun _ => .fin 3))), .tick 11 11 true,
       .sensor "b" 8 (some (demoZ (fun i => decide (i = 5)) (fun _ => .fin 1))), .tick 12 12 true,
       .setPose 13 13 none, .tick 500 500 true, .reset, .tick 501 501 true]
    Clocked 0 es ∧ Uncorrelated (demoCfg demoPar).initialCov ∧ (demoCfg demoPar).Kept ∧ defaultQ.PosSemidef ∧
    Along (demoCfg demoPar) (Node.Ok CovOk (fun _ P => Uncorrelated P) Payload.GoodR (fun _ => True)) (demoNode demoPar) es ∧
    ((demoNode demoPar).run (demoCfg demoPar) (es.take 3)).2.length = 3 := by
  refine ⟨?_, uncorrelated_smul (by norm_num), ⟨Or.inl rfl, Or.inl rfl⟩, defaultQ_psd, ?_, ?_⟩
  · simp [Clocked]
  · have h6 : Uncorrelated ((1e-6 : ℝ) • (1 : Mat15)) := uncorrelated_smul (by norm_num)
    exact ⟨trivial, demoZ_good _ _, trivial, demoZ_good _ _, trivial, ⟨fun _ => h6.psd, fun _ => h6⟩, trivial, trivial,
      trivial, trivial⟩
  · rfl

end RL
