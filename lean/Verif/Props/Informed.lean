import Verif.Props.EkfCorrect
import Verif.Props.EkfCov
import Verif.Props.Memory
import Verif.Props.Heading
import Verif.Props.Commute
import Verif.Props.Truth
/-! # C109: what was measured is known at least as well as it was measured -/

namespace RL
open Matrix

variable {p : FilterPar}

theorem sanitize_max {v : ℝ} (h : 0 ≤ v) : sanitize v = max v 1e-9 := by
  unfold sanitize
  simp only [not_lt.2 h, if_false]
  split
  · rename_i h'; rw [max_eq_right h'.le]
  · rename_i h'; rw [max_eq_left (not_lt.1 h')]

/-- The algebra: with `S = A + R`, what remains of `A` after the correction is `R - R S⁻¹ R`. -/
theorem parallel_sum {n : ℕ} {A R : Matrix (Fin n) (Fin n) ℝ} (h : (A + R).det ≠ 0) :
    A - A * (A + R)⁻¹ * A = R - R * (A + R)⁻¹ * R := by
  have h1 := Matrix.mul_nonsing_inv _ (isUnit_iff_ne_zero.2 h)
  have h2 := Matrix.nonsing_inv_mul _ (isUnit_iff_ne_zero.2 h)
  generalize (A + R)⁻¹ = T at h1 h2
  rw [Matrix.add_mul] at h1
  rw [Matrix.mul_add] at h2
  have a1 : A * T = 1 - R * T := by rw [← h1]; abel
  have a2 : T * A = 1 - T * R := by rw [← h2]; abel
  have a3 : R * T * A = R * (T * A) := Matrix.mul_assoc _ _ _
  rw [a1, Matrix.sub_mul, Matrix.one_mul, a3, a2, Matrix.mul_sub, Matrix.mul_one, ← Matrix.mul_assoc]
  abel

/-- C109 for one correction of an EKF without a gate: the covariance of the measured variables is at most the covariance
of the measurement (with its variances raised to 1e-9), as matrices. -/
theorem C109_correction (m : Payload) (hm : m.GoodR) (hg : m.thresh = .unlimited) (x x' : State) {P P' : Mat15}
    (hP : P.PosSemidef) (h : Ekf.correct m x P = some (x', P')) :
    (subR m.indices.get m.R - P'.submatrix m.indices.get m.indices.get).PosSemidef := by
  have hR := hm.sub
  have hRs := subR_psd hR
  unfold Ekf.correct at h
  rw [hg] at h
  revert h hR hRs
  generalize m.indices.get = e
  intro h hR hRs
  unfold correctAt at h
  by_cases hd : (innovCov e m.R P).det = 0
  · rw [if_pos hd] at h; cases h
  · rw [if_neg hd, if_pos (show checkMahalanobis _ _ .unlimited from trivial)] at h
    simp only [Option.some.injEq, Prod.mk.injEq] at h
    rw [← h.2]
    rw [innovCov_eq] at hd
    rw [(C08_textbook e m.R P hP hR hd).2]
    have e1 : (P - P.submatrix id e * (P.submatrix e e + subR e m.R)⁻¹ * P.submatrix e id).submatrix e e =
        P.submatrix e e - P.submatrix e e * (P.submatrix e e + subR e m.R)⁻¹ * P.submatrix e e := by
      ext a b
      simp only [Matrix.submatrix_apply, Matrix.sub_apply, Matrix.mul_apply, id]
    rw [e1, parallel_sum hd, sub_sub_cancel]
    have hS : (P.submatrix e e + subR e m.R).PosSemidef := (hP.submatrix e).add hRs
    have := psd_congr hS.inv (subR e m.R)
    rwa [PosSemidef.symm' hRs] at this

/-- The same for the variances: the variance of a measured variable is at most the one it was measured with, or 1e-9. -/
theorem C109_variance (m : Payload) (hm : m.GoodR) (hg : m.thresh = .unlimited) (x x' : State) {P P' : Mat15}
    (hP : P.PosSemidef) (h : Ekf.correct m x P = some (x', P')) (i : Fin 15) (hi : m.upd i = true) (hf : (m.z i).isFin = true) :
    P' i i ≤ max (m.R i i) 1e-9 := by
  obtain ⟨a, ha⟩ := List.mem_iff_get.1 ((mem_indices m i).2 ⟨hi, hf⟩)
  have := (C109_correction m hm hg x x' hP h).diag_nonneg (i := a)
  simp only [Matrix.sub_apply, Matrix.submatrix_apply, subR, Matrix.of_apply, if_true, ha] at this
  have h0 : 0 ≤ m.R i i := hm.diag_nonneg (i := ⟨i, hi⟩)
  rw [sanitize_max h0] at this
  linarith

/-- A correction never makes a variable less certain. -/
theorem correct_variance_le {m : Payload} (hm : m.GoodR) {x x' : State} {P P' : Mat15} (hP : P.PosSemidef)
    (h : Ekf.correct m x P = some (x', P')) (i : Fin 15) : P' i i ≤ P i i := by
  have hR := hm.sub
  unfold Ekf.correct correctAt at h
  split at h
  · cases h
  · rename_i hd
    split at h
    · simp only [Option.some.injEq, Prod.mk.injEq] at h
      rw [innovCov_eq] at hd
      have := (C08_optimal _ m.R P hP hR hd).1.diag_nonneg (i := i)
      rw [← h.2]
      simp only [Matrix.sub_apply] at this
      linarith
    · simp only [Option.some.injEq, Prod.mk.injEq] at h
      rw [← h.2]

/-! ## The filter object -/

/-- As long as the estimate is finite, the variance of variable `i` is at most `v`. -/
def KnownTo (f : Filt (ekfCore p)) (i : Fin 15) (v : ℝ) : Prop := f.x ≠ none → (f.cov : Mat15) i i ≤ v

theorem core_correct (m : Payload) (x : State) (P : Mat15) (u : Unit) :
    (ekfCore p).correct m (some x, P, u) = match Ekf.correct m x P with
      | some r => (some r.1, r.2, ())
      | none => (none, P, ()) := rfl

theorem known_correct {f : Filt (ekfCore p)} (hf : CovOk f.x f.cov) {m : Payload} (hm : m.GoodR) (hg : m.thresh = .unlimited)
    {i : Fin 15} (hi : m.upd i = true) (hfin : (m.z i).isFin = true) : KnownTo (f.correct m) i (max (m.R i i) 1e-9) := by
  obtain ⟨x, hx⟩ : ∃ x : Option State, x = f.x := ⟨_, rfl⟩
  obtain ⟨P, hPe⟩ : ∃ P : Mat15, P = f.cov := ⟨_, rfl⟩
  have e : (ekfCore p).correct m (f.x, f.cov, f.ext) = (ekfCore p).correct m (x, P, ()) := by rw [hx, hPe]; rfl
  have hf : CovOk x P := by rw [hx, hPe]; exact hf
  unfold KnownTo Filt.correct
  dsimp only
  rw [e]
  cases x with
  | none => intro h; exact absurd rfl h
  | some x =>
    have hP : P.PosSemidef := hf (by simp)
    rw [core_correct]
    cases hr : Ekf.correct m x P with
    | none => intro h; exact absurd rfl h
    | some r =>
      intro _
      exact C109_variance m hm hg x r.1 hP hr i hi hfin

theorem known_more {f : Filt (ekfCore p)} (hf : CovOk f.x f.cov) {m : Payload} (hm : m.GoodR)
    {i : Fin 15} {v : ℝ} (hk : KnownTo f i v) : KnownTo (f.correct m) i v := by
  obtain ⟨x, hx⟩ : ∃ x : Option State, x = f.x := ⟨_, rfl⟩
  obtain ⟨P, hPe⟩ : ∃ P : Mat15, P = f.cov := ⟨_, rfl⟩
  have e : (ekfCore p).correct m (f.x, f.cov, f.ext) = (ekfCore p).correct m (x, P, ()) := by rw [hx, hPe]; rfl
  have hf : CovOk x P := by rw [hx, hPe]; exact hf
  have hk : x ≠ none → P i i ≤ v := by rw [hx, hPe]; exact hk
  unfold KnownTo Filt.correct
  dsimp only
  rw [e]
  cases x with
  | none => intro h; exact absurd rfl h
  | some x =>
    have hP : P.PosSemidef := hf (by simp)
    rw [core_correct]
    cases hr : Ekf.correct m x P with
    | none => intro h; exact absurd rfl h
    | some r =>
      intro _
      exact (correct_variance_le hm hP hr i).trans (hk (by simp))

theorem ekfCov_inv (cfg : Cfg (ekfCore p))
    (hQ : Matrix.PosSemidef (n := Fin 15) (R := ℝ) cfg.processNoise) (hd : p.dynamic = true → NoCross cfg.processNoise)
    (h0 : Uncorrelated cfg.initialCov) (hkept : cfg.Kept) :
    EstInv cfg CovOk (fun _ P => Uncorrelated P) Payload.GoodR (fun _ => True) :=
    { predict := by
        intro par hpar ctl ct ref delta x cov ext h1 _ h2
        rcases hkept.noise_cases hpar with rfl | rfl
        · exact ekfCore_predict_cov hQ hd ctl ct ref delta x cov ext h1 h2
        · exact ekfCore_predict_cov PosSemidef.zero (fun _ _ _ _ => rfl) ctl ct ref delta x cov ext h1 h2
      correct := fun z x cov ext hz h => ekfCore_correct_cov z hz x cov ext h
      init := fun z x cov hz h _ => initCov_psd hz h.1 h.2
      start := h0
      reset := by
        rcases hkept.cov with h | h
        · rw [h]; exact h0
        · rw [h]; exact ⟨fun _ => le_refl _, fun _ _ _ => rfl⟩
      ctl0 := trivial }

variable {cfg : Cfg (ekfCore p)} {P : MQueue (ekfCore p)}

/-- After a measurement was fused, what it measured is known at least as well. -/
theorem known_process (hE : EstInv cfg CovOk (fun _ P => Uncorrelated P) Payload.GoodR (fun _ => True))
    {f : Filt (ekfCore p)} (hf : FInv cfg CovOk (fun _ P => Uncorrelated P) (fun _ => True) f)
    {m : Meas (ekfCore p)} {z : Payload} (hz : m.z = z) (hm : z.GoodR) (hg : z.thresh = .unlimited)
    {i : Fin 15} (hi : z.upd i = true) (hfin : (z.z i).isFin = true) :
    KnownTo (f.processMeasurement m) i (max (z.R i i) 1e-9) := by
  unfold Filt.processMeasurement
  rw [hz]
  by_cases hinit : f.initialized = true
  · rw [if_pos hinit]
    dsimp only
    have key : ∀ g : Filt (ekfCore p), CovOk g.x g.cov → KnownTo (if m.time - f.lastTime ≥ 0 then
        { g.correct z with lastTime := m.time } else g.correct z) i (max (z.R i i) 1e-9) := by
      intro g hg'
      split
      · exact known_correct hg' hm hg hi hfin
      · exact known_correct hg' hm hg hi hfin
    apply key
    split
    · exact hE.predict _ hf.par _ _ _ _ _ _ _ (by omega) trivial (hf.on hinit)
    · exact hf.on hinit
  · rw [if_neg hinit]
    intro _
    show initCov z f.cov i i ≤ _
    simp only [initCov, Matrix.of_apply, hi, Bool.and_self, if_true]
    exact le_max_left _ _

/-- A measurement that is not newer than the filter does not undo that. -/
theorem known_process_more {f : Filt (ekfCore p)} (hf : FInv cfg CovOk (fun _ P => Uncorrelated P) (fun _ => True) f)
    (hinit : f.initialized = true) {m : Meas (ekfCore p)} (hm : Payload.GoodR m.z) (ht : m.time ≤ f.lastTime)
    {i : Fin 15} {v : ℝ} (hk : KnownTo f i v) : KnownTo (f.processMeasurement m) i v := by
  unfold Filt.processMeasurement
  rw [if_pos hinit]
  dsimp only
  rw [if_neg (show ¬ m.time - f.lastTime > 0 by omega)]
  split
  · exact known_more (hf.on hinit) hm hk
  · exact known_more (hf.on hinit) hm hk

/-! ## The node -/

theorem drained_known (hE : EstInv cfg CovOk (fun _ P => Uncorrelated P) Payload.GoodR (fun _ => True))
    {n : Node (ekfCore p) P} (hn : NInv cfg CovOk (fun _ P => Uncorrelated P) Payload.GoodR (fun _ => True) n)
    {now : Int} {m : Meas (ekfCore p)} (hmem : m ∈ P.elems n.queue) (hdue : m.time ≤ now)
    (hnew : ∀ m' ∈ P.elems n.queue, m'.time ≤ now → m'.time ≤ m.time)
    {z : Payload} (hz : m.z = z) (hg : z.thresh = .unlimited) {i : Fin 15} (hi : z.upd i = true)
    (hfin : (z.z i).isFin = true) (r : Int) :
    KnownTo (Node.drain cfg now (P.size n.queue) r n).filt i (max (z.R i i) 1e-9) := by
  have h := Node.drain_induct cfg now
    (fun n => NInv cfg CovOk (fun _ P => Uncorrelated P) Payload.GoodR (fun _ => True) n ∧
      (∀ m' ∈ P.elems n.queue, m'.time ≤ now → m'.time ≤ m.time) ∧
      (m ∈ P.elems n.queue ∨ n.filt.initialized = true ∧ m.time ≤ n.filt.lastTime ∧ KnownTo n.filt i (max (z.R i i) 1e-9)))
    (fun r n t hn ht hle => by
      obtain ⟨hinv, hnew, hor⟩ := hn
      have hpop := P.elems_pop _ _ ht
      have hq : (Node.drainStep cfg r n t).queue = P.pop n.queue := rfl
      refine ⟨hinv.drainStep hE r ht, ?_, ?_⟩
      · intro m' hm' hle'
        rw [hq] at hm'
        exact hnew m' (by rw [← hpop]; exact Multiset.mem_cons_of_mem hm') hle'
      · have hft : ∃ f, f.initialized = n.filt.initialized ∧ f.lastTime = n.filt.lastTime ∧ f.x = n.filt.x ∧ f.cov = n.filt.cov ∧
            FInv cfg CovOk (fun _ P => Uncorrelated P) (fun _ => True) f ∧
            (Node.drainStep cfg r n t).filt = f.processMeasurement t := by
          by_cases hd : (cfg.useControl && decide (r > 0)) = true
          · exact ⟨n.filt.setControl t.ctl t.ctlTime, rfl, rfl, rfl, rfl,
              ⟨hinv.filt.on, hinv.filt.off, hinv.filt.par, trivial⟩, by simp [Node.drainStep, hd]⟩
          · exact ⟨n.filt, rfl, rfl, rfl, rfl, hinv.filt, by simp only [Node.drainStep, hd]; rfl⟩
        obtain ⟨f, h1, h2, h3, h4, h5, h6⟩ := hft
        have htz := hinv.queue t (Node.top_mem ht)
        rw [hq, h6]
        have hlast := Filt.processMeasurement_lastTime f t
        rcases hor with hor | ⟨o1, o2, o3⟩
        · rw [← hpop] at hor
          rcases Multiset.mem_cons.1 hor with rfl | hor
          · refine Or.inr ⟨Filt.processMeasurement_initialized _ _, ?_, known_process hE h5 hz (hz ▸ htz.1) hg hi hfin⟩
            rw [hlast]
            split
            · exact le_max_right _ _
            · exact le_rfl
          · exact Or.inl hor
        · have htm := hnew t (Node.top_mem ht) hle
          refine Or.inr ⟨Filt.processMeasurement_initialized _ _, ?_,
            known_process_more h5 (h1.trans o1) htz.1 (by omega) ?_⟩
          · rw [hlast, if_pos (h1.trans o1)]
            omega
          · unfold KnownTo
            rw [h3, h4]
            exact o3)
    (P.size n.queue) r n ⟨hn, hnew, Or.inl hmem⟩
  rcases h.2.2 with h' | h'
  · have := Node.drain_left cfg now (P.size n.queue) r n le_rfl m h'
    omega
  · exact h'.2.2

/-- Where the messages of a reverted node come from. -/
theorem reverted_queue {C : Core} {P : MQueue C} (n : Node C P) (t : Int) :
    (∀ m ∈ P.elems n.queue, m ∈ P.elems (n.revertTo t).1.queue) ∧
    ∀ m ∈ P.elems (n.revertTo t).1.queue, m ∈ P.elems n.queue ∨ m ∈ n.measHist := by
  unfold Node.revertTo
  dsimp only
  split
  · exact ⟨fun _ h => h, fun _ h => Or.inl h⟩
  · dsimp only
    rw [elems_foldl_push]
    refine ⟨fun m h => Multiset.mem_add.2 (Or.inr h), fun m h => ?_⟩
    rcases Multiset.mem_add.1 h with h | h
    · exact Or.inr ((List.takeWhile_sublist _).subset (List.mem_filter.1 (Multiset.mem_coe.1 h)).1)
    · exact Or.inl h

/-- C109 for the node: after any run, what a cycle of an enabled node publishes is at least as certain about every
variable measured by the newest of the messages that are due as that message is (or 1e-9), be there late data, replay,
commands, resets or gated messages beside it, when the estimate is not predicted to the present. -/
theorem C109_published_partial (cfg : Cfg (ekfCore p)) (hpc : cfg.predictToCurrent = false)
    (hQ : Matrix.PosSemidef (n := Fin 15) (R := ℝ) cfg.processNoise) (hd : p.dynamic = true → NoCross cfg.processNoise)
    (h0 : Uncorrelated cfg.initialCov) (hkept : cfg.Kept) (fctl0 : Fin 6 → ℝ) (k : Int) (hk : 0 ≤ k)
    (es : List (Node.Event (ekfCore p))) (hc : Clocked k es)
    (hes : Along cfg (Node.Ok CovOk (fun _ P => Uncorrelated P) Payload.GoodR (fun _ => True))
      (Node.start cfg P () fctl0 k) es)
    (n : Node (ekfCore p) P) (hn : n = ((Node.start cfg P () fctl0 k).run cfg es).1) (hon : n.toggledOn = true)
    (now now2 : Int) (tfOk : Bool) (m : Meas (ekfCore p)) (z : Payload) (hz : m.z = z) (hmem : m ∈ P.elems n.queue)
    (hdue : m.time ≤ now) (hnew : ∀ m', m' ∈ P.elems n.queue ∨ m' ∈ n.measHist → m'.time ≤ now → m'.time ≤ m.time)
    (hg : z.thresh = .unlimited) (i : Fin 15) (hi : z.upd i = true) (hfin : (z.z i).isFin = true) :
    ∀ s x cov, Out.odom s x cov ∈ (n.step cfg (.tick now now2 tfOk)).2 → x ≠ none →
      (cov : Mat15) i i ≤ max (z.R i i) 1e-9 := by
  have hE := ekfCov_inv cfg hQ hd h0 hkept
  have hinv : NInv cfg CovOk (fun _ P => Uncorrelated P) Payload.GoodR (fun _ => True) n := by
    rw [hn]
    exact (NInv.run hE es (NInv.start hE P () trivial k) (HInv.start cfg P () fctl0 k) hk hc hes).1
  have hknown : KnownTo (n.advance cfg now now2).filt i (max (z.R i i) 1e-9) := by
    unfold Node.advance
    rw [if_pos hon]
    unfold Node.integrate
    cases ht : P.top n.queue with
    | none =>
      rw [(P.top_none _).1 ht] at hmem
      exact absurd hmem (Multiset.notMem_zero m)
    | some first =>
      dsimp only
      rw [hpc, Bool.and_false, if_neg (by decide)]
      split
      · obtain ⟨q1, q2⟩ := reverted_queue n (first.time - 1)
        exact drained_known hE (hinv.revertTo _) (q1 m hmem) hdue (fun m' hm' hle => hnew m' (q2 m' hm') hle) hz hg hi hfin _
      · exact drained_known hE hinv hmem hdue (fun m' hm' hle => hnew m' (Or.inl hm') hle) hz hg hi hfin _
  intro s x cov hout
  show x ≠ none → _
  have hout : Out.odom s x cov ∈ (n.periodic cfg now now2 tfOk).2 := hout
  by_cases hen : n.enabled = true
  · have e : (n.periodic cfg now now2 tfOk).2 = ((n.advance cfg now now2).publish cfg tfOk).2 := by
      simp [Node.periodic, hen]
    rw [e] at hout
    unfold Node.publish at hout
    by_cases hinit : (n.advance cfg now now2).filt.initialized = true
    · simp only [hinit, if_true] at hout
      rcases List.mem_append.1 hout with hout | hout
      · rcases List.mem_append.1 hout with hout | hout
        · split at hout <;> simp at hout
        · split at hout
          · simp only [List.mem_singleton, Out.odom.injEq] at hout
            obtain ⟨-, rfl, rfl⟩ := hout
            exact hknown
          · simp at hout
      · split at hout <;> simp at hout
    · simp [hinit] at hout
  · rw [Node.periodic_disabled cfg n now now2 tfOk (by simpa using hen)] at hout
    simp at hout

/-- C109 is false for a gated measurement, which may be rejected. -/
theorem C109_gated : ∃ (m : Payload) (P : Mat15) (r : State × Mat15), P.PosSemidef ∧ m.GoodR ∧ m.upd iX = true ∧
    m.R iX iX = 1 ∧ Ekf.correct m 0 P = some r ∧ r.2 iX iX = 4 := by
  have hang : ¬ angular iX := by unfold angular; decide
  have h4 : ((4 : ℝ) • (1 : Mat15)).PosSemidef := PosSemidef.one.smul (by norm_num)
  refine ⟨oneVar iX 10 (.sigmas 2), (4 : ℝ) • 1, (0, (4 : ℝ) • 1), h4, PosSemidef.one.submatrix _, by simp [oneVar],
    by simp [oneVar], ?_, by simp⟩
  have e0 : Ekf.correct (oneVar iX 10 (.sigmas 2)) 0 ((4 : ℝ) • 1) =
      correctAt (oneVar iX 10 .unlimited).indices.get (fun _ => 10) 1 (.sigmas 2) 0 ((4 : ℝ) • 1) := rfl
  have q := mahalanobis_one (m := oneVar iX 10 .unlimited) iX (oneVar_indices _ _ _) hang 0 ((4 : ℝ) • 1)
  simp only [oneVar, Matrix.one_apply_eq, sanitize_one, Dbl.val, Matrix.smul_apply, Pi.zero_apply, smul_eq_mul] at q
  have q := q (by norm_num)
  rw [e0]
  refine (C06_gate _ _ _ _ _ _ q.2).2 ?_
  refine le_trans ?_ (le_of_eq q.1.symm)
  norm_num

/-- C109 is false for what is predicted to the present: an acceleration measured with variance one is published with
variance 1.01 a second later. -/
theorem C109_predicted : ∃ x cov, Out.odom 2000000000 (some x) cov ∈ ((Node.start nowCfg (demoQ plainPar) () (0 : Fin 6 → ℝ) 0).run nowCfg
        [.sensor "a" 1000000000 (some (fullRead (circle 0))), .tick 2000000000 2000000000 false]).2 ∧
      (fullRead (circle 0)).R iAx iAx = 1 ∧ (cov : Mat15) iAx iAx = 1.01 := by
  have h1 : toSec 1000000000 = 1 := by norm_num [toSec]
  have hcov : initCov (fullRead (circle 0)) ((1e-9 : ℝ) • (1 : Mat15)) = 1 := by
    ext i j
    simp [initCov, fullRead, demoZ]
  obtain ⟨y, P', hc, hP⟩ : ∃ y P', Ekf.predict plainPar defaultQ 0 0 2000000000 (toSec 1000000000) (circle 0).vec 1 =
      some (y, P') ∧ P' iAx iAx = 1.01 := by
    have hp : Real.cos ((circle 0).vec iPitch) ≠ 0 := by
      show Real.cos 0 ≠ 0
      simp
    refine ⟨_, _, if_neg hp, ?_⟩
    rw [h1]
    have e : ∀ j, transferJ (circle 0).vec 1 iAx j = (1 : Mat15) iAx j := by
      intro j
      have e1 : jEntry (trig (circle 0).vec) 1 (circle 0).vec iAx j = none := by fin_cases j <;> rfl
      have e2 : fEntry (trig (circle 0).vec) 1 iAx j = none := by fin_cases j <;> rfl
      simp [transferJ, writeJ, transferF, writeF, e1, e2]
    have e3 : ∀ j, (transferJ (circle 0).vec 1 * 1) iAx j = (1 : Mat15) iAx j := by
      intro j; rw [Matrix.mul_one, e]
    rw [Matrix.add_apply, Matrix.mul_apply]
    simp only [e3, Matrix.transpose_apply, e]
    simp [noiseQ, plainPar, demoPar, defaultQ, iAx, Matrix.one_apply]
    norm_num
  refine ⟨y, P', ?_, by simp [fullRead, demoZ], hP⟩
  simp [Node.run, Node.step, Node.start, Node.sensor, Node.enqueue, nowCfg, demoCfg, demoQ, PQueue.sortedList,
    PQueue.insertSorted, Node.periodic, Node.advance, Node.integrate, Node.drain, PQueue.size, Filt.processMeasurement,
    Node.publish, Node.predictTo, Filt.predict, Filt.setLastTime, ekfCore, initState_full, hcov, hc]
  exact List.mem_cons_self

/-- The hypotheses of `C109_published_partial` are met in a run in which the queue holds, beside the newest message, one that is
older than the filter. -/
example :
    let za := demoZ (fun i => decide (i = 0)) (fun _ => .fin 3)
    let zb := demoZ (fun i => decide (i = 5)) (fun _ => .fin 1)
    let es : List (Node.Event (ekfCore demoPar)) :=
      [.control (fun _ => (1 : ℝ)) 5, .sensor "a" 10 (some za), .tick 11 11 true, .sensor "b" 8 (some zb), .sensor "a" 12 (some za)]
    let n := ((demoNode demoPar).run (demoCfg demoPar) es).1
    Clocked 0 es ∧ Uncorrelated (demoCfg demoPar).initialCov ∧ (demoCfg demoPar).Kept ∧ defaultQ.PosSemidef ∧
    Along (demoCfg demoPar) (Node.Ok CovOk (fun _ P => Uncorrelated P) Payload.GoodR (fun _ => True)) (demoNode demoPar) es ∧
    n.toggledOn = true ∧ n.queue.1.map Meas.time = [8, 12] ∧ n.measHist.map Meas.time = [10] ∧ n.filt.lastTime = 10 := by
  refine ⟨?_, uncorrelated_smul (by norm_num), ⟨Or.inl rfl, Or.inl rfl⟩, defaultQ_psd, ?_, ?_, ?_, ?_, ?_⟩
  · simp [Clocked]
  · exact ⟨trivial, demoZ_good _ _, trivial, demoZ_good _ _, demoZ_good _ _, trivial⟩
  · rfl
  · rfl
  · rfl
  · rfl

end RL
