import Verif.Props.Inflated
/-! # Runs with readings of one linear acceleration stay finite: witnesses for C128, C129 and C130 -/

namespace RL
open Matrix Real Filter

/-- An estimate whose pitch is zero and stays zero under readings of `i`. -/
structure NoTilt (i : Fin 15) (x : State) (P : Mat15) : Prop where
  pitch : x iPitch = 0
  vpitch : x iVpitch = 0
  vyaw : x iVyaw = 0
  psd : P.PosSemidef
  apart : ∀ k, k = iPitch ∨ k = iVpitch ∨ k = iVyaw → P k i = 0

theorem upright_row (x : State) (h1 : x iVpitch = 0) (h2 : x iVyaw = 0) (dt : ℝ) (l : Fin 15)
    (hl : ¬ (l = iPitch ∨ l = iVpitch ∨ l = iVyaw)) : transferJ x dt iPitch l = 0 := by
  show (jEntry (trig x) dt x iPitch l).getD ((fEntry (trig x) dt iPitch l).getD ((1 : Mat15) iPitch l)) = 0
  rw [Matrix.one_apply_ne (fun e => hl (Or.inl e.symm))]
  fin_cases l <;> first
    | rfl
    | exact absurd (by decide) hl
    | (simp only [iPitch]
       show ((-(trig x).sr * x iVpitch - (trig x).cr * x iVyaw) * dt) = 0
       rw [h1, h2]
       ring)

theorem upright_motion (x : State) (h0 : x iPitch = 0) (h1 : x iVpitch = 0) (h2 : x iVyaw = 0) (dt : ℝ) :
    (transferF x dt).mulVec x iPitch = 0 := by
  show ∑ l, transferF x dt iPitch l * x l = 0
  refine Finset.sum_eq_zero fun l _ => ?_
  by_cases hl : l = iPitch ∨ l = iVpitch ∨ l = iVyaw
  · rcases hl with rfl | rfl | rfl
    · rw [h0, mul_zero]
    · rw [h1, mul_zero]
    · rw [h2, mul_zero]
  · have : transferF x dt iPitch l = 0 := by
      show (fEntry (trig x) dt iPitch l).getD ((1 : Mat15) iPitch l) = 0
      rw [Matrix.one_apply_ne (fun e => hl (Or.inl e.symm))]
      fin_cases l <;> first
        | rfl
        | exact absurd (by decide) hl
    rw [this, zero_mul]

theorem wrap_zero_pitch {s : State} (hs : s iPitch = 0) : wrapStateAngles s iPitch = 0 := by
  have : wrapStateAngles s iPitch = normalizeAngle (s iPitch) := if_pos (Or.inr (Or.inl rfl))
  rw [this, hs, normalizeAngle_of_mem (by linarith [Real.pi_pos]) Real.pi_pos.le]

theorem NoTilt.correct {i : Fin 15} {x : State} {P : Mat15} (h : NoTilt i x P) {m : Payload} {z r : ℝ} (hm : m.Reads i z r) :
    ∃ w, Ekf.correct m x P = some w ∧ NoTilt i w.1 w.2 := by
  have hcor := correct_one i hm.indices hm.certain x h.psd
  have hpsd := correctAt_psd hm.good.sub h.psd hcor
  refine ⟨_, hcor, ?_⟩
  have key : ∀ (g v : ℝ), NoTilt i (wrapStateAngles fun k => x k + P k i * g * v) (.of fun k l => P k l - P k i * g * P i l) ↔
      Matrix.PosSemidef (.of fun k l => P k l - P k i * g * P i l : Mat15) := by
    intro g v
    refine ⟨fun h => h.psd, fun hp => ⟨wrap_zero_pitch ?_, ?_, ?_, hp, ?_⟩⟩
    · rw [h.apart _ (Or.inl rfl), h.pitch]; ring
    · rw [wrap_other _ (by rintro (h | h | h) <;> exact absurd h (by decide)), h.apart _ (Or.inr (Or.inl rfl)), h.vpitch]; ring
    · rw [wrap_other _ (by rintro (h | h | h) <;> exact absurd h (by decide)), h.apart _ (Or.inr (Or.inr rfl)), h.vyaw]; ring
    · intro k hk
      show P k i - P k i * g * P i i = 0
      rw [h.apart k hk]; ring
  exact (key _ _).2 hpsd

theorem NoTilt.predict {p : FilterPar} (hc : ∀ c, p.ctlUpd c = false) (hd : p.dynamic = false) {i : Fin 15} (hi : 12 ≤ i.val)
    {Q : Mat15} (hQ : Q.PosSemidef) (hq : ∀ k, k ≠ i → Q k i = 0) {x : State} {P : Mat15} (h : NoTilt i x P)
    (ctl : Fin 6 → ℝ) (ct ref : Int) {dt : ℝ} (hdt : 0 ≤ dt) :
    ∃ w, Ekf.predict p Q ctl ct ref dt x P = some w ∧ NoTilt i w.1 w.2 := by
  have hcos : Real.cos (x iPitch) ≠ 0 := by rw [h.pitch, Real.cos_zero]; norm_num
  have hpr : Ekf.predict p Q ctl ct ref dt x P = some (wrapStateAngles ((transferF x dt).mulVec x),
      transferJ x dt * P * (transferJ x dt).transpose + dt • Q) := by
    unfold Ekf.predict
    dsimp only
    rw [if_neg hcos, applyControl_none p hc]
    unfold noiseQ
    rw [hd]
    rfl
  have hpp := predict_psd hQ (fun h => absurd (hd.symm.trans h) (by simp)) hdt h.psd hpr
  have hH : ∀ k, Held k → wrapStateAngles ((transferF x dt).mulVec x) k = x k := fun k hk => (predict_kept hc hpr hk hk).1
  have hheld : Held i := by unfold Held; omega
  refine ⟨_, hpr, wrap_zero_pitch (upright_motion x h.pitch h.vpitch h.vyaw dt), ?_, ?_, hpp, ?_⟩
  · exact (hH _ (by unfold Held; decide)).trans h.vpitch
  · exact (hH _ (by unfold Held; decide)).trans h.vyaw
  · intro k hk
    have hki : k ≠ i := by
      rintro rfl
      rcases hk with rfl | rfl | rfl <;> exact absurd hi (by decide)
    rcases hk with rfl | hk
    · have hrow : (transferJ x dt * P * (transferJ x dt).transpose) iPitch i = 0 := by
        rw [Matrix.mul_apply]
        have hJi : ∀ l, (transferJ x dt).transpose l i = (1 : Mat15) i l := fun l => transferJ_kept x _ i l hheld
        simp only [hJi, Matrix.one_apply, mul_ite, mul_one, mul_zero]
        rw [Finset.sum_ite_eq Finset.univ i]
        simp only [Finset.mem_univ, if_true]
        rw [Matrix.mul_apply]
        refine Finset.sum_eq_zero fun l _ => ?_
        by_cases hl : l = iPitch ∨ l = iVpitch ∨ l = iVyaw
        · rw [h.apart l hl, mul_zero]
        · rw [upright_row x h.vpitch h.vyaw _ l hl, zero_mul]
      show (transferJ x dt * P * (transferJ x dt).transpose + dt • Q) iPitch i = 0
      rw [Matrix.add_apply, hrow, Matrix.smul_apply, hq _ hki, smul_zero, add_zero]
    · have hk' : Held k := by rcases hk with rfl | rfl <;> (unfold Held; decide)
      refine ((predict_kept hc hpr hk' hheld).2).trans ?_
      rw [h.apart k (Or.inr hk), hq k hki, mul_zero, add_zero]

/-- A filter with such an estimate. -/
structure Untilted {p : FilterPar} (i : Fin 15) (Q : Mat15) (f : Filt (ekfCore p)) : Prop where
  on : f.initialized = true
  par : f.par = Q
  est : ∃ x : State, f.x = some x ∧ NoTilt i x f.cov

theorem Untilted.correct {p : FilterPar} {i : Fin 15} {Q : Mat15} {f : Filt (ekfCore p)} (h : Untilted i Q f)
    {m : Payload} {z r : ℝ} (hm : m.Reads i z r) : Untilted i Q (f.correct m) := by
  obtain ⟨x, hx, hn⟩ := h.est
  obtain ⟨w, h1, h2⟩ := hn.correct hm
  obtain ⟨e1, e2⟩ := correct_some hx h1
  exact ⟨h.on, h.par, w.1, e1, (show NoTilt i w.1 (f.correct m).cov from e2 ▸ h2)⟩

theorem Untilted.catchUp {p : FilterPar} (hc : ∀ c, p.ctlUpd c = false) (hd : p.dynamic = false) {i : Fin 15} (hi : 12 ≤ i.val)
    {Q : Mat15} (hQ : Q.PosSemidef) (hq : ∀ k, k ≠ i → Q k i = 0) {f : Filt (ekfCore p)} (h : Untilted i Q f) (t : Int) :
    Untilted i Q (catchUp f t) := by
  obtain ⟨x, hx, hn⟩ := h.est
  unfold RL.catchUp
  split
  · rename_i ht
    obtain ⟨w, h1, h2⟩ := hn.predict hc hd hi hQ hq f.ctl f.ctlTime t (toSec_nonneg (d := t - f.lastTime) (by omega))
    have e : ((ekfCore p).predict f.par f.ctl f.ctlTime t (t - f.lastTime) (f.x, f.cov, f.ext)) = (some w.1, w.2, ()) := by
      rw [hx, h.par]
      show (match Ekf.predict p Q f.ctl f.ctlTime t (toSec (t - f.lastTime)) x f.cov with
        | some r => ((some r.1, r.2, ()) : Option State × Mat15 × Unit) | none => _) = _
      rw [h1]
    have hpx : (f.predict t (t - f.lastTime)).x = some w.1 := congrArg (fun r => r.1) e
    have hpc : (f.predict t (t - f.lastTime)).cov = w.2 := congrArg (fun r => r.2.1) e
    exact ⟨h.on, h.par, w.1, hpx, (show NoTilt i w.1 (f.predict t (t - f.lastTime)).cov from hpc ▸ h2)⟩
  · exact h

/-- Readings of one linear acceleration, of any number and at any times, leave a filter that starts level finite. -/
theorem upright_run {p : FilterPar} (hc : ∀ c, p.ctlUpd c = false) (hd : p.dynamic = false) {i : Fin 15} (hi : 12 ≤ i.val)
    {Q : Mat15} (hQ : Q.PosSemidef) (hq : ∀ k, k ≠ i → Q k i = 0) (ms : List (Meas (ekfCore p)))
    (hms : ∀ m ∈ ms, ∃ z r, Payload.Reads m.z i z r) (f : Filt (ekfCore p)) (h : Untilted i Q f) :
    ∃ x : State, (ms.foldl Filt.processMeasurement f).x = some x := by
  induction ms generalizing f with
  | nil => obtain ⟨x, hx, -⟩ := h.est; exact ⟨x, hx⟩
  | cons m ms ih =>
    obtain ⟨z, r, hr⟩ := hms m List.mem_cons_self
    rw [List.foldl_cons]
    refine ih (fun m h => hms m (List.mem_cons_of_mem _ h)) _ ?_
    rw [process_eq f h.on m]
    exact (h.catchUp hc hd hi hQ hq m.time).correct hr

/-- The first reading, of this or another linear acceleration, from zero. -/
theorem upright_first {Q : Mat15} {i j : Fin 15} (hi : 12 ≤ i.val) (hj : 12 ≤ j.val) (t : Int) (z : ℝ) {r : ℝ}
    (hr : 1e-9 ≤ r) : Untilted i Q ((idleFilt Q).processMeasurement (readMsg t j z r)) := by
  have hreads := readOf_reads j z hr
  have hu : Uncorrelated ((1e-3 : ℝ) • (1 : Mat15)) := uncorrelated_smul (by norm_num)
  have hP1 : Matrix.PosSemidef (initCov (readOf j z r) ((1e-3 : ℝ) • (1 : Mat15))) := initCov_psd hreads.good hu.1 hu.2
  have e : initState (readOf j z r) 0 = some fun k => if (readOf j z r).upd k then ((readOf j z r).z k).val else (0 : State) k :=
    if_pos fun _ _ => rfl
  have hne : ∀ k : Fin 15, k = iPitch ∨ k = iVpitch ∨ k = iVyaw → k ≠ j := by
    rintro k hk rfl
    rcases hk with rfl | rfl | rfl <;> exact absurd hj (by decide)
  have hzero : ∀ k : Fin 15, k = iPitch ∨ k = iVpitch ∨ k = iVyaw →
      (if decide (k = j) = true then z else (0 : ℝ)) = 0 := fun k hk => if_neg (by simpa using hne k hk)
  refine ⟨rfl, rfl, _, e, hzero _ (Or.inl rfl), hzero _ (Or.inr (Or.inl rfl)), hzero _ (Or.inr (Or.inr rfl)), hP1, ?_⟩
  intro k hk
  have hki : k ≠ i := by
    rintro rfl
    rcases hk with rfl | rfl | rfl <;> exact absurd hi (by decide)
  show (initCov (readOf j z r) ((1e-3 : ℝ) • (1 : Mat15))) k i = 0
  have e1 : (readOf j z r).R k i = 0 := by
    show (r • (1 : Mat15)) k i = 0
    rw [Matrix.smul_apply, Matrix.one_apply_ne hki, smul_zero]
  have e2 : ((1e-3 : ℝ) • (1 : Mat15)) k i = 0 := by rw [Matrix.smul_apply, Matrix.one_apply_ne hki, smul_zero]
  simp only [initCov, Matrix.of_apply, e1, e2, ite_self]

/-- Readings of one acceleration, one per second, from zero: the run is finite. -/
theorem readings_finite {Q : Mat15} (hQ : Q.PosSemidef) {i j : Fin 15} (hi : 12 ≤ i.val) (hj : 12 ≤ j.val)
    (hq : ∀ k, k ≠ i → Q k i = 0) (t : Int) (z : ℝ) {r : ℝ} (hr : 1e-9 ≤ r) (ms : List (Meas (ekfCore plainPar)))
    (hms : ∀ m ∈ ms, ∃ z r, Payload.Reads m.z i z r) :
    ∃ x : State, ((readMsg t j z r :: ms).foldl Filt.processMeasurement (idleFilt Q)).x = some x :=
  upright_run (by simp [plainPar]) (by simp [plainPar, demoPar]) hi hQ hq ms hms _ (upright_first hi hj t z hr)

/-- C129, refuted: a forward acceleration of any variance, read once per second as `z`, while nothing else is measured.  With the
default process noise there is a number of readings after which the estimate is as close to `z` as one likes, and its initial value,
zero, forgotten. -/
theorem C129_never_ignored (z r : ℝ) (hr : 1e-9 ≤ r) (ε : ℝ) (hε : 0 < ε) : ∃ (N : ℕ) (x : State),
    ((readMsg 0 iAy 0 1 :: (List.range N).map fun n : ℕ => readMsg ((n + 1) * 1000000000) iAx z r).foldl
      Filt.processMeasurement (idleFilt defaultQ)).x = some x ∧ |x iAx - z| ≤ ε := by
  have hi : Held iAx := by unfold Held; decide
  have hj : Held iAy := by unfold Held; decide
  have hQ : HeldApart defaultQ := fun i j _ _ hij => Matrix.diagonal_apply_ne _ hij
  have hr0 : 0 < r := lt_of_lt_of_le (by norm_num) hr
  obtain ⟨N, hN⟩ := C129_believed (p := plainPar) (by simp [plainPar]) defaultQ_psd (by simp [plainPar, demoPar]) hQ 0 iAx hi
    (by simp [defaultQ, iAx]; norm_num) z r hr0 1000000000 (by norm_num) ε hε
  obtain ⟨x, hx⟩ := readings_finite defaultQ_psd (i := iAx) (j := iAy) (by decide) (by decide)
    (fun k hk => Matrix.diagonal_apply_ne _ hk) 0 0 (r := 1) (by norm_num)
    ((List.range N).map fun n : ℕ => readMsg ((n + 1) * 1000000000) iAx z r) (by
      intro m hm
      obtain ⟨n, -, rfl⟩ := List.mem_map.1 hm
      exact ⟨z, r, readOf_reads iAx z hr⟩)
  refine ⟨N, x, hx, ?_⟩
  refine hN (idleFilt defaultQ) (idleFilt_unheard defaultQ) _ ⟨0, iAy, 0, 1⟩ (readMsg_reads 0 hj 0 (by norm_num)) (by decide) _
    ((List.range N).map fun n : ℕ => ⟨(n + 1) * 1000000000, iAx, z, r⟩) ?_ ?_ ?_ (by simp) x hx
  · rw [List.forall₂_map_left_iff, List.forall₂_map_right_iff]
    exact List.forall₂_same.2 fun n _ => readMsg_reads _ hi z hr
  · intro c hc
    obtain ⟨n, -, rfl⟩ := List.mem_map.1 hc
    exact ⟨rfl, rfl, rfl⟩
  · have key : ∀ (n s : ℕ) (t : Int), t = s * 1000000000 →
        Spaced 1000000000 t ((List.range' s n).map fun n : ℕ => (⟨(n + 1) * 1000000000, iAx, z, r⟩ : Reading)) := by
      intro n
      induction n with
      | zero => intro s t _; exact trivial
      | succ n ih =>
        intro s t ht
        rw [List.range'_succ, List.map_cons]
        refine ⟨?_, ih (s + 1) _ (by push_cast; ring)⟩
        rw [ht]
        show (s : Int) * 1000000000 + 1000000000 ≤ ((s : Int) + 1) * 1000000000
        linarith
    rw [List.range_eq_range']
    exact key N 0 0 (by norm_num)

end RL
