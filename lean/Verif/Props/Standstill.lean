import Verif.Props.Unmeasured
import Verif.Props.Heard
import Verif.Props.Surer
/-! # C125: the dynamic process noise and a robot that stands still -/

namespace RL
open Matrix Real

variable {p : FilterPar}

/-! ## Velocities known exactly -/

/-- Only the pose is uncertain. -/
def PoseOnly (M : Mat15) : Prop := ∀ i j : Fin 15, 6 ≤ i.val ∨ 6 ≤ j.val → M i j = 0

theorem noise_rest (hd : p.dynamic = true) {x : State} (hr : AtRest x) {Q : Mat15} (hQ : PoseOnly Q) : noiseQ p Q x = 0 := by
  have hv : Real.sqrt (∑ c : Fin 6, x (velIdx c) ^ 2) = 0 := by
    rw [Real.sqrt_eq_zero']
    refine le_of_eq (Finset.sum_eq_zero fun c _ => ?_)
    rw [hr (velIdx c) (by fin_cases c <;> decide)]
    norm_num
  ext i j
  have e : noiseQ p Q x i j = if i.val < 6 ∧ j.val < 6 then Real.sqrt (∑ c : Fin 6, x (velIdx c) ^ 2) * Q i j *
      Real.sqrt (∑ c : Fin 6, x (velIdx c) ^ 2) else Q i j := by
    unfold noiseQ
    rw [if_pos hd]
    rfl
  rw [e, hv]
  split
  · simp
  · rename_i h
    rw [hQ i j (by omega)]
    rfl

theorem pose_transfer {x : State} (d : ℝ) {M : Mat15} (hM : PoseOnly M) : transferF x d * M = M := by
  have h : ∀ j, (transferF x d).mulVec (fun i => M i j) = fun i => M i j := fun j =>
    transferF_pose x d _ fun i hi => hM i j (Or.inl hi)
  ext i j
  exact congrFun (h j) i

theorem pose_rest (hd : p.dynamic = true) {x : State} (hr : AtRest x) {Q M : Mat15} (hQ : PoseOnly Q) (hM : PoseOnly M) (d : ℝ) :
    transferF x d * M * (transferF x d)ᵀ + d • noiseQ p Q x = M := by
  have hMt : PoseOnly Mᵀ := fun i j h => hM j i h.symm
  rw [noise_rest hd hr hQ, smul_zero, add_zero, pose_transfer d hM]
  have := congrArg Matrix.transpose (pose_transfer (x := x) d hMt)
  rw [Matrix.transpose_mul, Matrix.transpose_transpose] at this
  exact this

theorem row_mul_zero {a b c : Type} [Fintype b] {A : Matrix a b ℝ} {i : a} (h : ∀ j, A i j = 0) (B : Matrix b c ℝ) (j : c) :
    (A * B) i j = 0 := by
  rw [Matrix.mul_apply]
  exact Finset.sum_eq_zero fun k _ => by rw [h k, zero_mul]

/-- A correction does not touch what is known exactly. -/
theorem pose_correct {m : Payload} (hm : m.GoodR) {x x1 : State} {P P1 : Mat15} (hr : AtRest x) (hP : P.PosSemidef) (hM : PoseOnly P)
    (h : Ekf.correct m x P = some (x1, P1)) : AtRest x1 ∧ PoseOnly P1 := by
  have hpsd : P1.PosSemidef := correctAt_psd hm.sub hP (x' := x1) h
  have hK : ∀ i : Fin 15, 6 ≤ i.val → ∀ j, gain m.indices.get m.R P i j = 0 := by
    intro i hi j
    unfold gain
    refine row_mul_zero (fun j => row_mul_zero (fun j => hM i j (Or.inl hi)) _ j) _ j
  unfold Ekf.correct correctAt at h
  split at h
  · cases h
  split at h
  · simp only [Option.some.injEq, Prod.mk.injEq] at h
    refine ⟨fun i hi => ?_, ?_⟩
    · rw [← h.1, wrap_other _ (show ¬ angular i by intro ha; rcases ha with rfl | rfl | rfl <;> revert hi <;> decide)]
      rw [Pi.add_apply, hr i hi, zero_add]
      show ∑ k : Fin m.indices.length, _ = (0 : ℝ)
      exact Finset.sum_eq_zero fun k _ => by
        have := hK i hi k
        show gain m.indices.get m.R P i k * _ = 0
        rw [this, zero_mul]
    · have row : ∀ i : Fin 15, 6 ≤ i.val → ∀ j, P1 i j = 0 := by
        intro i hi j
        rw [← h.2]
        unfold joseph
        rw [Matrix.add_apply]
        have e1 : ∀ j, ((1 - gain m.indices.get m.R P * subH m.indices.get : Mat15) * P : Mat15) i j = 0 := by
          intro j
          rw [Matrix.sub_mul, Matrix.one_mul, Matrix.sub_apply, hM i j (Or.inl hi), Matrix.mul_assoc, row_mul_zero (hK i hi), sub_zero]
        rw [row_mul_zero e1, row_mul_zero fun j => row_mul_zero (hK i hi) _ j, add_zero]
      intro i j hij
      rcases hij with hi | hj
      · exact row i hi j
      · have := hpsd.1.apply i j
        rw [← this]
        simp [row j hj i]
  · simp only [Option.some.injEq, Prod.mk.injEq] at h
    rw [← h.1, ← h.2]
    exact ⟨hr, hM⟩

/-- The pose alone is uncertain, the robot stands still, and no combination of the variables is less certain than in `M`. -/
def StillOk (M : Mat15) (x : Option State) (P : Mat15) : Prop :=
  ∀ y, x = some y → AtRest y ∧ P.PosSemidef ∧ PoseOnly P ∧ Surer P M

theorem still_correct {M : Mat15} {m : Payload} (hm : m.GoodR) {x : Option State} {P : Mat15} {u : Unit} (h : StillOk M x P) :
    StillOk M ((ekfCore p).correct m (x, P, u)).1 ((ekfCore p).correct m (x, P, u)).2.1 := by
  cases x with
  | none => exact fun y hy => by cases hy
  | some x =>
    have e1 : (ekfCore p).correct m (some x, P, u) = match Ekf.correct m x P with
        | some r => (some r.1, r.2, ())
        | none => (none, P, ()) := rfl
    rw [e1]
    cases hr : Ekf.correct m x P with
    | none => exact fun y hy => by cases hy
    | some r =>
      obtain ⟨h1, h2, h3, h4⟩ := h x rfl
      intro y hy
      obtain rfl : r.1 = y := Option.some.inj hy
      obtain ⟨g1, g2⟩ := pose_correct hm h1 h2 h3 (x1 := r.1) (P1 := r.2) hr
      exact ⟨g1, correctAt_psd hm.sub h2 (x' := r.1) hr, g2, C116_extra hm h2 h4 (x1 := r.1) (P1 := r.2) hr⟩

theorem still_predict (hd : p.dynamic = true) (hc : ∀ c, p.ctlUpd c = false) {M Q : Mat15} (hQ : PoseOnly Q)
    (ctl : Fin 6 → ℝ) (ct ref delta : Int) {x : Option State} {P : Mat15} {u : Unit} (h : StillOk M x P) :
    StillOk M ((ekfCore p).predict Q ctl ct ref delta (x, P, u)).1 ((ekfCore p).predict Q ctl ct ref delta (x, P, u)).2.1 := by
  cases x with
  | none => exact fun y hy => by cases hy
  | some x =>
    obtain ⟨h1, h2, h3, h4⟩ := h x rfl
    have e1 : (ekfCore p).predict Q ctl ct ref delta (some x, P, u) = match Ekf.predict p Q ctl ct ref (toSec delta) x P with
        | some r => (some r.1, r.2, ())
        | none => (none, P, ()) := rfl
    rw [e1]
    by_cases hcos : cos (x 4) = 0
    · have : Ekf.predict p Q ctl ct ref (toSec delta) x P = none := by
        unfold Ekf.predict
        exact if_pos hcos
      rw [this]
      exact fun y hy => by cases hy
    · rw [rest_predict_ekf hc h1 hcos, pose_rest hd h1 hQ h3]
      intro y hy
      obtain rfl : wrapStateAngles x = y := Option.some.inj hy
      exact ⟨wrap_rest h1, h2, h3, h4⟩

/-- **C125**, the part that holds: with the dynamic process noise, the filter of a robot that stands still and knows its
velocities and accelerations exactly (no variance, no process noise of theirs) grows no more uncertain, whatever is
measured, in whatever order, and however much time passes: no combination of the variables has a larger variance than at
the beginning, and the estimate still stands.  Missing: velocities that are measured with an error; then the claim is
false, `C125_grows`. -/
theorem C125_stops_partial (hd : p.dynamic = true) (hc : ∀ c, p.ctlUpd c = false) {f : Filt (ekfCore p)} {x : State} {M Q : Mat15}
    {l : Int} (hf : Known f x M Q l) (hr : AtRest x) (hM : M.PosSemidef) (hMp : PoseOnly M) (hQ : PoseOnly Q)
    (ms : List (Meas (ekfCore p))) (hms : ∀ m ∈ ms, Payload.GoodR m.z) {y : State}
    (hy : (ms.foldl Filt.processMeasurement f).x = some y) :
    AtRest y ∧ Surer (ms.foldl Filt.processMeasurement f).cov M := by
  have key : ∀ (ms : List (Meas (ekfCore p))) (g : Filt (ekfCore p)), g.initialized = true → g.par = Q →
      (∀ m ∈ ms, Payload.GoodR m.z) → StillOk M g.x g.cov →
      StillOk M (ms.foldl Filt.processMeasurement g).x (ms.foldl Filt.processMeasurement g).cov := by
    intro ms
    induction ms with
    | nil => exact fun g _ _ _ h => h
    | cons m ms ih =>
      intro g hg hpar hms h
      have hgood := hms m List.mem_cons_self
      have step : (g.processMeasurement m).par = g.par ∧ StillOk M (g.processMeasurement m).x (g.processMeasurement m).cov := by
        unfold Filt.processMeasurement
        simp only [hg, if_true]
        by_cases hpos : m.time - g.lastTime > 0
        · have hge : m.time - g.lastTime ≥ 0 := by omega
          rw [if_pos hpos, if_pos hge]
          exact ⟨rfl, still_correct (p := p) (u := ()) hgood
            (still_predict (p := p) hd hc (Q := g.par) (by rw [hpar]; exact hQ) g.ctl g.ctlTime m.time _ (u := g.ext) h)⟩
        · rw [if_neg hpos]
          have := still_correct (p := p) (u := g.ext) hgood h
          split
          · exact ⟨rfl, this⟩
          · exact ⟨rfl, this⟩
      exact ih _ (Filt.processMeasurement_initialized g m) (step.1.trans hpar) (fun m' hm' => hms m' (List.mem_cons_of_mem _ hm')) step.2
  obtain ⟨h1, -, -, h4⟩ := key ms f hf.init hf.noise hms (by
    rw [hf.state, hf.cov]
    intro y hy
    obtain rfl := Option.some.inj hy
    exact ⟨hr, hM, hMp, Surer.refl M⟩) y hy
  exact ⟨h1, h4⟩

/-! ## Velocities that are measured -/

/-- A covariance of the forward position and the forward velocity. -/
def forward (a b c : ℝ) : Mat15 :=
  .of fun i j => if i = iX ∧ j = iX then a else if i = iX ∧ j = iVx ∨ i = iVx ∧ j = iX then b else if i = iVx ∧ j = iVx then c else 0

theorem forward_psd {a b c : ℝ} (hc : 0 < c) (h : b ^ 2 ≤ a * c) : (forward a b c).PosSemidef := by
  have e : forward a b c = (a - b ^ 2 / c) • spike iX + (1 / c) • Matrix.vecMulVec
      (fun i => if i = iX then b else if i = iVx then c else 0) (fun i => if i = iX then b else if i = iVx then c else 0) := by
    ext i j
    have hne : iX ≠ iVx := by decide
    simp only [forward, Matrix.of_apply, Matrix.add_apply, Matrix.smul_apply, spike, Matrix.vecMulVec_apply, smul_eq_mul]
    have hd : (Matrix.diagonal (Pi.single iX (1 : ℝ)) : Mat15) i j = if i = iX ∧ j = iX then 1 else 0 := by
      by_cases hij : i = j
      · subst hij
        by_cases hi : i = iX
        · subst hi; simp
        · simp [hi]
      · rw [Matrix.diagonal_apply_ne _ hij, if_neg fun h => hij (h.1.trans h.2.symm)]
    rw [hd]
    by_cases hi : i = iX <;> by_cases hj : j = iX <;> by_cases hi' : i = iVx <;> by_cases hj' : j = iVx <;>
      simp_all <;> field_simp <;> ring
  rw [e]
  refine ((spike_psd iX).smul ?_).add (PosSemidef.smul ?_ (by positivity))
  · rw [sub_nonneg, div_le_iff₀ hc]
    exact h
  · have := Matrix.posSemidef_vecMulVec_self_star (fun i : Fin 15 => if i = iX then b else if i = iVx then c else (0 : ℝ))
    simpa using this

section
variable {τ : ℝ}

theorem column_pose (x : State) (i : Fin 15) : transferF x τ i iX = if i = iX then 1 else 0 := by
  have h := congrFun (transferF_pose x τ (Pi.single iX 1) (by
    intro k hk
    have : k ≠ iX := by rintro rfl; revert hk; decide
    simp [this])) i
  rw [Matrix.mulVec_single_one] at h
  rw [Matrix.col_apply] at h
  rw [h]
  by_cases hi : i = iX
  · subst hi; simp
  · simp [hi]

theorem column_velocity (i : Fin 15) : transferF 0 τ i iVx = if i = iX then τ else if i = iVx then 1 else 0 := by
  fin_cases i <;> simp [transferF, writeF, fEntry, iX, iVx, trig]

theorem forward_predict (a b c : ℝ) :
    transferF 0 τ * forward a b c * (transferF 0 τ)ᵀ = forward (a + 2 * τ * b + τ ^ 2 * c) (b + τ * c) c := by
  have l : ∀ (A : Mat15) i j, (A * forward a b c) i j = A i iX * forward a b c iX j + A i iVx * forward a b c iVx j := by
    intro A i j
    rw [Matrix.mul_apply]
    rw [Finset.sum_eq_add (a := iX) (b := iVx) (by decide)]
    · rintro k - ⟨h1, h2⟩
      simp [forward, h1, h2]
    · simp
    · simp
  have sup : ∀ (A : Mat15) i k, k ≠ iX → k ≠ iVx → (A * forward a b c) i k = 0 := by
    intro A i k h1 h2
    rw [l]
    simp [forward, h1, h2]
  have hne : iVx ≠ iX := by decide
  have hne' : iX ≠ iVx := by decide
  ext i j
  rw [Matrix.mul_apply, Finset.sum_eq_add (a := iX) (b := iVx) hne']
  · rw [Matrix.transpose_apply, Matrix.transpose_apply, l, l, column_pose, column_pose, column_velocity, column_velocity]
    by_cases hi : i = iX
    · subst hi
      by_cases hj : j = iX
      · subst hj
        simp [forward, hne, hne']
        ring
      · by_cases hj' : j = iVx
        · subst hj'
          simp [forward, hne, hne']
        · simp [forward, hne, hne', hj, hj']
    · by_cases hi' : i = iVx
      · subst hi'
        by_cases hj : j = iX
        · subst hj
          simp [forward, hne, hne']
          ring
        · by_cases hj' : j = iVx
          · subst hj'
            simp [forward, hne, hne']
          · simp [forward, hne, hne', hj, hj']
      · simp [forward, hi, hi']
  · rintro k - ⟨h1, h2⟩
    rw [sup _ _ _ h1 h2, zero_mul]
  · simp
  · simp

end

/-- Process noise `w` of all variables of the pose, `q` of the forward velocity, none of the rest. -/
def paceNoise (w q : ℝ) : Mat15 := diagonal fun i => if i.val < 6 then w else if i = iVx then q else 0

theorem noise_pace (hd : p.dynamic = true) (w q : ℝ) : noiseQ p (paceNoise w q) 0 = forward 0 0 q := by
  have hv : Real.sqrt (∑ c : Fin 6, (0 : State) (velIdx c) ^ 2) = 0 := by simp
  ext i j
  have e : noiseQ p (paceNoise w q) 0 i j = if i.val < 6 ∧ j.val < 6 then Real.sqrt (∑ c : Fin 6, (0 : State) (velIdx c) ^ 2) *
      paceNoise w q i j * Real.sqrt (∑ c : Fin 6, (0 : State) (velIdx c) ^ 2) else paceNoise w q i j := by
    unfold noiseQ
    rw [if_pos hd]
    rfl
  rw [e, hv]
  unfold forward paceNoise
  rw [Matrix.of_apply]
  have hx : (iX : Fin 15).val < 6 := by decide
  have hvx : ¬ (iVx : Fin 15).val < 6 := by decide
  by_cases hij : i = j
  · subst hij
    rw [Matrix.diagonal_apply_eq]
    by_cases h6 : i.val < 6
    · have : i ≠ iVx := by rintro rfl; exact hvx h6
      simp [h6, this]
    · have h1 : i ≠ iX := by rintro rfl; exact h6 hx
      simp [h6, h1]
  · rw [Matrix.diagonal_apply_ne _ hij]
    have h1 : ¬ (i = iX ∧ j = iX) := fun h => hij (h.1.trans h.2.symm)
    have h2 : ¬ (i = iVx ∧ j = iVx) := fun h => hij (h.1.trans h.2.symm)
    simp [h2]

theorem forward_add (a b c a' b' c' : ℝ) : forward a b c + forward a' b' c' = forward (a + a') (b + b') (c + c') := by
  ext i j
  simp only [forward, Matrix.add_apply, Matrix.of_apply]
  split
  · rfl
  · split
    · rfl
    · split
      · rfl
      · simp

theorem forward_smul (s a b c : ℝ) : s • forward a b c = forward (s * a) (s * b) (s * c) := by
  ext i j
  simp only [forward, Matrix.smul_apply, Matrix.of_apply, smul_eq_mul]
  split
  · rfl
  · split
    · rfl
    · split
      · rfl
      · simp

theorem wrap_none : wrapStateAngles 0 = 0 := by
  funext i
  unfold wrapStateAngles
  split
  · exact normalizeAngle_zero
  · rfl

/-- A message of the forward velocity zero. -/
structure StoppedMsg (m : Meas (ekfCore p)) (r : ℝ) : Prop where
  one : Payload.indices m.z = [iVx]
  certain : Payload.Certain m.z
  zero : ((m.z : Payload).z iVx).val = 0
  var : (m.z : Payload).R iVx iVx = r

theorem forward_step (hd : p.dynamic = true) (hc : ∀ c, p.ctlUpd c = false) {w q r a b c : ℝ} {d : Int} (hd0 : 0 ≤ d) (hq : 0 ≤ q)
    (hr : 1e-9 ≤ r) {f : Filt (ekfCore p)} {l : Int} (hf : Known f 0 (forward a b c) (paceNoise w q) l) (hc0 : 0 < c)
    (hpsd : b ^ 2 ≤ a * c) {m : Meas (ekfCore p)} (hm : StoppedMsg m r) (ht : m.time = l + d) {a' b' c' : ℝ}
    (ha' : a' = a + 2 * toSec d * b + toSec d ^ 2 * c) (hb' : b' = b + toSec d * c) (hc' : c' = c + toSec d * q) :
    Known (f.processMeasurement m) 0 (forward (a' - b' * (c' + r)⁻¹ * b') (b' - b' * (c' + r)⁻¹ * c') (c' - c' * (c' + r)⁻¹ * c'))
      (paceNoise w q) (l + d) := by
  have ho : f.lastTime ≤ m.time := by rw [hf.time, ht]; omega
  have hr0 : AtRest (0 : State) := fun _ _ => rfl
  obtain ⟨g1, g2⟩ := rest_ready hc hf hr0 (by simp) m (by omega)
  have hx : (if l < m.time then wrapStateAngles 0 else 0) = (0 : State) := by
    split
    · exact wrap_none
    · rfl
  have hcov : restCov 0 (noiseQ p (paceNoise w q) 0) (forward a b c) (m.time - l) = forward a' b' c' := by
    rw [ht, add_sub_cancel_left, noise_pace hd]
    unfold restCov
    rw [forward_predict, forward_smul, forward_add, ha', hb', hc']
    congr 1 <;> ring
  rw [hx] at g1
  rw [hcov] at g2
  have hP : (forward a' b' c').PosSemidef := by
    rw [← hcov]
    refine restCov_psd ?_ (forward_psd hc0 hpsd) (by omega)
    rw [noise_pace hd]
    have : forward 0 0 q = q • spike iVx := by
      ext i j
      unfold forward spike
      rw [Matrix.of_apply, Matrix.smul_apply]
      by_cases hij : i = j
      · subst hij
        by_cases hi : i = iVx
        · subst hi
          have : iVx ≠ iX := by decide
          simp [this]
        · simp [hi]
      · have h2 : ¬ (i = iVx ∧ j = iVx) := fun h => hij (h.1.trans h.2.symm)
        simp [hij, h2]
    rw [this]
    exact (spike_psd iVx).smul hq
  have hcor := correct_one (m := m.z) iVx hm.one hm.certain 0 hP
  obtain ⟨e1, e2⟩ := process_of hf.init ho g1 g2 hcor
  obtain ⟨-, -, e3, e4, e5⟩ := process_ready hf.init ho
  have hs : sanitize r = r := by
    have h0 : (0 : ℝ) ≤ r := le_trans (by norm_num) hr
    unfold sanitize
    dsimp only
    rw [if_neg (not_lt.2 h0), if_neg (not_lt.2 hr)]
  refine ⟨e4, e1.trans ?_, e2.trans ?_, e3.trans hf.noise, e5.trans ht⟩
  · congr 1
    dsimp only
    have hni : ¬ (iVx = iRoll ∨ iVx = iPitch ∨ iVx = iYaw) := by decide
    rw [if_neg hni, hm.zero]
    simp
    exact wrap_none
  · have hne : iVx ≠ iX := by decide
    have hne' : iX ≠ iVx := by decide
    refine Matrix.ext (m := Fin 15) (n := Fin 15) (α := ℝ) fun i j => ?_
    dsimp only
    rw [Matrix.of_apply, hm.var, hs]
    by_cases hi : i = iX
    · subst hi
      by_cases hj : j = iX
      · subst hj
        simp [forward, hne, hne']
      · by_cases hj' : j = iVx
        · subst hj'
          simp [forward, hne, hne']
        · simp [forward, hne, hne', hj, hj']
    · by_cases hi' : i = iVx
      · subst hi'
        by_cases hj : j = iX
        · subst hj
          simp [forward, hne, hne']
          ring
        · by_cases hj' : j = iVx
          · subst hj'
            simp [forward, hne, hne']
          · simp [forward, hne, hne', hj, hj']
      · simp [forward, hi, hi']

/-- **C125** is false for velocities that are measured: the robot stands still, the filter uses the dynamic process noise
and gets the forward velocity zero, with variance `r`, every `d`.  Whatever the process noise `w` of the pose, which the
documentation promises to be scaled down to nothing, and `q > 0` of the forward velocity: there is a covariance from which
the variance of the position grows by `τ² r` with every message, for ever. -/
theorem C125_grows (hd : p.dynamic = true) (hc : ∀ c, p.ctlUpd c = false) {w q r : ℝ} {d l : Int} (hd0 : 0 < d) (hq : 0 < q)
    (hr : 1e-9 ≤ r) : ∃ M : Mat15, M.PosSemidef ∧ ∀ (f : Filt (ekfCore p)), Known f 0 M (paceNoise w q) l →
      ∀ s : ℕ → Meas (ekfCore p), (∀ n, StoppedMsg (s n) r ∧ (s n).time = l + (n + 1) * d) → ∀ n : ℕ,
        (((List.range n).map s).foldl Filt.processMeasurement f).x = some 0 ∧
        ((((List.range n).map s).foldl Filt.processMeasurement f).cov : Mat15) iX iX = M iX iX + n * (toSec d ^ 2 * r) := by
  have hr0 : 0 < r := by linarith
  have hτ := toSec_pos_of hd0
  obtain ⟨τ, hτe⟩ : ∃ τ, τ = toSec d := ⟨_, rfl⟩
  rw [← hτe] at hτ ⊢
  -- the variance of the velocity before a correction
  obtain ⟨v, hv0, hv⟩ : ∃ v, 0 < v ∧ v ^ 2 = τ * q * (v + r) := by
    have h1 : 0 < τ * q := mul_pos hτ hq
    have h2 : 0 ≤ (τ * q) ^ 2 + 4 * (τ * q) * r := by positivity
    refine ⟨(τ * q + Real.sqrt ((τ * q) ^ 2 + 4 * (τ * q) * r)) / 2, by positivity, ?_⟩
    have := Real.sq_sqrt h2
    nlinarith
  have hvr : 0 < v + r := by linarith
  obtain ⟨c, hce⟩ : ∃ c, c = v * r / (v + r) := ⟨_, rfl⟩
  obtain ⟨b, hbe⟩ : ∃ b, b = τ * r ^ 2 / (v + r) := ⟨_, rfl⟩
  have hc0 : 0 < c := by rw [hce]; positivity
  have hcv : c + τ * q = v := by
    rw [hce]
    field_simp
    linarith
  have hbv : b + τ * c = τ * r := by
    rw [hce, hbe]
    field_simp
    ring
  refine ⟨forward (b ^ 2 / c) b c, forward_psd hc0 (by rw [div_mul_cancel₀ _ hc0.ne']), fun f hf s hs => ?_⟩
  have key : ∀ n : ℕ, Known (((List.range n).map s).foldl Filt.processMeasurement f) 0 (forward (b ^ 2 / c + n * (τ ^ 2 * r)) b c)
      (paceNoise w q) (l + n * d) := by
    intro n
    induction n with
    | zero => simpa using hf
    | succ n ih =>
      rw [List.range_succ, List.map_append, List.foldl_append]
      have hst := forward_step hd hc (le_of_lt hd0) hq.le hr ih hc0 (by
        have : b ^ 2 / c * c = b ^ 2 := div_mul_cancel₀ _ hc0.ne'
        have h2 : 0 ≤ (n : ℝ) * (τ ^ 2 * r) * c := by positivity
        nlinarith) (hs n).1 (by rw [(hs n).2]; ring) rfl rfl rfl
      rw [← hτe, hcv, hbv] at hst
      have e1 : b ^ 2 / c + n * (τ ^ 2 * r) + 2 * τ * b + τ ^ 2 * c - τ * r * (v + r)⁻¹ * (τ * r) =
          b ^ 2 / c + ((n + 1 : ℕ) : ℝ) * (τ ^ 2 * r) := by
        have : 2 * τ * b + τ ^ 2 * c - τ * r * (v + r)⁻¹ * (τ * r) = τ ^ 2 * r := by
          rw [hce, hbe]
          field_simp
          ring
        push_cast
        linarith
      have e2 : τ * r - τ * r * (v + r)⁻¹ * v = b := by
        rw [hbe]
        field_simp
        ring
      have e3 : v - v * (v + r)⁻¹ * v = c := by
        rw [hce]
        field_simp
        ring
      have e4 : l + (n : Int) * d + d = l + ((n + 1 : ℕ) : Int) * d := by push_cast; ring
      rw [e1, e2, e3, e4] at hst
      exact hst
  intro n
  refine ⟨(key n).state, ?_⟩
  have := (key n).cov
  rw [this]
  simp [forward]

/-- The parameters of both parts, with the dynamic process noise. -/
noncomputable def scaledPar : FilterPar := { plainPar with dynamic := true }

/-- A robot that stands at one metre, with a metre of uncertainty and process noise of the pose alone. -/
example : scaledPar.dynamic = true ∧ (∀ c, scaledPar.ctlUpd c = false) ∧ ∃ f : Filt (ekfCore scaledPar),
    Known f (Pi.single iX 1) (spike iX) (paceNoise 1 0) 0 ∧ AtRest (Pi.single iX 1) ∧ (spike iX).PosSemidef ∧ PoseOnly (spike iX) ∧
      PoseOnly (paceNoise 1 0) ∧ Payload.GoodR (oneVar iY 3 .unlimited) := by
  refine ⟨rfl, fun _ => rfl, ⟨true, some (Pi.single iX 1), spike iX, (), some 0, paceNoise 1 0, (0 : Fin 6 → ℝ), 0, 0, 0⟩,
    ⟨rfl, rfl, rfl, rfl, rfl⟩, fun i hi => ?_, spike_psd iX, fun i j h => ?_, fun i j h => ?_, (oneVar_certain iY 3).good⟩
  · have : i ≠ iX := by rintro rfl; revert hi; decide
    simp [this]
  · unfold spike
    by_cases hij : i = j
    · subst hij
      have : i ≠ iX := by rintro rfl; revert h; decide
      simp [this]
    · exact Matrix.diagonal_apply_ne _ hij
  · unfold paceNoise
    by_cases hij : i = j
    · subst hij
      rw [Matrix.diagonal_apply_eq, if_neg (by omega)]
      simp
    · exact Matrix.diagonal_apply_ne _ hij

/-- The forward velocity zero, measured with variance 1. -/
example (t : Int) : StoppedMsg (⟨t, "wheels", oneVar iVx 0 .unlimited, (0 : Fin 6 → ℝ), 0⟩ : Meas (ekfCore scaledPar)) 1 :=
  ⟨oneVar_indices _ _ _, oneVar_certain _ _, rfl, Matrix.one_apply_eq _⟩

end RL
