import Verif.Props.Informed
import Verif.Props.Covers
import Verif.Props.Alive
import Verif.Props.Average
import Verif.Props.EkfPlanar
/-!
# C142: two readings of a quantity tell how fast it changes

A body velocity that is read twice, τ seconds apart, with variances r₀ and r₁, leaves the acceleration along its axis with a variance of
at most (r₀ + r₁) / τ² and what the process noise of that time adds, whatever was known before, wherever the robot is and whatever
else is measured or commanded meanwhile.  In the plane the same holds of heading and yaw rate.
-/

namespace RL
open Matrix

variable {p : FilterPar}

/-! ## The variance of the value less τ times its rate of change -/

/-- The value of `a` a time τ before, if `b` is its rate of change. -/
def valueBefore (a b : Fin 15) (τ : ℝ) : Fin 15 → ℝ := Pi.single a 1 - τ • Pi.single b 1

theorem form_congr (M P : Mat15) (u : Fin 15 → ℝ) : u ⬝ᵥ (M * P * Mᵀ) *ᵥ u = (Mᵀ *ᵥ u) ⬝ᵥ P *ᵥ (Mᵀ *ᵥ u) := by
  rw [← mulVec_mulVec, ← mulVec_mulVec, dotProduct_mulVec, ← mulVec_transpose]

theorem form_before (P : Mat15) (a b : Fin 15) (τ : ℝ) :
    valueBefore a b τ ⬝ᵥ P *ᵥ valueBefore a b τ = P a a - τ * (P a b + P b a) + τ ^ 2 * P b b := by
  unfold valueBefore
  rw [mulVec_sub, mulVec_smul, dotProduct_sub, dotProduct_smul, sub_dotProduct, sub_dotProduct, smul_dotProduct, smul_dotProduct]
  simp only [single_dotProduct, one_mul, mulVec_single_one, col_apply, smul_eq_mul]
  ring

theorem form_single (P : Mat15) (b : Fin 15) : Pi.single b 1 ⬝ᵥ P *ᵥ (Pi.single b 1 : Fin 15 → ℝ) = P b b := by
  simp [single_dotProduct]

/-- Between two predictions of `x` variable `b` is the rate of change of `a`. -/
structure Slope (p : FilterPar) (Q : Mat15) (a b : Fin 15) (x : State) : Prop where
  value : ∀ dt, transferJ x dt a = Pi.single a 1 + dt • Pi.single b 1
  rate : ∀ dt, transferJ x dt b = Pi.single b 1
  noise : noiseQ p Q x a a = Q a a ∧ noiseQ p Q x a b = Q a b ∧ noiseQ p Q x b a = Q b a ∧ noiseQ p Q x b b = Q b b

theorem predict_before {Q : Mat15} {a b : Fin 15} {ctl : Fin 6 → ℝ} {ct ref : Int} {dt : ℝ} {x x' : State} {P P' : Mat15}
    (hs : Slope p Q a b x) (h : Ekf.predict p Q ctl ct ref dt x P = some (x', P')) (τ : ℝ) :
    valueBefore a b (τ + dt) ⬝ᵥ P' *ᵥ valueBefore a b (τ + dt) = valueBefore a b τ ⬝ᵥ P *ᵥ valueBefore a b τ +
      dt * (Q a a - (τ + dt) * (Q a b + Q b a) + (τ + dt) ^ 2 * Q b b) := by
  unfold Ekf.predict at h
  dsimp only at h
  split at h
  · cases h
  · simp only [Option.some.injEq, Prod.mk.injEq] at h
    rw [← h.2, add_mulVec, dotProduct_add, form_congr, smul_mulVec, dotProduct_smul, form_before (noiseQ p Q x),
      hs.noise.1, hs.noise.2.1, hs.noise.2.2.1, hs.noise.2.2.2, smul_eq_mul]
    have : (transferJ x dt)ᵀ *ᵥ valueBefore a b (τ + dt) = valueBefore a b τ := by
      unfold valueBefore
      rw [mulVec_sub, mulVec_smul, mulVec_single_one, mulVec_single_one]
      have e1 : (transferJ x dt)ᵀ.col a = transferJ x dt a := rfl
      have e2 : (transferJ x dt)ᵀ.col b = transferJ x dt b := rfl
      rw [e1, e2, hs.value, hs.rate, add_smul]
      abel
    rw [this]

theorem correct_before {m : Payload} (hm : m.GoodR) {x x' : State} {P P' : Mat15} (hP : P.PosSemidef)
    (h : Ekf.correct m x P = some (x', P')) (u : Fin 15 → ℝ) : u ⬝ᵥ P' *ᵥ u ≤ u ⬝ᵥ P *ᵥ u := by
  have hR := hm.sub
  unfold Ekf.correct correctAt at h
  split at h
  · cases h
  · rename_i hd
    split at h
    · simp only [Option.some.injEq, Prod.mk.injEq] at h
      rw [innovCov_eq] at hd
      have := psd_form (C08_optimal _ m.R P hP hR hd).1 u
      rw [← h.2]
      rw [sub_mulVec, dotProduct_sub] at this
      linarith
    · simp only [Option.some.injEq, Prod.mk.injEq] at h
      rw [← h.2]

/-- A further reading of the value gives the rate of change. -/
theorem correct_slope {n : ℕ} {e : Fin n → Fin 15} {R P : Mat15} (hP : P.PosSemidef) (hR : (R.submatrix e e).PosSemidef)
    (hd : (P.submatrix e e + subR e R).det ≠ 0) (j : Fin n) (b : Fin 15) {τ : ℝ} (hτ : 0 < τ) :
    joseph e R (gain e R P) P b b ≤ (valueBefore (e j) b τ ⬝ᵥ P *ᵥ valueBefore (e j) b τ + subR e R j j) / τ ^ 2 := by
  let L : Matrix (Fin 15) (Fin n) ℝ := vecMulVec (Pi.single b 1) ((1 / τ) • Pi.single j 1)
  have h := psd_form ((C08_optimal e R P hP hR hd).2 L) (Pi.single b 1)
  rw [sub_mulVec, dotProduct_sub, form_single (joseph e R (gain e R P) P)] at h
  refine (sub_nonneg.1 h).trans (le_of_eq ?_)
  unfold joseph
  rw [add_mulVec, dotProduct_add, form_congr, add_div]
  have h1 : (1 - L * subH e)ᵀ *ᵥ Pi.single b 1 = (-(1 / τ)) • valueBefore (e j) b τ := by
    funext i
    have hl : (L * subH e) b i = 1 / τ * (if e j = i then 1 else 0) := by
      rw [Matrix.mul_apply, Finset.sum_eq_single j]
      · simp [L, vecMulVec_apply, subH, eq_comm]
      · intro k _ hk
        simp [L, vecMulVec_apply, hk]
      · simp
    rw [mulVec_single_one]
    show ((1 : Mat15) - L * subH e) b i = _
    rw [Matrix.sub_apply, hl]
    simp only [valueBefore, Pi.smul_apply, Pi.sub_apply, smul_eq_mul, Pi.single_apply, Matrix.one_apply]
    have h1 : (b = i) ↔ (i = b) := eq_comm
    have h2 : (e j = i) ↔ (i = e j) := eq_comm
    simp only [h1, h2]
    split <;> split <;> field_simp <;> ring
  have h2 : Pi.single b 1 ⬝ᵥ (L * subR e R * Lᵀ) *ᵥ (Pi.single b 1 : Fin 15 → ℝ) = subR e R j j / τ ^ 2 := by
    rw [form_single, Matrix.mul_apply, Finset.sum_eq_single j]
    · rw [Matrix.mul_apply, Finset.sum_eq_single j]
      · simp only [L, vecMulVec_apply, transpose_apply, Pi.single_eq_same, Pi.smul_apply, smul_eq_mul]
        field_simp
      · intro k _ hk
        simp [L, vecMulVec_apply, hk]
      · simp
    · intro k _ hk
      simp [L, vecMulVec_apply, transpose_apply, hk]
    · simp
  rw [h1, h2, mulVec_smul, dotProduct_smul, smul_dotProduct, smul_eq_mul, smul_eq_mul]
  congr 1
  field_simp

/-! ## The filter object -/

/-- As long as the estimate is finite, it is known what the value was a time τ before, with variance `W`. -/
def KnewTo (f : Filt (ekfCore p)) (a b : Fin 15) (τ W : ℝ) : Prop :=
  f.x ≠ none → valueBefore a b τ ⬝ᵥ (f.cov : Mat15) *ᵥ valueBefore a b τ ≤ W

theorem knew_correct {f : Filt (ekfCore p)} (hf : CovOk f.x f.cov) {m : Payload} (hm : m.GoodR) {a b : Fin 15} {τ W : ℝ}
    (hk : KnewTo f a b τ W) : KnewTo (f.correct m) a b τ W := by
  obtain ⟨x, hx⟩ : ∃ x : Option State, x = f.x := ⟨_, rfl⟩
  obtain ⟨P, hPe⟩ : ∃ P : Mat15, P = f.cov := ⟨_, rfl⟩
  have e : (ekfCore p).correct m (f.x, f.cov, f.ext) = (ekfCore p).correct m (x, P, ()) := by rw [hx, hPe]; rfl
  have hf : CovOk x P := by rw [hx, hPe]; exact hf
  have hk : x ≠ none → valueBefore a b τ ⬝ᵥ P *ᵥ valueBefore a b τ ≤ W := by rw [hx, hPe]; exact hk
  unfold KnewTo Filt.correct
  dsimp only
  rw [e]
  cases x with
  | none => intro h; exact absurd rfl h
  | some x =>
    have hP : P.PosSemidef := hf (by simp)
    rw [core_correct]
    cases hr : Ekf.correct m x P with
    | none => intro h; exact absurd rfl h
    | some r =>
      intro _
      exact (correct_before hm hP hr _).trans (hk (by simp))

theorem knew_predict {f : Filt (ekfCore p)} {Q : Mat15} (hQ : f.par = Q) {a b : Fin 15} (hs : ∀ x, f.x = some x → Slope p Q a b x)
    (ref delta : Int) {τ W : ℝ} (hk : KnewTo f a b τ W) :
    KnewTo (f.predict ref delta) a b (τ + toSec delta)
      (W + toSec delta * (Q a a - (τ + toSec delta) * (Q a b + Q b a) + (τ + toSec delta) ^ 2 * Q b b)) := by
  obtain ⟨x, hx⟩ : ∃ x : Option State, x = f.x := ⟨_, rfl⟩
  obtain ⟨P, hPe⟩ : ∃ P : Mat15, P = f.cov := ⟨_, rfl⟩
  have e : (ekfCore p).predict f.par f.ctl f.ctlTime ref delta (f.x, f.cov, f.ext) =
      (ekfCore p).predict Q f.ctl f.ctlTime ref delta (x, P, ()) := by rw [hx, hPe, hQ]; rfl
  have hk : x ≠ none → valueBefore a b τ ⬝ᵥ P *ᵥ valueBefore a b τ ≤ W := by rw [hx, hPe]; exact hk
  have hs : ∀ y, x = some y → Slope p Q a b y := by rw [hx]; exact hs
  unfold KnewTo Filt.predict
  dsimp only
  rw [e]
  cases x with
  | none => intro h; exact absurd rfl h
  | some x =>
    show (match Ekf.predict p Q f.ctl f.ctlTime ref (toSec delta) x P with
      | some r => ((some r.1, r.2, ()) : Option State × Mat15 × Unit) | none => (none, P, ())).1 ≠ none →
      _ ⬝ᵥ (match Ekf.predict p Q f.ctl f.ctlTime ref (toSec delta) x P with
      | some r => ((some r.1, r.2, ()) : Option State × Mat15 × Unit) | none => (none, P, ())).2.1 *ᵥ _ ≤ _
    cases hr : Ekf.predict p Q f.ctl f.ctlTime ref (toSec delta) x P with
    | none => intro h; exact absurd rfl h
    | some r =>
      intro _
      dsimp only
      rw [predict_before (hs x rfl) (x' := r.1) hr]
      linarith [hk (by simp)]

theorem knew_read {f : Filt (ekfCore p)} (hf : CovOk f.x f.cov) {m : Payload} (hm : m.GoodR) (hg : m.thresh = .unlimited)
    {a b : Fin 15} (hi : m.upd a = true) (hfin : (m.z a).isFin = true) {τ W : ℝ} (hτ : 0 < τ) (hk : KnewTo f a b τ W) :
    KnownTo (f.correct m) b ((W + max (m.R a a) 1e-9) / τ ^ 2) := by
  obtain ⟨x, hx⟩ : ∃ x : Option State, x = f.x := ⟨_, rfl⟩
  obtain ⟨P, hPe⟩ : ∃ P : Mat15, P = f.cov := ⟨_, rfl⟩
  have e : (ekfCore p).correct m (f.x, f.cov, f.ext) = (ekfCore p).correct m (x, P, ()) := by rw [hx, hPe]; rfl
  have hf : CovOk x P := by rw [hx, hPe]; exact hf
  have hk : x ≠ none → valueBefore a b τ ⬝ᵥ P *ᵥ valueBefore a b τ ≤ W := by rw [hx, hPe]; exact hk
  unfold KnownTo Filt.correct
  dsimp only
  rw [e]
  cases x with
  | none => intro h; exact absurd rfl h
  | some x =>
    have hP : P.PosSemidef := hf (by simp)
    rw [core_correct]
    cases hr : Ekf.correct m x P with
    | none => intro h; exact absurd rfl h
    | some r =>
      intro _
      show r.2 b b ≤ _
      have hR := hm.sub
      obtain ⟨j, hj⟩ := List.mem_iff_get.1 ((mem_indices m a).2 ⟨hi, hfin⟩)
      unfold Ekf.correct correctAt at hr
      rw [hg] at hr
      split at hr
      · cases hr
      · rename_i hd
        rw [if_pos (show checkMahalanobis _ _ .unlimited from trivial)] at hr
        rw [innovCov_eq] at hd
        rw [← Option.some.inj hr]
        refine (correct_slope hP hR hd j b hτ).trans ?_
        have hs : subR m.indices.get m.R j j = max (m.R a a) 1e-9 := by
          simp only [subR, Matrix.of_apply, if_true, hj]
          exact sanitize_max (hm.diag_nonneg (i := ⟨a, hi⟩))
        rw [hj, hs]
        have := hk (by simp)
        gcongr

/-- The time by which a call takes the filter on, in nanoseconds. -/
def Drive.takes (f : Filt (ekfCore p)) : Drive p → Int
  | .predict _ delta => delta
  | .process m => max 0 (m.time - f.lastTime)
  | _ => 0

/-- The time by which a number of calls take the filter on. -/
noncomputable def elapsed (f : Filt (ekfCore p)) : List (Drive p) → Int
  | [] => 0
  | d :: ds => d.takes f + elapsed (d.apply f) ds

/-- The most that process noise `Q` adds in a time `τ` to what was known of the value at its beginning. -/
noncomputable def drift (Q : Mat15) (a b : Fin 15) (τ : ℝ) : ℝ := τ * (Q a a + τ * |Q a b + Q b a| + τ ^ 2 * Q b b)

theorem drift_step {Q : Mat15} {a b : Fin 15} (hb : 0 ≤ Q b b) {τ d : ℝ} (hτ : 0 ≤ τ) (hd : 0 ≤ d) :
    drift Q a b τ + d * (Q a a - (τ + d) * (Q a b + Q b a) + (τ + d) ^ 2 * Q b b) ≤ drift Q a b (τ + d) := by
  unfold drift
  have h1 : -(τ + d) * (Q a b + Q b a) ≤ (τ + d) * |Q a b + Q b a| := by
    have := neg_abs_le (Q a b + Q b a)
    nlinarith [add_nonneg hτ hd]
  have h2 : τ * (τ * |Q a b + Q b a|) ≤ τ * ((τ + d) * |Q a b + Q b a|) :=
    mul_le_mul_of_nonneg_left (mul_le_mul_of_nonneg_right (by linarith) (abs_nonneg _)) hτ
  have h3 : τ * (τ ^ 2 * Q b b) ≤ τ * ((τ + d) ^ 2 * Q b b) :=
    mul_le_mul_of_nonneg_left (mul_le_mul_of_nonneg_right (pow_le_pow_left₀ hτ (by linarith) 2) hb) hτ
  have h4 := mul_le_mul_of_nonneg_left h1 hd
  nlinarith

/-- A message taken by a filter that has started: a prediction, unless there is no time to predict over, and a correction. -/
theorem process_parts {f : Filt (ekfCore p)} (hi : f.initialized = true) (m : Meas (ekfCore p)) :
    ∃ g : Filt (ekfCore p), (g = f ∧ m.time - f.lastTime ≤ 0 ∨
        0 ≤ m.time - f.lastTime ∧ g.x = (f.predict m.time (m.time - f.lastTime)).x ∧ g.cov = (f.predict m.time (m.time - f.lastTime)).cov) ∧
      (f.processMeasurement m).x = (g.correct m.z).x ∧ (f.processMeasurement m).cov = (g.correct m.z).cov ∧
      (f.processMeasurement m).par = f.par := by
  unfold Filt.processMeasurement
  rw [if_pos hi]
  dsimp only
  by_cases h : m.time - f.lastTime > 0
  · rw [if_pos h]
    refine ⟨_, Or.inr ⟨h.le, rfl, rfl⟩, ?_⟩
    split <;> exact ⟨rfl, rfl, rfl⟩
  · rw [if_neg h]
    refine ⟨f, Or.inl ⟨rfl, not_lt.1 h⟩, ?_⟩
    split <;> exact ⟨rfl, rfl, rfl⟩

section
variable {Q : Mat15} {a b : Fin 15}

theorem knew_process (hQ : Q.PosSemidef) (hd : p.dynamic = true → NoCross Q) {f : Filt (ekfCore p)} (hi : f.initialized = true)
    (hpar : f.par = Q) (hf : CovOk f.x f.cov) (hs : ∀ x, f.x = some x → Slope p Q a b x) (m : Meas (ekfCore p)) {τ w : ℝ} (hτ : 0 ≤ τ)
    (hk : KnewTo f a b τ (w + drift Q a b τ)) :
    ∃ g : Filt (ekfCore p), (f.processMeasurement m).x = (g.correct m.z).x ∧ (f.processMeasurement m).cov = (g.correct m.z).cov ∧
      CovOk g.x g.cov ∧ KnewTo g a b (τ + toSec ((Drive.process m).takes f)) (w + drift Q a b (τ + toSec ((Drive.process m).takes f))) := by
  obtain ⟨g, hg, e1, e2, -⟩ := process_parts hi m
  refine ⟨g, e1, e2, ?_⟩
  have hb : 0 ≤ Q b b := hQ.diag_nonneg
  rcases hg with ⟨rfl, h0⟩ | ⟨h0, gx, gc⟩
  · have : (Drive.process m).takes g = 0 := max_eq_left h0
    rw [this, show toSec 0 = 0 by simp [toSec], add_zero]
    exact ⟨hf, hk⟩
  · have ht : (Drive.process m).takes f = m.time - f.lastTime := max_eq_right h0
    rw [ht]
    refine ⟨?_, ?_⟩
    · rw [gx, gc]
      have := ekfCore_predict_cov hQ hd f.ctl f.ctlTime m.time (m.time - f.lastTime) f.x f.cov f.ext h0 hf
      rw [← hpar] at this
      exact this
    · have := knew_predict hpar hs m.time (m.time - f.lastTime) hk
      unfold KnewTo at this ⊢
      rw [gx, gc]
      intro hx
      have := this hx
      have := drift_step hb (a := a) hτ (toSec_nonneg h0)
      linarith

/-- A property of the filter that keeps `b` the rate of change of `a`. -/
structure Keeps (p : FilterPar) (Q : Mat15) (a b : Fin 15) (I : Filt (ekfCore p) → Prop) (K : Drive p → Prop) : Prop where
  slope : ∀ f x, I f → f.x = some x → Slope p Q a b x
  step : ∀ f d, I f → f.initialized = true → f.par = Q → K d → I (d.apply f)

variable {I : Filt (ekfCore p) → Prop} {K : Drive p → Prop}

theorem takes_nonneg {d : Drive p} (h : d.Ok) (f : Filt (ekfCore p)) : 0 ≤ d.takes f := by
  cases d with
  | predict ref delta => exact h
  | correct m => exact le_refl _
  | process m => exact le_max_left _ _
  | control c t => exact le_refl _

theorem knew_run (hQ : Q.PosSemidef) (hd : p.dynamic = true → NoCross Q) (hI : Keeps p Q a b I K) (ds : List (Drive p))
    (hok : ∀ d ∈ ds, d.Ok ∧ K d) (f : Filt (ekfCore p)) (hi : f.initialized = true) (hpar : f.par = Q) (hf : CovOk f.x f.cov) (h : I f)
    {τ w : ℝ} (hτ : 0 ≤ τ) (hk : KnewTo f a b τ (w + drift Q a b τ)) :
    let g := ds.foldl Drive.apply f
    g.initialized = true ∧ g.par = Q ∧ CovOk g.x g.cov ∧ I g ∧ 0 ≤ τ + toSec (elapsed f ds) ∧
      KnewTo g a b (τ + toSec (elapsed f ds)) (w + drift Q a b (τ + toSec (elapsed f ds))) := by
  induction ds generalizing f τ with
  | nil =>
    have e : τ + toSec (elapsed f []) = τ := by simp [elapsed, toSec]
    dsimp only
    rw [e]
    exact ⟨hi, hpar, hf, h, hτ, hk⟩
  | cons d ds ih =>
    have hb : 0 ≤ Q b b := hQ.diag_nonneg
    have hdo := hok d List.mem_cons_self
    have hτ' : 0 ≤ τ + toSec (d.takes f) := add_nonneg hτ (toSec_nonneg (takes_nonneg hdo.1 f))
    have key : (d.apply f).initialized = true ∧ (d.apply f).par = Q ∧ CovOk (d.apply f).x (d.apply f).cov ∧
        KnewTo (d.apply f) a b (τ + toSec (d.takes f)) (w + drift Q a b (τ + toSec (d.takes f))) := by
      cases d with
      | predict ref delta =>
        refine ⟨hi, hpar, ?_, ?_⟩
        · have := ekfCore_predict_cov hQ hd f.ctl f.ctlTime ref delta f.x f.cov f.ext hdo.1 hf
          rw [← hpar] at this
          exact this
        · intro hx
          have h1 := knew_predict hpar (fun x hx => hI.slope f x h hx) ref delta hk hx
          have h2 := drift_step hb (a := a) hτ (toSec_nonneg hdo.1)
          have e : (Drive.predict (p := p) ref delta).takes f = delta := rfl
          rw [e]
          refine h1.trans ?_
          linarith
      | correct m =>
        have e : τ + toSec ((Drive.correct (p := p) m).takes f) = τ := by simp [Drive.takes, toSec]
        rw [e]
        exact ⟨hi, hpar, ekfCore_correct_cov m hdo.1 _ _ _ hf, knew_correct hf hdo.1 hk⟩
      | control c t =>
        have e : τ + toSec ((Drive.control (p := p) c t).takes f) = τ := by simp [Drive.takes, toSec]
        rw [e]
        exact ⟨hi, hpar, hf, hk⟩
      | process m =>
        obtain ⟨g, e1, e2, g1, g2⟩ := knew_process hQ hd hi hpar hf (fun x hx => hI.slope f x h hx) m hτ hk
        refine ⟨Filt.processMeasurement_initialized f m, ?_, ?_, ?_⟩
        · obtain ⟨-, -, -, -, e3⟩ := process_parts hi m
          exact e3.trans hpar
        · show CovOk (f.processMeasurement m).x (f.processMeasurement m).cov
          rw [e1, e2]
          exact ekfCore_correct_cov m.z hdo.1 _ _ _ g1
        · show (f.processMeasurement m).x ≠ none → _ ⬝ᵥ (show Mat15 from (f.processMeasurement m).cov) *ᵥ _ ≤ _
          rw [e1, e2]
          exact knew_correct g1 hdo.1 g2
    have := ih (fun d' h' => hok d' (List.mem_cons_of_mem _ h')) (d.apply f) key.1 key.2.1 key.2.2.1
      (hI.step f d h hi hpar hdo.2) hτ' key.2.2.2
    have e : τ + toSec (elapsed f (d :: ds)) = τ + toSec (d.takes f) + toSec (elapsed (d.apply f) ds) := by
      rw [elapsed, toSec_add]
      ring
    rw [e]
    exact this

/-- A filter as it is before a reading: its covariance is one, or it has not started and its covariance is without correlations. -/
structure Ready (Q : Mat15) (f : Filt (ekfCore p)) : Prop where
  noise : f.par = Q
  on : f.initialized = true → CovOk f.x f.cov
  off : f.initialized = false → Uncorrelated f.cov

/-- A reading of variable `a`, perhaps among others, that is not up to a rejection threshold. -/
structure Payload.Tells (m : Payload) (a : Fin 15) : Prop where
  good : m.GoodR
  ungated : m.thresh = .unlimited
  used : m.upd a = true
  number : (m.z a).isFin = true

theorem told (hQ : Q.PosSemidef) (hd : p.dynamic = true → NoCross Q) {f : Filt (ekfCore p)} (hf : Ready Q f) {m : Meas (ekfCore p)}
    {z : Payload} (hz : m.z = z) (hm : z.Tells a) :
    CovOk (f.processMeasurement m).x (f.processMeasurement m).cov ∧ (f.processMeasurement m).par = Q ∧
      KnownTo (f.processMeasurement m) a (max (z.R a a) 1e-9) := by
  by_cases hi : f.initialized = true
  · obtain ⟨g, hg, e1, e2, e3⟩ := process_parts hi m
    have hc : CovOk g.x g.cov := by
      rcases hg with ⟨rfl, -⟩ | ⟨h0, gx, gc⟩
      · exact hf.on hi
      · rw [gx, gc]
        have := ekfCore_predict_cov hQ hd f.ctl f.ctlTime m.time (m.time - f.lastTime) f.x f.cov f.ext h0 (hf.on hi)
        rw [← hf.noise] at this
        exact this
    unfold KnownTo
    rw [e1, e2, e3, hz]
    exact ⟨ekfCore_correct_cov z hm.good _ _ _ hc, hf.noise, known_correct hc hm.good hm.ungated hm.used hm.number⟩
  · unfold Filt.processMeasurement
    rw [if_neg hi, hz]
    obtain ⟨u1, u2⟩ := hf.off (by simpa using hi)
    refine ⟨fun _ => initCov_psd hm.good u1 u2, hf.noise, fun _ => ?_⟩
    show initCov z f.cov a a ≤ _
    simp only [initCov, Matrix.of_apply, hm.used, Bool.and_self, if_true]
    exact le_max_left _ _

theorem elapsed_append (f : Filt (ekfCore p)) (ds : List (Drive p)) (d : Drive p) :
    elapsed f (ds ++ [d]) = elapsed f ds + d.takes (ds.foldl Drive.apply f) := by
  induction ds generalizing f with
  | nil => simp [elapsed]
  | cons c ds ih =>
    rw [List.cons_append, elapsed, ih, elapsed, List.foldl_cons]
    ring

theorem slope_known (hQ : Q.PosSemidef) (hd : p.dynamic = true → NoCross Q) (hI : Keeps p Q a b I K) {f : Filt (ekfCore p)}
    (hf : Ready Q f) {m0 m1 : Meas (ekfCore p)} {z0 z1 : Payload} (hz0 : m0.z = z0) (hz1 : m1.z = z1) (h0 : z0.Tells a) (h1 : z1.Tells a)
    (h : I (f.processMeasurement m0)) (ds : List (Drive p)) (hok : ∀ d ∈ ds, d.Ok ∧ K d) {τ : ℝ}
    (hτ : τ = toSec (elapsed (f.processMeasurement m0) (ds ++ [Drive.process m1]))) (hpos : 0 < τ) :
    KnownTo ((ds ++ [Drive.process m1]).foldl Drive.apply (f.processMeasurement m0)) b
      ((max (z0.R a a) 1e-9 + max (z1.R a a) 1e-9) / τ ^ 2 + Q a a / τ + |Q a b + Q b a| + τ * Q b b) := by
  obtain ⟨c0, p0, k0⟩ := told hQ hd hf hz0 h0
  have hk : KnewTo (f.processMeasurement m0) a b 0 (max (z0.R a a) 1e-9 + drift Q a b 0) := by
    intro hx
    refine (form_before (show Mat15 from (f.processMeasurement m0).cov) a b 0).trans_le ?_
    have : (show Mat15 from (f.processMeasurement m0).cov) a a ≤ _ := k0 hx
    unfold drift
    linarith
  obtain ⟨g1, g2, g3, g4, g5, g6⟩ := knew_run hQ hd hI ds hok _ (Filt.processMeasurement_initialized f m0) p0 c0 h le_rfl hk
  obtain ⟨g, e1, e2, g7, g8⟩ := knew_process hQ hd g1 g2 g3 (fun x hx => hI.slope _ x g4 hx) m1 g5 g6
  have et : 0 + toSec (elapsed (f.processMeasurement m0) ds) +
      toSec ((Drive.process m1).takes (ds.foldl Drive.apply (f.processMeasurement m0))) = τ := by
    rw [hτ, elapsed_append, toSec_add]
    ring
  rw [et] at g8
  have := knew_read g7 h1.good h1.ungated h1.used h1.number hpos g8
  rw [List.foldl_append]
  show KnownTo (Filt.processMeasurement _ m1) b _
  unfold KnownTo at this ⊢
  rw [e1, e2, hz1]
  intro hx
  refine (this hx).trans (le_of_eq ?_)
  unfold drift
  field_simp
  ring

/-- From then on the rate of change is forgotten no faster than by its process noise. -/
theorem rate_run (hQ : Q.PosSemidef) (hd : p.dynamic = true → NoCross Q) (hI : Keeps p Q a b I K) (ds : List (Drive p))
    (hok : ∀ d ∈ ds, d.Ok ∧ K d) (f : Filt (ekfCore p)) (hi : f.initialized = true) (hpar : f.par = Q) (hf : CovOk f.x f.cov) (h : I f)
    {v : ℝ} (hk : KnownTo f b v) : KnownTo (ds.foldl Drive.apply f) b (v + toSec (elapsed f ds) * Q b b) := by
  have hp : ∀ (f : Filt (ekfCore p)) (v : ℝ) (ref delta : Int), I f → f.par = Q → KnownTo f b v →
      KnownTo (f.predict ref delta) b (v + toSec delta * Q b b) := by
    intro f v ref delta h hpar hk
    obtain ⟨x, hx⟩ : ∃ x : Option State, x = f.x := ⟨_, rfl⟩
    obtain ⟨P, hPe⟩ : ∃ P : Mat15, P = f.cov := ⟨_, rfl⟩
    have e : (ekfCore p).predict f.par f.ctl f.ctlTime ref delta (f.x, f.cov, f.ext) =
        (ekfCore p).predict Q f.ctl f.ctlTime ref delta (x, P, ()) := by rw [hx, hPe, hpar]; rfl
    have hk : x ≠ none → P b b ≤ v := by rw [hx, hPe]; exact hk
    have hs : ∀ y, x = some y → Slope p Q a b y := by rw [hx]; exact fun y hy => hI.slope f y h hy
    unfold KnownTo Filt.predict
    dsimp only
    rw [e]
    cases x with
    | none => intro h; exact absurd rfl h
    | some x =>
      show (match Ekf.predict p Q f.ctl f.ctlTime ref (toSec delta) x P with
        | some r => ((some r.1, r.2, ()) : Option State × Mat15 × Unit) | none => (none, P, ())).1 ≠ none →
        (match Ekf.predict p Q f.ctl f.ctlTime ref (toSec delta) x P with
        | some r => ((some r.1, r.2, ()) : Option State × Mat15 × Unit) | none => (none, P, ())).2.1 b b ≤ _
      cases hr : Ekf.predict p Q f.ctl f.ctlTime ref (toSec delta) x P with
      | none => intro h; exact absurd rfl h
      | some r =>
        intro _
        dsimp only
        unfold Ekf.predict at hr
        dsimp only at hr
        split at hr
        · cases hr
        · rw [← Option.some.inj hr]
          refine (form_single (transferJ x (toSec delta) * P * (transferJ x (toSec delta))ᵀ + toSec delta • noiseQ p Q x) b).symm.trans_le ?_
          rw [add_mulVec, dotProduct_add, form_congr, smul_mulVec, dotProduct_smul, form_single (noiseQ p Q x),
            (hs x rfl).noise.2.2.2, smul_eq_mul, mulVec_single_one]
          have e2 : (transferJ x (toSec delta))ᵀ.col b = transferJ x (toSec delta) b := rfl
          rw [e2, (hs x rfl).rate, form_single]
          linarith [hk (by simp)]
  induction ds generalizing f v with
  | nil => simpa [elapsed, toSec] using hk
  | cons d ds ih =>
    have hdo := hok d List.mem_cons_self
    have key : (d.apply f).initialized = true ∧ (d.apply f).par = Q ∧ CovOk (d.apply f).x (d.apply f).cov ∧
        KnownTo (d.apply f) b (v + toSec (d.takes f) * Q b b) := by
      cases d with
      | predict ref delta =>
        refine ⟨hi, hpar, ?_, hp f v ref delta h hpar hk⟩
        have := ekfCore_predict_cov hQ hd f.ctl f.ctlTime ref delta f.x f.cov f.ext hdo.1 hf
        rw [← hpar] at this
        exact this
      | correct m =>
        have e : v + toSec ((Drive.correct (p := p) m).takes f) * Q b b = v := by simp [Drive.takes, toSec]
        rw [e]
        exact ⟨hi, hpar, ekfCore_correct_cov m hdo.1 _ _ _ hf, known_more hf hdo.1 hk⟩
      | control c t =>
        have e : v + toSec ((Drive.control (p := p) c t).takes f) * Q b b = v := by simp [Drive.takes, toSec]
        rw [e]
        exact ⟨hi, hpar, hf, hk⟩
      | process m =>
        obtain ⟨g, hg, e1, e2, e3⟩ := process_parts hi m
        have hg' : CovOk g.x g.cov ∧ KnownTo g b (v + toSec ((Drive.process m).takes f) * Q b b) := by
          rcases hg with ⟨rfl, h0⟩ | ⟨h0, gx, gc⟩
          · have : (Drive.process m).takes g = 0 := max_eq_left h0
            rw [this, show toSec 0 = 0 by simp [toSec], zero_mul, add_zero]
            exact ⟨hf, hk⟩
          · have ht : (Drive.process m).takes f = m.time - f.lastTime := max_eq_right h0
            rw [ht]
            unfold KnownTo
            rw [gx, gc]
            refine ⟨?_, hp f v m.time _ h hpar hk⟩
            have := ekfCore_predict_cov hQ hd f.ctl f.ctlTime m.time (m.time - f.lastTime) f.x f.cov f.ext h0 hf
            rw [← hpar] at this
            exact this
        refine ⟨Filt.processMeasurement_initialized f m, e3.trans hpar, ?_, ?_⟩
        · show CovOk (f.processMeasurement m).x (f.processMeasurement m).cov
          rw [e1, e2]
          exact ekfCore_correct_cov m.z hdo.1 _ _ _ hg'.1
        · show (f.processMeasurement m).x ≠ none → (show Mat15 from (f.processMeasurement m).cov) b b ≤ _
          rw [e1, e2]
          exact known_more hg'.1 hdo.1 hg'.2
    have := ih (fun d' h' => hok d' (List.mem_cons_of_mem _ h')) (d.apply f) key.1 key.2.1 key.2.2.1
      (hI.step f d h hi hpar hdo.2) key.2.2.2
    have e : v + toSec (elapsed f (d :: ds)) * Q b b =
        v + toSec (d.takes f) * Q b b + toSec (elapsed (d.apply f) ds) * Q b b := by
      rw [elapsed, toSec_add]
      ring
    rw [e]
    exact this

end

/-! ## C142 -/

section
variable {Q : Mat15}

theorem slope_velocity {a b : Fin 15} (h : (a, b) ∈ [(iVx, iAx), (iVy, iAy), (iVz, iAz)]) (x : State) : Slope p Q a b x := by
  have hn : ∀ i j : Fin 15, 6 ≤ i.val → noiseQ p Q x i j = Q i j := by
    intro i j hi
    unfold noiseQ writeDyn
    split
    · simp only [Matrix.of_apply]
      rw [if_neg (by omega)]
    · rfl
  simp only [List.mem_cons, Prod.mk.injEq, List.not_mem_nil, or_false] at h
  rcases h with ⟨rfl, rfl⟩ | ⟨rfl, rfl⟩ | ⟨rfl, rfl⟩
  · refine ⟨fun dt => ?_, fun dt => ?_, hn _ _ (by decide), hn _ _ (by decide), hn _ _ (by decide), hn _ _ (by decide)⟩
    · show transferJ x dt 6 = _
      rw [transferJ_row6]
      funext j
      fin_cases j <;> simp [iVx, iAx]
    · show transferJ x dt 12 = _
      rw [transferJ_row12]
      funext j
      fin_cases j <;> simp [iAx]
  · refine ⟨fun dt => ?_, fun dt => ?_, hn _ _ (by decide), hn _ _ (by decide), hn _ _ (by decide), hn _ _ (by decide)⟩
    · show transferJ x dt 7 = _
      rw [transferJ_row7]
      funext j
      fin_cases j <;> simp [iVy, iAy]
    · show transferJ x dt 13 = _
      rw [transferJ_row13]
      funext j
      fin_cases j <;> simp [iAy]
  · refine ⟨fun dt => ?_, fun dt => ?_, hn _ _ (by decide), hn _ _ (by decide), hn _ _ (by decide), hn _ _ (by decide)⟩
    · show transferJ x dt 8 = _
      rw [transferJ_row8]
      funext j
      fin_cases j <;> simp [iVz, iAz]
    · show transferJ x dt 14 = _
      rw [transferJ_row14]
      funext j
      fin_cases j <;> simp [iAz]

/-- C142: two readings of a velocity, a time τ apart, tell the acceleration, whatever else the filter is made to do between them. -/
theorem C142_acceleration (hQ : Q.PosSemidef) (hd : p.dynamic = true → NoCross Q) {a b : Fin 15}
    (hab : (a, b) ∈ [(iVx, iAx), (iVy, iAy), (iVz, iAz)]) {f : Filt (ekfCore p)} (hf : Ready Q f) {m0 m1 : Meas (ekfCore p)}
    {z0 z1 : Payload} (hz0 : m0.z = z0) (hz1 : m1.z = z1) (h0 : z0.Tells a) (h1 : z1.Tells a) (ds : List (Drive p))
    (hok : ∀ d ∈ ds, d.Ok) {τ : ℝ} (hτ : τ = toSec (elapsed (f.processMeasurement m0) (ds ++ [Drive.process m1]))) (hpos : 0 < τ)
    (hx : ((ds ++ [Drive.process m1]).foldl Drive.apply (f.processMeasurement m0)).x ≠ none) :
    (show Mat15 from ((ds ++ [Drive.process m1]).foldl Drive.apply (f.processMeasurement m0)).cov) b b ≤
      (max (z0.R a a) 1e-9 + max (z1.R a a) 1e-9) / τ ^ 2 + Q a a / τ + |Q a b + Q b a| + τ * Q b b :=
  slope_known hQ hd (I := fun _ => True) (K := fun _ => True) ⟨fun _ x _ _ => slope_velocity hab x, fun _ _ _ _ _ _ => trivial⟩ hf hz0 hz1
    h0 h1 trivial ds (fun d h => ⟨hok d h, trivial⟩) hτ hpos hx

/-- C142, as long as no further reading comes: the acceleration is forgotten no faster than by its process noise. -/
theorem C142_stays (hQ : Q.PosSemidef) (hd : p.dynamic = true → NoCross Q) {a b : Fin 15}
    (hab : (a, b) ∈ [(iVx, iAx), (iVy, iAy), (iVz, iAz)]) {f : Filt (ekfCore p)} (hf : Ready Q f) {m0 m1 : Meas (ekfCore p)}
    {z0 z1 : Payload} (hz0 : m0.z = z0) (hz1 : m1.z = z1) (h0 : z0.Tells a) (h1 : z1.Tells a) (ds later : List (Drive p))
    (hok : ∀ d ∈ ds, d.Ok) (hlater : ∀ d ∈ later, d.Ok) {g h : Filt (ekfCore p)}
    (hg : g = (ds ++ [Drive.process m1]).foldl Drive.apply (f.processMeasurement m0)) (hh : h = later.foldl Drive.apply g) {τ : ℝ}
    (hτ : τ = toSec (elapsed (f.processMeasurement m0) (ds ++ [Drive.process m1]))) (hpos : 0 < τ) (hx : h.x ≠ none) :
    (show Mat15 from h.cov) b b ≤ (max (z0.R a a) 1e-9 + max (z1.R a a) 1e-9) / τ ^ 2 + Q a a / τ + |Q a b + Q b a| + τ * Q b b +
      toSec (elapsed g later) * Q b b := by
  have hK : Keeps p Q a b (fun _ => True) (fun _ => True) := ⟨fun _ x _ _ => slope_velocity hab x, fun _ _ _ _ _ _ => trivial⟩
  have hk := slope_known hQ hd hK hf hz0 hz1 h0 h1 trivial ds (fun d h => ⟨hok d h, trivial⟩) hτ hpos
  obtain ⟨c0, p0, -⟩ := told hQ hd hf hz0 h0
  have hall : ∀ d ∈ ds ++ [Drive.process m1], d.Ok ∧ True := by
    intro d h
    rcases List.mem_append.1 h with h | h
    · exact ⟨hok d h, trivial⟩
    · rw [List.mem_singleton.1 h]
      refine ⟨?_, trivial⟩
      show Payload.GoodR m1.z
      rw [hz1]
      exact h1.good
  have hkn : KnewTo (f.processMeasurement m0) a b 0
      (valueBefore a b 0 ⬝ᵥ (show Mat15 from (f.processMeasurement m0).cov) *ᵥ valueBefore a b 0 + drift Q a b 0) := by
    intro _
    unfold drift
    rw [zero_mul, add_zero]
  obtain ⟨g1, g2, g3, -, -, -⟩ := knew_run hQ hd hK _ hall _ (Filt.processMeasurement_initialized f m0) p0 c0 trivial le_rfl hkn
  rw [← hg] at hk
  rw [← hg] at g1 g2 g3
  have := rate_run hQ hd hK later (fun d h => ⟨hlater d h, trivial⟩) g g1 g2 g3 trivial hk
  rw [← hh] at this
  exact this hx

/-! ### Messages alone -/

theorem process_lastTime {f : Filt (ekfCore p)} (hi : f.initialized = true) (m : Meas (ekfCore p)) :
    (f.processMeasurement m).lastTime = f.lastTime + (Drive.process m).takes f := by
  show _ = f.lastTime + max 0 (m.time - f.lastTime)
  unfold Filt.processMeasurement
  rw [if_pos hi]
  dsimp only
  by_cases h : m.time - f.lastTime ≥ 0
  · rw [if_pos h, max_eq_right h]
    show m.time = _
    omega
  · rw [if_neg h, max_eq_left (by omega), if_neg (by omega), add_zero]
    rfl

theorem elapsed_messages (ms : List (Meas (ekfCore p))) (f : Filt (ekfCore p)) (hi : f.initialized = true) :
    (ms.foldl Filt.processMeasurement f).lastTime = f.lastTime + elapsed f (ms.map Drive.process) := by
  induction ms generalizing f with
  | nil => simp [elapsed]
  | cons m ms ih =>
    rw [List.foldl_cons, ih _ (Filt.processMeasurement_initialized f m), process_lastTime hi, List.map_cons, elapsed]
    show _ = f.lastTime + (_ + elapsed (f.processMeasurement m) _)
    ring

theorem lastTime_le (ms : List (Meas (ekfCore p))) (f : Filt (ekfCore p)) (hi : f.initialized = true) {t : Int} (h : f.lastTime ≤ t)
    (hms : ∀ m ∈ ms, m.time ≤ t) : (ms.foldl Filt.processMeasurement f).lastTime ≤ t := by
  induction ms generalizing f with
  | nil => exact h
  | cons m ms ih =>
    refine ih _ (Filt.processMeasurement_initialized f m) ?_ (fun m' h' => hms m' (List.mem_cons_of_mem _ h'))
    rw [process_lastTime hi]
    have := hms m List.mem_cons_self
    show f.lastTime + max 0 (m.time - f.lastTime) ≤ t
    omega

/-- C142 for a list of messages in any order, the last of which is the newest: it and the first tell the acceleration. -/
theorem C142_messages (hQ : Q.PosSemidef) (hd : p.dynamic = true → NoCross Q) {a b : Fin 15}
    (hab : (a, b) ∈ [(iVx, iAx), (iVy, iAy), (iVz, iAz)]) {f : Filt (ekfCore p)} (hf : Ready Q f) {m0 m1 : Meas (ekfCore p)}
    {z0 z1 : Payload} (hz0 : m0.z = z0) (hz1 : m1.z = z1) (h0 : z0.Tells a) (h1 : z1.Tells a) (ms : List (Meas (ekfCore p)))
    (hok : ∀ m ∈ ms, Payload.GoodR m.z) (hnew : f.initialized = true → f.lastTime ≤ m0.time) (hlast : ∀ m ∈ ms, m.time ≤ m1.time)
    (hlt : m0.time < m1.time) {τ : ℝ} (hτ : τ = toSec (m1.time - m0.time)) {g : Filt (ekfCore p)}
    (hg : g = (m0 :: ms ++ [m1]).foldl Filt.processMeasurement f) (hx : g.x ≠ none) :
    (show Mat15 from g.cov) b b ≤
      (max (z0.R a a) 1e-9 + max (z1.R a a) 1e-9) / τ ^ 2 + Q a a / τ + |Q a b + Q b a| + τ * Q b b := by
  have hi := Filt.processMeasurement_initialized f m0
  have ht0 : (f.processMeasurement m0).lastTime = m0.time := by
    by_cases h : f.initialized = true
    · rw [process_lastTime h]
      have := hnew h
      show f.lastTime + max 0 (m0.time - f.lastTime) = _
      omega
    · unfold Filt.processMeasurement
      rw [if_neg h]
  have e1 : ((ms ++ [m1]).map Drive.process) = ms.map Drive.process ++ [Drive.process m1] := by simp
  have hfold : ∀ (l : List (Meas (ekfCore p))) (f' : Filt (ekfCore p)),
      (l.map Drive.process).foldl Drive.apply f' = l.foldl Filt.processMeasurement f' := by
    intro l f'
    rw [List.foldl_map]
    rfl
  have hel : elapsed (f.processMeasurement m0) (ms.map Drive.process ++ [Drive.process m1]) = m1.time - m0.time := by
    have h2 := lastTime_le ms _ hi (t := m1.time) (by rw [ht0]; exact hlt.le) hlast
    have h3 := elapsed_messages ms _ hi
    rw [elapsed_append, hfold]
    rw [ht0] at h3
    show _ + max 0 (m1.time - (ms.foldl Filt.processMeasurement (f.processMeasurement m0)).lastTime) = _
    omega
  have hgg : g = (ms.map Drive.process ++ [Drive.process m1]).foldl Drive.apply (f.processMeasurement m0) := by
    rw [hg, ← e1, hfold]
    rfl
  rw [hgg] at hx ⊢
  refine C142_acceleration hQ hd hab hf hz0 hz1 h0 h1 (ms.map Drive.process) ?_ (by rw [hel]; exact hτ) ?_ hx
  · intro d h
    obtain ⟨m, hm, rfl⟩ := List.mem_map.1 h
    exact hok m hm
  · rw [hτ]
    unfold toSec
    have : (0 : ℝ) < ((m1.time - m0.time : Int) : ℝ) := by exact_mod_cast sub_pos.2 hlt
    positivity

/-! ### Heading and yaw rate in the plane -/

theorem slope_heading (hp : p.dynamic = false) {x : State} (hx : Flat offPlane x) : Slope p Q iYaw iVyaw x := by
  obtain ⟨h1, h2, h3⟩ := trig_flat hx
  have h10 : x 10 = 0 := hx 10 rfl
  have hr : x iRoll = 0 := hx iRoll rfl
  have hpt : x iPitch = 0 := hx iPitch rfl
  have hcr : (trig x).cr = 1 := by simp [trig, hr]
  have hcpi : (trig x).cpi = 1 := by simp [trig, hpt]
  refine ⟨fun dt => ?_, fun dt => ?_, by simp [noiseQ, hp]⟩
  · show transferJ x dt 5 = _
    rw [transferJ_row5, h2, h3, h10, hcr, hcpi]
    funext j
    fin_cases j <;> simp [iYaw, iVyaw]
  · show transferJ x dt 11 = _
    rw [transferJ_row11]
    funext j
    fin_cases j <;> simp [iVyaw]

/-- What may be done to a filter in the plane. -/
def Drive.Planar : Drive p → Prop
  | .predict _ delta => 0 ≤ delta
  | .correct m => PlanarMeas m
  | .process m => PlanarMeas m.z
  | .control c _ => PlanarCtl p c

/-- C142 in the plane: two readings of the heading tell the yaw rate. -/
theorem C142_yaw_rate (hp : p.dynamic = false) (hQ : Q.PosSemidef) (hQ2 : NoOutOfPlane Q) {f : Filt (ekfCore p)} (hf : Ready Q f)
    (hf2 : PlanarEst f.x f.cov) (hc : PlanarCtl p f.ctl) {m0 m1 : Meas (ekfCore p)} {z0 z1 : Payload} (hz0 : m0.z = z0) (hz1 : m1.z = z1)
    (h0 : z0.Tells iYaw) (h1 : z1.Tells iYaw) (hp0 : PlanarMeas z0) (ds : List (Drive p))
    (hok : ∀ d ∈ ds, d.Ok ∧ d.Planar) {τ : ℝ} (hτ : τ = toSec (elapsed (f.processMeasurement m0) (ds ++ [Drive.process m1])))
    (hpos : 0 < τ) (hx : ((ds ++ [Drive.process m1]).foldl Drive.apply (f.processMeasurement m0)).x ≠ none) :
    (show Mat15 from ((ds ++ [Drive.process m1]).foldl Drive.apply (f.processMeasurement m0)).cov) iVyaw iVyaw ≤
      (max (z0.R iYaw iYaw) 1e-9 + max (z1.R iYaw iYaw) 1e-9) / τ ^ 2 + Q iYaw iYaw / τ + |Q iYaw iVyaw + Q iVyaw iYaw| +
        τ * Q iVyaw iVyaw := by
  have hd : p.dynamic = true → NoCross Q := fun h => absurd (h.symm.trans hp) (by simp)
  let cfg : Cfg (ekfCore p) := { demoCfg p with processNoise := Q, keptNoise := Q, ctl0 := f.ctl }
  have hI1 : NoOutOfPlane ((1e-9 : ℝ) • (1 : Mat15)) := by
    intro i hi j hj
    have : ∀ i ∈ ([iZ, iRoll, iPitch, iVz, iVroll, iVpitch, iAz] : List (Fin 15)),
      ∀ j ∈ ([iX, iY, iYaw, iVx, iVy, iVyaw, iAx, iAy] : List (Fin 15)), i ≠ j := by decide
    rw [smul_one_eq_diagonal]
    exact ⟨diagonal_apply_ne _ (this i hi j hj), diagonal_apply_ne _ (this i hi j hj).symm⟩
  have hE : EstInv cfg PlanarEst PlanarEst PlanarMeas (PlanarCtl p) :=
    planar_estInv p cfg hQ2 hI1 (fun s hs => by cases Option.some.inj hs; exact (flat_iff 0).1 (fun _ _ => rfl)) ⟨Or.inl rfl, Or.inl rfl⟩ hc
  have hK : Keeps p Q iYaw iVyaw (fun g => g.initialized = true ∧ FInv cfg PlanarEst PlanarEst (PlanarCtl p) g) Drive.Planar := by
    refine ⟨fun g x hg hx => slope_heading hp (hg.2.on hg.1 x hx).1, fun g d hg hi hpar hd => ?_⟩
    obtain ⟨-, hg⟩ := hg
    cases d with
    | predict ref delta =>
      exact ⟨hi, fun _ => hE.predict _ hg.par _ _ _ _ _ _ _ hd hg.ctl (hg.on hi), fun h => absurd (h.symm.trans hi) (by simp), hg.par, hg.ctl⟩
    | correct m => exact ⟨hi, fun _ => hE.correct _ _ _ _ hd (hg.on hi), fun h => absurd (h.symm.trans hi) (by simp), hg.par, hg.ctl⟩
    | process m => exact ⟨Filt.processMeasurement_initialized g m, FInv.process hE hg hd⟩
    | control c t => exact ⟨hi, hg.on, hg.off, hg.par, hd⟩
  have h : FInv cfg PlanarEst PlanarEst (PlanarCtl p) f := ⟨fun _ => hf2, fun _ => hf2, Or.inl hf.noise, hc⟩
  exact slope_known hQ hd hK hf hz0 hz1 h0 h1 ⟨Filt.processMeasurement_initialized f m0, FInv.process hE h (by rw [hz0]; exact hp0)⟩ ds hok
    hτ hpos hx

end

/-! ## Examples -/

theorem proper_of_posDef {m : Payload} (h : m.R.PosDef) : m.Proper := by
  have hinj : Function.Injective m.indices.get := List.nodup_iff_injective_get.1 ((List.nodup_finRange 15).filter _)
  refine ⟨h.posSemidef.submatrix _, ?_⟩
  rw [subR_eq]
  refine (PosDef.add_posSemidef (h.submatrix hinj) (PosSemidef.diagonal fun i => ?_)).det_pos.ne'
  exact sub_nonneg.2 (sanitize_ge _)

/-- Two messages, a second apart, leave a filter that starts from zero finite. -/
theorem two_messages_finite {Q : Mat15} (hQ : Q.PosSemidef) {z z' : Payload} (h0 : z.Proper) (h1 : z'.Proper) (hn : z.Numbers)
    (hp : z.upd iPitch = true → (z.z iPitch).val = 0) (src src' : String) :
    (([⟨0, src, z, fun _ : Fin 6 => (0 : ℝ), 0⟩, ⟨1000000000, src', z', fun _ : Fin 6 => (0 : ℝ), 0⟩] :
      List (Meas (ekfCore plainPar))).foldl Filt.processMeasurement (idleFilt Q)).x ≠ none := by
  let x1 : State := fun k => if z.upd k then (z.z k).val else (0 : State) k
  let P1 : Mat15 := initCov z ((1e-3 : ℝ) • (1 : Mat15))
  have hu : Uncorrelated ((1e-3 : ℝ) • (1 : Mat15)) := uncorrelated_smul (by norm_num)
  have hP1 : P1.PosSemidef := initCov_psd h0.good hu.1 hu.2
  have e1 : (idleFilt Q).processMeasurement ⟨0, src, z, fun _ : Fin 6 => (0 : ℝ), 0⟩ = { idleFilt Q with
      x := some x1, cov := P1, initialized := true, lastTime := 0 } := by
    have : initState z 0 = some x1 := if_pos hn
    show ({ idleFilt Q with x := initState z 0, cov := P1, initialized := true, lastTime := 0 } : Filt _) = _
    rw [this]
  have hp0 : x1 iPitch = 0 := by
    show (if z.upd iPitch then (z.z iPitch).val else (0 : ℝ)) = 0
    split
    · rename_i h; exact hp h
    · rfl
  obtain ⟨y, hpr⟩ : ∃ r, Ekf.predict plainPar Q (fun _ => 0) 0 1000000000 (toSec 1000000000) x1 P1 = some r :=
    level_enough (by rw [hp0, Real.cos_zero]; norm_num)
  have hy : y.2.PosSemidef := predict_psd hQ (by simp [plainPar, demoPar]) (toSec_nonneg (by norm_num)) hP1 (x' := y.1) hpr
  obtain ⟨w, hco⟩ := proper_correct h1 y.1 hy
  rw [List.foldl_cons, e1, List.foldl_cons, List.foldl_nil]
  show (match ((match (Ekf.predict plainPar Q (fun _ => 0) 0 1000000000 (toSec 1000000000) x1 P1) with
    | some r => ((some r.1, r.2, ()) : Option State × Mat15 × Unit) | none => (none, P1, ())).1.bind fun x =>
      Ekf.correct z' x (match (Ekf.predict plainPar Q (fun _ => 0) 0 1000000000 (toSec 1000000000) x1 P1) with
    | some r => ((some r.1, r.2, ()) : Option State × Mat15 × Unit) | none => (none, P1, ())).2.1) with
    | some r => ((some r.1, r.2, ()) : Option State × Mat15 × Unit) | none => _).1 ≠ none
  rw [hpr]
  show (match Ekf.correct z' y.1 y.2 with
    | some r => ((some r.1, r.2, ()) : Option State × Mat15 × Unit) | none => _).1 ≠ none
  rw [hco]
  simp

theorem idleFilt_ready (Q : Mat15) : Ready Q (idleFilt Q) :=
  ⟨rfl, fun h => absurd h (by simp [idleFilt]), fun _ => uncorrelated_smul (by norm_num)⟩

theorem readOf_tells (i : Fin 15) (z : ℝ) {r : ℝ} (hr : 1e-9 ≤ r) : (readOf i z r).Tells i :=
  ⟨(readOf_reads i z hr).good, rfl, by simp [readOf], rfl⟩

theorem readOf_proper (i : Fin 15) (z : ℝ) {r : ℝ} (hr : 0 < r) : (readOf i z r).Proper := proper_of_posDef (PosDef.one.smul hr)

/-- Velocities 0 and 2, a second apart, with a variance of 1e-5: the acceleration, of variance 1e-3 at first, is known to 2.2e-5. -/
example : (show Mat15 from (([readMsg 0 iVx 0 1e-5, readMsg 1000000000 iVx 2 1e-5]).foldl Filt.processMeasurement
    (idleFilt ((1e-6 : ℝ) • (1 : Mat15)))).cov) iAx iAx ≤ 2.2e-5 := by
  have hQ : ((1e-6 : ℝ) • (1 : Mat15)).PosSemidef := PosSemidef.one.smul (by norm_num)
  have h := C142_messages (p := plainPar) hQ (by simp [plainPar, demoPar]) (a := iVx) (b := iAx) (by simp) (idleFilt_ready _)
    (m0 := readMsg 0 iVx 0 1e-5) (m1 := readMsg 1000000000 iVx 2 1e-5) rfl rfl (readOf_tells iVx 0 (r := 1e-5) (by norm_num))
    (readOf_tells iVx 2 (r := 1e-5) (by norm_num)) [] (by simp) (by simp [idleFilt]) (by simp) (by simp [readMsg]) rfl rfl
    (two_messages_finite hQ (readOf_proper iVx 0 (by norm_num)) (readOf_proper iVx 2 (by norm_num)) (fun _ _ => rfl)
      (by simp [readOf, iPitch, iVx]) "gyro" "gyro")
  have e : toSec ((readMsg 1000000000 iVx 2 1e-5).time - (readMsg 0 iVx 0 1e-5).time) = 1 := by
    show toSec (1000000000 - 0) = 1
    unfold toSec
    norm_num
  have hr : ∀ z : ℝ, (readOf iVx z 1e-5).R iVx iVx = 1e-5 := fun z => by simp [readOf]
  rw [e] at h
  change _ ≤ (max ((readOf iVx 0 1e-5).R iVx iVx) 1e-9 + max ((readOf iVx 2 1e-5).R iVx iVx) 1e-9) / _ + _ + _ + _ at h
  rw [hr, hr] at h
  refine h.trans ?_
  simp [iVx, iAx]
  norm_num

/-- Headings 0 and 0.1 in the plane. -/
example : (show Mat15 from (([⟨0, "compass", forceTwoD (readOf iYaw 0 1e-5), fun _ : Fin 6 => (0 : ℝ), 0⟩,
    ⟨1000000000, "compass", forceTwoD (readOf iYaw 0.1 1e-5), fun _ : Fin 6 => (0 : ℝ), 0⟩] : List (Meas (ekfCore plainPar))).foldl
    Filt.processMeasurement (idleFilt ((1e-6 : ℝ) • (1 : Mat15)))).cov) iVyaw iVyaw ≤ 2.2e-5 := by
  have hQ : ((1e-6 : ℝ) • (1 : Mat15)).PosSemidef := PosSemidef.one.smul (by norm_num)
  have hone : ∀ r : ℝ, NoOutOfPlane (r • (1 : Mat15)) := by
    intro r i hi j hj
    have : ∀ i ∈ ([iZ, iRoll, iPitch, iVz, iVroll, iVpitch, iAz] : List (Fin 15)),
      ∀ j ∈ ([iX, iY, iYaw, iVx, iVy, iVyaw, iAx, iAy] : List (Fin 15)), i ≠ j := by decide
    rw [smul_one_eq_diagonal]
    exact ⟨diagonal_apply_ne _ (this i hi j hj), diagonal_apply_ne _ (this i hi j hj).symm⟩
  have hpd : ∀ z, (forceTwoD (readOf iYaw z 1e-5)).R.PosDef := by
    intro z
    have : (forceTwoD (readOf iYaw z 1e-5)).R = diagonal (fun i => if offPlane i then 1e-6 else 1e-5) := by
      ext i j
      show (if i = j ∧ offPlane i = true then (1e-6 : ℝ) else ((1e-5 : ℝ) • (1 : Mat15)) i j) = _
      by_cases hij : i = j
      · subst hij
        simp
      · simp [hij]
    rw [this]
    exact PosDef.diagonal fun i => by split <;> norm_num
  have hyy : ∀ z, (forceTwoD (readOf iYaw z 1e-5)).R iYaw iYaw = 1e-5 := by
    intro z
    show (if iYaw = iYaw ∧ offPlane iYaw = true then (1e-6 : ℝ) else ((1e-5 : ℝ) • (1 : Mat15)) iYaw iYaw) = _
    rw [if_neg (by decide)]
    simp
  have ht : ∀ z, (forceTwoD (readOf iYaw z 1e-5)).Tells iYaw := fun z => ⟨(proper_of_posDef (hpd z)).good, rfl, rfl, rfl⟩
  have hfin : ∀ z, (forceTwoD (readOf iYaw z 1e-5)).Numbers := by
    intro z i _
    show (if offPlane i then Dbl.fin 0 else Dbl.fin z).isFin = true
    split <;> rfl
  have h := C142_yaw_rate (p := plainPar) (by simp [plainPar, demoPar]) hQ (hone _) (idleFilt_ready _)
    (fun s hs => by
      have : s = 0 := (Option.some.inj hs).symm
      subst this
      exact ⟨fun _ _ => rfl, blk_of_noOut (hone _)⟩)
    (fun c _ => Or.inl rfl) (m0 := ⟨0, "compass", forceTwoD (readOf iYaw 0 1e-5), fun _ : Fin 6 => (0 : ℝ), 0⟩)
    (m1 := ⟨1000000000, "compass", forceTwoD (readOf iYaw 0.1 1e-5), fun _ : Fin 6 => (0 : ℝ), 0⟩) rfl rfl (ht 0) (ht 0.1)
    ⟨_, rfl, hone _⟩ [] (by simp) rfl
    (by
      show 0 < toSec (max 0 (1000000000 - 0) + 0)
      unfold toSec
      norm_num)
    (two_messages_finite hQ (proper_of_posDef (hpd 0)) (proper_of_posDef (hpd 0.1)) (hfin 0) (fun _ => rfl) "compass" "compass")
  have e : toSec (elapsed ((idleFilt ((1e-6 : ℝ) • (1 : Mat15))).processMeasurement
      ⟨0, "compass", forceTwoD (readOf iYaw 0 1e-5), fun _ : Fin 6 => (0 : ℝ), 0⟩) ([] ++ [Drive.process
      ⟨1000000000, "compass", forceTwoD (readOf iYaw 0.1 1e-5), fun _ : Fin 6 => (0 : ℝ), 0⟩])) = 1 := by
    show toSec (max 0 (1000000000 - 0) + 0) = 1
    unfold toSec
    norm_num
  rw [e, hyy, hyy] at h
  refine h.trans ?_
  simp [iYaw, iVyaw]
  norm_num

end RL
