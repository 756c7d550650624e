import Verif.Props.Informed
import Verif.Props.LevelUkf
/-! # C111: the covariance covers the error -/

namespace RL
open Matrix Real

variable {n : ℕ}

/-- In every direction the error `e` is at most `√k` standard deviations of the covariance `P`. -/
def Covers {ι : Type} [Fintype ι] (P : Matrix ι ι ℝ) (e : ι → ℝ) (k : ℝ) : Prop :=
  ∀ u : ι → ℝ, (u ⬝ᵥ e) ^ 2 ≤ k * (u ⬝ᵥ P.mulVec u)

section
variable {ι κ : Type} [Fintype ι] [Fintype κ]

theorem psd_form {P : Matrix ι ι ℝ} (h : P.PosSemidef) (u : ι → ℝ) : 0 ≤ u ⬝ᵥ P.mulVec u := by
  have := h.dotProduct_mulVec_nonneg u
  simpa using this

theorem Covers.add {P Q : Matrix ι ι ℝ} (hP : P.PosSemidef) (hQ : Q.PosSemidef) {e w : ι → ℝ} {k l : ℝ} (hk : 0 ≤ k)
    (hl : 0 ≤ l) (h : Covers P e k) (g : Covers Q w l) : Covers (P + Q) (e + w) (k + l) := by
  intro u
  have h := h u
  have g := g u
  have a := psd_form hP u
  have b := psd_form hQ u
  rw [dotProduct_add, add_mulVec, dotProduct_add]
  generalize u ⬝ᵥ e = x at *
  generalize u ⬝ᵥ w = y at *
  generalize u ⬝ᵥ P.mulVec u = A at *
  generalize u ⬝ᵥ Q.mulVec u = B at *
  have key : 2 * (x * y) ≤ k * B + l * A := by
    have h0 : 0 ≤ k * B + l * A := add_nonneg (mul_nonneg hk b) (mul_nonneg hl a)
    refine le_trans (le_abs_self _) (abs_le_of_sq_le_sq ?_ h0)
    have := mul_le_mul h g (sq_nonneg _) (mul_nonneg hk a)
    nlinarith [sq_nonneg (k * B - l * A)]
  nlinarith

theorem Covers.map {P : Matrix ι ι ℝ} {e : ι → ℝ} {k : ℝ} (h : Covers P e k) (M : Matrix κ ι ℝ) :
    Covers (M * P * Mᵀ) (M.mulVec e) k := by
  intro u
  have h := h (Mᵀ.mulVec u)
  have e1 : u ⬝ᵥ M.mulVec e = Mᵀ.mulVec u ⬝ᵥ e := by
    rw [dotProduct_mulVec, ← mulVec_transpose]
  have e2 : u ⬝ᵥ (M * P * Mᵀ).mulVec u = Mᵀ.mulVec u ⬝ᵥ P.mulVec (Mᵀ.mulVec u) := by
    rw [Matrix.mul_assoc, ← mulVec_mulVec, ← mulVec_mulVec, dotProduct_mulVec, ← mulVec_transpose]
  rw [e1, e2]
  exact h

theorem Covers.mono {P Q : Matrix ι ι ℝ} {e : ι → ℝ} {k l : ℝ} (h : Covers P e k) (hP : P.PosSemidef) (hQ : (Q - P).PosSemidef)
    (hk : 0 ≤ k) (hl : k ≤ l) : Covers Q e l := by
  intro u
  have h := h u
  have a := psd_form hP u
  have b := psd_form hQ u
  rw [sub_mulVec, dotProduct_sub] at b
  calc _ ≤ k * (u ⬝ᵥ P.mulVec u) := h
    _ ≤ l * (u ⬝ᵥ Q.mulVec u) := mul_le_mul hl (by linarith) a (hk.trans hl)

theorem Covers.weaken {P : Matrix ι ι ℝ} {e : ι → ℝ} {k l : ℝ} (h : Covers P e k) (hP : P.PosSemidef) (hl : k ≤ l) :
    Covers P e l := fun u => (h u).trans (mul_le_mul_of_nonneg_right hl (psd_form hP u))

theorem Covers.var [DecidableEq ι] {P : Matrix ι ι ℝ} {e : ι → ℝ} {k : ℝ} (h : Covers P e k) (i : ι) : e i ^ 2 ≤ k * P i i := by
  have := h (Pi.single i 1)
  simpa [mulVec_single_one] using this

end

/-- The correction as matrices: what remains of the error is the part the gain leaves and the error of the measurement. -/
theorem covers_joseph {e : Fin n → Fin 15} {R P : Mat15} (hP : P.PosSemidef) (hR : (R.submatrix e e).PosSemidef)
    (K : Matrix (Fin 15) (Fin n) ℝ) {err : State} {v : Fin n → ℝ} {k l : ℝ} (hk : 0 ≤ k) (hl : 0 ≤ l) (h : Covers P err k)
    (hv : Covers (R.submatrix e e) v l) :
    Covers (joseph e R K P) (err + K.mulVec (v - fun a => err (e a))) (k + l) := by
  have hRs := subR_psd hR
  have hv' : Covers (subR e R) v l := hv.mono hR (by
    rw [subR_eq, add_sub_cancel_left]
    exact PosSemidef.diagonal fun i => sub_nonneg.2 (sanitize_ge (R (e i) (e i)))) hl le_rfl
  have e1 : err + K.mulVec (v - fun a => err (e a)) = (1 - K * subH e).mulVec err + K.mulVec v := by
    have : (fun a => err (e a)) = (subH e).mulVec err := by
      funext a
      simp [subH, mulVec, dotProduct]
    rw [this, mulVec_sub, sub_mulVec, one_mulVec, ← mulVec_mulVec]
    abel
  rw [e1]
  unfold joseph
  exact Covers.add (psd_congr hP _) (psd_congr hRs _) hk hl (h.map _) (hv'.map _)

/-- The innovation is the error of the measurement minus that of the estimate, when angles are less than half a turn apart. -/
theorem honest_innovation (m : Payload) {x truth err : State} (hx : UpToTurns x (truth + err)) (v : State)
    (hv : ∀ i ∈ m.indices, SameVal i (m.z i).val (truth i + v i))
    (hturn : ∀ i ∈ m.indices, angular i → |v i - err i| < π) :
    innovation m.indices.get (fun i => (m.z i).val) x =
      (fun a => v (m.indices.get a)) - fun a => err (m.indices.get a) := by
  funext a
  have hmem : m.indices.get a ∈ m.indices := List.get_mem _ _
  have h1 := hv _ hmem
  have h2 := hturn _ hmem
  unfold innovation
  simp only [Pi.sub_apply]
  generalize m.indices.get a = i at *
  by_cases hi : i = iRoll ∨ i = iPitch ∨ i = iYaw
  · rw [if_pos hi]
    obtain ⟨b, hb⟩ := h1.1 hi
    obtain ⟨c, hc⟩ := (hx i).1 hi
    have h2 := abs_lt.1 (h2 hi)
    rw [hb, hc, show truth i + v i + b * (2 * π) - ((truth + err) i + c * (2 * π)) =
      v i - err i + ((b - c : ℤ) : ℝ) * (2 * π) by simp only [Pi.add_apply]; push_cast; ring, normalizeAngle_add_two_pi,
      normalizeAngle_of_mem h2.1 h2.2.le]
  · rw [if_neg hi, h1.2 hi, (hx i).2 hi, Pi.add_apply]
    ring

/-- **C111** for a correction: if the estimate is within `√k` standard deviations of the truth in every direction, and the
measurement within `√l`, then the new estimate is within `√(k+l)`, accepted or not.  Orientations must be less than half
a turn from the estimate. -/
theorem C111_correction (m : Payload) (hm : m.GoodR) {x x' truth err : State} {P P' : Mat15} (hP : P.PosSemidef) {k l : ℝ}
    (hk : 0 ≤ k) (hl : 0 ≤ l) (hx : UpToTurns x (truth + err)) (hc : Covers P err k) (v : State)
    (hv : ∀ i ∈ m.indices, SameVal i (m.z i).val (truth i + v i))
    (hvc : Covers (m.R.submatrix m.indices.get m.indices.get) (fun a => v (m.indices.get a)) l)
    (hturn : ∀ i ∈ m.indices, angular i → |v i - err i| < π) (h : Ekf.correct m x P = some (x', P')) :
    ∃ err', UpToTurns x' (truth + err') ∧ Covers P' err' (k + l) := by
  have hR := hm.sub
  have hin := honest_innovation m hx v hv hturn
  unfold Ekf.correct correctAt at h
  split at h
  · cases h
  · split at h
    · simp only [Option.some.injEq, Prod.mk.injEq] at h
      rw [← h.1, ← h.2, hin]
      refine ⟨_, ?_, covers_joseph hP hR (gain m.indices.get m.R P) hk hl hc hvc⟩
      refine (wrap_upToTurns _).trans ?_
      rw [← add_assoc]
      intro i
      refine ⟨fun hi => ?_, fun hi => ?_⟩
      · obtain ⟨a, ha⟩ := (hx i).1 hi
        refine ⟨a, ?_⟩
        simp only [Pi.add_apply] at ha ⊢
        rw [ha]
        ring
      · have ha := (hx i).2 hi
        simp only [Pi.add_apply] at ha ⊢
        rw [ha]
    · simp only [Option.some.injEq, Prod.mk.injEq] at h
      rw [← h.1, ← h.2]
      exact ⟨err, hx, hc.weaken hP (by linarith)⟩

/-- C111 for a prediction: if the error was within `√k` standard deviations in every direction, and the motion model is
wrong by something within `√c` standard deviations of the process noise of the step, the error is within `√(k+c)`. -/
theorem C111_prediction {p : FilterPar} {Q : Mat15} {ctl : Fin 6 → ℝ} {ct ref : Int} {dt : ℝ} {x x' truth' err w : State}
    {P P' : Mat15} (hP : P.PosSemidef) {k c : ℝ} (hk : 0 ≤ k) (hc0 : 0 ≤ c) (hc : Covers P err k)
    (hQ : (dt • noiseQ p Q x).PosSemidef) (h : Ekf.predict p Q ctl ct ref dt x P = some (x', P'))
    (hm : UpToTurns x' (truth' + ((transferJ x dt).mulVec err + w))) (hw : Covers (dt • noiseQ p Q x) w c) :
    ∃ err', UpToTurns x' (truth' + err') ∧ Covers P' err' (k + c) := by
  refine ⟨_, hm, ?_⟩
  unfold Ekf.predict at h
  dsimp only at h
  split at h
  · cases h
  · simp only [Option.some.injEq, Prod.mk.injEq] at h
    rw [← h.2]
    exact Covers.add (psd_congr hP _) hQ hk hc0 (hc.map _) hw

theorem covers_mask (p : Fin 15 → Bool) {R : Mat15} {v : State} {l : ℝ}
    (h : Covers (R.submatrix (fun i : {i // p i = true} => i.1) (fun i => i.1)) (fun a => v a.1) l) :
    Covers (Matrix.of fun i j => if p i && p j then R i j else 0) (fun i => if p i then v i else 0) l := by
  have hsum : ∀ g : Fin 15 → ℝ, ∑ a : {i // p i = true}, g a.1 = ∑ i, if p i = true then g i else 0 := by
    intro g
    rw [← Finset.sum_filter]
    exact (Finset.sum_subtype _ (by simp) g).symm
  intro u
  have h := h fun a => u a.1
  simp only [dotProduct, mulVec, submatrix_apply] at h ⊢
  rw [hsum (fun i => u i * v i), hsum (fun i => u i * ∑ b : {i // p i = true}, R i b.1 * u b.1)] at h
  have e0 : ∀ i, ∑ b : {i // p i = true}, R i b.1 * u b.1 = ∑ j, if p j = true then R i j * u j else 0 :=
    fun i => hsum fun j => R i j * u j
  simp only [e0] at h
  have e1 : ∑ i, u i * (if p i = true then v i else 0) = ∑ i, if p i = true then u i * v i else 0 :=
    Finset.sum_congr rfl fun i _ => by split <;> simp
  have e2 : ∑ i, u i * ∑ j, (Matrix.of fun i j => if (p i && p j) = true then R i j else 0) i j * u j =
      ∑ i, if p i = true then u i * ∑ j, (if p j = true then R i j * u j else 0) else 0 := by
    refine Finset.sum_congr rfl fun i _ => ?_
    by_cases hi : p i = true
    · simp only [hi, Bool.true_and, if_true, Matrix.of_apply, ite_mul, zero_mul]
    · simp [hi]
  rw [e1, e2]
  exact h

/-- C111 for the first measurement, which is copied: measured variables have its errors, the others keep theirs. -/
theorem C111_first (m : Payload) (hm : m.GoodR) {x x' truth err : State} {P : Mat15} (hP : Uncorrelated P) {k l : ℝ}
    (hk : 0 ≤ k) (hl : 0 ≤ l) (hx : UpToTurns x (truth + err)) (hc : Covers P err k) (v : State)
    (hv : ∀ i, m.upd i = true → SameVal i (m.z i).val (truth i + v i))
    (hvc : Covers (m.R.submatrix (fun i : {i // m.upd i = true} => i.1) (fun i => i.1)) (fun a => v a.1) l)
    (h : initState m x = some x') :
    ∃ err', UpToTurns x' (truth + err') ∧ Covers (initCov m P) err' (k + l) := by
  refine ⟨fun i => if m.upd i then v i else err i, ?_, ?_⟩
  · unfold initState at h
    split at h
    · simp only [Option.some.injEq] at h
      intro i
      rw [← h]
      dsimp only [Pi.add_apply]
      by_cases hi : m.upd i = true
      · rw [if_pos hi, if_pos hi]
        exact hv i hi
      · rw [if_neg hi, if_neg hi]
        exact hx i
    · cases h
  · have e : initCov m P = diagonal (fun i => if m.upd i then 0 else 1) * P * (diagonal (fun i => if m.upd i then 0 else 1))ᵀ +
        (Matrix.of fun i j => if m.upd i && m.upd j then m.R i j else 0) := by
      ext i j
      rw [Matrix.add_apply, diagonal_transpose, mul_diagonal, diagonal_mul]
      simp only [initCov, Matrix.of_apply]
      by_cases hij : i = j
      · subst hij
        by_cases h1 : m.upd i = true <;> simp [h1]
      · by_cases h1 : m.upd i = true <;> by_cases h2 : m.upd j = true <;> simp [h1, h2, hP.2 i j hij]
    have hPP : P.PosSemidef := by
      have : P = diagonal fun i => P i i := by
        ext i j
        by_cases hij : i = j
        · subst hij; rw [diagonal_apply_eq]
        · rw [diagonal_apply_ne _ hij, hP.2 i j hij]
      rw [this]
      exact PosSemidef.diagonal hP.1
    have h2 := Covers.add (psd_congr hPP (diagonal fun i => if m.upd i then 0 else 1)) (psd_mask m.upd m.R hm) hk hl (hc.map _)
      (covers_mask m.upd hvc)
    rw [← e] at h2
    refine (congrArg (fun g => Covers (initCov m P) g (k + l)) ?_).mp h2
    funext i
    rw [Pi.add_apply, mulVec_diagonal]
    by_cases h1 : m.upd i = true <;> simp [h1]

/-! ## A sequence of measurements -/

variable {p : FilterPar}

/-- The estimate is off by something that its covariance covers. -/
def Covered (truth : State) (x : Option State) (P : Mat15) (k : ℝ) : Prop :=
  ∀ y, x = some y → ∃ err, UpToTurns y (truth + err) ∧ Covers P err k

/-- What is asked of one measurement and of the motion since the measurement before: the covariances that the sensor and
the configuration state for them are honest, up to `l` and `c`, and angles are not off by a quarter of a turn. -/
structure Honest (T : Int → State) (k c l : ℝ) (f : Filt (ekfCore p)) (m : Meas (ekfCore p)) : Prop where
  order : f.lastTime ≤ m.time
  good : Payload.GoodR m.z
  motion : ∀ (x x' : State) (P P' : Mat15), f.x = some x → f.cov = P → f.lastTime < m.time →
    Ekf.predict p f.par f.ctl f.ctlTime m.time (toSec (m.time - f.lastTime)) x P = some (x', P') →
    ∀ err, UpToTurns x (T f.lastTime + err) → Covers P err k →
      ∃ w, UpToTurns x' (T m.time + ((transferJ x (toSec (m.time - f.lastTime))).mulVec err + w)) ∧
        Covers (toSec (m.time - f.lastTime) • noiseQ p f.par x) w c
  reads : ∃ v : State, (∀ i ∈ Payload.indices m.z, SameVal i ((m.z : Payload).z i).val (T m.time i + v i)) ∧
    Covers ((m.z : Payload).R.submatrix (Payload.indices m.z).get (Payload.indices m.z).get)
      (fun a => v ((Payload.indices m.z).get a)) l
  near : ∀ i ∈ Payload.indices m.z, angular i →
    (∀ P : Mat15, (if f.lastTime < m.time then f.predict m.time (m.time - f.lastTime) else f).cov = P →
      (k + c) * P i i < (π / 2) ^ 2) ∧ l * (m.z : Payload).R i i < (π / 2) ^ 2

/-- Honest all along: each measurement comes with its own `c` and `l`. -/
def HonestRun (T : Int → State) : ℝ → Filt (ekfCore p) → List (Meas (ekfCore p) × ℝ × ℝ) → Prop
  | _, _, [] => True
  | k, f, (m, c, l) :: ms => 0 ≤ c ∧ 0 ≤ l ∧ Honest T k c l f m ∧ HonestRun T (k + (c + l)) (f.processMeasurement m) ms

theorem quarter {a b : ℝ} (ha : a ^ 2 < (π / 2) ^ 2) (hb : b ^ 2 < (π / 2) ^ 2) : |a - b| < π := by
  have hp := pi_pos
  have h1 := abs_lt_of_sq_lt_sq ha (by linarith)
  have h2 := abs_lt_of_sq_lt_sq hb (by linarith)
  calc |a - b| ≤ |a| + |b| := abs_sub _ _
    _ < π := by linarith

/-- One correction of the core. -/
theorem covered_correct {truth : State} {k l : ℝ} (hk : 0 ≤ k) (hl : 0 ≤ l) {x : Option State} {P : Mat15} (u : Unit)
    (hP : CovOk x P) (h : Covered truth x P k) {z : Payload} (hz : z.GoodR) {v : State}
    (hv : ∀ i ∈ z.indices, SameVal i (z.z i).val (truth i + v i))
    (hvc : Covers (z.R.submatrix z.indices.get z.indices.get) (fun a => v (z.indices.get a)) l)
    (hn : ∀ i ∈ z.indices, angular i → k * P i i < (π / 2) ^ 2 ∧ l * z.R i i < (π / 2) ^ 2) :
    Covered truth ((ekfCore p).correct z (x, P, u)).1 ((ekfCore p).correct z (x, P, u)).2.1 (k + l) := by
  cases x with
  | none => intro y hy; cases hy
  | some x =>
    obtain ⟨err, he, hc⟩ := h x rfl
    rw [core_correct]
    cases hr : Ekf.correct z x P with
    | none => intro y hy; cases hy
    | some r =>
      intro y hy
      obtain ⟨x', P'⟩ := r
      simp only [Option.some.injEq] at hy
      subst hy
      refine C111_correction z hz (hP (by simp)) hk hl he hc v hv hvc (fun i hi ha => ?_) hr
      obtain ⟨a, ha'⟩ := List.mem_iff_get.1 hi
      have hvi := hvc.var a
      simp only [submatrix_apply, ha'] at hvi
      exact quarter (lt_of_le_of_lt hvi (hn i hi ha).2) (lt_of_le_of_lt (hc.var i) (hn i hi ha).1)

/-- The filter as it is when a measurement is about to be used: brought forward to the time of the measurement. -/
noncomputable def Filt.ready (f : Filt (ekfCore p)) (m : Meas (ekfCore p)) : Filt (ekfCore p) :=
  if f.lastTime < m.time then f.predict m.time (m.time - f.lastTime) else f

theorem process_ready {f : Filt (ekfCore p)} (hi : f.initialized = true) {m : Meas (ekfCore p)} (ho : f.lastTime ≤ m.time) :
    (f.processMeasurement m).x = ((f.ready m).correct m.z).x ∧ (f.processMeasurement m).cov = ((f.ready m).correct m.z).cov ∧
      (f.processMeasurement m).par = f.par ∧ (f.processMeasurement m).initialized = true ∧
      (f.processMeasurement m).lastTime = m.time := by
  unfold Filt.processMeasurement Filt.ready
  rw [if_pos hi]
  dsimp only
  rw [if_pos (show m.time - f.lastTime ≥ 0 by omega)]
  by_cases hlt : f.lastTime < m.time
  · rw [if_pos hlt, if_pos (show m.time - f.lastTime > 0 by omega)]
    exact ⟨rfl, rfl, rfl, hi, rfl⟩
  · rw [if_neg hlt, if_neg (show ¬ m.time - f.lastTime > 0 by omega)]
    exact ⟨rfl, rfl, rfl, hi, rfl⟩

/-- The step up to the measurement.  The motion was honest for `k`, the estimate may be better than that. -/
theorem covered_ready {T : Int → State} {k j c l : ℝ} (hj : 0 ≤ j) (hjk : j ≤ k) (hc : 0 ≤ c) {f : Filt (ekfCore p)}
    (hP : CovOk f.x f.cov) (hQ : Matrix.PosSemidef (n := Fin 15) (R := ℝ) f.par)
    (hd : p.dynamic = true → NoCross f.par) (h : Covered (T f.lastTime) f.x f.cov j) {m : Meas (ekfCore p)}
    (hm : Honest T k c l f m) :
    Covered (T m.time) (f.ready m).x (f.ready m).cov (j + c) ∧ CovOk (f.ready m).x (f.ready m).cov := by
  have horder := hm.order
  unfold Filt.ready
  by_cases hlt : f.lastTime < m.time
  · rw [if_pos hlt]
    have hdt : (0 : ℝ) ≤ toSec (m.time - f.lastTime) := toSec_nonneg (by omega)
    refine ⟨?_, ekfCore_predict_cov hQ hd _ _ _ _ _ _ _ (by omega) hP⟩
    intro y hy
    obtain ⟨x, hx⟩ : ∃ x : Option State, x = f.x := ⟨_, rfl⟩
    obtain ⟨P, hPe⟩ : ∃ P : Mat15, P = f.cov := ⟨_, rfl⟩
    have e : (ekfCore p).predict f.par f.ctl f.ctlTime m.time (m.time - f.lastTime) (f.x, f.cov, f.ext) =
      (ekfCore p).predict f.par f.ctl f.ctlTime m.time (m.time - f.lastTime) (x, P, ()) := by rw [hx, hPe]; rfl
    have hy : ((ekfCore p).predict f.par f.ctl f.ctlTime m.time (m.time - f.lastTime) (f.x, f.cov, f.ext)).1 = some y := hy
    show ∃ err, UpToTurns y (T m.time + err) ∧
      Covers ((ekfCore p).predict f.par f.ctl f.ctlTime m.time (m.time - f.lastTime) (f.x, f.cov, f.ext)).2.1 err (j + c)
    rw [e] at hy ⊢
    cases x with
    | none => cases hy
    | some x =>
      obtain ⟨err, he, hce⟩ := h x hx.symm
      cases hr : Ekf.predict p f.par f.ctl f.ctlTime m.time (toSec (m.time - f.lastTime)) x P with
      | none => simp [ekfCore, hr] at hy
      | some r =>
        obtain ⟨x', P'⟩ := r
        have e2 : (ekfCore p).predict f.par f.ctl f.ctlTime m.time (m.time - f.lastTime) (some x, P, ()) = (some x', P', ()) := by
          simp [ekfCore, hr]
        rw [e2] at hy ⊢
        obtain rfl : x' = y := Option.some.inj hy
        rw [← hPe] at hce
        have hPP : P.PosSemidef := hPe ▸ hP (by rw [← hx]; simp)
        obtain ⟨w, hw1, hw2⟩ := hm.motion x x' P P' hx.symm hPe.symm hlt hr err he (hce.weaken hPP hjk)
        exact C111_prediction hPP hj hc hce ((noiseQ_psd hQ hd x).smul hdt) hr hw1 hw2
  · rw [if_neg hlt]
    have ht : f.lastTime = m.time := by omega
    refine ⟨?_, hP⟩
    intro y hy
    obtain ⟨err, he, hce⟩ := h y hy
    exact ⟨err, ht ▸ he, hce.weaken (hP (by rw [hy]; simp)) (by linarith)⟩

/-- One measurement. -/
theorem covered_process {T : Int → State} {k c l : ℝ} (hk : 0 ≤ k) (hc : 0 ≤ c) (hl : 0 ≤ l) {f : Filt (ekfCore p)}
    (hi : f.initialized = true) (hP : CovOk f.x f.cov) (hQ : Matrix.PosSemidef (n := Fin 15) (R := ℝ) f.par)
    (hd : p.dynamic = true → NoCross f.par) (h : Covered (T f.lastTime) f.x f.cov k) {m : Meas (ekfCore p)}
    (hm : Honest T k c l f m) :
    Covered (T (f.processMeasurement m).lastTime) (f.processMeasurement m).x (f.processMeasurement m).cov (k + (c + l)) ∧
      CovOk (f.processMeasurement m).x (f.processMeasurement m).cov ∧ (f.processMeasurement m).par = f.par ∧
      (f.processMeasurement m).initialized = true := by
  obtain ⟨v, hv, hvc⟩ := hm.reads
  obtain ⟨e1, e2, e3, e4, e5⟩ := process_ready hi hm.order
  obtain ⟨g1, g2⟩ := covered_ready hk le_rfl hc hP hQ hd h hm
  rw [e1, e2, e5]
  refine ⟨?_, ekfCore_correct_cov _ hm.good _ _ _ g2, e3, e4⟩
  rw [← add_assoc]
  exact covered_correct (p := p) (add_nonneg hk hc) hl (f.ready m).ext g2 g1 hm.good hv hvc
    fun i hi' ha => ⟨(hm.near i hi' ha).1 _ rfl, (hm.near i hi' ha).2⟩

/-- C111 for a sequence of measurements. -/
theorem C111_run {T : Int → State} (ms : List (Meas (ekfCore p) × ℝ × ℝ)) {k : ℝ} (hk : 0 ≤ k) {f : Filt (ekfCore p)}
    (hi : f.initialized = true) (hP : CovOk f.x f.cov) (hQ : Matrix.PosSemidef (n := Fin 15) (R := ℝ) f.par)
    (hd : p.dynamic = true → NoCross f.par) (h : Covered (T f.lastTime) f.x f.cov k) (hms : HonestRun T k f ms)
    {f' : Filt (ekfCore p)} (hf' : f' = (ms.map Prod.fst).foldl Filt.processMeasurement f) :
    Covered (T f'.lastTime) f'.x f'.cov (k + (ms.map fun m => m.2.1 + m.2.2).sum) := by
  subst hf'
  induction ms generalizing k f with
  | nil => simpa using h
  | cons m ms ih =>
    obtain ⟨m, c, l⟩ := m
    obtain ⟨hc, hl, hm, hms⟩ := hms
    obtain ⟨a1, a2, a3, a4⟩ := covered_process hk hc hl hi hP hQ hd h hm
    have := ih (by linarith) a4 a2 (by rw [a3]; exact hQ) (by rw [a3]; exact hd) a1 hms
    simpa [add_assoc] using this

/-- In particular every variable that is not an angle is off by at most `√K` of its standard deviations. -/
theorem C111_variable {T : Int → State} (ms : List (Meas (ekfCore p) × ℝ × ℝ)) {k : ℝ} (hk : 0 ≤ k) {f : Filt (ekfCore p)}
    (hi : f.initialized = true) (hP : CovOk f.x f.cov) (hQ : Matrix.PosSemidef (n := Fin 15) (R := ℝ) f.par)
    (hd : p.dynamic = true → NoCross f.par) (h : Covered (T f.lastTime) f.x f.cov k) (hms : HonestRun T k f ms)
    {f' : Filt (ekfCore p)} (hf' : f' = (ms.map Prod.fst).foldl Filt.processMeasurement f) (x : State) (hx : f'.x = some x)
    (i : Fin 15) (hang : ¬ angular i) :
    (x i - T f'.lastTime i) ^ 2 ≤ (k + (ms.map fun m => m.2.1 + m.2.2).sum) * (f'.cov : Mat15) i i := by
  obtain ⟨err, he, hc⟩ := C111_run ms hk hi hP hQ hd h hms hf' x hx
  have := (he i).2 hang
  rw [this, Pi.add_apply, add_sub_cancel_left]
  exact hc.var i

/-! ## Where it fails -/

/-- C111 needs headings to be less than half a turn apart: an estimate and a measurement that are off by 1.6 rad to either
side are averaged to the opposite direction, with half the variance. -/
theorem C111_half_turn : ∃ (m : Payload) (x v : State) (r : State × Mat15), m.GoodR ∧ Covers (1 : Mat15) x 2.56 ∧
    (∀ i ∈ m.indices, SameVal i (m.z i).val ((0 : State) i + v i)) ∧
    Covers (m.R.submatrix m.indices.get m.indices.get) (fun a => v (m.indices.get a)) 2.56 ∧
    Ekf.correct m x 1 = some r ∧ ∀ err', UpToTurns r.1 (0 + err') → ¬ Covers r.2 err' (2.56 + 2.56) := by
  have h3 := Real.pi_gt_three
  have h4 := Real.pi_lt_d2
  have hsq : ∀ (a : ℝ), a ^ 2 = 2.56 → Covers (1 : Mat15) (Pi.single iYaw a) 2.56 := by
    intro a ha u
    rw [one_mulVec, dotProduct_single, mul_pow, ha, mul_comm]
    refine mul_le_mul_of_nonneg_left ?_ (by norm_num)
    rw [pow_two]
    exact Finset.single_le_sum (f := fun i => u i * u i) (fun i _ => mul_self_nonneg _) (Finset.mem_univ iYaw)
  refine ⟨oneVar iYaw (-1.6) .unlimited, Pi.single iYaw 1.6, Pi.single iYaw (-1.6), _, (oneVar_certain _ _).good,
    hsq _ (by norm_num), ?_, ?_, correct_one iYaw (oneVar_indices _ _ _) (oneVar_certain _ _) _ PosSemidef.one, ?_⟩
  · rw [oneVar_indices]
    intro i hi
    obtain rfl := List.mem_singleton.1 hi
    exact ⟨fun _ => ⟨0, by simp [oneVar, Dbl.val]⟩, fun _ => by simp [oneVar, Dbl.val]⟩
  · rw [oneVar_indices]
    intro u
    simp only [oneVar, dotProduct, mulVec, List.length_cons, List.length_nil, Finset.univ_unique, Finset.sum_singleton]
    simp
    ring_nf
    exact le_refl _
  · intro err' he hc
    have hc := hc.var iYaw
    obtain ⟨n, hn⟩ := (he iYaw).1 (Or.inr (Or.inr rfl))
    simp only [wrapStateAngles, if_true, or_true, Matrix.one_apply_eq, oneVar, Dbl.val, sanitize_one, Pi.single_eq_same,
      Matrix.of_apply, Pi.add_apply, Pi.zero_apply] at hn hc
    have e1 : normalizeAngle (-1.6 - 1.6) = 2 * π - 3.2 := by
      rw [show (-1.6 - 1.6 : ℝ) = (2 * π - 3.2) + ((-1 : ℤ) : ℝ) * (2 * π) by push_cast; ring, normalizeAngle_add_two_pi,
        normalizeAngle_of_mem (by linarith) (by linarith)]
    rw [e1, show (1.6 : ℝ) + 1 * (1 + 1)⁻¹ * (2 * π - 3.2) = π by ring, normalizeAngle_of_mem (by linarith) le_rfl] at hn
    have hge : π ^ 2 ≤ err' iYaw ^ 2 := by
      have : err' iYaw = π * (1 - 2 * (n : ℝ)) := by linarith
      rw [this, mul_pow]
      have h1 : (1 : ℝ) ≤ (1 - 2 * (n : ℝ)) ^ 2 := by
        have : (1 : ℤ) ≤ (1 - 2 * n) ^ 2 := by
          have h0 : (1 - 2 * n) ≠ 0 := by omega
          have := Int.one_le_abs h0
          nlinarith [sq_abs (1 - 2 * n)]
        exact_mod_cast this
      nlinarith [sq_nonneg π]
    norm_num at hc
    nlinarith

/-- The gain for one variable measured with variance one. -/
theorem one_gain (i : Fin 15) {l : List (Fin 15)} (hl : l = [i]) (M : Mat15) (h0 : M i i + 1 ≠ 0) :
    let K := M.submatrix id l.get * (M.submatrix l.get l.get + subR l.get 1)⁻¹
    (∀ y : ℝ, K.mulVec (fun _ => y) = fun a => M a i * (M i i + 1)⁻¹ * y) ∧
      ∀ a, (K * M.submatrix l.get l.get * Kᵀ) a a = (M a i * (M i i + 1)⁻¹) ^ 2 * M i i := by
  subst hl
  have hs : M.submatrix [i].get [i].get + subR [i].get 1 = .of fun _ _ => M i i + 1 := by
    ext a b
    fin_cases a; fin_cases b
    simp [subR, sanitize_one]
  have hinv : (M.submatrix [i].get [i].get + subR [i].get 1)⁻¹ = .of fun _ _ => (M i i + 1)⁻¹ := by
    refine Matrix.inv_eq_left_inv ?_
    rw [hs]
    ext a b
    fin_cases a; fin_cases b
    simp [Matrix.mul_apply, h0]
  have hK : M.submatrix id [i].get * (M.submatrix [i].get [i].get + subR [i].get 1)⁻¹ =
      .of fun a _ => M a i * (M i i + 1)⁻¹ := by
    rw [hinv]
    ext a b
    fin_cases b
    simp [Matrix.mul_apply]
  dsimp only
  rw [hK]
  refine ⟨fun y => ?_, fun a => ?_⟩
  · funext a
    simp [mulVec, dotProduct]
  · simp [Matrix.mul_apply]
    ring

/-- The covariance of the example below, one second after standing still with variance one half in everything. -/
theorem second_later (M : Mat15) (hM : M = transferF 0 1 * diagonal (fun _ => (1 / 2 : ℝ)) * (transferF 0 1)ᵀ) :
    M 0 0 = 9 / 8 ∧ M 6 0 = 3 / 4 ∧ M 6 6 = 1 ∧ ∀ r, angular r → M r r = 1 := by
  have e : ∀ i j, M i j = ∑ c, transferF 0 1 i c * transferF 0 1 j c * (1 / 2) := by
    intro i j
    rw [hM, Matrix.mul_apply]
    refine Finset.sum_congr rfl fun c _ => ?_
    rw [mul_diagonal, transpose_apply]
    ring
  refine ⟨?_, ?_, ?_, ?_⟩
  · rw [e, transferF_row0, sum15]
    simp [trig]
    norm_num
  · rw [e, transferF_row0, transferF_row6, sum15]
    simp [trig]
    norm_num
  · rw [e, transferF_row6, sum15]
    simp
    norm_num
  · rintro r (rfl | rfl | rfl)
    · rw [e, transferF_row3, sum15]
      simp [trig]
      norm_num
    · rw [e, transferF_row4, sum15]
      simp [trig]
      norm_num
    · rw [e, transferF_row5, sum15]
      simp [trig]
      norm_num

/-- C111 is false for the unscented filter.  The robot stands still and the estimate is right.  Within a second the robot
is moved by three metres, which is one standard deviation of the configured process noise, and its position is measured
without error.  The gain does not know of the process noise, so the displacement is taken for a velocity, and the reported variance of
the velocity does not cover that. -/
theorem C111_unscented : ∃ (k : UkfConst) (Q : Mat15) (r1 r2 : State × Mat15 × UkfMem), setConstants 0.001 0 2 = some k ∧
    Q.PosSemidef ∧ Ukf.predict plainPar eigenLlt k Q 0 0 0 1 0 (diagonal fun _ => 1 / 2) = some r1 ∧
    r1.1 = Pi.single iX 3 + Pi.single iX (-3) ∧ Covers ((1 : ℝ) • noiseQ plainPar Q 0) (Pi.single iX (-3)) 1 ∧
    Ukf.correct eigenLlt k (oneVar iX 3 .unlimited) r1.1 r1.2.1 r1.2.2 = some r2 ∧
    ∀ err', UpToTurns r2.1 (Pi.single iX 3 + err') → ¬ Covers r2.2.1 err' 1 := by
  obtain ⟨k, hk⟩ := Option.isSome_iff_exists.1 ((C16_constants_defined 0.001 0 2).2 ⟨by norm_num, by norm_num⟩)
  have hpi := pi_gt_three
  have ha : 15 + k.lam = 0.000015 := by rw [(setConstants_spec hk).2.1]; norm_num
  have hw : wrapStateAngles 0 = 0 := by
    funext i
    unfold wrapStateAngles
    split
    · exact normalizeAngle_zero
    · rfl
  obtain ⟨M, hM⟩ : ∃ M : Mat15, M = transferF 0 1 * diagonal (fun _ => (1 / 2 : ℝ)) * (transferF 0 1)ᵀ := ⟨_, rfl⟩
  obtain ⟨m00, m60, m66, mang⟩ := second_later M hM
  obtain ⟨Q, hQ⟩ : ∃ Q : Mat15, Q = diagonal (Pi.single iX 9) := ⟨_, rfl⟩
  have hn : ∀ x, noiseQ plainPar Q x = Q := fun x => rfl
  have hQp : Q.PosSemidef := by
    rw [hQ]
    refine PosSemidef.diagonal fun i => ?_
    by_cases h : i = iX
    · subst h; simp
    · simp [Pi.single_eq_of_ne h]
  obtain ⟨mem, h, hun, hnear⟩ := level_predict_near (p := plainPar) eigenLlt hk (by rw [ha]; norm_num) (x := 0) ⟨zero_atRest, rfl, rfl⟩
    (M := diagonal fun _ => 1 / 2) (PosDef.diagonal fun _ => by norm_num) (split_diagonal _)
    (by rw [ha, diagonal_apply_eq]; nlinarith) 1 (fun r hr => by
      rw [← hM, mang r hr, ha]
      constructor
      · norm_num
      · nlinarith) Q 0 0 0
  rw [← hM, hw] at h
  have hMp : M.PosSemidef := by
    rw [hM]
    exact psd_congr (PosSemidef.diagonal fun _ => by norm_num) _
  have hcalm : ∀ s, stateDiff (oneVar iX 3 .unlimited).indices.get (mem.pts s - 0) = wrapDiff (mem.pts s - 0) := by
    intro s
    funext r
    have h1 : stateDiff (oneVar iX 3 .unlimited).indices.get (mem.pts s - 0) r = (mem.pts s - 0) r := by
      rw [oneVar_indices]
      unfold stateDiff
      split
      · rename_i hr
        have : ([iX].get ⟨r.val, hr⟩) = iX := List.mem_singleton.1 (List.get_mem _ _)
        rw [this, if_neg (by decide)]
      · rfl
    rw [h1]
    unfold wrapDiff
    split
    · rename_i hr
      have hr' : angular r := by
        unfold angularIdx at hr
        unfold angular
        simpa using hr
      have := abs_lt.1 (hnear s r hr')
      exact (normalizeAngle_of_mem this.1 this.2.le).symm
    · rfl
  have hmeas : measCovar (oneVar iX 3 .unlimited).indices.get k mem.pts =
      M.submatrix (oneVar iX 3 .unlimited).indices.get (oneVar iX 3 .unlimited).indices.get := by
    have h' := h
    unfold Ukf.predict at h'
    dsimp only at h'
    split at h'
    · cases h'
    · simp only [Option.some.injEq, Prod.mk.injEq] at h'
      obtain ⟨a1, a2, a3⟩ := h'
      rw [wrap_mean] at a1
      rw [a1] at a2
      have a2 := add_right_cancel a2
      rw [← a3]
      rw [(measCovar_predicted (k := k) _ _).2, a1, a2]
  have hS : (measCovar (oneVar iX 3 .unlimited).indices.get k mem.pts + subR (oneVar iX 3 .unlimited).indices.get 1).det ≠ 0 := by
    rw [hmeas]
    have := (oneVar_certain iX 3).usable hMp
    rw [innovCov_eq] at this
    exact this
  obtain ⟨r, hr⟩ : ∃ r : State × Mat15, ukfCorrectAt (oneVar iX 3 .unlimited).indices.get k mem.pts (fun _ => 3) 1 .unlimited 0
      (M + (1 : ℝ) • noiseQ plainPar Q 0) = some (r.1, r.2, true) := by
    unfold ukfCorrectAt
    dsimp only
    rw [if_neg hS, if_pos (show checkMahalanobis _ _ .unlimited from trivial)]
    exact ⟨(_, _), rfl⟩
  obtain ⟨b1, b2, -⟩ := C17_after_prediction_partial eigenLlt (oneVar iX 3 .unlimited).indices.get plainPar Q 0 0 0 1 0 _ _ _ _ h hcalm zero_le_one (hn 0 ▸ hQp)
    (by rw [add_sub_cancel_right]; exact hMp) (fun _ => 3) 1 (PosSemidef.one.submatrix _) .unlimited r.1 r.2 hr
  rw [add_sub_cancel_right] at b1 b2
  have hg := one_gain iX (oneVar_indices iX 3 .unlimited) M (by rw [show M iX iX = 9 / 8 from m00]; norm_num)
  have hy : innovation (oneVar iX 3 .unlimited).indices.get (fun _ => 3) 0 = fun _ => 3 := by
    funext a
    have hall : ∀ i ∈ (oneVar iX 3 .unlimited).indices, i = iX := by
      rw [oneVar_indices]
      exact fun i hi => List.mem_singleton.1 hi
    have : (oneVar iX 3 .unlimited).indices.get a = iX := hall _ (List.get_mem _ _)
    unfold innovation
    rw [this, if_neg (by decide)]
    simp
  rw [hy, hg.1, zero_add] at b1
  refine ⟨k, Q, (0, M + (1 : ℝ) • noiseQ plainPar Q 0, mem), (r.1, r.2, { pts := mem.pts, uncorrected := mem.uncorrected && !true }), hk, hQp, h, ?_, ?_, ?_, ?_⟩
  · rw [← Pi.single_add]
    simp
  · intro u
    rw [hn, hQ, one_smul, dotProduct_single, one_mul]
    have e : u ⬝ᵥ (diagonal (Pi.single iX (9 : ℝ))).mulVec u = u iX * (9 * u iX) := by
      rw [dotProduct, Finset.sum_eq_single iX]
      · rw [mulVec_diagonal, Pi.single_eq_same]
      · intro b _ hb
        rw [mulVec_diagonal, Pi.single_eq_of_ne hb]
        ring
      · intro h'; exact absurd (Finset.mem_univ _) h'
    rw [e]
    nlinarith
  · unfold Ukf.correct UkfMem.refresh
    dsimp only
    rw [if_pos hun]
    show Option.map _ (ukfCorrectAt (oneVar iX 3 .unlimited).indices.get k mem.pts (fun _ => 3) 1 .unlimited 0 _) = _
    rw [hr]
    rfl
  · intro err' he hc
    have hc := hc.var 6
    have he := (he 6).2 (by unfold angular; decide)
    have e6 : ∀ f : State, wrapStateAngles f 6 = f 6 := fun f => if_neg (by decide)
    dsimp only at he hc
    rw [b1, e6, Pi.add_apply, Pi.single_eq_of_ne (by decide), zero_add, show M 6 iX = 3 / 4 from m60,
      show M iX iX = 9 / 8 from m00] at he
    rw [b2, Matrix.sub_apply, Matrix.add_apply, hg.2 6, hn, hQ, Matrix.smul_apply, diagonal_apply_eq,
      Pi.single_eq_of_ne (by decide), m66, show M 6 iX = 3 / 4 from m60, show M iX iX = 9 / 8 from m00, ← he] at hc
    norm_num at hc

/-! ## An example -/

/-- A robot that stands at x = 1/2, while the filter says 0; its position is then measured as 1. -/
noncomputable def unsure : Filt (ekfCore plainPar) :=
  { (Node.start (demoCfg plainPar) (demoQ plainPar) () (0 : Fin 6 → ℝ) 0).filt with
    initialized := true, x := some (0 : State), cov := (1 : Mat15), lastTime := 0 }

noncomputable def unsureRead (thr : Thresh) : Meas (ekfCore plainPar) :=
  { time := 1000000000, topic := "a", z := oneVar iX 1 thr, ctl := (0 : Fin 6 → ℝ), ctlTime := 0 }

theorem unsure_honest (thr : Thresh) : Covered (Pi.single iX (1 / 2)) (some (0 : State)) 1 (1 / 4) ∧ CovOk unsure.x unsure.cov ∧
    HonestRun (fun _ => Pi.single iX (1 / 2)) (1 / 4) unsure [(unsureRead thr, 0, 1 / 4)] := by
  have hpi := pi_gt_three
  have hcov : ∀ a : ℝ, Covers (1 : Mat15) (Pi.single iX a) (a ^ 2) := by
    intro a u
    rw [one_mulVec, dotProduct_single, mul_pow, mul_comm]
    refine mul_le_mul_of_nonneg_left ?_ (sq_nonneg _)
    rw [pow_two]
    exact Finset.single_le_sum (f := fun i => u i * u i) (fun i _ => mul_self_nonneg _) (Finset.mem_univ iX)
  have hzero : (0 : State) = Pi.single iX (1 / 2) + Pi.single iX (-(1 / 2)) := by
    rw [← Pi.single_add, add_neg_cancel, Pi.single_zero]
  refine ⟨?_, fun _ => PosSemidef.one, by norm_num, by norm_num, ⟨by show (0 : Int) ≤ 1000000000; norm_num, PosSemidef.one.submatrix _, ?_, ?_, ?_⟩, trivial⟩
  · intro y hy
    obtain rfl := Option.some.inj hy
    refine ⟨Pi.single iX (-(1 / 2)), ?_, ?_⟩
    · rw [← hzero]
      exact UpToTurns.refl _
    · have := hcov (-(1 / 2))
      norm_num at this
      norm_num
      exact this
  · intro x x' P P' hx hP _ h err he hc
    obtain rfl : (0 : State) = x := Option.some.inj hx
    obtain rfl : (1 : Mat15) = P := hP
    have herr : err = Pi.single iX (-(1 / 2)) := by
      funext i
      by_cases hi : angular i
      · have hne : i ≠ iX := by rintro rfl; revert hi; unfold angular; decide
        obtain ⟨n, hn⟩ := (he i).1 hi
        have h1 := hc.var i
        simp only [Pi.add_apply, Pi.zero_apply, Pi.single_eq_of_ne hne, zero_add, Matrix.one_apply_eq, mul_one] at hn h1 ⊢
        have h2 : err i = -(n * (2 * π)) := by linarith
        rcases eq_or_ne n 0 with rfl | h0
        · rw [h2]; simp
        · exfalso
          have h3 : (1 : ℝ) ≤ (n : ℝ) ^ 2 := by
            have : (1 : ℤ) ≤ n ^ 2 := by
              have := Int.one_le_abs h0
              nlinarith [sq_abs n]
            exact_mod_cast this
          rw [h2] at h1
          have h4 : (-(n * (2 * π))) ^ 2 = (n : ℝ) ^ 2 * (4 * π ^ 2) := by ring
          rw [h4] at h1
          nlinarith [mul_le_mul_of_nonneg_right h3 (show (0 : ℝ) ≤ 4 * π ^ 2 by positivity)]
      · have h1 := (he i).2 hi
        rw [hzero] at h1
        simp only [Pi.add_apply] at h1
        linarith
    have hx' : x' = 0 := by
      have h := h.symm.trans (rest_predict_ekf (fun _ => rfl) zero_atRest (by simp) _ _ _ _ _ _)
      simp only [Option.some.injEq, Prod.mk.injEq] at h
      rw [h.1]
      funext i
      unfold wrapStateAngles
      split
      · exact normalizeAngle_zero
      · rfl
    refine ⟨0, ?_, fun u => by simp⟩
    have hrest : AtRest (Pi.single iX (-(1 / 2)) : State) := by
      intro i hi
      refine Pi.single_eq_of_ne ?_ _
      rintro rfl
      revert hi
      decide
    rw [herr, rest_jacobian zero_atRest, transferF_pose _ _ _ hrest, add_zero, hx', ← hzero]
    exact UpToTurns.refl _
  · refine ⟨Pi.single iX (1 / 2), ?_, ?_⟩
    · show ∀ i ∈ (oneVar iX 1 thr).indices, _
      rw [oneVar_indices]
      intro i hi
      obtain rfl := List.mem_singleton.1 hi
      exact ⟨fun h => absurd h (by unfold angular; decide), fun _ => by simp [unsureRead, oneVar, Dbl.val]; norm_num⟩
    · show Covers ((1 : Mat15).submatrix (oneVar iX 1 thr).indices.get (oneVar iX 1 thr).indices.get)
        (fun a => (Pi.single iX (1 / 2) : State) ((oneVar iX 1 thr).indices.get a)) (1 / 4)
      rw [oneVar_indices]
      intro u
      simp only [dotProduct, mulVec, List.length_cons, List.length_nil, Finset.univ_unique, Finset.sum_singleton]
      simp
      ring_nf
      exact le_refl _
  · show ∀ i ∈ (oneVar iX 1 thr).indices, _
    rw [oneVar_indices]
    intro i hi hang
    obtain rfl := List.mem_singleton.1 hi
    exact absurd hang (by unfold angular; decide)

/-- Such a filter and such a message exist. -/
example : CovOk unsure.x unsure.cov ∧
    HonestRun (fun _ => Pi.single iX (1 / 2)) (1 / 4) unsure [(unsureRead .unlimited, 0, 1 / 4)] := (unsure_honest _).2

end RL
